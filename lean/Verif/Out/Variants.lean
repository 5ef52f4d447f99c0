import Verif.Out.Functions
import Verif.Utils.WarningsModel

/-!
# Functions with an `out` argument and variants

`function_with_variants` (`sample/utils/__init__.py:60-101`) applied to functions decorated with
`numpy_out`.  A body comes with the number of arrays it allocates.
-/

set_option autoImplicit false
set_option linter.unusedSimpArgs false

namespace Verif.Out

open Verif.Utils

/-- A function body and the number of arrays it allocates. -/
abbrev Body := Prog Cell × Nat

/-- `fn(x, **kw)` for a function with variants: the values it returns. -/
noncomputable def callV (v : Variants Body) (kw : Dict (VVal Unit)) (x : List Cell) :
    Except PyErr (List Cell) :=
  match v.call kw with
  | .error e => .error e
  | .ok (b, _) => ret b.1 b.2 [x]

/-- The keyword arguments of a call: `key=opt`, or nothing. -/
def kwOpt (key : String) (opt : Option String) : Dict (VVal Unit) :=
  (opt.map fun o => (key, VVal.str o)).toList

/-- The body chosen for an option. -/
theorem callV_eq (v : Variants Body) (opt : Option String) (b : Body)
    (h : v.dict.get? (opt.getD v.default) = some b) (x : List Cell) :
    callV v (kwOpt v.key opt) x = ret b.1 b.2 [x] := by
  cases opt with
  | none =>
    have h' : v.dict.get? v.default = some b := h
    simp [callV, Variants.call, Variants.option, kwOpt, Dict.get?, h']
  | some o =>
    have h' : v.dict.get? o = some b := h
    simp [callV, Variants.call, Variants.option, kwOpt, Dict.get?, h']

theorem callV_unknown (v : Variants Body) (opt : Option String)
    (h : v.dict.get? (opt.getD v.default) = none) (x : List Cell) :
    callV v (kwOpt v.key opt) x = .error .valueError := by
  have key : v.option (kwOpt v.key opt) = VVal.str (opt.getD v.default) := by
    cases opt <;> simp [Variants.option, kwOpt, Dict.get?]
  simp [callV, Variants.call, key, h]

end Verif.Out
