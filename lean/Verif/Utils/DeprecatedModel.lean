import Verif.Py
import Verif.PyDict

/-!
# Model of `deprecated_argument`

`sample/utils/__init__.py:311-481`, and the stacks of decorators that use it on the constructors and
`set_params` methods of the models (`sample/sms/sm.py:200-225`, `sample/sms/mm.py:190-202`,
`sample/sample.py:39-46`) and on `sample_kwargs_remapper` (`sample/optimize.py:27-30`).
-/

set_option autoImplicit false

namespace Verif.Utils

universe u v

/-- A warning: the old name and the new name in its message (`sample/utils/__init__.py:472-476`).
The extra message is not modelled.  Simplification: filters that turn the warning into an error are
not modelled. -/
abbrev Warn := String × Option String

/-- A Python function: positional and keyword arguments to the issued warnings and the outcome. -/
abbrev Fn (V : Type u) (R : Type v) := List V → Dict V → List Warn × Except PyErr R

/-- The arguments of `deprecated_argument`, `sample/utils/__init__.py:311-317` (without `msg`). -/
structure Dep (V : Type u) where
  oldKey : String
  newKey : Option String
  convert : Option (List V → Dict V → Except PyErr (String × V))
  isPrefix : Bool
  warn : Bool

/-- The checks at decoration time, `sample/utils/__init__.py:433-439`. -/
def Dep.check {V : Type u} (d : Dep V) : Except PyErr Unit :=
  match d.newKey with
  | some _ => .ok ()
  | none =>
    if d.isPrefix then .error .valueError
    else match d.convert with
      | none => .error .valueError
      | some _ => .ok ()

/-- `k.startswith(p)`. -/
def startsWith (k p : String) : Bool := p.toList.isPrefixOf k.toList

/-- `k[n:]`. -/
def dropStr (k : String) (n : Nat) : String := String.ofList (k.toList.drop n)

/-- `key_map_`, `sample/utils/__init__.py:448-455`.  With `prefix=True` the new key is there (see
`check`); a missing one would be formatted as `None`. -/
def Dep.keyMap {V : Type u} (d : Dep V) (kw : Dict V) : List (String × Option String) :=
  if d.isPrefix then
    (kw.filter fun e => startsWith e.1 d.oldKey).map fun e =>
      (e.1, some (d.newKey.getD "None" ++ dropStr e.1 d.oldKey.toList.length))
  else [(d.oldKey, d.newKey)]

/-- The warning of one replaced key, if warnings are on. -/
def Dep.warning {V : Type u} (d : Dep V) (old : String) (new : Option String) : List Warn :=
  if d.warn then [(old, new)] else []

/-- The loop over the key map, `sample/utils/__init__.py:457-476`. -/
def Dep.loop {V : Type u} (d : Dep V) (args : List V) :
    List (String × Option String) → Dict V → List Warn × Except PyErr (Dict V)
  | [], kw => ([], .ok kw)
  | (old, new) :: m, kw =>
    match kw.get? old with
    | none => d.loop args m kw
    | some v =>
      match d.convert with
      | some c =>
        match c args kw with
        | .error e => ([], .error e)
        | .ok (k, x) =>
          let r := d.loop args m ((kw.erase old).set k x)
          (d.warning old (some k) ++ r.1, r.2)
      | none =>
        match new with
        | some k =>
          let r := d.loop args m ((kw.erase old).set k v)
          (d.warning old (some k) ++ r.1, r.2)
        | none =>
          let r := d.loop args m kw
          (d.warning old none ++ r.1, r.2)

/-- What a decorator does to the keyword arguments, before the call at
`sample/utils/__init__.py:477`. -/
def Dep.process {V : Type u} (d : Dep V) (args : List V) (kw : Dict V) :
    List Warn × Except PyErr (Dict V) :=
  d.loop args (d.keyMap kw) kw

/-- The decorated function `func_`, `sample/utils/__init__.py:446-477`. -/
def Dep.decorate {V : Type u} {R : Type v} (d : Dep V) (f : Fn V R) : Fn V R := fun args kw =>
  match d.process args kw with
  | (ws, .error e) => (ws, .error e)
  | (ws, .ok kw') => (ws ++ (f args kw').1, (f args kw').2)

/-- A stack of decorators, the outermost (the first in the source) first. -/
def decorateAll {V : Type u} {R : Type v} : List (Dep V) → Fn V R → Fn V R
  | [], f => f
  | d :: ds, f => d.decorate (decorateAll ds f)

/-- `@deprecated_argument(old, new)`. -/
def rename {V : Type u} (old new : String) : Dep V := ⟨old, some new, none, false, true⟩

/-- `@deprecated_argument(old, new, prefix=True)`. -/
def renamePrefix {V : Type u} (old new : String) : Dep V := ⟨old, some new, none, true, true⟩

/-- `@deprecated_argument(old, convert=c)`. -/
def converting {V : Type u} (old : String)
    (c : List V → Dict V → Except PyErr (String × V)) : Dep V := ⟨old, none, some c, false, true⟩

/-! ## The stacks of the models -/

/-- Argument values, as far as the converters look at them: `None`, integers, other objects. -/
inductive Val where
  | none
  | num (x : Int)
  | obj (id : Nat)
  deriving DecidableEq, Repr

/-- `-1 if x is None else x`. -/
def Val.orMinusOne : Val → Val
  | .none => .num (-1)
  | v => v

/-- `max(a, b)`.  Simplification: only integers can be compared. -/
def pyMax : Val → Val → Except PyErr Val
  | .num a, .num b => .ok (.num (if b ≤ a then a else b))
  | _, _ => .error .typeError

/-- The converter of `safe_sine_len`, `sample/sms/sm.py:207-210`: `lambda _, **kwargs`, so exactly
one positional argument and no keyword argument of that name. -/
def safeSineLen (args : List Val) (kw : Dict Val) : Except PyErr (String × Val) :=
  match args with
  | [_] =>
    if kw.has "_" then .error .typeError
    else match kw.get? "safe_sine_len" with
      | .none => .error .keyError
      | some v =>
        match pyMax v.orMinusOne ((kw.get? "tracker__min_sine_dur").getD (.num 1)) with
        | .ok x => .ok ("tracker__min_sine_dur", x)
        | .error e => .error e
  | _ => .error .typeError

/-- The converter of `sine_tracker_cls`, `sample/sms/sm.py:216-217`: `lambda sine_tracker_cls,
**kwargs`, called as `convert(*args, **kwargs)`.  The constructor call is `make`. -/
def sineTrackerCls (make : Val → Except PyErr Val) (args : List Val) (kw : Dict Val) :
    Except PyErr (String × Val) :=
  match args with
  | [] =>
    match kw.get? "sine_tracker_cls" with
    | .none => .error .typeError
    | some c =>
      match make c with
      | .ok x => .ok ("tracker", x)
      | .error e => .error e
  | [c] =>
    if kw.has "sine_tracker_cls" then .error .typeError
    else match make c with
      | .ok x => .ok ("tracker", x)
      | .error e => .error e
  | _ => .error .typeError

/-- `_decorate_sinusoidal_model`, `sample/sms/sm.py:203-220`. -/
def sinusoidalStack (make : Val → Except PyErr Val) : List (Dep Val) :=
  [rename "max_n_sines" "tracker__max_n_sines",
   rename "min_sine_dur" "tracker__min_sine_dur",
   converting "safe_sine_len" safeSineLen,
   rename "freq_dev_offset" "tracker__freq_dev_offset",
   rename "freq_dev_slope" "tracker__freq_dev_slope",
   converting "sine_tracker_cls" (sineTrackerCls make),
   rename "save_intermediate" "intermediate__save",
   rename "fs" "tracker__fs",
   rename "h" "tracker__h"]

/-- The pairs of names of `_decorate_modal_model`, `sample/sms/mm.py:193-197`. -/
def modalNames : List (String × String) :=
  [("reverse", "tracker__reverse"),
   ("frequency_bounds", "tracker__frequency_bounds"),
   ("peak_threshold", "tracker__peak_threshold"),
   ("merge_strategy", "tracker__merge_strategy"),
   ("strip_t", "tracker__strip_t")]

/-- A stack of plain renamings. -/
def renames {V : Type u} (l : List (String × String)) : List (Dep V) :=
  l.map fun p => rename p.1 p.2

/-- `_decorate_sample`, `sample/sample.py:41`. -/
def sampleStack {V : Type u} : List (Dep V) := [renamePrefix "sinusoidal_model" "sinusoidal"]

/-- The pairs of names of the decorators of `sample_kwargs_remapper`, `sample/optimize.py:27-30`. -/
def remapperNames : List (String × String) :=
  [("sinusoidal_model__log_n", "sinusoidal__log_n"),
   ("sinusoidal_model__wtype", "sinusoidal__wtype"),
   ("sinusoidal_model__wsize", "sinusoidal__wsize"),
   ("sinusoidal_model__overlap", "sinusoidal__overlap")]

end Verif.Utils
