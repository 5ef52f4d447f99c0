import Verif.Out.Model

/-!
# Specification of functions with an `out` argument
-/

set_option autoImplicit false

namespace Verif.Out

variable {C : Type}

/-- What a call promises: on arrays with contents `xs` the function computes `f xs`.  For every
memory, every choice of argument arrays (which may be the same array several times) and every
`out` that is absent, an array that is no argument, or an argument whose position is in `shared`
(and at no other position):

* the call fails exactly if `f` does, with the same exception;
* otherwise it returns the array `out` (a new array if `out` is absent) and that array holds
  `f` of the contents the arguments had *before* the call;
* no other array in use has changed, in particular no argument other than `out`. -/
def Computes (p : Prog C) (nt n : Nat) (shared : List Nat)
    (f : List (List C) → Except PyErr (List C)) : Prop :=
  ∀ (h : Heap C) (args : List Nat) (out : Option Nat),
    args.length = n → (∀ a ∈ args, a < h.next) → (∀ r, out = some r → r < h.next) →
    (∀ r, out = some r → ∀ (i : Nat), args[i]? = some r → i ∈ shared) →
    (∀ r a, out = some r → args[0]? = some a → (h.mem r).length = (h.mem a).length) →
    match f (args.map h.mem) with
    | .error e => numpyOut p nt h args out = .error e
    | .ok a => ∃ h' r, numpyOut p nt h args out = .ok (h', r) ∧ h'.mem r = a ∧
        (∀ o, out = some o → r = o) ∧ (out = none → h.next ≤ r) ∧ r < h'.next ∧
        h.next ≤ h'.next ∧ ∀ i, i < h.next → out ≠ some i → h'.mem i = h.mem i

end Verif.Out
