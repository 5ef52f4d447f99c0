import Mathlib.Algebra.BigOperators.Group.Finset.Basic
import Mathlib.Algebra.Ring.Defs

/-!
# Specification of convolution
-/

set_option autoImplicit false

namespace Verif.Dsp

open Finset

variable {R : Type} [CommRing R]

/-- A finite signal is zero outside its support. -/
def sampleAt (x : List R) (m : Int) : R := if 0 ≤ m then x.getD m.toNat 0 else 0

/-- Sample `m` of the (full) convolution of two finite signals. -/
def conv (x k : List R) (m : Int) : R := ∑ i ∈ range k.length, sampleAt x (m - i) * k.getD i 0

end Verif.Dsp
