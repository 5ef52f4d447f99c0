import Mathlib.Algebra.BigOperators.Group.Finset.Basic
import Mathlib.Algebra.Order.Field.Basic
import Mathlib.Order.Interval.Finset.Nat

/-!
# Onset selection by Dixon ("Onset detection revisited", 2006)
-/

set_option autoImplicit false

namespace Verif.Dsp

open Finset

variable {K : Type} [Field K] [LinearOrder K]

/-- The threshold function `g` with feedback `alpha`. -/
def gamma (alpha : K) (y : Nat → K) : Nat → K
  | 0 => max (y 0) ((1 - alpha) * y 0)
  | n + 1 => max (y (n + 1)) (alpha * gamma alpha y n + (1 - alpha) * y (n + 1))

/-- Frame `n` of the detection function `f`, normalised to `y`, with `size` frames, is an onset:
it is a local maximum; it exceeds by `delta` the average over frames `n - m w` to `n + w`, or zero if
there are not so many frames before; it is not below the threshold function at the frame before. -/
def IsOnset (size w m : Nat) (alpha delta : K) (f y : Nat → K) (n : Nat) : Prop :=
  (w ≤ n ∧ n + w < size) ∧
  (∀ k, n - w ≤ k → k ≤ n + w → f k ≤ f n) ∧
  (if m * w ≤ n then (∑ k ∈ Icc (n - m * w) (n + w), y k) / ((m + 1) * w + 1 : Nat) else 0) + delta
    ≤ y n ∧
  gamma alpha y (n - 1) ≤ y n

end Verif.Dsp
