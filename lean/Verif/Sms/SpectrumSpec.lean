import Mathlib.Analysis.SpecialFunctions.Complex.Arg
import Mathlib.Algebra.BigOperators.Group.Finset.Basic

/-!
# Independent specification: the spectrum of a windowed frame
-/

set_option autoImplicit false

namespace Verif.Sms

open Complex

/-- Bin `k` of the spectrum of size `n` of the frame `x` seen through the window `w`.  Time is counted from
the centre of the window (sample `w.length / 2`). -/
noncomputable def centredBin (x w : List ℝ) (n k : Nat) : ℂ :=
  ∑ i ∈ Finset.range w.length,
    ((x.getD i 0 * w.getD i 0 : ℝ) : ℂ) * exp (-(2 * Real.pi * I) * k * ((i : ℂ) - (w.length / 2 : Nat)) / n)

end Verif.Sms
