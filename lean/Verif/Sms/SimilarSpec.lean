import Verif.Sms.SpectrumSpec
import Mathlib.Analysis.SpecialFunctions.Log.Base

/-!
# Independent specification: sounds that decay by a constant factor per hop

Nothing of the model is used here.
-/

set_option autoImplicit false

namespace Verif.Sms

/-- After every `h` samples the sound is the same, multiplied by `c`. -/
def SelfSimilar (x : List ℝ) (h : Nat) (c : ℝ) : Prop :=
  ∀ (i : Nat) (a b : ℝ), x[i]? = some a → x[i + h]? = some b → b = c * a

/-- The earliest frame of `w` samples that is analysed: the first samples, or, if the sound is analysed from
its end (and flipped), the first samples that are at a whole number of hops from the end. -/
def earliestFrame (reverse : Bool) (x : List ℝ) (w h : Nat) : List ℝ :=
  if reverse then ((x.drop ((x.length - w) % h)).take w).reverse else x.take w

/-- `b` is the bin of a local maximum of the spectrum `A` of size `n`. -/
structure PeakBin (A : Nat → ℝ) (n b : Nat) : Prop where
  pos : 1 ≤ b
  top : b + 1 ≤ n / 2
  left : A (b - 1) < A b
  right : A (b + 1) < A b

/-- Level in decibel. -/
noncomputable def dB (a : ℝ) : ℝ := 20 * Real.logb 10 a

/-- Place of the vertex of the parabola with the values `l`, `c`, `r` at `-1`, `0`, `1`. -/
noncomputable def vertexPlace (l c r : ℝ) : ℝ := (l - r) / (2 * (l - 2 * c + r))

/-- Height of the vertex of the parabola with the values `l`, `c`, `r` at `-1`, `0`, `1`. -/
noncomputable def vertexHeight (l c r : ℝ) : ℝ := c - (l - r) ^ 2 / (8 * (l - 2 * c + r))

/-- Frequency of the maximum at the bin `b`, refined on the decibel scale. -/
noncomputable def refinedFreq (A : Nat → ℝ) (fs : ℝ) (n b : Nat) : ℝ :=
  (b + vertexPlace (dB (A (b - 1))) (dB (A b)) (dB (A (b + 1)))) * fs / n

/-- Level of the maximum at the bin `b`, refined on the decibel scale. -/
noncomputable def refinedLevel (A : Nat → ℝ) (b : Nat) : ℝ :=
  vertexHeight (dB (A (b - 1))) (dB (A b)) (dB (A (b + 1)))

end Verif.Sms
