import Verif.Sms.LastSpec

/-!
# Spectra of partials with disturbances
-/

set_option autoImplicit false

namespace Verif.Sms

/-- Largest change of a level when the amplitude is changed by at most the part `ρ` of itself. -/
noncomputable def wobble (ρ : ℝ) : ℝ := -dB (1 - ρ)

/-- Height of the maximum at the bin `b` above its two neighbours, added up, on the decibel scale. -/
noncomputable def curvature (A : Nat → ℝ) (b : Nat) : ℝ := 2 * dB (A b) - dB (A (b - 1)) - dB (A (b + 1))

/-- Largest change of the refined frequency of the maximum at the bin `b` of `A`, when the amplitudes are changed by at
most the part `ρ` of themselves. -/
noncomputable def freqSlack (A : Nat → ℝ) (fs : ℝ) (n : Nat) (ρ : ℝ) (b : Nat) : ℝ :=
  3 * wobble ρ / curvature A b * fs / n

end Verif.Sms
