import Mathlib.Tactic.FieldSimp
import Verif.Psycho.GammatoneModel

/-!
# The default phase of a gammatone filter (C145)
-/

set_option autoImplicit false

namespace Verif.Psycho

/-- C145: with the default leading time and phase, the carrier has the phase `-f (n - 1) / b` at the peak
of the envelope (time zero, C51). -/
theorem C145_carrier (g : Gammatone) (ht : g.tc? = none) (hp : g.phi? = none) (hb : g.bandwidth ≠ 0) :
    g.wave 0 = g.envelope 0 * Real.cos (-(g.f * ((g.n : ℝ) - 1) / g.bandwidth)) := by
  have hpi := Real.pi_ne_zero
  unfold Gammatone.wave
  congr 2
  simp only [Gammatone.phi, hp, Option.getD_none, Gammatone.tc, ht, Gammatone.rawGroupDelay]
  field_simp
  ring

/-- C145: so the peak of the envelope is not in general a peak of the carrier: for a bandwidth of
`3 f / π` and order 4 it is a trough. -/
theorem C145_trough (f : ℝ) (hf : f ≠ 0) :
    (Gammatone.mk f 4 (some (3 * f / Real.pi)) none none false none).wave 0 =
      -(Gammatone.mk f 4 (some (3 * f / Real.pi)) none none false none).envelope 0 := by
  have hpi := Real.pi_ne_zero
  have hb : (Gammatone.mk f 4 (some (3 * f / Real.pi)) none none false none).bandwidth =
      3 * f / Real.pi := rfl
  rw [C145_carrier _ rfl rfl (by rw [hb]; positivity), hb]
  have : f * (((4 : ℕ) : ℝ) - 1) / (3 * f / Real.pi) = Real.pi := by
    push_cast
    field_simp
    norm_num
  simp only [this, Real.cos_neg, Real.cos_pi, mul_neg, mul_one]

end Verif.Psycho
