import Mathlib.Analysis.SpecialFunctions.Trigonometric.Basic

/-!
# Specification of a beat: the sum of two partials
-/

set_option autoImplicit false

namespace Verif.Beat

/-- A partial with the amplitude `a`, the frequency `f` and the phase `p`, at time `t`. -/
noncomputable def partialAt (a f p t : ℝ) : ℂ :=
  a * Complex.exp (((2 * Real.pi * f * t + p : ℝ) : ℂ) * Complex.I)

/-- The sum of two partials whose parameters are functions of time. -/
noncomputable def sumAt (a0 a1 f0 f1 p0 p1 : ℝ → ℝ) (t : ℝ) : ℂ :=
  partialAt (a0 t) (f0 t) (p0 t) t + partialAt (a1 t) (f1 t) (p1 t) t

end Verif.Beat
