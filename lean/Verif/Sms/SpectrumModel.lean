import Mathlib.Analysis.SpecialFunctions.Complex.Arg
import Verif.Dsp.SpectrumModel
import Verif.Dsp.DbModel
import Verif.Sms.DspModel

/-!
# The spectrum computed by `dft` (`sample/sms/dsp.py:34-41`)

What `Sms.dft` takes as the parameter `spec`: transform, magnitude in decibel, unwrapped phase.  Exact
arithmetic; the transform is its defining sum.
-/

set_option autoImplicit false

namespace Verif.Sms

/-- `np.finfo(float).eps`, used at `sample/sms/dsp.py:36`. -/
noncomputable def floatEps : ℝ := 1 / 2 ^ 52

/-- `np.diff`. -/
def diff : List ℝ → List ℝ
  | [] => []
  | [_] => []
  | a :: b :: l => (b - a) :: diff (b :: l)

/-- `np.cumsum`, started from `s`. -/
def cumsum (s : ℝ) : List ℝ → List ℝ
  | [] => []
  | a :: l => (s + a) :: cumsum (s + a) l

/-- What `np.unwrap` adds to the entries after a step of `dd` (`ph_correct`), called at
`sample/sms/dsp.py:40` with the default period and discontinuity: the remainder of the step between `-π` and
`π`, less the step; nothing for steps smaller than `π`. -/
noncomputable def phaseCorrection (dd : ℝ) : ℝ :=
  let low := -Real.pi
  let ddmod := (dd - low) - 2 * Real.pi * ⌊(dd - low) / (2 * Real.pi)⌋ + low
  let ddmod := if ddmod = low ∧ 0 < dd then Real.pi else ddmod
  if |dd| < Real.pi then 0 else ddmod - dd

/-- `np.unwrap`, called at `sample/sms/dsp.py:40`. -/
noncomputable def unwrap : List ℝ → List ℝ
  | [] => []
  | p :: ps => p :: List.zipWith (· + ·) ps (cumsum 0 ((diff (p :: ps)).map phaseCorrection))

/-- The spectrum of the FFT buffer, `sample/sms/dsp.py:34-41`.  `np.angle` is `Complex.arg` (zero for zero).
Simplification: no negative zeros, so a negative real number has the angle `π`. -/
noncomputable def spectrum (tol : ℝ) (z : List ℝ) : List ℝ × List ℝ :=
  let X := Dsp.rfft z z.length
  let ax := X.map fun v => max ‖v‖ floatEps
  let mx := ax.map fun a => (Dsp.a2dbFloorless a).getD 0
  let X' := List.zipWith (fun v a => if a < tol then (0 : ℂ) else v) X ax
  (mx, unwrap (X'.map Complex.arg))

end Verif.Sms
