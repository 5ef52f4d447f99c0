import Mathlib.Analysis.SpecialFunctions.Exp
import Verif.Py

/-!
# Modes of a delayed sound
-/

set_option autoImplicit false

namespace Verif.Sample

/-- The amplitude, at time zero, of a mode with decay time `d` and amplitude `a` that is delayed by `T`: its
envelope `a e^(-2 t / d)` is that of the given mode, later by `T`. -/
noncomputable def laterAmp (T : ℝ) (d a : Option ℝ) : Option ℝ :=
  match d, a with
  | some d, some a => some (a * Real.exp (2 * T / d))
  | _, _ => a

/-- The rows of the parameter matrix (frequencies, decay times, amplitudes) of modes that are delayed by `T`. -/
noncomputable def delayModes (T : ℝ) (rows : List (List (Option ℝ))) : List (List (Option ℝ)) :=
  match rows with
  | [f, d, a] => [f, d, List.zipWith (laterAmp T) d a]
  | rows => rows

/-- A regressor that follows a delay: with all times later by `T` it fails in the same cases, and the line is the
same line, later by `T`. -/
def FollowsDelay (T : ℝ) (reg : List ℝ → List (Option ℝ) → Except PyErr (ℝ × ℝ)) : Prop :=
  ∀ ts mag, reg (ts.map (· + T)) mag = (reg ts mag).map fun r => (r.1, r.2 - r.1 * T)

end Verif.Sample
