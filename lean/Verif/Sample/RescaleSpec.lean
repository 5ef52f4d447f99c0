import Mathlib.Data.Real.Basic
import Verif.Py
import Verif.Hinge.Model

/-!
# Modes in other units
-/

set_option autoImplicit false

namespace Verif.Sample

/-- What happens to the rows of the parameter matrix (frequencies, decay times, amplitudes): frequencies times
`c`, decay times divided by `c`, amplitudes times `a`. -/
noncomputable def unitFactor (c a : ℝ) : Nat → ℝ
  | 0 => c
  | 1 => 1 / c
  | _ => a

/-- The parameter matrix (list of rows) in other units. -/
noncomputable def inUnits (c a : ℝ) (rows : List (List (Option ℝ))) : List (List (Option ℝ)) :=
  rows.mapIdx fun r row => row.map (Option.map (unitFactor c a r * ·))

/-- A regressor that follows a change of units: with times divided by `c` and levels raised by `G`, it fails in
the same cases, the slope is `c` times as large and the intercept is raised by `G`. -/
def FollowsUnits (c G : ℝ) (reg : List ℝ → List (Option ℝ) → Except PyErr (ℝ × ℝ)) : Prop :=
  ∀ ts mag, reg (ts.map (· / c)) (mag.map (Option.map (· + G))) =
    (reg ts mag).map fun r => (c * r.1, r.2 + G)

/-- A reduction of the frequencies of a track that follows a change of units. -/
def Homogeneous (c : ℝ) (red : List (Option ℝ) → Option ℝ) : Prop :=
  ∀ l, red (l.map (Option.map (c * ·))) = (red l).map (c * ·)

/-- Coefficients of a hinge raised by `G`. -/
def raise (G : ℝ) (p : Hinge.Coeffs ℝ) : Hinge.Coeffs ℝ := ⟨p.a, p.k, p.q + G⟩

/-- A search that follows a gain: for the same problem with all intercepts raised by `G` it gives the same
result, raised by `G`. -/
def SolverShift (G : ℝ) (solve : (Hinge.Coeffs ℝ → List ℝ) → Hinge.Coeffs ℝ → Hinge.Coeffs ℝ →
    Hinge.Coeffs ℝ → Except PyErr (Hinge.Coeffs ℝ)) : Prop :=
  ∀ f f' x0 lo hi, (∀ p, f' (raise G p) = f p) →
    solve f' (raise G x0) (raise G lo) (raise G hi) = (solve f x0 lo hi).map (raise G)

end Verif.Sample
