import Verif.Sms.SimilarSpec
import Verif.Sms.FitModel
import Verif.Hinge.Model

/-!
# What the fit of a decaying sound is compared with
-/

set_option autoImplicit false

namespace Verif.Sample

/-- The coefficients are within the bounds. -/
def InBox (lo hi r : Hinge.Coeffs ℝ) : Prop :=
  (lo.a ≤ r.a ∧ r.a ≤ hi.a) ∧ (lo.k ≤ r.k ∧ r.k ≤ hi.k) ∧ lo.q ≤ r.q ∧ r.q ≤ hi.q

/-- Sum of the squared residuals. -/
def cost (f : Hinge.Coeffs ℝ → List ℝ) (r : Hinge.Coeffs ℝ) : ℝ := ((f r).map fun v => v ^ 2).sum

/-- The coefficients `r` are within the bounds and no others within the bounds have a smaller sum of squares. -/
def Minimal (f : Hinge.Coeffs ℝ → List ℝ) (lo hi r : Hinge.Coeffs ℝ) : Prop :=
  InBox lo hi r ∧ ∀ r', InBox lo hi r' → cost f r ≤ cost f r'

/-- A search that finds a minimum within the bounds, whenever there is one. -/
def SolverMin (solve : (Hinge.Coeffs ℝ → List ℝ) → Hinge.Coeffs ℝ → Hinge.Coeffs ℝ → Hinge.Coeffs ℝ →
      Except PyErr (Hinge.Coeffs ℝ)) : Prop :=
  ∀ f x0 lo hi, InBox lo hi x0 → (∃ r, Minimal f lo hi r) → ∃ r, solve f x0 lo hi = .ok r ∧ Minimal f lo hi r

/-- Time of the centre of the earliest frame of a sound of `n` samples, in seconds. -/
noncomputable def earliestTime (p : Sms.Params ℝ) (n : Nat) : ℝ :=
  (((if p.reverse then (n - p.w.length) % p.hop else 0 : Nat) : ℝ) + p.w.length / 2) / p.tracker.fs

end Verif.Sample
