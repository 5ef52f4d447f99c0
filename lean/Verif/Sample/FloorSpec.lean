import Verif.Sample.NoiseSpec

/-!
# What the fit of a track that decays into a constant level is compared with
-/

set_option autoImplicit false

namespace Verif.Sample

/-- A search that always returns a point within the bounds. -/
def SolverIn (solve : (Hinge.Coeffs ℝ → List ℝ) → Hinge.Coeffs ℝ → Hinge.Coeffs ℝ →
      Hinge.Coeffs ℝ → Except PyErr (Hinge.Coeffs ℝ)) : Prop :=
  ∀ f x0 lo hi, InBox lo hi x0 → ∃ r, solve f x0 lo hi = .ok r ∧ InBox lo hi r

/-- `N` equally spaced values fall by the same amount up to the value `m` (counted from 0) and stay constant from
there: the slope of their least-squares line, as a share of the slope of the fall. -/
noncomputable def share (N m : ℝ) : ℝ := m * (m + 1) * (3 * N - 2 * m - 1) / (N * (N ^ 2 - 1))

/-- How far the least-squares line is from the first of these values, as a multiple of the fall per value. -/
noncomputable def miss (N m : ℝ) : ℝ := m * (N - m) * (N - m - 1) / (N * (N + 1))

/-- How much time the default bounds of the intercept are short of, for values from the time `t` at distances `Δ`:
the largest intercept is the one of the fall, followed back to this time instead of time zero.  Nothing is
missing if this is not positive. -/
noncomputable def shortage (t Δ N m : ℝ) : ℝ := min t ((1 - 2 * share N m) * t - Δ * (m - 2 * miss N m))

end Verif.Sample
