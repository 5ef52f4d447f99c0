import Verif.Sample.DecaySpec

/-!
# What the fit of a sound with disturbances is compared with
-/

set_option autoImplicit false

namespace Verif.Sample

/-- A search that always finds a point within the bounds whose sum of squares is at most `η` above any other. -/
def SolverNear (η : ℝ) (solve : (Hinge.Coeffs ℝ → List ℝ) → Hinge.Coeffs ℝ → Hinge.Coeffs ℝ →
      Hinge.Coeffs ℝ → Except PyErr (Hinge.Coeffs ℝ)) : Prop :=
  ∀ f x0 lo hi, InBox lo hi x0 → ∃ r, solve f x0 lo hi = .ok r ∧ InBox lo hi r ∧
    ∀ r', InBox lo hi r' → cost f r ≤ cost f r' + η

/-- Time of the centre of the analysis frame `k` of a sound of `n` samples, in seconds.  Backward analysis counts
frames from the end of the sound. -/
noncomputable def centreTime (p : Sms.Params ℝ) (n k : Nat) : ℝ :=
  if p.reverse then ((n : ℝ) - (k * p.hop + if p.padded then 0 else (p.w.length : ℝ) / 2)) / p.tracker.fs
  else ((k : ℝ) * p.hop + if p.padded then 0 else (p.w.length : ℝ) / 2) / p.tracker.fs

/-- Earliest of the analysis frames `s, ..., s + N - 1`. -/
def earliest (p : Sms.Params ℝ) (s N : Nat) : Nat := if p.reverse then s + N - 1 else s

end Verif.Sample
