import Verif.Sample.PartialProps
import Verif.Sms.DampedProps

/-!
# C131: the modes of sums of damped sinusoids
-/

set_option autoImplicit false
set_option linter.unusedSectionVars false
set_option linter.unusedSimpArgs false

namespace Verif.Sample

open Verif.Tracker Verif.Sms

theorem norm_pow_hop (p : Sms.Params ℝ) (z : ℂ) (d : ℝ) (hz : ‖z‖ = Real.exp (-2 / (d * p.tracker.fs))) :
    decayRatio p d = ‖z‖ ^ p.hop := by
  rw [hz, ← Real.exp_nat_mul, decayRatio]
  congr 1
  ring

/-- C131: the modes of a sum of damped sinusoids `Re (A b * z b ^ m)` with the decay times `d b`, and of disturbances.
`ρ` bounds the part of the rest in the spectrum around each of them, `ε` the effect on the level.  Sinusoids that
sound long enough to be tracked fall by more than `24 ε` over at least three frames.  Every mode belongs to a
different sinusoid, every sinusoid that sounds long enough and is accepted by the modal tracker with some
margin has a mode, and frequency, decay time and amplitude are those of the sinusoid alone, up to the stated
bounds. -/
theorem C131_modes (tol : ℝ) (sort : List (Peak ℝ) → List Nat)
    (hsort : ∀ peaks, IsArgsort peaks (sort peaks)) (η : ℝ)
    (solve : (Hinge.Coeffs ℝ → List ℝ) → Hinge.Coeffs ℝ → Hinge.Coeffs ℝ → Hinge.Coeffs ℝ →
      Except PyErr (Hinge.Coeffs ℝ)) (hsolve : SolverNear η solve)
    (m : Sms.Model ℝ) (x : List ℝ) (p : Sms.Params ℝ) (hp : p = m.params) (S : List Nat) (N : Nat → Nat)
    (A z : Nat → ℂ) (d : Nat → ℝ) (ν ρ ε : ℝ) (h : Ringing p x S N A z ν ρ)
    (hd : ∀ b ∈ S, 0 < d b ∧ ‖z b‖ = Real.exp (-2 / (d b * p.tracker.fs))) (hε : 5 / 4 * wobble ρ ≤ ε)
    (minLen : ℤ) (hmin : minLen = max 2 ⌈p.tracker.minSineDur * (p.tracker.fs / p.hop)⌉)
    (hlong : ∀ b ∈ S, minLen ≤ N b → 3 ≤ N b ∧ η ≤ N b * ε ^ 2 ∧ 24 * ε < fall p (d b) (N b))
    (P : Nat → Nat → ℝ) (hP : P = fun b => strength p x (A b) (z b) 0) :
    ∃ (m' : Sms.Model ℝ) (B : List Nat) (F D a : Nat → ℝ), B.Nodup ∧ (∀ b ∈ B, b ∈ S ∧ minLen ≤ N b) ∧
      (∀ b ∈ S, minLen ≤ N b → (p.modal = true →
        (∀ lo, p.tracker.freqLo = some lo →
          lo ≤ refinedFreq (P b) p.tracker.fs p.n b - freqSlack (P b) p.tracker.fs p.n ρ b) ∧
        (∀ hi, p.tracker.freqHi = some hi →
          refinedFreq (P b) p.tracker.fs p.n b + freqSlack (P b) p.tracker.fs p.n ρ b ≤ hi) ∧
        p.tracker.peakThreshold + 6 * ε ≤ refinedLevel (P b) b) → b ∈ B) ∧
      fit (spectrum tol) sort (hingeRegressor solve) npMean false (some 0) [] m x = some (.ok (m',
        [B.map fun b => some (F b), B.map fun b => some (D b), B.map fun b => some (a b)])) ∧
      (∀ poolGiven nJobs evs res, Training.poolOk poolGiven nJobs = true →
        fit (spectrum tol) sort (hingeRegressor solve) npMean poolGiven nJobs evs m x = some res →
        some res = fit (spectrum tol) sort (hingeRegressor solve) npMean false (some 0) [] m x) ∧
      ∀ b ∈ B, |F b - refinedFreq (P b) p.tracker.fs p.n b| ≤ freqSlack (P b) p.tracker.fs p.n ρ b ∧
        0 < D b ∧ 0 < a b ∧ |d b / D b - 1| ≤ 24 * ε / fall p (d b) (N b) ∧
        |dB (a b * Real.exp (-2 * earliestTime p x.length / D b)) - (refinedLevel (P b) b + dB 2)| ≤ 16 * ε := by
  have hpart := C131_partials p x S N A z ν ρ h (fun b => decayRatio p (d b))
    (fun b hb => norm_pow_hop p (z b) (d b) (hd b hb).2)
  rw [← hP] at hpart
  exact C130_modes tol sort hsort η solve hsolve m x p hp S N d P ρ ε hpart (fun b hb => (hd b hb).1) hε minLen hmin
    hlong

end Verif.Sample
