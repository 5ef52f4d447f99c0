import Verif.Sample.DampedProps
import Verif.Sms.CosineProps
import Mathlib.Analysis.Complex.ExponentialBounds

/-!
# C132: the modes of slowly decaying sinusoids seen through a Hann or Hamming window
-/

set_option autoImplicit false
set_option linter.unusedSectionVars false
set_option linter.unusedSimpArgs false

namespace Verif.Sample

open Verif.Tracker Verif.Sms

/-- C132: the modes of a sum of damped sinusoids at the centres of bins, with the amplitudes `|A b|` and the decay
times `d b`, and of disturbances.  All bounds are explicit: the frequencies are those of the bins up to
`binSlack`, the decay times and amplitudes those of the sinusoids, up to `24 ε / fall` and `16 ε - dB (1 - γ)`
decibels. -/
theorem C132_modes (tol : ℝ) (sort : List (Peak ℝ) → List Nat)
    (hsort : ∀ peaks, IsArgsort peaks (sort peaks)) (η : ℝ)
    (solve : (Hinge.Coeffs ℝ → List ℝ) → Hinge.Coeffs ℝ → Hinge.Coeffs ℝ → Hinge.Coeffs ℝ →
      Except PyErr (Hinge.Coeffs ℝ)) (hsolve : SolverNear η solve)
    (m : Sms.Model ℝ) (x : List ℝ) (p : Sms.Params ℝ) (hp : p = m.params) (S : List Nat) (N : Nat → Nat)
    (A : Nat → ℂ) (d s : Nat → ℝ) (hs : s = fun b => Real.exp (-2 / (d b * p.tracker.fs))) (a c ν γ ρ ε : ℝ)
    (h : Centred p x S N A s a c ν γ ρ)
    (hd : ∀ b ∈ S, 0 < d b ∧ 0 < N b) (hε : 5 / 4 * wobble ρ ≤ ε)
    (minLen : ℤ) (hmin : minLen = max 2 ⌈p.tracker.minSineDur * (p.tracker.fs / p.hop)⌉)
    (hlong : ∀ b ∈ S, minLen ≤ N b → 3 ≤ N b ∧ η ≤ N b * ε ^ 2 ∧ 24 * ε < fall p (d b) (N b))
    (σ : ℝ) (hσ : σ = binSlack p (c / (2 * a)) γ ρ) :
    ∃ (m' : Sms.Model ℝ) (B : List Nat) (F D a' : Nat → ℝ), B.Nodup ∧ (∀ b ∈ B, b ∈ S ∧ minLen ≤ N b) ∧
      (∀ b ∈ S, minLen ≤ N b → (p.modal = true →
        (∀ lo, p.tracker.freqLo = some lo → lo ≤ b * p.tracker.fs / p.n - σ) ∧
        (∀ hi, p.tracker.freqHi = some hi → b * p.tracker.fs / p.n + σ ≤ hi) ∧
        p.tracker.peakThreshold + 6 * ε ≤ dB ((1 - γ) * sideGain p x (A b) (s b) 0)) → b ∈ B) ∧
      fit (spectrum tol) sort (hingeRegressor solve) npMean false (some 0) [] m x = some (.ok (m',
        [B.map fun b => some (F b), B.map fun b => some (D b), B.map fun b => some (a' b)])) ∧
      (∀ poolGiven nJobs evs res, Training.poolOk poolGiven nJobs = true →
        fit (spectrum tol) sort (hingeRegressor solve) npMean poolGiven nJobs evs m x = some res →
        some res = fit (spectrum tol) sort (hingeRegressor solve) npMean false (some 0) [] m x) ∧
      ∀ b ∈ B, |F b - b * p.tracker.fs / p.n| ≤ σ ∧ 0 < D b ∧ 0 < a' b ∧
        |d b / D b - 1| ≤ 24 * ε / fall p (d b) (N b) ∧
        |dB (a' b * Real.exp (-2 * earliestTime p x.length / D b)) -
          dB (‖A b‖ * Real.exp (-2 * (frameStart p x 0 / p.tracker.fs) / d b))| ≤ 16 * ε - dB (1 - γ) := by
  have hring := C132_ringing p x S N A s a c ν γ ρ h (fun b hb => (hd b hb).2)
  obtain ⟨m', B, F, D, a', r1, r2, r3, r4, r5, r6⟩ := C131_modes tol sort hsort η solve hsolve m x p hp S N A
    (fun b => binPole p.n b (s b)) d ν ρ ε hring (fun b hb => ⟨(hd b hb).1, by
      rw [norm_binPole _ _ _ (h.decay b hb).1.le, hs]⟩) hε minLen hmin hlong _ rfl
  refine ⟨m', B, F, D, a', r1, r2, ?_, r4, r5, ?_⟩
  · intro b hb hl hm
    obtain ⟨v1, v2, v3, v4, v5⟩ := h.values hb (hd b hb).2
    apply r3 b hb hl
    intro hmod
    obtain ⟨m1, m2, m3⟩ := hm hmod
    rw [v1]
    refine ⟨?_, ?_, by linarith⟩
    · intro lo hlo
      have := m1 lo hlo
      linarith
    · intro hi hhi
      have := m2 hi hhi
      linarith
  · intro b hb
    have hbS := (r2 b hb).1
    obtain ⟨v1, v2, v3, v4, v5⟩ := h.values hbS (hd b hbS).2
    obtain ⟨q1, q2, q3, q4, q5⟩ := r6 b hb
    rw [v1] at q1
    refine ⟨q1.trans (by linarith), q2, q3, q4, ?_⟩
    have hγ : 0 < 1 - γ := by
      have hκ1 : c / (2 * a) ≤ 1 / 2 := by
        rw [div_le_iff₀ (by linarith [h.shape.1, h.shape.2])]
        linarith [h.shape.2]
      linarith [h.slow.2]
    have e1 : ‖A b‖ * Real.exp (-2 * (frameStart p x 0 / p.tracker.fs) / d b) =
        sideGain p x (A b) (s b) 0 * 2 := by
      unfold sideGain
      rw [hs]
      simp only
      rw [← Real.exp_nat_mul, show (frameStart p x 0 : ℝ) * (-2 / (d b * p.tracker.fs)) =
        -2 * (frameStart p x 0 / p.tracker.fs) / d b by
          rw [mul_div_assoc', mul_div_assoc', div_div, mul_comm (d b)]
          ring]
      ring
    rw [e1, dB_mul v5 (by norm_num)]
    rw [dB_mul hγ v5] at v2
    have hneg : dB (1 - γ) ≤ 0 := by
      have : dB (1 - γ) ≤ dB 1 := (dB_le hγ one_pos).2 (by linarith [h.slow.1])
      simpa [dB] using this
    rw [abs_le] at q5 ⊢
    constructor <;> linarith [q5.1, q5.2]

/-- Analysis with a Hann window of 16 samples, at 16 samples per second, with long hops. -/
noncomputable def exBells (H : Nat) (rev modal : Bool) : Sms.Params ℝ :=
  ⟨cosineWindow (1 / 2) (1 / 2) 16, 16, -40, false, modal,
    { fs := 16, h := H, maxNSines := 10, minSineDur := 0, freqDevOffset := 1 / 2, freqDevSlope := 0,
      freqLo := some 1, freqHi := none, peakThreshold := -30, reverse := rev,
      mergeStrategy := "average", stripT := none }, H⟩

/-- Decay times of the two partials, at 3 Hz and 6 Hz. -/
noncomputable def exBellsDecay (H : Nat) (b : Nat) : ℝ := if b = 3 then H / 8 else H / 16

/-- Factors per sample. -/
noncomputable def exBellsFactor (H : Nat) : Nat → ℝ := fun b => Real.exp (-2 / (exBellsDecay H b * 16))

/-- The sum of the two partials and of a disturbance `u`. -/
noncomputable def exBellsSound (H : Nat) (u : Nat → ℝ) : List ℝ :=
  (List.range (16 + 3 * H)).map fun (m : Nat) =>
    ([3, 6].map fun b => (2 * binPole 16 b (exBellsFactor H b) ^ m).re).sum + u m

/-- The first partial is tracked over all four frames, the second over three. -/
def exBellsFrames (b : Nat) : Nat := if b = 3 then 4 else 3

theorem exBells_gain (H : Nat) (hH : 0 < H) (rev modal : Bool) (u : Nat → ℝ) (e : Nat) :
    sideGain (exBells H rev modal) (exBellsSound H u) 2 (exBellsFactor H 3) e = Real.exp (-1) ^ e ∧
    sideGain (exBells H rev modal) (exBellsSound H u) 2 (exBellsFactor H 6) e = Real.exp (-1) ^ (2 * e) := by
  have hH' : (0 : ℝ) < H := by exact_mod_cast hH
  have hf : frameStart (exBells H rev modal) (exBellsSound H u) e = e * H := by
    have : (exBellsSound H u).length - (exBells H rev modal).w.length = 3 * H := by
      simp [exBellsSound, exBells, cosineWindow]
    unfold frameStart
    rw [this]
    simp [exBells]
  unfold sideGain
  rw [hf]
  simp only [exBellsFactor, exBellsDecay]
  rw [← Real.exp_nat_mul, ← Real.exp_nat_mul, ← Real.exp_nat_mul, ← Real.exp_nat_mul]
  constructor
  · simp only [if_true]
    rw [show ((e * H : Nat) : ℝ) * (-2 / (H / 8 * 16)) = e * (-1) by push_cast; field_simp; ring]
    norm_num
  · rw [if_neg (by norm_num), show ((e * H : Nat) : ℝ) * (-2 / (H / 16 * 16)) = ((2 * e : Nat) : ℝ) * (-1) by
      push_cast; field_simp]
    norm_num

theorem exBells_slack (H : Nat) (rev modal : Bool) :
    0 ≤ binSlack (exBells H rev modal) (1 / 2 / (2 * (1 / 2))) (1 / 100000) (1 / 100) ∧
    binSlack (exBells H rev modal) (1 / 2 / (2 * (1 / 2))) (1 / 100000) (1 / 100) ≤ 1 / 10 := by
  unfold binSlack
  have hw := exNear_wobble
  have hw0 : 0 ≤ wobble (1 / 100) := wobble_nonneg (by norm_num) (by norm_num)
  set q : ℝ := (1 - 1 / 100000) / (1 / 2 / (2 * (1 / 2)) + 1 / 100000) with hq
  have hq0 : 0 < q := by rw [hq]; norm_num
  have h2 : 6 ≤ 2 * dB q := by
    have h3 : dB 10 ≤ dB (q * q * (q * q)) := (dB_le (by norm_num) (by positivity)).2 (by rw [hq]; norm_num)
    rw [dB_mul (by positivity) (by positivity), dB_mul hq0 hq0] at h3
    have h4 : dB 10 = 20 := by
      unfold dB
      rw [Real.logb_self_eq_one (by norm_num)]
      norm_num
    linarith
  clear_value q
  generalize wobble (1 / 100) = w at *
  have h3 : 3 * w / (2 * dB q) ≤ 1 / 10 := by
    rw [div_le_iff₀ (by linarith)]
    linarith
  have h4 : 0 ≤ 3 * w / (2 * dB q) := div_nonneg (by linarith) (by linarith)
  simp only [exBells]
  push_cast
  constructor <;> linarith

/-- Two partials with different decay times, disturbed by at most 0.00001, meet the hypotheses of `C132_modes`. -/
theorem exBells_centred (H : Nat) (hH : 3000000 ≤ H) (rev modal : Bool) (u : Nat → ℝ)
    (hu : ∀ m, |u m| ≤ 1 / 100000) :
    Centred (exBells H rev modal) (exBellsSound H u) [3, 6] exBellsFrames (fun _ => 2) (exBellsFactor H) (1 / 2) (1 / 2)
      (1 / 100000) (1 / 100000) (1 / 100) := by
  have hH' : (3000000 : ℝ) ≤ H := by exact_mod_cast hH
  have hgain := exBells_gain H (by omega) rev modal u
  obtain ⟨s0, s1⟩ := exBells_slack H rev modal
  have e1 := Real.exp_neg_one_gt_d9
  have e2 := Real.exp_neg_one_lt_d9
  have hlen : (exBellsSound H u).length = 16 + 3 * H := by simp [exBellsSound]
  have hwl : (exBells H rev modal).w.length = 16 := by simp [exBells, cosineWindow]
  have hL : frameCount (exBells H rev modal) (exBellsSound H u) = 4 := by
    unfold frameCount
    rw [hlen, hwl, Nat.add_sub_cancel_left]
    show 1 + 3 * H / H = 4
    rw [Nat.mul_div_cancel _ (by omega)]
  have hspill : ∀ e, spill (exBells H rev modal) (exBellsSound H u) [3, 6] (fun _ => 2) (exBellsFactor H)
      (1 / 100000) (1 / 100000) e =
      2 * (1 / 100000) * (Real.exp (-1) ^ e + Real.exp (-1) ^ (2 * e)) + 1 / 100000 := by
    intro e
    unfold spill
    simp only [List.map_cons, List.map_nil, List.sum_cons, List.sum_nil]
    rw [(hgain e).1, (hgain e).2]
    ring
  have hT : (10 : ℝ) ^ ((exBells H rev modal).t / 20) = 1 / 100 := by
    simp only [exBells]
    rw [show (-40 : ℝ) / 20 = ((-2 : ℤ) : ℝ) by norm_num, Real.rpow_intCast]
    norm_num
  have heps : (floatEps : ℝ) ≤ 1 / 1000000 := by
    simp only [floatEps]
    norm_num
  generalize hE : Real.exp (-1) = E at hgain e1 e2 hspill
  have hE0 : 0 < E := by linarith
  have hlow : ∀ i, i ≤ 4 → 1 / 60 ≤ E ^ i := by
    intro i hi
    have h1 : E ^ 4 ≤ E ^ i := pow_le_pow_of_le_one hE0.le (by linarith) hi
    have h2 : (1 / 60 : ℝ) ≤ E ^ 4 := le_trans (by norm_num) (pow_le_pow_left₀ (by norm_num) e1.le 4)
    linarith
  have hup : ∀ i, E ^ i ≤ 1 := fun i => pow_le_one₀ hE0.le (by linarith)
  have hsp : ∀ e, spill (exBells H rev modal) (exBellsSound H u) [3, 6] (fun _ => 2) (exBellsFactor H)
      (1 / 100000) (1 / 100000) e ≤ 5 / 100000 := by
    intro e
    rw [hspill]
    linarith [hup e, hup (2 * e)]
  have hg : ∀ b ∈ [3, 6], ∀ e, e < exBellsFrames b →
      1 / 60 ≤ sideGain (exBells H rev modal) (exBellsSound H u) 2 (exBellsFactor H b) e := by
    intro b hb e he
    rcases List.mem_pair.1 hb with rfl | rfl
    · rw [(hgain e).1]
      exact hlow e (by simp [exBellsFrames] at he; omega)
    · rw [(hgain e).2]
      exact hlow _ (by simp [exBellsFrames] at he; omega)
  have hdec : ∀ b, 1 - exBellsFactor H b ≤ 2 / 3000000 := by
    intro b
    have h1 := Real.add_one_le_exp (-2 / (exBellsDecay H b * 16))
    have h2 : 2 / (exBellsDecay H b * 16) ≤ 2 / 3000000 := by
      apply div_le_div_of_nonneg_left (by norm_num) (by norm_num)
      unfold exBellsDecay
      split <;> linarith
    unfold exBellsFactor
    rw [neg_div] at h1 ⊢
    linarith
  refine ⟨⟨?_, ?_, ?_, ?_, ?_, rfl, ?_, ?_, ?_, ?_, ?_, ?_⟩, rfl, by norm_num, by decide, ?_, ?_, ?_, by norm_num, ?_, ?_, ?_,
    by norm_num, by norm_num, ?_, ?_, ?_, ?_, ?_, ?_⟩
  · show (cosineWindow (1 / 2) (1 / 2) 16).sum ≠ 0
    rw [cosineWindow_sum _ _ _ (by norm_num)]
    norm_num
  · rw [hwl]; norm_num
  · rw [hwl]; exact le_refl 16
  · show 1 ≤ H; omega
  · show (0 : ℝ) < 16; norm_num
  · rw [hwl, hlen]; omega
  · intro _; left; rfl
  · intro _ s hs; simp [exBells] at hs
  · show (0 : ℝ) < 1 / 2; norm_num
  · show (0 : ℝ) ≤ 0; exact le_refl _
  · show dB floatEps ≤ -40
    have h1 : dB floatEps ≤ dB (1 / 100) := (dB_le floatEps_pos (by norm_num)).2 (by linarith)
    have h2 : dB (1 / 100) = -40 := by
      unfold dB
      rw [show (1 / 100 : ℝ) = (10 : ℝ) ^ (-2 : ℝ) by rw [show (-2 : ℝ) = ((-2 : ℤ) : ℝ) by norm_num, Real.rpow_intCast]; norm_num,
        Real.logb_rpow (by norm_num) (by norm_num)]
      norm_num
    linarith
  · intro m hm
    rw [hlen] at hm
    have : (exBellsSound H u).getD m 0 =
        ([3, 6].map fun b => (2 * binPole 16 b (exBellsFactor H b) ^ m).re).sum + u m := by
      unfold exBellsSound
      rw [List.getD_eq_getElem?_getD, List.getElem?_map, List.getElem?_range hm]
      rfl
    rw [this]
    show |([3, 6].map fun b => (2 * binPole 16 b (exBellsFactor H b) ^ m).re).sum + u m -
      ([3, 6].map fun b => (2 * binPole 16 b (exBellsFactor H b) ^ m).re).sum| ≤ 1 / 100000
    rw [add_sub_cancel_left]
    exact hu m
  · intro b hb
    rw [hL]
    unfold exBellsFrames
    split <;> omega
  · show 2 ≤ 10; norm_num
  · intro b hb
    have h1 := hdec b
    refine ⟨Real.exp_pos _, ?_, ?_⟩
    · unfold exBellsFactor
      rw [Real.exp_lt_one_iff, neg_div, neg_lt_zero]
      apply div_pos (by norm_num)
      unfold exBellsDecay
      split <;> linarith
    · show (((16 : Nat) : ℝ) - 1) * (1 - exBellsFactor H b) ≤ 1 / 100000
      push_cast
      linarith
  · intro b hb
    show 2 ≤ b ∧ b + 2 ≤ 16 / 2
    rcases List.mem_pair.1 hb with rfl | rfl <;> norm_num
  · intro b hb b' hb' hlt
    rcases List.mem_pair.1 hb with rfl | rfl <;> rcases List.mem_pair.1 hb' with rfl | rfl <;> omega
  · intro b hb e he
    have h1 := hg b hb e he
    have h2 := hsp e
    norm_num
    linarith
  · intro b hb e he
    have h1 := hg b hb e he
    refine ⟨?_, ?_⟩
    · rw [lt_dB (by linarith), hT]
      linarith
    · norm_num
      linarith
  · intro e he
    rw [hL] at he
    rw [hT]
    have h2 := hsp e
    refine ⟨by linarith, ?_⟩
    intro b hb hbe
    rcases List.mem_pair.1 hb with rfl | rfl
    · simp [exBellsFrames] at hbe
      omega
    · simp [exBellsFrames] at hbe
      rw [(hgain e).2, show e = 3 by omega]
      have h3 : E ^ (2 * 3) ≤ 1 / 400 := le_trans (pow_le_pow_left₀ hE0.le e2.le _) (by norm_num)
      rw [show e = 3 by omega] at h2
      linarith
  · show _ < (1 / 2 : ℝ)
    linarith
  · show _ < 3 * (16 : ℝ) / ((16 : Nat) : ℝ)
    push_cast
    linarith
  · intro _ b hb b' hb' h0 hlt
    left
    rcases List.mem_pair.1 hb with rfl | rfl <;> rcases List.mem_pair.1 hb' with rfl | rfl <;>
      simp [exBellsFrames] at hlt
    unfold allowed
    show (1 / 2 : ℝ) + 0 * _ ≤ |((3 : Nat) : ℝ) - ((6 : Nat) : ℝ)| * 16 / ((16 : Nat) : ℝ) - _
    rw [show |((3 : Nat) : ℝ) - ((6 : Nat) : ℝ)| = 3 by norm_num]
    push_cast
    linarith

/-- The modes of the example. -/
example (tol : ℝ) (sort : List (Peak ℝ) → List Nat) (hsort : ∀ peaks, IsArgsort peaks (sort peaks))
    (solve : (Hinge.Coeffs ℝ → List ℝ) → Hinge.Coeffs ℝ → Hinge.Coeffs ℝ → Hinge.Coeffs ℝ →
      Except PyErr (Hinge.Coeffs ℝ)) (hsolve : SolverNear (1 / 10) solve)
    (H : Nat) (hH : 3000000 ≤ H) (u : Nat → ℝ) (hu : ∀ m, |u m| ≤ 1 / 100000)
    (m : Sms.Model ℝ) (rev modal : Bool) (hm : m.params = exBells H rev modal) :
    ∃ (m' : Sms.Model ℝ) (B : List Nat) (F D a : Nat → ℝ), B.Perm [3, 6] ∧
      fit (spectrum tol) sort (hingeRegressor solve) npMean false (some 0) [] m (exBellsSound H u) = some (.ok (m',
        [B.map fun b => some (F b), B.map fun b => some (D b), B.map fun b => some (a b)])) ∧
      |F 3 - 3| ≤ 1 / 10 ∧ |F 6 - 6| ≤ 1 / 10 ∧ |H / 8 / D 3 - 1| ≤ 1 / 3 ∧ |H / 16 / D 6 - 1| ≤ 1 / 4 := by
  have hH' : (3000000 : ℝ) ≤ H := by exact_mod_cast hH
  obtain ⟨s0, s1⟩ := exBells_slack H rev modal
  have hcen := exBells_centred H hH rev modal u hu
  have hw := exNear_wobble
  have hgain := exBells_gain H (by omega) rev modal u
  have hE : dB (Real.exp (-1)) ≤ -6 := by
    have h1 : dB (Real.exp (-1)) ≤ dB (1 / 2) := (dB_le (Real.exp_pos _) (by norm_num)).2 (by
      linarith [Real.exp_neg_one_lt_d9])
    have h2 : dB (1 / 2) = -dB 2 := by
      unfold dB
      rw [one_div, Real.logb_inv]
      ring
    linarith [exNear_two]
  have hr3 : decayRatio (exBells H rev modal) (H / 8) = Real.exp (-1) := by
    unfold decayRatio
    congr 1
    simp only [exBells]
    field_simp
    norm_num
  have hr6 : decayRatio (exBells H rev modal) (H / 16) = Real.exp (-1) * Real.exp (-1) := by
    unfold decayRatio
    rw [← Real.exp_add]
    congr 1
    simp only [exBells]
    field_simp
    norm_num
  have hf3 : 18 ≤ fall (exBells H rev modal) (H / 8) 4 := by
    unfold fall
    rw [hr3]
    push_cast
    linarith
  have hf6 : 24 ≤ fall (exBells H rev modal) (H / 16) 3 := by
    unfold fall
    rw [hr6, dB_mul (Real.exp_pos _) (Real.exp_pos _)]
    push_cast
    linarith
  obtain ⟨m', B, F, D, a, h1, h2, h3, h4, _, h6⟩ := C132_modes tol sort hsort (1 / 10) solve hsolve m
    (exBellsSound H u) _ hm.symm [3, 6] exBellsFrames (fun _ => 2) (exBellsDecay H) (exBellsFactor H) rfl (1 / 2)
    (1 / 2) (1 / 100000) (1 / 100000) (1 / 100) (1 / 4) hcen (by
      intro b hb
      unfold exBellsDecay exBellsFrames
      rcases List.mem_pair.1 hb with rfl | rfl <;> norm_num <;> linarith) (by linarith) _ rfl (by
      intro b hb _
      rcases List.mem_pair.1 hb with rfl | rfl
      · have e1 : exBellsFrames 3 = 4 := rfl
        have e2 : exBellsDecay H 3 = H / 8 := by simp [exBellsDecay]
        rw [e1, e2]
        refine ⟨by norm_num, by norm_num, by linarith⟩
      · have e1 : exBellsFrames 6 = 3 := rfl
        have e2 : exBellsDecay H 6 = H / 16 := by simp [exBellsDecay]
        rw [e1, e2]
        refine ⟨by norm_num, by norm_num, by linarith⟩) _ rfl
  have hmem : ∀ b ∈ [3, 6], b ∈ B := by
    intro b hb
    apply h3 b hb
    · rcases List.mem_pair.1 hb with rfl | rfl <;> simp [exBells, exBellsFrames]
    · intro _
      have hb3 : (3 : ℝ) ≤ b := by
        rcases List.mem_pair.1 hb with rfl | rfl <;> norm_num
      have hfs : (b : ℝ) * (exBells H rev modal).tracker.fs / (exBells H rev modal).n = b := by
        simp [exBells]
      rw [hfs]
      refine ⟨?_, ?_, ?_⟩
      · intro lo hlo
        simp [exBells] at hlo
        linarith
      · intro hi hhi
        simp [exBells] at hhi
      · have hg : sideGain (exBells H rev modal) (exBellsSound H u) 2 (exBellsFactor H b) 0 = 1 := by
          rcases List.mem_pair.1 hb with rfl | rfl
          · rw [(hgain 0).1]; norm_num
          · rw [(hgain 0).2]; norm_num
        rw [hg]
        have : dB (Real.exp (-1)) ≤ dB ((1 - 1 / 100000) * 1) := (dB_le (Real.exp_pos _) (by norm_num)).2 (by
          linarith [Real.exp_neg_one_lt_d9])
        have h5 : -20 ≤ dB (Real.exp (-1)) := by
          have h6 : dB (1 / 10) ≤ dB (Real.exp (-1)) := (dB_le (by norm_num) (Real.exp_pos _)).2 (by
            linarith [Real.exp_neg_one_gt_d9])
          have h7 : dB (1 / 10) = -20 := by
            unfold dB
            rw [one_div, Real.logb_inv, Real.logb_self_eq_one (by norm_num)]
            norm_num
          linarith
        show (-30 : ℝ) + 6 * (1 / 4) ≤ _
        linarith
  have hB : B.Perm [3, 6] := by
    rw [List.perm_ext_iff_of_nodup h1 (by decide)]
    exact fun b => ⟨fun hb => (h2 b hb).1, hmem b⟩
  have hfs : ∀ b : Nat, (b : ℝ) * (exBells H rev modal).tracker.fs / (exBells H rev modal).n = b := by
    intro b
    simp [exBells]
  have q3 := h6 3 (hmem 3 (by simp))
  have q6 := h6 6 (hmem 6 (by simp))
  rw [hfs] at q3 q6
  refine ⟨m', B, F, D, a, hB, h4, ?_, ?_, ?_, ?_⟩
  · exact q3.1.trans s1
  · exact q6.1.trans s1
  · have e2 : exBellsDecay H 3 = H / 8 := by simp [exBellsDecay]
    have := q3.2.2.2.1
    rw [e2] at this
    refine this.trans ?_
    show 24 * (1 / 4) / fall (exBells H rev modal) (H / 8) 4 ≤ _
    rw [div_le_iff₀ (by linarith)]
    linarith
  · have e2 : exBellsDecay H 6 = H / 16 := by simp [exBellsDecay]
    have := q6.2.2.2.1
    rw [e2] at this
    refine this.trans ?_
    show 24 * (1 / 4) / fall (exBells H rev modal) (H / 16) 3 ≤ _
    rw [div_le_iff₀ (by linarith)]
    linarith

end Verif.Sample
