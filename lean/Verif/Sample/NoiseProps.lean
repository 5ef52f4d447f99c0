import Verif.Sample.NoiseLemmas

/-!
# C128: decay times of tracks with disturbed levels
-/

set_option autoImplicit false
set_option linter.unusedSectionVars false
set_option linter.unusedSimpArgs false

namespace Verif.Sample

open Verif.Tracker Verif.Sms

/-- A track of `N` frames without gaps, from the frame `s`. -/
def wholeTrack (s N : Nat) (F M Φ : Nat → ℝ) : Track ℝ :=
  ⟨s, (List.range N).map fun i => some (F i), (List.range N).map fun i => some (M i),
    (List.range N).map fun i => some (Φ i)⟩

theorem whole_kept (s N : Nat) (F M Φ : Nat → ℝ) :
    kept (wholeTrack s N F M Φ) = (List.range N).map fun i => (s + i, ⟨F i, M i, Φ i⟩) := by
  unfold kept
  rw [List.range'_eq_map_range, List.filterMap_map,
    show (wholeTrack s N F M Φ).mag.length = N by simp [wholeTrack]]
  apply filterMap_some_map
  intro i hi
  rw [List.mem_range] at hi
  simp only [Function.comp, Track.sampleAt, wholeTrack, Nat.le_add_right, if_true, Nat.add_sub_cancel_left]
  simp [hi]

/-- C128: a track of at least three frames whose level stays within `ε` of the level of a partial with the decay
time `d`.  `drop` is the fall of that level over the track.  If it is more than `24 ε`, and the search finds a
point within `N ε²` of the least sum of squares, the estimated decay time `D` is positive and differs from `d` in the
sense `|d / D - 1| ≤ 24 ε / drop`; the estimated mode has, at the time of the earliest frame, the level of the
partial plus 6.02 dB, within `16 ε`; the frequency is the mean of the track. -/
theorem C128_decay (η : ℝ) (solve : (Hinge.Coeffs ℝ → List ℝ) → Hinge.Coeffs ℝ → Hinge.Coeffs ℝ →
      Hinge.Coeffs ℝ → Except PyErr (Hinge.Coeffs ℝ)) (hsolve : SolverNear η solve) (p : Sms.Params ℝ)
    (hh : 1 ≤ p.hop) (hfs : 0 < p.tracker.fs) (n s N : Nat) (F M Φ : Nat → ℝ) (d ε lev t₀ drop : ℝ)
    (hN : 3 ≤ N) (hd : 0 < d) (hε : 0 ≤ ε) (hη : η ≤ N * ε ^ 2) (ht : t₀ = centreTime p n (earliest p s N))
    (hlev : ∀ i, i < N →
      |M i - (lev + 20 * Real.logb 10 (Real.exp (-2 * (centreTime p n (s + i) - t₀) / d)))| ≤ ε)
    (hdrop : drop = -20 * Real.logb 10 (Real.exp (-2 * ((N - 1) * p.hop / p.tracker.fs) / d)))
    (hlarge : 24 * ε < drop) :
    ∃ D a, trackParams (hingeRegressor solve) npMean p n (wholeTrack s N F M Φ) =
        .ok [[some (((List.range N).map F).sum / N), some D, some a]] ∧ 0 < D ∧ 0 < a ∧
      |d / D - 1| ≤ 24 * ε / drop ∧
      |20 * Real.logb 10 (a * Real.exp (-2 * t₀ / D)) - (lev + 20 * Real.logb 10 2)| ≤ 16 * ε := by
  have hhop : (0 : ℝ) < p.hop := by exact_mod_cast hh
  set Δ := (p.hop : ℝ) / p.tracker.fs with hΔ
  have hΔp : 0 < Δ := div_pos hhop hfs
  set C := 40 * Real.logb 10 (Real.exp 1) with hC
  have hlog : 0 < Real.logb 10 (Real.exp 1) :=
    Real.logb_pos (by norm_num) (Real.one_lt_exp_iff.2 one_pos)
  have hCpos : 0 < C := by positivity
  have hexp : ∀ v : ℝ, 20 * Real.logb 10 (Real.exp (-2 * v / d)) = -C / d * v := by
    intro v
    rw [← Real.exp_one_rpow (-2 * v / d), Real.logb_rpow_eq_mul_logb_of_pos (Real.exp_pos 1), hC]
    field_simp
    ring
  have hdc : d2kConst = -C := by rw [d2kConst, hC]; ring
  set u := wholeTrack s N F M Φ with hu
  have hul : u.mag.length = N := by simp [hu, wholeTrack]
  obtain ⟨r, kp, e0, e1, e2, e3, e4, _⟩ := C20_times (analysis p) n u (by simp [hu, wholeTrack])
    (by simp [hu, wholeTrack]) (by
      intro j
      by_cases hj : j < N
      · simp [hu, wholeTrack, hj]
      · simp [hu, wholeTrack, hj]) (by omega)
  have e1' : kp = kept u := e1
  rw [hu, whole_kept] at e1'
  set E : Nat → Nat := fun i => if p.reverse then N - 1 - i else i with hE
  have htimeE : ∀ i, i < N → centreTime p n (s + i) = t₀ + (E i : ℝ) * Δ := by
    intro i hi
    rw [ht, hΔ]
    simp only [centreTime, earliest, hE]
    cases hr : p.reverse with
    | false =>
      simp only [Bool.false_eq_true, if_false]
      push_cast
      field_simp
      ring
    | true =>
      simp only [if_true]
      have : ((s + N - 1 : Nat) : ℝ) = ((s + i : Nat) : ℝ) + ((N - 1 - i : Nat) : ℝ) := by
        rw [← Nat.cast_add]; congr 1; omega
      rw [this]
      field_simp
      ring
  have htime : r.time = (List.range N).map fun i => centreTime p n (s + i) := by
    rw [e2, e1', List.map_map]
    apply List.map_congr_left
    intro i _
    simp only [Function.comp, analysis, centreTime]
    show (if p.reverse = true then (n : ℝ) / p.tracker.fs - (((s + i : Nat) : ℝ) * (p.hop : ℝ) / p.tracker.fs +
        (if p.padded then 0 else (p.w.length : ℝ) / 2 / p.tracker.fs)) else
        ((s + i : Nat) : ℝ) * (p.hop : ℝ) / p.tracker.fs + (if p.padded then 0 else
        (p.w.length : ℝ) / 2 / p.tracker.fs)) = _
    generalize p.reverse = rv
    cases rv <;> cases p.padded <;> simp <;> ring
  set ys := (List.range N).map fun i => M i + 20 * Real.logb 10 2 with hys
  have hmag : r.mag = ys.map some := by
    rw [e4, e1', hys, List.map_map, List.map_map]
    rfl
  have hfreq : npMean r.freq = some (((List.range N).map F).sum / N) := by
    have : r.freq = ((List.range N).map F).map some := by
      rw [e3, e1', List.map_map, List.map_map]
      rfl
    rw [this, npMean_map _ (by intro h; simp at h; omega)]
    unfold mean
    simp
  have hperm : ((List.range N).map fun i => centreTime p n (s + i)).Perm
      ((List.range N).map fun (i : Nat) => t₀ + i * Δ) := by
    have h1 : ((List.range N).map fun i => centreTime p n (s + i)) =
        ((List.range N).map E).map fun (i : Nat) => t₀ + i * Δ := by
      rw [List.map_map]
      apply List.map_congr_left
      intro i hi
      exact htimeE i (List.mem_range.1 hi)
    rw [h1]
    apply List.Perm.map
    rw [hE]
    cases p.reverse with
    | false => simp
    | true =>
      simp only [if_true]
      have : (List.range N).map (fun i => N - 1 - i) = (List.range N).reverse := by
        apply List.ext_getElem
        · simp
        · intro i h1 h2
          simp
      rw [this]
      exact List.reverse_perm _
  have hdrop' : drop = C / d * Δ * (N - 1) := by
    have := hexp ((N - 1) * p.hop / p.tracker.fs)
    rw [hdrop, neg_mul, this, hΔ]
    ring
  have hdpos : 0 < drop := by linarith
  obtain ⟨c, g1, g2, g3⟩ := near_hinge η solve hsolve ((List.range N).map fun i => centreTime p n (s + i)) ys t₀ Δ
    (-C / d) (lev + 20 * Real.logb 10 2 + C / d * t₀) ε N hN hΔp hε hη hperm (by simp [hys]) (by
      intro e he
      rw [hys, List.zip_map', List.mem_map] at he
      obtain ⟨i, hi, rfl⟩ := he
      have := hlev i (List.mem_range.1 hi)
      rw [hexp] at this
      have e : M i - (lev + -C / d * (centreTime p n (s + i) - t₀)) =
          M i + 20 * Real.logb 10 2 - (-C / d * centreTime p n (s + i) +
            (lev + 20 * Real.logb 10 2 + C / d * t₀)) := by ring
      rw [e] at this
      exact this) (by
      have : -(-C / d) * Δ * (N - 1) = drop := by rw [hdrop']; ring
      rw [this]
      exact hlarge)
  have hkneg : c.k < 0 := by
    by_contra h0
    have h1 : C / d ≤ |c.k - -C / d| := by
      have : c.k - -C / d = c.k + C / d := by ring
      rw [this]
      have := le_abs_self (c.k + C / d)
      linarith
    have h2 : C / d * Δ * (N - 1) ≤ |c.k - -C / d| * Δ * (N - 1) := by
      have h3 : (3 : ℝ) ≤ N := by exact_mod_cast hN
      exact mul_le_mul_of_nonneg_right (mul_le_mul_of_nonneg_right h1 hΔp.le) (by linarith)
    linarith
  have hreg : hingeRegressor solve r.time r.mag = .ok (c.k, c.q) := by
    rw [hmag, htime]
    simp only [hingeRegressor, allSome_map, g1]
  refine ⟨d2kConst / c.k, Dsp.db2a c.q, ?_, ?_, Real.rpow_pos_of_pos (by norm_num) _, ?_, ?_⟩
  · simp only [trackParams, e0, fitTrack, hreg, hfreq, slopeToDecay, if_neg hkneg.ne]
  · rw [hdc]; exact div_pos_of_neg_of_neg (by linarith) hkneg
  · have e5 : d / (d2kConst / c.k) - 1 = (c.k - -C / d) * (-d / C) := by
      rw [hdc]; field_simp; ring
    rw [e5, abs_mul, abs_div, abs_neg, abs_of_pos hd, abs_of_pos hCpos, le_div_iff₀ hdpos, hdrop']
    have : |c.k - -C / d| * (d / C) * (C / d * Δ * (N - 1)) = |c.k - -C / d| * Δ * (N - 1) := by
      field_simp
    rw [this]
    exact g2
  · have e6 : 20 * Real.logb 10 (Dsp.db2a c.q * Real.exp (-2 * t₀ / (d2kConst / c.k))) = c.k * t₀ + c.q := by
      rw [Dsp.db2a, Real.logb_mul (Real.rpow_pos_of_pos (by norm_num) _).ne' (Real.exp_pos _).ne',
        Real.logb_rpow (by norm_num) (by norm_num), ← Real.exp_one_rpow (-2 * t₀ / (d2kConst / c.k)),
        Real.logb_rpow_eq_mul_logb_of_pos (Real.exp_pos 1), hdc, hC]
      have : Real.logb 10 (Real.exp 1) ≠ 0 := hlog.ne'
      field_simp
      ring
    rw [e6]
    have e7 : c.k * t₀ + c.q - (lev + 20 * Real.logb 10 2) =
        c.k * t₀ + c.q - (-C / d * t₀ + (lev + 20 * Real.logb 10 2 + C / d * t₀)) := by ring
    rw [e7]
    exact g3

/-! ## A concrete case -/

theorem cost_nonneg (f : Hinge.Coeffs ℝ → List ℝ) (r : Hinge.Coeffs ℝ) : 0 ≤ cost f r := by
  apply List.sum_nonneg
  intro a ha
  obtain ⟨v, _, rfl⟩ := List.mem_map.1 ha
  exact sq_nonneg v

/-- For every tolerance there is such a search. -/
theorem solverNear_exists (η : ℝ) (hη : 0 < η) : ∃ solve, SolverNear η solve := by
  classical
  have key : ∀ f x0 lo hi, InBox lo hi x0 → ∃ r, InBox lo hi r ∧
      ∀ r', InBox lo hi r' → cost f r ≤ cost f r' + η := by
    intro f x0 lo hi h
    set S := {v | ∃ r, InBox lo hi r ∧ cost f r = v} with hS
    have hne : S.Nonempty := ⟨_, x0, h, rfl⟩
    have hbd : BddBelow S := ⟨0, by rintro v ⟨r, _, rfl⟩; exact cost_nonneg f r⟩
    obtain ⟨v, ⟨r, hr, rfl⟩, hv⟩ := Real.lt_sInf_add_pos hne hη
    refine ⟨r, hr, fun r' hr' => ?_⟩
    have := csInf_le hbd ⟨r', hr', rfl⟩
    linarith
  refine ⟨fun f x0 lo hi => .ok (if h : InBox lo hi x0 then (key f x0 lo hi h).choose else x0), ?_⟩
  intro f x0 lo hi h
  refine ⟨_, rfl, ?_⟩
  rw [dif_pos h]
  exact (key f x0 lo hi h).choose_spec

/-- Three frames with the levels 0, -10.1 and -20 dB, half a second apart: the decay time of the line through 0, -10
and -20 dB is found up to 12 percent. -/
example (solve : (Hinge.Coeffs ℝ → List ℝ) → Hinge.Coeffs ℝ → Hinge.Coeffs ℝ →
      Hinge.Coeffs ℝ → Except PyErr (Hinge.Coeffs ℝ)) (hsolve : SolverNear (3 / 100) solve) :
    ∃ D a, trackParams (hingeRegressor solve) npMean (exSimilar true true) 12
        ⟨0, [some 2, some 2, some 2], [some (-20), some (-10.1), some 0], [some 0, some 0, some 0]⟩ =
        .ok [[some 2, some D, some a]] ∧ 0 < D ∧ |2 * Real.logb 10 (Real.exp 1) / D - 1| ≤ 3 / 25 := by
  have hlog : 0 < Real.logb 10 (Real.exp 1) :=
    Real.logb_pos (by norm_num) (Real.one_lt_exp_iff.2 one_pos)
  have hexp : ∀ v : ℝ, 20 * Real.logb 10 (Real.exp (-2 * v / (2 * Real.logb 10 (Real.exp 1)))) = -20 * v := by
    intro v
    rw [← Real.exp_one_rpow (-2 * v / _), Real.logb_rpow_eq_mul_logb_of_pos (Real.exp_pos 1)]
    field_simp
  have hrev : (exSimilar true true).reverse = true := rfl
  have ht : ∀ k : Nat, centreTime (exSimilar true true) 12 k = (12 - (k * 4 + 2)) / 8 := by
    intro k
    unfold centreTime
    rw [hrev]
    simp [exSimilar]
    norm_num
  obtain ⟨D, a, h1, h2, h3, h4, _⟩ := C128_decay (3 / 100) solve hsolve (exSimilar true true) (by simp [exSimilar])
    (by norm_num [exSimilar]) 12 0 3 (fun _ => 2) (fun i => if i = 0 then -20 else if i = 1 then -10.1 else 0)
    (fun _ => 0) (2 * Real.logb 10 (Real.exp 1)) (1 / 10) 0 _ _ (le_refl _) (by positivity) (by norm_num)
    (by norm_num) rfl (by
      intro i hi
      rw [hexp, ht, ht, earliest, hrev]
      interval_cases i <;> norm_num [abs_le]) rfl (by
      rw [neg_mul, hexp]
      norm_num [exSimilar])
  refine ⟨D, a, ?_, h2, ?_⟩
  · have e : wholeTrack 0 3 (fun _ => 2) (fun i => if i = 0 then -20 else if i = 1 then -10.1 else 0) (fun _ => 0) =
        ⟨0, [some 2, some 2, some 2], [some (-20), some (-10.1), some 0], [some 0, some 0, some 0]⟩ := by
      simp [wholeTrack, List.range_succ]
    rw [e] at h1
    rw [h1]
    norm_num [List.range_succ]
  · rw [neg_mul, hexp] at h4
    norm_num [exSimilar] at h4 ⊢
    exact h4

end Verif.Sample
