import Verif.Sample.FloorLemmas

/-!
# C157: decay times of tracks that decay into a constant level
-/

set_option autoImplicit false
set_option linter.unusedSectionVars false
set_option linter.unusedSimpArgs false

namespace Verif.Sample

open Verif.Tracker Verif.Sms

/-- The level of a track of `N` frames from the frame `s` falls from `lev` like a partial with the decay time `d` for `m`
hops from the earliest frame, at the time `t₀`, and is constant from there. -/
structure Floors (p : Sms.Params ℝ) (n s N m : Nat) (M : Nat → ℝ) (t₀ lev d : ℝ) : Prop where
  hop : 1 ≤ p.hop
  fs : 0 < p.tracker.fs
  knee : m < N
  decay : 0 < d
  start : t₀ = centreTime p n (earliest p s N)
  nonneg : 0 ≤ t₀
  level : ∀ i, i < N → M i =
    lev + 20 * Real.logb 10 (Real.exp (-2 * (min (centreTime p n (s + i)) (t₀ + m * p.hop / p.tracker.fs) - t₀) / d))

/-- C157: the least-squares line of values that fall evenly up to the point `m` of `N` and are constant from there. -/
theorem C157_line (x : List ℝ) (t Δ k q : ℝ) (N m : Nat) (hm : 1 ≤ m) (hN : m < N) (hΔ : 0 < Δ)
    (hx : x.Perm ((List.range N).map fun (i : Nat) => t + i * Δ)) (k' q' : ℝ) :
    LeastSquares (x.map fun u => (u, k * min u (t + m * Δ) + q)) k' q' ↔
      k' = share N m * k ∧ q' = q + k * ((1 - share N m) * t + Δ * miss N m) := by
  have h := floor_line x t Δ k q N m hm hN hΔ hx
  rw [linearRegression, Except.ok.injEq, Prod.mk.injEq] at h
  have hmem : ∀ i : Nat, i < N → t + i * Δ ∈ x := by
    intro i hi
    rw [hx.mem_iff, List.mem_map]
    exact ⟨i, List.mem_range.2 hi, rfl⟩
  rw [← zip_map_self (fun u => k * min u (t + m * Δ) + q) x, leastSquares_iff x _ (by simp)
    (sum_sq_pos x _ _ _ (hmem 0 (by omega)) (hmem 1 (by omega)) (by push_cast; linarith)), h.1, h.2]

/-- The regressor on such values, within the bounds. -/
theorem floor_fit (solve : (Hinge.Coeffs ℝ → List ℝ) → Hinge.Coeffs ℝ → Hinge.Coeffs ℝ → Hinge.Coeffs ℝ →
      Except PyErr (Hinge.Coeffs ℝ)) (hin : SolverIn solve) (x : List ℝ) (t Δ k q : ℝ) (N m : Nat) (hm : 1 ≤ m)
    (hN : m < N) (hΔ : 0 < Δ) (hk : k < 0) (ht : 0 ≤ t)
    (hx : x.Perm ((List.range N).map fun (i : Nat) => t + i * Δ)) :
    ∃ r, Hinge.fit linearRegression Hinge.defaultCoeffsInit Hinge.defaultBounds solve x
        (x.map fun u => k * min u (t + m * Δ) + q) = .ok r ∧
      8 * (share N m * k) ≤ r.k ∧ r.k ≤ share N m * k ∧ r.q ≤ q + k * shortage t Δ N m := by
  obtain ⟨lo, hi, x0, h1, h2, h3, h4, h5, h6, h7, h8, h9, h10, h11⟩ := floor_bounds x t Δ k q N m hm hN hΔ hk ht hx
  obtain ⟨r, hr, hb⟩ := hin (Hinge.residuals x (x.map fun u => k * min u (t + m * Δ) + q)) x0 lo hi h6
  obtain ⟨⟨b1, b2⟩, ⟨b3, b4⟩, b5, b6⟩ := h6
  refine ⟨r, ?_, by rw [← h8]; exact hb.2.1.1, by rw [← h9]; exact hb.2.1.2, by rw [← h11]; exact hb.2.2.2⟩
  simp only [Hinge.fit, floor_line x t Δ k q N m hm hN hΔ hx, h1, h2, Hinge.leastSquares, h3, h4, h5, b1, b2, b3, b4,
    b5, b6, and_self, not_true, if_false, hr]

/-- The regressor on such values, if the bounds contain the hinge and the search finds the minimum. -/
theorem floor_exact (solve : (Hinge.Coeffs ℝ → List ℝ) → Hinge.Coeffs ℝ → Hinge.Coeffs ℝ → Hinge.Coeffs ℝ →
      Except PyErr (Hinge.Coeffs ℝ)) (hmin : SolverMin solve) (x : List ℝ) (t Δ k q : ℝ) (N m : Nat) (hm : 2 ≤ m)
    (hN : m < N) (hΔ : 0 < Δ) (hk : k < 0) (ht : 0 ≤ t)
    (hx : x.Perm ((List.range N).map fun (i : Nat) => t + i * Δ)) (hs : 1 ≤ 8 * share N m)
    (hq : shortage t Δ N m ≤ 0) :
    ∃ r, Hinge.fit linearRegression Hinge.defaultCoeffsInit Hinge.defaultBounds solve x
        (x.map fun u => k * min u (t + m * Δ) + q) = .ok r ∧ r.k = k ∧ r.q = q ∧
      (m + 1 < N → r.a = t + m * Δ) := by
  obtain ⟨lo, hi, x0, h1, h2, h3, h4, h5, h6, h7, h8, h9, h10, h11⟩ :=
    floor_bounds x t Δ k q N m (by omega) hN hΔ hk ht hx
  set y := x.map fun u => k * min u (t + m * Δ) + q with hy
  set f := Hinge.residuals x y with hf
  have hmem : ∀ i : Nat, i < N → t + i * Δ ∈ x := by
    intro i hi
    rw [hx.mem_iff, List.mem_map]
    exact ⟨i, List.mem_range.2 hi, rfl⟩
  have hres : ∀ r : Hinge.Coeffs ℝ, f r = x.map fun u => Hinge.hingeFunction u r.a r.k r.q -
      (k * min u (t + m * Δ) + q) := by
    intro r
    rw [hf, hy]
    simp only [Hinge.residuals, List.zipWith_map_right]
    rw [List.zipWith_self]
  have hzero : cost f ⟨t + m * Δ, k, q⟩ = 0 := by
    unfold cost
    rw [hres]
    apply List.sum_eq_zero
    intro v hv
    simp only [List.map_map, List.mem_map, Function.comp] at hv
    obtain ⟨u, hu, rfl⟩ := hv
    rw [Hinge.hingeFunction]
    ring
  have hbox : InBox lo hi ⟨t + m * Δ, k, q⟩ := by
    refine ⟨h7 _ (hmem m hN), ⟨?_, ?_⟩, h10, ?_⟩
    · rw [h8]
      show 8 * (share N m * k) ≤ k
      have := mul_le_mul_of_nonpos_right hs hk.le
      linarith
    · rw [h9]
      show k ≤ share N m * k
      have := mul_le_mul_of_nonpos_right (share_le N m (by omega) hN) hk.le
      linarith
    · rw [h11]
      show q ≤ q + k * shortage t Δ N m
      have := mul_nonneg_of_nonpos_of_nonpos hk.le hq
      linarith
  obtain ⟨r, hr, hbr, hmr⟩ := hmin f x0 lo hi h6
    ⟨⟨t + m * Δ, k, q⟩, hbox, fun r' _ => by rw [hzero]; exact cost_nonneg f r'⟩
  obtain ⟨⟨b1, b2⟩, ⟨b3, b4⟩, b5, b6⟩ := h6
  have hthrough : ∀ u ∈ x, r.k * min u r.a + r.q = k * min u (t + m * Δ) + q := by
    intro u hu
    have h0 := cost_zero (by have := hmr _ hbox; rwa [hzero] at this) (Hinge.hingeFunction u r.a r.k r.q -
      (k * min u (t + m * Δ) + q)) (by rw [hres]; exact List.mem_map.2 ⟨u, hu, rfl⟩)
    unfold Hinge.hingeFunction at h0
    linarith
  have hm2 : (2 : ℝ) ≤ m := by exact_mod_cast hm
  have hN1 : (m : ℝ) + 1 ≤ N := by exact_mod_cast hN
  have hdet : ∀ w ∈ x, t + ((1 : Nat) : ℝ) * Δ < w → r.k = k ∧ r.q = q ∧ min w r.a = min w (t + m * Δ) := by
    intro w hw h1w
    exact hinge_determined (t + m * Δ) k q r.a r.k r.q (t + ((0 : Nat) : ℝ) * Δ) (t + ((1 : Nat) : ℝ) * Δ) w hk.ne
      (by push_cast; linarith) (by push_cast; nlinarith) h1w (hthrough _ (hmem 0 (by omega)))
      (hthrough _ (hmem 1 (by omega))) (hthrough _ hw)
  have hd := hdet _ (hmem m hN) (by push_cast; nlinarith)
  refine ⟨r, ?_, hd.1, hd.2.1, ?_⟩
  · have hline := floor_line x t Δ k q N m (by omega) hN hΔ hx
    rw [← hy] at hline
    simp only [Hinge.fit, hline, h1, h2, Hinge.leastSquares, h3, h4, h5, b1, b2, b3, b4, b5, b6, and_self, not_true,
      if_false]
    exact hr
  · intro hl
    have := (hdet _ (hmem (m + 1) hl) (by push_cast; nlinarith)).2.2
    rw [min_eq_right (b := t + m * Δ) (by push_cast; nlinarith)] at this
    rcases min_choice (t + ((m + 1 : Nat) : ℝ) * Δ) r.a with h | h
    · rw [h] at this
      push_cast at this
      nlinarith
    · rw [h] at this; exact this

/-- The levels of such a track, as a hinge of the times. -/
theorem floors_levels {p : Sms.Params ℝ} {n s N m : Nat} {M : Nat → ℝ} {t₀ lev d : ℝ}
    (h : Floors p n s N m M t₀ lev d) :
    ((List.range N).map fun i => M i + 20 * Real.logb 10 2) =
      ((List.range N).map fun i => centreTime p n (s + i)).map fun u =>
        d2kConst / d * min u (t₀ + m * (p.hop / p.tracker.fs)) +
          (lev + 20 * Real.logb 10 2 - d2kConst / d * t₀) := by
  rw [List.map_map]
  apply List.map_congr_left
  intro i hi
  have hexp : ∀ v : ℝ, 20 * Real.logb 10 (Real.exp (-2 * v / d)) = d2kConst / d * v := by
    intro v
    rw [← Real.exp_one_rpow (-2 * v / d), Real.logb_rpow_eq_mul_logb_of_pos (Real.exp_pos 1), d2kConst]
    have := h.decay.ne'
    field_simp
    ring
  rw [h.level i (List.mem_range.1 hi), hexp, mul_div_assoc]
  simp only [Function.comp]
  ring

theorem d2k_neg : d2kConst < 0 := by
  have : 0 < Real.logb 10 (Real.exp 1) := Real.logb_pos (by norm_num) (Real.one_lt_exp_iff.2 one_pos)
  rw [d2kConst]
  linarith

theorem db2a_exp (x v d : ℝ) (hd : 0 < d) :
    Dsp.db2a (x + 20 * Real.logb 10 2 - d2kConst / d * v) = 2 * 10 ^ (x / 20) * Real.exp (2 * v / d) := by
  have e1 : (x + 20 * Real.logb 10 2 - d2kConst / d * v) / 20 =
      x / 20 + Real.logb 10 2 + Real.logb 10 (Real.exp (2 * v / d)) := by
    rw [← Real.exp_one_rpow (2 * v / d), Real.logb_rpow_eq_mul_logb_of_pos (Real.exp_pos 1), d2kConst]
    field_simp
    ring
  rw [Dsp.db2a, e1, Real.rpow_add (by norm_num), Real.rpow_add (by norm_num),
    Real.rpow_logb (by norm_num) (by norm_num) (by norm_num),
    Real.rpow_logb (by norm_num) (by norm_num) (Real.exp_pos _)]
  ring

/-- C157: whatever the search within the bounds, the decay time found for a track that decays into a constant level
is at least an eighth of the decay time of its least-squares line, and the amplitude is at most the one of the
partial, followed back from the earliest frame up to the time given by the shortage of the bounds. -/
theorem C157_limits (solve : (Hinge.Coeffs ℝ → List ℝ) → Hinge.Coeffs ℝ → Hinge.Coeffs ℝ → Hinge.Coeffs ℝ →
      Except PyErr (Hinge.Coeffs ℝ)) (hin : SolverIn solve) (p : Sms.Params ℝ) (n s N m : Nat) (F M Φ : Nat → ℝ)
    (t₀ lev d : ℝ) (h : Floors p n s N m M t₀ lev d) (hm : 1 ≤ m) :
    ∃ D a, trackParams (hingeRegressor solve) npMean p n (wholeTrack s N F M Φ) =
        .ok [[some (((List.range N).map F).sum / N), some D, some a]] ∧
      d / (8 * share N m) ≤ D ∧ D ≤ d / share N m ∧ 0 < a ∧
      a ≤ 2 * 10 ^ (lev / 20) * Real.exp (2 * (t₀ - shortage t₀ (p.hop / p.tracker.fs) N m) / d) := by
  have hN := h.knee
  have hd := h.decay
  have hΔ : 0 < (p.hop : ℝ) / p.tracker.fs := div_pos (by exact_mod_cast h.hop) h.fs
  have hC := d2k_neg
  have hk : d2kConst / d < 0 := div_neg_of_neg_of_pos hC hd
  have hρ := share_pos N m hm hN
  obtain ⟨hperm, hpar⟩ := whole_params solve p h.fs n s N F M Φ t₀ (by omega) h.start
  obtain ⟨r, g1, g2, g3, g4⟩ := floor_fit solve hin _ t₀ _ (d2kConst / d)
    (lev + 20 * Real.logb 10 2 - d2kConst / d * t₀) N m hm hN hΔ hk h.nonneg hperm
  rw [← floors_levels h] at g1
  have hrk : r.k < 0 := lt_of_le_of_lt g3 (mul_neg_of_pos_of_neg hρ hk)
  refine ⟨_, _, hpar r hrk.ne g1, ?_, ?_, Real.rpow_pos_of_pos (by norm_num) _, ?_⟩
  · rw [le_div_iff_of_neg hrk]
    have := mul_le_mul_of_nonneg_left g2 (by positivity : 0 ≤ d / (8 * share N m))
    have e : d / (8 * share N m) * (8 * (share N m * (d2kConst / d))) = d2kConst := by
      field_simp
    linarith
  · rw [div_le_iff_of_neg hrk]
    have := mul_le_mul_of_nonneg_left g3 (by positivity : 0 ≤ d / share N m)
    have e : d / share N m * (share N m * (d2kConst / d)) = d2kConst := by
      field_simp
    linarith
  · rw [← db2a_exp _ _ _ hd]
    unfold Dsp.db2a
    apply Real.rpow_le_rpow_of_exponent_le (by norm_num)
    apply div_le_div_of_nonneg_right _ (by norm_num)
    linarith [mul_sub (d2kConst / d) t₀ (shortage t₀ (p.hop / p.tracker.fs) N m)]

/-- C157: if the bounds contain the decay (it is at most eight times as fast as the least-squares line, and there is no
shortage of intercept) and the search finds the minimum, the decay time and the amplitude are exact. -/
theorem C157_exact (solve : (Hinge.Coeffs ℝ → List ℝ) → Hinge.Coeffs ℝ → Hinge.Coeffs ℝ → Hinge.Coeffs ℝ →
      Except PyErr (Hinge.Coeffs ℝ)) (hmin : SolverMin solve) (p : Sms.Params ℝ) (n s N m : Nat) (F M Φ : Nat → ℝ)
    (t₀ lev d : ℝ) (h : Floors p n s N m M t₀ lev d) (hm : 2 ≤ m) (hs : 1 ≤ 8 * share N m)
    (hq : shortage t₀ (p.hop / p.tracker.fs) N m ≤ 0) :
    trackParams (hingeRegressor solve) npMean p n (wholeTrack s N F M Φ) =
      .ok [[some (((List.range N).map F).sum / N), some d,
        some (2 * 10 ^ (lev / 20) * Real.exp (2 * t₀ / d))]] := by
  have hN := h.knee
  have hd := h.decay
  have hΔ : 0 < (p.hop : ℝ) / p.tracker.fs := div_pos (by exact_mod_cast h.hop) h.fs
  have hC := d2k_neg
  have hk : d2kConst / d < 0 := div_neg_of_neg_of_pos hC hd
  obtain ⟨hperm, hpar⟩ := whole_params solve p h.fs n s N F M Φ t₀ (by omega) h.start
  obtain ⟨r, g1, g2, g3, _⟩ := floor_exact solve hmin _ t₀ _ (d2kConst / d)
    (lev + 20 * Real.logb 10 2 - d2kConst / d * t₀) N m hm hN hΔ hk h.nonneg hperm hs hq
  rw [← floors_levels h] at g1
  rw [hpar r (by rw [g2]; exact hk.ne) g1, g2, g3, db2a_exp _ _ _ hd]
  have : d2kConst / (d2kConst / d) = d := by
    have := hC.ne
    field_simp
  rw [this]

/-- C157: the decay and the amplitude are found exactly if the level falls over at least half of the track. -/
theorem C157_half (solve : (Hinge.Coeffs ℝ → List ℝ) → Hinge.Coeffs ℝ → Hinge.Coeffs ℝ → Hinge.Coeffs ℝ →
      Except PyErr (Hinge.Coeffs ℝ)) (hmin : SolverMin solve) (p : Sms.Params ℝ) (n s N m : Nat) (F M Φ : Nat → ℝ)
    (t₀ lev d : ℝ) (h : Floors p n s N m M t₀ lev d) (hm : 2 ≤ m) (hhalf : N ≤ 2 * m) :
    trackParams (hingeRegressor solve) npMean p n (wholeTrack s N F M Φ) =
      .ok [[some (((List.range N).map F).sum / N), some d,
        some (2 * 10 ^ (lev / 20) * Real.exp (2 * t₀ / d))]] := by
  have hN := h.knee
  have h1 : (2 : ℝ) ≤ m := by exact_mod_cast hm
  have h2 : (m : ℝ) + 1 ≤ N := by exact_mod_cast hN
  have h3 : (N : ℝ) ≤ 2 * m := by exact_mod_cast hhalf
  have hp : (0 : ℝ) < N * ((N : ℝ) ^ 2 - 1) := mul_pos (by linarith) (by nlinarith)
  have hhs : 1 ≤ 2 * share (N : ℝ) m := by
    rw [share, ← mul_div_assoc, le_div_iff₀ hp]
    -- the excess is a sum of products of nonnegative numbers
    nlinarith [mul_nonneg (mul_nonneg (sub_nonneg.2 h3) (sub_nonneg.2 h2)) (by linarith : (0 : ℝ) ≤ m),
      mul_nonneg (sub_nonneg.2 h3) (sub_nonneg.2 h2), mul_nonneg (mul_nonneg (sub_nonneg.2 h3) (sub_nonneg.2 h2))
      (sub_nonneg.2 h2), mul_nonneg (mul_nonneg (sub_nonneg.2 h3) (sub_nonneg.2 h3)) (sub_nonneg.2 h2),
      mul_nonneg (by linarith : (0 : ℝ) ≤ m) (sub_nonneg.2 h2)]
  have hΔ : 0 < (p.hop : ℝ) / p.tracker.fs := div_pos (by exact_mod_cast h.hop) h.fs
  have hδ : 2 * miss (N : ℝ) m ≤ m := by
    have hp' : (0 : ℝ) < N * ((N : ℝ) + 1) := by nlinarith
    rw [miss, ← mul_div_assoc, div_le_iff₀ hp']
    have : 2 * ((N - m : ℝ) * (N - m - 1)) ≤ N * (N + 1) := by nlinarith
    nlinarith
  apply C157_exact solve hmin p n s N m F M Φ t₀ lev d h hm (by linarith)
  refine min_le_of_right_le ?_
  have e1 : (1 - 2 * share (N : ℝ) m) * t₀ ≤ 0 := mul_nonpos_of_nonpos_of_nonneg (by linarith) h.nonneg
  have e2 : 0 ≤ (p.hop : ℝ) / p.tracker.fs * (m - 2 * miss (N : ℝ) m) := mul_nonneg hΔ.le (by linarith)
  linarith

/-- C157: if the level falls over at most a sixth of a track of at least nine frames, the decay time found is too long,
whatever the search. -/
theorem C157_sixth (solve : (Hinge.Coeffs ℝ → List ℝ) → Hinge.Coeffs ℝ → Hinge.Coeffs ℝ → Hinge.Coeffs ℝ →
      Except PyErr (Hinge.Coeffs ℝ)) (hin : SolverIn solve) (p : Sms.Params ℝ) (n s N m : Nat) (F M Φ : Nat → ℝ)
    (t₀ lev d : ℝ) (h : Floors p n s N m M t₀ lev d) (hm : 1 ≤ m) (h9 : 9 ≤ N) (hsixth : 6 * m ≤ N) :
    ∃ D a, trackParams (hingeRegressor solve) npMean p n (wholeTrack s N F M Φ) =
        .ok [[some (((List.range N).map F).sum / N), some D, some a]] ∧ d < D := by
  obtain ⟨D, a, g1, g2, _⟩ := C157_limits solve hin p n s N m F M Φ t₀ lev d h hm
  refine ⟨D, a, g1, lt_of_lt_of_le ?_ g2⟩
  have h1 : (1 : ℝ) ≤ m := by exact_mod_cast hm
  have h2 : (9 : ℝ) ≤ N := by exact_mod_cast h9
  have h3 : 6 * (m : ℝ) ≤ N := by exact_mod_cast hsixth
  have hp : (0 : ℝ) < N * ((N : ℝ) ^ 2 - 1) := mul_pos (by linarith) (by nlinarith)
  have hρ := share_pos N m hm h.knee
  have hlt : 8 * share (N : ℝ) m < 1 := by
    rw [share, ← mul_div_assoc, div_lt_one hp]
    rcases Nat.lt_or_ge m 2 with hm2 | hm2
    · obtain rfl : m = 1 := by omega
      push_cast
      nlinarith [mul_nonneg (by linarith : (0 : ℝ) ≤ (N : ℝ) - 1) (by nlinarith : (0 : ℝ) ≤ (N : ℝ) * (N + 1) - 90)]
    · have h4 : (2 : ℝ) ≤ m := by exact_mod_cast hm2
      have h5 : 36 * ((m : ℝ) * (m + 1)) ≤ N * (N + 6) := by nlinarith
      have h6 : (m : ℝ) * (m + 1) * (3 * N - 2 * m - 1) ≤ m * (m + 1) * (3 * (N - 1)) :=
        mul_le_mul_of_nonneg_left (by linarith) (by positivity)
      have h7 := mul_le_mul_of_nonneg_right h5 (by linarith : (0 : ℝ) ≤ (N : ℝ) - 1)
      nlinarith [mul_pos (mul_pos (by linarith : (0 : ℝ) < N) (by linarith : (0 : ℝ) < (N : ℝ) - 1))
        (by linarith : (0 : ℝ) < (N : ℝ) - 9)]
  rw [lt_div_iff₀ (by positivity)]
  nlinarith [h.decay]

/-- C157: if the level falls over at most a quarter of a track of at least twenty frames, the amplitude found is too
small, whatever the search, by a factor of at least `e^(-t₀ / d)`. -/
theorem C157_quarter (solve : (Hinge.Coeffs ℝ → List ℝ) → Hinge.Coeffs ℝ → Hinge.Coeffs ℝ → Hinge.Coeffs ℝ →
      Except PyErr (Hinge.Coeffs ℝ)) (hin : SolverIn solve) (p : Sms.Params ℝ) (n s N m : Nat) (F M Φ : Nat → ℝ)
    (t₀ lev d : ℝ) (h : Floors p n s N m M t₀ lev d) (hm : 1 ≤ m) (h20 : 20 ≤ N) (hquarter : 4 * m ≤ N) :
    ∃ D a, trackParams (hingeRegressor solve) npMean p n (wholeTrack s N F M Φ) =
        .ok [[some (((List.range N).map F).sum / N), some D, some a]] ∧
      a ≤ 2 * 10 ^ (lev / 20) * Real.exp (2 * t₀ / d) * Real.exp (-t₀ / d) := by
  obtain ⟨D, a, g1, _, _, _, g5⟩ := C157_limits solve hin p n s N m F M Φ t₀ lev d h hm
  refine ⟨D, a, g1, le_trans g5 ?_⟩
  have h1 : (1 : ℝ) ≤ m := by exact_mod_cast hm
  have h2 : (20 : ℝ) ≤ N := by exact_mod_cast h20
  have h3 : 4 * (m : ℝ) ≤ N := by exact_mod_cast hquarter
  have hp : (0 : ℝ) < N * ((N : ℝ) ^ 2 - 1) := mul_pos (by linarith) (by nlinarith)
  have hΔ : 0 < (p.hop : ℝ) / p.tracker.fs := div_pos (by exact_mod_cast h.hop) h.fs
  have hs : 4 * share (N : ℝ) m ≤ 1 := by
    rw [share, ← mul_div_assoc, div_le_one hp]
    have h5 : 16 * ((m : ℝ) * (m + 1)) ≤ N * (N + 4) := by nlinarith
    have h6 : (m : ℝ) * (m + 1) * (3 * N - 2 * m - 1) ≤ m * (m + 1) * (3 * (N - 1)) :=
      mul_le_mul_of_nonneg_left (by linarith) (by positivity)
    have h7 := mul_le_mul_of_nonneg_right h5 (by linarith : (0 : ℝ) ≤ (N : ℝ) - 1)
    nlinarith [mul_nonneg (mul_nonneg (by linarith : (0 : ℝ) ≤ N) (by linarith : (0 : ℝ) ≤ (N : ℝ) - 1))
      (by linarith : (0 : ℝ) ≤ (N : ℝ) - 8)]
  have hδ : (m : ℝ) ≤ 2 * miss (N : ℝ) m := by
    have hp' : (0 : ℝ) < N * ((N : ℝ) + 1) := by nlinarith
    rw [miss, ← mul_div_assoc, le_div_iff₀ hp']
    have : (N : ℝ) * (N + 1) ≤ 2 * ((N - m : ℝ) * (N - m - 1)) := by nlinarith
    nlinarith
  have hsh : t₀ / 2 ≤ shortage t₀ (p.hop / p.tracker.fs) N m := by
    have h0 := h.nonneg
    apply le_min (by linarith)
    have e2 := mul_nonneg hΔ.le (sub_nonneg.2 hδ)
    have e3 := mul_nonneg (by linarith : 0 ≤ 1 / 2 - 2 * share (N : ℝ) m) h0
    linarith
  rw [mul_assoc _ (Real.exp (2 * t₀ / d)), ← Real.exp_add]
  apply mul_le_mul_of_nonneg_left _ (by positivity)
  rw [Real.exp_le_exp, ← add_div]
  apply div_le_div_of_nonneg_right _ h.decay.le
  linarith

/-- C157: a search that finds the minimum finds the decay time and the amplitude of the partial if and only if the bounds
contain them. -/
theorem C157_iff (solve : (Hinge.Coeffs ℝ → List ℝ) → Hinge.Coeffs ℝ → Hinge.Coeffs ℝ → Hinge.Coeffs ℝ →
      Except PyErr (Hinge.Coeffs ℝ)) (hmin : SolverMin solve) (hin : SolverIn solve) (p : Sms.Params ℝ)
    (n s N m : Nat) (F M Φ : Nat → ℝ) (t₀ lev d : ℝ) (h : Floors p n s N m M t₀ lev d) (hm : 2 ≤ m) :
    trackParams (hingeRegressor solve) npMean p n (wholeTrack s N F M Φ) =
      .ok [[some (((List.range N).map F).sum / N), some d,
        some (2 * 10 ^ (lev / 20) * Real.exp (2 * t₀ / d))]] ↔
    1 ≤ 8 * share N m ∧ shortage t₀ (p.hop / p.tracker.fs) N m ≤ 0 := by
  constructor
  · intro he
    obtain ⟨D, a, g1, g2, _, _, g5⟩ := C157_limits solve hin p n s N m F M Φ t₀ lev d h (by omega)
    rw [he] at g1
    simp only [Except.ok.injEq, List.cons.injEq, Option.some.injEq, and_true, true_and] at g1
    obtain ⟨rfl, rfl⟩ := g1
    have hρ := share_pos N m (by omega) h.knee
    have hd := h.decay
    refine ⟨?_, ?_⟩
    · rw [div_le_iff₀ (by positivity)] at g2
      exact le_of_mul_le_mul_left (by linarith) hd
    · have := le_of_mul_le_mul_left g5 (by positivity)
      rw [Real.exp_le_exp, div_le_div_iff_of_pos_right hd] at this
      linarith
  · rintro ⟨h1, h2⟩
    exact C157_exact solve hmin p n s N m F M Φ t₀ lev d h hm h1 h2

/-! ## Concrete cases -/

/-- The line for the values 0, 1, 2, 2. -/
example : share 4 2 = 7 / 10 ∧ miss 4 2 = 1 / 5 := by
  constructor <;> norm_num [share, miss]

/-- There is a search that stays within the bounds and finds a minimum whenever there is one. -/
theorem solverIn_exists : ∃ solve, SolverMin solve ∧ SolverIn solve := by
  classical
  refine ⟨fun f x0 lo hi => .ok (if h : InBox lo hi x0 ∧ ∃ r, Minimal f lo hi r then h.2.choose else x0),
    ?_, ?_⟩
  · intro f x0 lo hi h1 h2
    refine ⟨_, rfl, ?_⟩
    rw [dif_pos ⟨h1, h2⟩]
    exact h2.choose_spec
  · intro f x0 lo hi h1
    refine ⟨_, rfl, ?_⟩
    split
    · rename_i h
      exact h.2.choose_spec.1
    · exact h1

/-- Frames half a second apart, from a quarter of a second: the level falls by 10 dB per frame, `m` times. -/
theorem exFloors (N m : Nat) (h : m < N) : Floors (exSimilar false false) (4 * N) 0 N m (fun i => -10 * min (i : ℝ) m)
    (1 / 4) 0 (2 * Real.logb 10 (Real.exp 1)) := by
  have hlog : 0 < Real.logb 10 (Real.exp 1) :=
    Real.logb_pos (by norm_num) (Real.one_lt_exp_iff.2 one_pos)
  have hexp : ∀ v : ℝ, 20 * Real.logb 10 (Real.exp (-2 * v / (2 * Real.logb 10 (Real.exp 1)))) = -20 * v := by
    intro v
    rw [← Real.exp_one_rpow (-2 * v / _), Real.logb_rpow_eq_mul_logb_of_pos (Real.exp_pos 1)]
    field_simp
  have hrev : (exSimilar false false).reverse = false := rfl
  have ht : ∀ k : Nat, centreTime (exSimilar false false) (4 * N) k = 1 / 4 + k / 2 := by
    intro k
    unfold centreTime
    rw [hrev]
    simp [exSimilar]
    ring
  refine ⟨by simp [exSimilar], by norm_num [exSimilar], h, by positivity, ?_, by norm_num, ?_⟩
  · rw [ht, earliest, hrev]; simp
  · intro i _
    rw [hexp, ht]
    have e : (1 / 4 : ℝ) + m * (exSimilar false false).hop / (exSimilar false false).tracker.fs = 1 / 4 + m / 2 := by
      norm_num [exSimilar]
      ring
    rw [e, min_add_add_left, zero_add, Nat.zero_add, min_div_div_right (by norm_num : (0 : ℝ) ≤ 2)]
    ring

/-- The levels 0, -10, -20, -20 dB: found exactly. -/
example (solve : (Hinge.Coeffs ℝ → List ℝ) → Hinge.Coeffs ℝ → Hinge.Coeffs ℝ →
      Hinge.Coeffs ℝ → Except PyErr (Hinge.Coeffs ℝ)) (hmin : SolverMin solve) :
    trackParams (hingeRegressor solve) npMean (exSimilar false false) 16
        ⟨0, [some 2, some 2, some 2, some 2], [some 0, some (-10), some (-20), some (-20)],
          [some 0, some 0, some 0, some 0]⟩ =
      .ok [[some 2, some (2 * Real.logb 10 (Real.exp 1)),
        some (2 * Real.exp (2 * (1 / 4) / (2 * Real.logb 10 (Real.exp 1))))]] := by
  have h := C157_half solve hmin _ _ _ _ _ (fun _ => 2) _ (fun _ => 0) _ _ _ (exFloors 4 2 (by norm_num)) (le_refl _)
    (by norm_num)
  have e : wholeTrack 0 4 (fun _ => 2) (fun i => -10 * min (i : ℝ) (2 : Nat)) (fun _ => 0) =
      ⟨0, [some 2, some 2, some 2, some 2], [some 0, some (-10), some (-20), some (-20)],
          [some 0, some 0, some 0, some 0]⟩ := by
    simp [wholeTrack, List.range_succ]
    norm_num
  rw [e] at h
  rw [h]
  norm_num [List.range_succ]

/-- Twenty frames that fall by 30 dB in the first four and are constant from there: the decay time is too long and
the amplitude too small. -/
example (solve : (Hinge.Coeffs ℝ → List ℝ) → Hinge.Coeffs ℝ → Hinge.Coeffs ℝ →
      Hinge.Coeffs ℝ → Except PyErr (Hinge.Coeffs ℝ)) (hin : SolverIn solve) :
    ∃ D a, trackParams (hingeRegressor solve) npMean (exSimilar false false) 80
        (wholeTrack 0 20 (fun _ => 2) (fun i => -10 * min (i : ℝ) (3 : Nat)) (fun _ => 0)) =
        .ok [[some 2, some D, some a]] ∧ 2 * Real.logb 10 (Real.exp 1) < D ∧
      a ≤ 2 * Real.exp (2 * (1 / 4) / (2 * Real.logb 10 (Real.exp 1))) *
        Real.exp (-(1 / 4) / (2 * Real.logb 10 (Real.exp 1))) := by
  obtain ⟨D, a, h1, h2⟩ := C157_sixth solve hin _ _ _ _ _ (fun _ => 2) _ (fun _ => 0) _ _ _
    (exFloors 20 3 (by norm_num)) (by norm_num) (by norm_num) (by norm_num)
  obtain ⟨D', a', h3, h4⟩ := C157_quarter solve hin _ _ _ _ _ (fun _ => 2) _ (fun _ => 0) _ _ _
    (exFloors 20 3 (by norm_num)) (by norm_num) (by norm_num) (by norm_num)
  rw [h1] at h3
  simp only [Except.ok.injEq, List.cons.injEq, Option.some.injEq, and_true, true_and] at h3
  obtain ⟨rfl, rfl⟩ := h3
  refine ⟨D, a, ?_, h2, ?_⟩
  · rw [show (80 : Nat) = 4 * 20 from rfl, h1]
    norm_num [List.range_succ]
  · rw [zero_div, Real.rpow_zero, mul_one] at h4
    exact h4

end Verif.Sample
