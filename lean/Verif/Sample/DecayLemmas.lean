import Verif.Sample.FitProps
import Verif.Sample.DecaySpec
import Verif.Sms.SimilarProps

/-!
# Lemmas for C126: regression of tracks that fall on a line
-/

set_option autoImplicit false
set_option linter.unusedSectionVars false
set_option linter.unusedSimpArgs false

namespace Verif.Sample

open Verif.Tracker Verif.Sms

theorem slope_box (x y : List ℝ) (k q : ℝ) (hk : k < 0) (lo hi : Hinge.Coeffs ℝ)
    (h : Hinge.defaultBounds x y k q = .ok (lo, hi)) : lo.k = 8 * k ∧ hi.k = k := by
  unfold Hinge.defaultBounds at h
  split at h
  · simp at h
  · split at h
    · simp at h
    · simp only [Hinge.slopeBounds, hk.ne, hk, if_true, if_false, Except.ok.injEq, Prod.mk.injEq] at h
      rw [← h.1, ← h.2]
      exact ⟨rfl, rfl⟩

theorem zip_map_self {α β : Type*} (g : α → β) (l : List α) : l.zip (l.map g) = l.map fun u => (u, g u) := by
  induction l with
  | nil => rfl
  | cons a l ih => simp [ih]

theorem cost_zero {f : Hinge.Coeffs ℝ → List ℝ} {r : Hinge.Coeffs ℝ} (h : cost f r ≤ 0) :
    ∀ v ∈ f r, v = 0 := by
  unfold cost at h
  have hn : ∀ l : List ℝ, 0 ≤ (l.map fun v => v ^ 2).sum := by
    intro l
    apply List.sum_nonneg
    intro a ha
    obtain ⟨v, _, rfl⟩ := List.mem_map.1 ha
    exact sq_nonneg v
  generalize f r = l at h ⊢
  induction l with
  | nil => intro v hv; simp at hv
  | cons a l ih =>
    simp only [List.map_cons, List.sum_cons] at h
    have h1 := hn l
    have h2 := sq_nonneg a
    intro v hv
    rcases List.mem_cons.1 hv with rfl | hv
    · have : v ^ 2 = 0 := by linarith
      exact pow_eq_zero_iff (by norm_num) |>.1 this
    · exact ih (by linarith) v hv

/-- The default regressor on points of a falling line: the hinge goes through all points. -/
theorem line_hinge (solve : (Hinge.Coeffs ℝ → List ℝ) → Hinge.Coeffs ℝ → Hinge.Coeffs ℝ → Hinge.Coeffs ℝ →
      Except PyErr (Hinge.Coeffs ℝ)) (hmin : SolverMin solve) (x : List ℝ) (k q : ℝ) (hk : k < 0)
    (a b : ℝ) (ha : a ∈ x) (hb : b ∈ x) (hab : a ≠ b) :
    ∃ r, Hinge.fit linearRegression Hinge.defaultCoeffsInit Hinge.defaultBounds solve x
        (x.map fun u => k * u + q) = .ok r ∧ 8 * k ≤ r.k ∧ r.k ≤ k ∧
      ∀ u ∈ x, r.k * min u r.a + r.q = k * u + q := by
  have hx0 : x ≠ [] := List.ne_nil_of_mem ha
  have hx2 : 2 ≤ x.length := by
    rcases x with _ | ⟨c, _ | ⟨d, l⟩⟩
    · simp at ha
    · simp at ha hb; exact absurd (ha.trans hb.symm) hab
    · simp
  set y := x.map fun u => k * u + q with hy
  have hy0 : y ≠ [] := by simpa [hy] using hx0
  have hz : ∀ p ∈ x.zip y, p.2 = k * p.1 + q := by
    rw [hy]
    intro p hp
    rw [zip_map_self] at hp
    obtain ⟨u, _, rfl⟩ := List.mem_map.1 hp
    rfl
  have hlin : linearRegression x y = .ok (k, q) := by
    have h1 := (line_leastSquares _ k q hz).1
    rw [leastSquares_iff x y (by simp [hy]) (sum_sq_pos x _ a b ha hb hab)] at h1
    unfold linearRegression
    rw [← h1.1, ← h1.2]
  obtain ⟨lo, hi, x0, h1, h2, h3, h4, h5, h6, h7, h8, h9, h10, h11, h12, h13, h14, h15, _⟩ :=
    Hinge.C28_feasible x y k q hx2 hy0
  obtain ⟨s1, s2⟩ := slope_box x y k q hk lo hi h1
  set f := Hinge.residuals x y with hf
  have hfit : Hinge.fit linearRegression Hinge.defaultCoeffsInit Hinge.defaultBounds solve x y =
      solve f x0 lo hi := by
    simp only [Hinge.fit, hlin, h1, h2, Hinge.leastSquares, h3, h4, h5, h6, h7, h8, h9, h10, h11, and_self,
      not_true, if_false, hf]
  have hres : ∀ r : Hinge.Coeffs ℝ, f r = x.map fun u => Hinge.hingeFunction u r.a r.k r.q - (k * u + q) := by
    intro r
    rw [hf, hy]
    simp only [Hinge.residuals, List.zipWith_map_right]
    rw [List.zipWith_self]
  have hzero : cost f ⟨hi.a, k, q⟩ = 0 := by
    unfold cost
    rw [hres]
    apply List.sum_eq_zero
    intro v hv
    simp only [List.map_map, List.mem_map, Function.comp] at hv
    obtain ⟨u, hu, rfl⟩ := hv
    rw [Hinge.hingeFunction, min_eq_left (h14 u hu).2]
    ring
  have hnn : ∀ r, 0 ≤ cost f r := by
    intro r
    apply List.sum_nonneg
    intro a ha
    obtain ⟨v, _, rfl⟩ := List.mem_map.1 ha
    exact sq_nonneg v
  have hbox : InBox lo hi ⟨hi.a, k, q⟩ := by
    rw [← h12, ← h13]
    exact ⟨⟨h3.le, le_refl _⟩, ⟨h8, h9⟩, h10, h11⟩
  obtain ⟨r, hr, hbr, hmr⟩ := hmin f x0 lo hi ⟨⟨h6, h7⟩, ⟨h8, h9⟩, h10, h11⟩
    ⟨⟨hi.a, k, q⟩, hbox, fun r' _ => by rw [hzero]; exact hnn r'⟩
  refine ⟨r, by rw [hfit, hr], ?_, ?_, ?_⟩
  · rw [← s1]; exact hbr.2.1.1
  · rw [← s2]; exact hbr.2.1.2
  · intro u hu
    have h0 := cost_zero (by have := hmr _ hbox; rwa [hzero] at this) (Hinge.hingeFunction u r.a r.k r.q -
      (k * u + q)) (by rw [hres]; exact List.mem_map.2 ⟨u, hu, rfl⟩)
    unfold Hinge.hingeFunction at h0
    linarith

/-- A hinge through three points of a falling line is the line. -/
theorem hinge_unique (k q a k' q' t1 t2 t3 : ℝ) (hk : k < 0) (h12 : t1 < t2) (h23 : t2 < t3)
    (e1 : k' * min t1 a + q' = k * t1 + q) (e2 : k' * min t2 a + q' = k * t2 + q)
    (e3 : k' * min t3 a + q' = k * t3 + q) : k' = k ∧ q' = q := by
  have ha : t2 < a := by
    by_contra h
    rw [not_lt] at h
    rw [min_eq_right h] at e2
    rw [min_eq_right (h.trans h23.le)] at e3
    nlinarith
  rw [min_eq_left ha.le] at e2
  rw [min_eq_left (h12.le.trans ha.le)] at e1
  have hz : (k' - k) * (t2 - t1) = 0 := by linarith
  have hk' : k' = k := by
    rcases mul_eq_zero.1 hz with h | h <;> linarith
  subst hk'
  exact ⟨rfl, by linarith⟩

theorem falling_aligned (rev : Bool) (L N : Nat) (f M G : ℝ) (φ : Nat → ℝ) :
    (fallingTrack rev L N f M G φ).Aligned := by
  refine ⟨by simp [fallingTrack], by simp [fallingTrack], ?_⟩
  intro j
  by_cases hj : j < N
  · simp [fallingTrack, hj, List.getElem?_replicate]
  · simp [fallingTrack, hj, List.getElem?_replicate]

theorem falling_kept (rev : Bool) (L N : Nat) (f M G : ℝ) (φ : Nat → ℝ) :
    kept (fallingTrack rev L N f M G φ) = (List.range N).map fun i =>
      ((if rev then L - N else 0) + i, ⟨f, M + ((if rev then N - 1 - i else i : Nat) : ℝ) * G,
        φ ((if rev then L - N else 0) + i)⟩) := by
  unfold kept
  rw [List.range'_eq_map_range, List.filterMap_map,
    show (fallingTrack rev L N f M G φ).mag.length = N by simp [fallingTrack]]
  apply filterMap_some_map
  intro i hi
  rw [List.mem_range] at hi
  simp only [Function.comp, Track.sampleAt, Nat.le_add_right, if_true, Nat.add_sub_cancel_left]
  simp [fallingTrack, hi, List.getElem?_replicate]

/-- The parameters that are fitted to a track with a falling level.  `t` is the time of the earliest frame. -/
theorem falling_params (solve : (Hinge.Coeffs ℝ → List ℝ) → Hinge.Coeffs ℝ → Hinge.Coeffs ℝ →
      Hinge.Coeffs ℝ → Except PyErr (Hinge.Coeffs ℝ)) (hmin : SolverMin solve) (p : Sms.Params ℝ)
    (hh : 1 ≤ p.hop) (hfs : 0 < p.tracker.fs) (hpad : p.padded = false) (n N : Nat) (hw : p.w.length ≤ n)
    (f M G : ℝ) (φ : Nat → ℝ) (hG : G < 0) (h2 : 2 ≤ N) (hN : N ≤ 1 + (n - p.w.length) / p.hop) :
    ∃ k q, trackParams (hingeRegressor solve) npMean p n
        (fallingTrack p.reverse (1 + (n - p.w.length) / p.hop) N f M G φ) =
        .ok [[some f, some (d2kConst / k), some (Dsp.db2a q)]] ∧
      8 * (G * p.tracker.fs / p.hop) ≤ k ∧ k ≤ G * p.tracker.fs / p.hop ∧
      (3 ≤ N → k = G * p.tracker.fs / p.hop ∧
        q = M + 20 * Real.logb 10 2 - G * p.tracker.fs / p.hop * earliestTime p n) := by
  set L := 1 + (n - p.w.length) / p.hop with hL
  set u := fallingTrack p.reverse L N f M G φ with hu
  set t0 := earliestTime p n with ht0
  set k0 := G * p.tracker.fs / p.hop with hk0
  have hhop : (0 : ℝ) < p.hop := by exact_mod_cast hh
  have hk0n : k0 < 0 := div_neg_of_neg_of_pos (mul_neg_of_neg_of_pos hG hfs) hhop
  have hul : u.mag.length = N := by simp [hu, fallingTrack]
  have hal := falling_aligned p.reverse L N f M G φ
  rw [← hu] at hal
  obtain ⟨r, kp, e0, e1, e2, e3, e4, _⟩ := C20_times (analysis p) n u hal.1 hal.2.1 hal.2.2 (by omega)
  have e1' : kp = kept u := e1
  rw [hu, falling_kept] at e1'
  set E : Nat → Nat := fun i => if p.reverse then N - 1 - i else i with hE
  set xs := (List.range N).map fun i => t0 + (E i : ℝ) * p.hop / p.tracker.fs with hxs
  have htime : r.time = xs := by
    rw [e2, e1', hxs, List.map_map]
    apply List.map_congr_left
    intro i hi
    rw [List.mem_range] at hi
    simp only [Function.comp, analysis, hpad, Bool.false_eq_true, if_false]
    show (if p.reverse = true then (n : ℝ) / p.tracker.fs - (((if p.reverse = true then L - N else 0) + i : Nat) *
        (p.hop : ℝ) / p.tracker.fs + (p.w.length : ℝ) / 2 / p.tracker.fs) else _) = _
    cases hr : p.reverse with
    | false =>
      simp only [Bool.false_eq_true, if_false, hE, hr, ht0, earliestTime]
      show ((0 + i : Nat) : ℝ) * (p.hop : ℝ) / p.tracker.fs + (p.w.length : ℝ) / 2 / p.tracker.fs = _
      push_cast
      field_simp
      ring
    | true =>
      simp only [if_true, hE, hr, ht0, earliestTime]
      have hn : (n : ℝ) = p.w.length + ((L - 1 : Nat) : ℝ) * p.hop + ((n - p.w.length) % p.hop : Nat) := by
        have := Nat.div_add_mod (n - p.w.length) p.hop
        have h3 : n = p.w.length + (L - 1) * p.hop + (n - p.w.length) % p.hop := by
          rw [hL, Nat.add_sub_cancel_left, mul_comm]; omega
        exact_mod_cast h3
      have hi' : ((L - N + i : Nat) : ℝ) = ((L - 1 : Nat) : ℝ) - ((N - 1 - i : Nat) : ℝ) := by
        rw [← Nat.cast_sub (by omega)]
        congr 1; omega
      rw [hi', hn]
      field_simp
      ring
  have hmag : r.mag = (xs.map fun v => k0 * v + (M + 20 * Real.logb 10 2 - k0 * t0)).map some := by
    rw [e4, e1', hxs, List.map_map, List.map_map, List.map_map]
    apply List.map_congr_left
    intro i _
    simp only [Function.comp, analysis, Option.some.injEq, hE, hk0]
    field_simp
    ring
  have hfreq : npMean r.freq = some f := by
    have : r.freq = (List.replicate N f).map some := by
      rw [e3, e1', List.map_map]
      simp [Function.comp_def, List.map_const']
    rw [this, npMean_map _ (by intro h; simp at h; omega)]
    unfold mean
    have : (N : ℝ) ≠ 0 := by
      have : 0 < N := by omega
      positivity
    simp [this]
  have hmem : ∀ j, j < N → t0 + (j : ℝ) * p.hop / p.tracker.fs ∈ xs := by
    intro j hj
    rw [hxs]
    refine List.mem_map.2 ⟨E j, ?_, ?_⟩
    · rw [List.mem_range]
      simp only [hE]; split <;> omega
    · congr 4
      simp only [hE]; split <;> omega
  have hlt : ∀ i j : Nat, i < j → t0 + (i : ℝ) * p.hop / p.tracker.fs < t0 + (j : ℝ) * p.hop / p.tracker.fs := by
    intro i j hij
    have : (i : ℝ) < j := by exact_mod_cast hij
    have := div_lt_div_of_pos_right (mul_lt_mul_of_pos_right this hhop) hfs
    linarith
  obtain ⟨c, g1, g2, g3, g4⟩ := line_hinge solve hmin xs k0 (M + 20 * Real.logb 10 2 - k0 * t0) hk0n _ _
    (hmem 0 (by omega)) (hmem 1 (by omega)) (hlt 0 1 (by omega)).ne
  have hreg : hingeRegressor solve r.time r.mag = .ok (c.k, c.q) := by
    rw [hmag, htime]
    simp only [hingeRegressor, allSome_map, g1]
  have hck : c.k ≠ 0 := by linarith [lt_of_le_of_lt g3 hk0n]
  refine ⟨c.k, c.q, ?_, g2, g3, ?_⟩
  · simp only [trackParams, e0, fitTrack, hreg, hfreq, slopeToDecay, if_neg hck]
  · intro h3
    exact hinge_unique k0 _ c.a c.k c.q _ _ _ hk0n (hlt 0 1 (by omega)) (hlt 1 2 (by omega))
      (g4 _ (hmem 0 (by omega))) (g4 _ (hmem 1 (by omega))) (g4 _ (hmem 2 (by omega)))

/-- `SAMPLE.fit` when every track gives finite parameters. -/
theorem fit_of_params (spec : List ℝ → List ℝ × List ℝ) (sort : List (Peak ℝ) → List Nat)
    (reg : List ℝ → List (Option ℝ) → Except PyErr (ℝ × ℝ)) (m m' : Sms.Model ℝ) (x : List ℝ)
    (fr : List (List ℝ)) (hfr : Sms.timeFrames m.params.padded m.params.w.length m.params.hop x = .ok fr)
    (hm : m.fit spec sort x Sms.Kwargs.none = .ok m') (F D A : Track ℝ → ℝ)
    (hD : ∀ u ∈ m'.tracks, trackParams reg npMean m'.params x.length u =
      .ok [[some (F u), some (D u), some (A u)]]) :
    fit spec sort reg npMean false (some 0) [] m x = some (.ok (m',
      [m'.tracks.map fun u => some (F u), m'.tracks.map fun u => some (D u),
        m'.tracks.map fun u => some (A u)])) ∧
    ∀ poolGiven nJobs evs res, Training.poolOk poolGiven nJobs = true →
      fit spec sort reg npMean poolGiven nJobs evs m x = some res →
      some res = fit spec sort reg npMean false (some 0) [] m x := by
  have hmap := starmapList_map (trackParams reg npMean m'.params x.length)
    (fun u => [[some (F u), some (D u), some (A u)]]) m'.tracks hD
  have hctx : Training.contextMap false (some 0) (trackParams reg npMean m'.params x.length) m'.tracks [] =
      some (.ok (m'.tracks.map fun u => [[some (F u), some (D u), some (A u)]])) := by
    simp [Training.contextMap, Training.contextStarmap, Training.poolOk, hmap]
  have hflat : (m'.tracks.map fun u => [[some (F u), some (D u), some (A u)]]).flatten =
      m'.tracks.map fun u => [some (F u), some (D u), some (A u)] := by
    generalize m'.tracks = l
    induction l with
    | nil => rfl
    | cons a l ih => simp only [List.map_cons, List.flatten_cons, ih]; rfl
  have hclean : cleanParams 3 (m'.tracks.map fun u => [some (F u), some (D u), some (A u)]) =
      .ok [m'.tracks.map fun u => some (F u), m'.tracks.map fun u => some (D u),
        m'.tracks.map fun u => some (A u)] := by
    obtain ⟨rows, r1, r2, r3, r4⟩ := C22_finite_columns 3 (by norm_num) (m'.tracks.map fun u =>
      [some (F u), some (D u), some (A u)]) (by
        intro c hc
        obtain ⟨tr, _, rfl⟩ := List.mem_map.1 hc
        rfl)
    rw [r1]
    have hrow : ∀ (r : Nat) (row : List (Option ℝ)), rows[r]? = some row → row.map some =
        m'.tracks.map fun u => [some (F u), some (D u), some (A u)][r]? := by
      intro r row h
      rw [r4 r row h, List.filter_eq_self.2, List.map_map]
      · rfl
      · intro c hc
        obtain ⟨tr, _, rfl⟩ := List.mem_map.1 hc
        rfl
    have hinj : Function.Injective (List.map (some : Option ℝ → Option (Option ℝ))) :=
      List.map_injective_iff.2 (Option.some_injective _)
    obtain ⟨ra, rb, rc, rfl⟩ := List.length_eq_three.1 r2
    have ea : ra = m'.tracks.map fun u => some (F u) := by
      apply hinj; rw [hrow 0 ra rfl]; simp [Function.comp_def]
    have eb : rb = m'.tracks.map fun u => some (D u) := by
      apply hinj; rw [hrow 1 rb rfl]; simp [Function.comp_def]
    have ec : rc = m'.tracks.map fun u => some (A u) := by
      apply hinj; rw [hrow 2 rc rfl]; simp [Function.comp_def]
    rw [ea, eb, ec]
  have hseq : fit spec sort reg npMean false (some 0) [] m x = some (.ok (m',
      [m'.tracks.map fun u => some (F u), m'.tracks.map fun u => some (D u),
        m'.tracks.map fun u => some (A u)])) := by
    unfold fit
    rw [show Training.poolOk false (some 0) = true from rfl, hfr]
    simp only [hm, hctx, hflat, hclean, Bool.not_true, Bool.false_eq_true, if_false]
  refine ⟨hseq, ?_⟩
  intro poolGiven nJobs evs res hj h
  rw [hseq]
  unfold fit at h
  rw [hj, hfr] at h
  simp only [hm, Bool.not_true, Bool.false_eq_true, if_false] at h
  split at h
  · simp at h
  · rename_i e he
    have := ((Training.C56_context _ _ _ _ _ _ he).1 ((Training.poolOk_iff _ _).1 hj)).1
    rw [hctx] at this
    simp at this
  · rename_i cols he
    have := ((Training.C56_context _ _ _ _ _ _ he).1 ((Training.poolOk_iff _ _).1 hj)).1
    rw [hctx] at this
    simp only [Option.some.injEq, Except.ok.injEq] at this
    rw [← this, hflat, hclean] at h
    exact h.symm

end Verif.Sample
