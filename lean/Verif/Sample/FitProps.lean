import Verif.Sample.FitLemmas
import Verif.Tracker.Props

/-!
# Properties of `SAMPLE.fit` as a whole (C56, C65, C69)
-/

set_option autoImplicit false
set_option linter.unusedSectionVars false
set_option linter.unusedSimpArgs false

namespace Verif.Sample

open Verif.Tracker

/-- What is assumed of the search of `scipy.optimize.least_squares`: for feasible bounds it returns
a point whose slope is within the bounds. -/
def SolverOk (solve : (Hinge.Coeffs ℝ → List ℝ) → Hinge.Coeffs ℝ → Hinge.Coeffs ℝ → Hinge.Coeffs ℝ →
      Except PyErr (Hinge.Coeffs ℝ)) : Prop :=
  ∀ f x0 lo hi, lo.k ≤ x0.k → x0.k ≤ hi.k → ∃ r, solve f x0 lo hi = .ok r ∧ lo.k ≤ r.k ∧ r.k ≤ hi.k

/-- C65: the decay time of a track follows the least-squares trend of its magnitudes in forward
time: a decreasing trend of `-k` dB/s gives a positive decay time between the one of that trend and
an eighth of it; an increasing trend gives a negative one. -/
theorem C65_decay
    (solve : (Hinge.Coeffs ℝ → List ℝ) → Hinge.Coeffs ℝ → Hinge.Coeffs ℝ → Hinge.Coeffs ℝ →
      Except PyErr (Hinge.Coeffs ℝ)) (hsolve : SolverOk solve)
    (p : Sms.Params ℝ) (hh : 1 ≤ p.hop) (hfs : 0 < p.tracker.fs) (n : Nat) (t : Track ℝ)
    (ht : t.Aligned) (h2 : 2 ≤ (t.freq.filterMap id).length) (k q : ℝ)
    (hls : LeastSquares (trackPoints p t) k q) :
    ∃ (d : Option ℝ) (a : ℝ), trackParams (hingeRegressor solve) npMean p n t =
        .ok [[some (mean (t.freq.filterMap id)), d, some a]] ∧ 0 < a ∧ d ≠ some 0 ∧
      (k < 0 → ∃ d', d = some d' ∧ 40 * Real.logb 10 (Real.exp 1) / (8 * -k) ≤ d' ∧
        d' ≤ 40 * Real.logb 10 (Real.exp 1) / -k) ∧
      (0 < k → ∃ d', d = some d' ∧ -(40 * Real.logb 10 (Real.exp 1) / k) ≤ d' ∧
        d' ≤ -(40 * Real.logb 10 (Real.exp 1) / (8 * k))) := by
  have hlen : (kept t).length = (t.freq.filterMap id).length := by
    rw [← kept_freq t ht, List.length_map]
  have hl2 : 2 ≤ (kept t).length := by omega
  have hmag1 : t.mag.length ≠ 1 := by
    have h3 : (t.freq.filterMap id).length ≤ t.freq.length := List.length_filterMap_le _ _
    have := ht.1
    omega
  obtain ⟨r, kp, e0, e1, e2, e3, e4, _⟩ := C20_times (analysis p) n t ht.1 ht.2.1 ht.2.2 hmag1
  have e1' : kp = kept t := e1
  subst e1'
  -- the regression
  set xs := (kept t).map (fun e => pointTime p e.1) with hxs
  set ys := (kept t).map (fun e => e.2.mag) with hys
  have hz : trackPoints p t = xs.zip ys := by rw [hxs, hys, List.zip_map']; rfl
  have hxn : xs ≠ [] := by rw [hxs]; intro h; simp at h; simp [h] at hl2
  have hyn : ys ≠ [] := by rw [hys]; intro h; simp at h; simp [h] at hl2
  have hsp := points_spread p hh hfs t hl2
  have hfst : (trackPoints p t).map Prod.fst = xs := by simp [trackPoints, hxs, Function.comp_def]
  rw [hfst] at hsp
  rw [hz, leastSquares_iff xs ys (by simp [hxs, hys]) hsp] at hls
  obtain ⟨β, hβ⟩ : ∃ β : ℝ, r.time = xs.map fun x => 1 * x + β := by
    rw [e2, hxs]
    simp only [List.map_map, Function.comp_def]
    by_cases hr : p.modal = true ∧ p.tracker.reverse = true
    · have hr' : p.reverse = true := by simp [Sms.Params.reverse, hr]
      refine ⟨(n : ℝ) / p.tracker.fs -
        (if (analysis p).padded then 0 else ((analysis p).wsize : ℝ) / 2 / p.tracker.fs), ?_⟩
      apply List.map_congr_left
      intro e _
      simp only [analysis, Sms.Params.cfg, hr', if_true, pointTime, hr, and_self]
      ring
    · have hr' : p.reverse = false := by
        simp only [Sms.Params.reverse]
        cases h1 : p.modal <;> cases h2 : p.tracker.reverse <;> simp_all
      refine ⟨(if (analysis p).padded then 0 else ((analysis p).wsize : ℝ) / 2 / p.tracker.fs), ?_⟩
      apply List.map_congr_left
      intro e _
      simp only [analysis, Sms.Params.cfg, hr', if_false, Bool.false_eq_true, pointTime, hr]
      ring
  have hmag : r.mag = (ys.map fun y => y + (analysis p).doubleDb).map some := by
    rw [e4, hys]; simp [Function.comp_def]
  set y' := ys.map fun y => y + (analysis p).doubleDb with hy'
  have hslope : olsSlope r.time y' = k := by
    rw [hβ, hy', olsSlope_affine 1 β _ one_ne_zero xs ys hxn hyn, div_one, hls.1]
  have hy'n : y' ≠ [] := by rw [hy']; simpa using hyn
  have hlin : linearRegression r.time y' = .ok (k, olsIntercept r.time y') := by
    rw [linearRegression, hslope]
  have hrt : 2 ≤ r.time.length := by rw [hβ]; simpa [hxs] using hl2
  obtain ⟨x0, lo, hi, f1, f2, f3, f4, _⟩ := Hinge.C28_fit linearRegression solve r.time y' k _ hlin hrt hy'n
  obtain ⟨c, g1, _, _⟩ := hsolve (fun p => List.zipWith (fun u v => p.k * min u p.a + p.q - v)
    r.time y') x0 lo hi (by rw [f4]; exact f2) (by rw [f4]; exact f3)
  rw [g1] at f1
  have hsign := Hinge.C65_slope_sign linearRegression solve
    (fun f x0 lo hi r h1 h2 h => by
      obtain ⟨r', h3, h4⟩ := hsolve f x0 lo hi h1 h2
      rw [h3] at h
      cases h
      exact h4) r.time y' k _ hlin c f1
  have hreg : hingeRegressor solve r.time r.mag = .ok (c.k, c.q) := by
    rw [hmag]
    simp only [hingeRegressor, allSome_map, f1]
  have hfreq : npMean r.freq = some (mean (t.freq.filterMap id)) := by
    have : r.freq = (t.freq.filterMap id).map some := by
      rw [e3, ← kept_freq t ht]; simp [Function.comp_def]
    rw [this, npMean_map]
    intro h; rw [h] at h2; simp at h2
  have hlog : 0 < 40 * Real.logb 10 (Real.exp 1) := by
    have : 0 < Real.logb 10 (Real.exp 1) := Real.logb_pos (by norm_num) (Real.one_lt_exp_iff.2 one_pos)
    positivity
  set L := 40 * Real.logb 10 (Real.exp 1) with hL
  have hdc : d2kConst = -L := by rw [d2kConst, hL]; ring
  refine ⟨slopeToDecay c.k, Verif.Dsp.db2a c.q, ?_, Real.rpow_pos_of_pos (by norm_num) _, ?_, ?_, ?_⟩
  · simp only [trackParams, e0, fitTrack, hreg, hfreq]
  · unfold slopeToDecay
    split
    · simp
    · rename_i hk
      simp only [ne_eq, Option.some.injEq]
      rw [hdc]
      exact div_ne_zero (neg_ne_zero.2 hlog.ne') hk
  · intro hk
    obtain ⟨s1, s2⟩ := hsign.1 hk
    have hc : c.k < 0 := by linarith
    refine ⟨d2kConst / c.k, by simp [slopeToDecay, hc.ne], ?_, ?_⟩
    · rw [hdc, neg_div, ← div_neg]
      apply div_le_div_of_nonneg_left hlog.le (by linarith) (by linarith)
    · rw [hdc, neg_div, ← div_neg]
      apply div_le_div_of_nonneg_left hlog.le (by linarith) (by linarith)
  · intro hk
    obtain ⟨s1, s2⟩ := hsign.2.1 hk
    have hc : 0 < c.k := by linarith
    refine ⟨d2kConst / c.k, by simp [slopeToDecay, hc.ne'], ?_, ?_⟩
    · rw [hdc, neg_div]
      exact neg_le_neg (div_le_div_of_nonneg_left hlog.le hk s1)
    · rw [hdc, neg_div]
      exact neg_le_neg (div_le_div_of_nonneg_left hlog.le (by linarith) s2)

/-- C65: a track that the modal tracker reports and that was never merged (it has no NaN) has a trend
that does not increase in forward time. -/
theorem C65_unmerged (p : Sms.Params ℝ) (hm : p.modal = true) (hh : 1 ≤ p.hop)
    (hfs : 0 < p.tracker.fs) (t : Track ℝ) (ht : t.Aligned) (hp : Parts p.cfg t) (hn : none ∉ t.mag)
    (k q : ℝ) (hls : LeastSquares (trackPoints p t) k q) : k ≤ 0 := by
  obtain ⟨a, rfl, hok, hlen⟩ := hp.unmerged hn
  obtain ⟨h1, _, _, h4, _⟩ := (modalTrackOk_iff p.cfg a).1 hok
  have h2 : (2 : ℤ) ≤ p.cfg.toCfg.minSineLen := le_max_left _ _
  set t := numpyTrack a with hta
  have hN : 2 ≤ a.mag.length := by omega
  have hmag : t.mag.filterMap id = a.mag := by simp [hta, numpyTrack]
  have hys : (kept t).map (fun e => e.2.mag) = a.mag := by rw [kept_mag t ht, hmag]
  have hxs : (kept t).map (fun e => e.1) = List.range' a.start a.mag.length := by
    rw [kept_frames_eq t ht hn]; simp [hta, numpyTrack]
  have hl2 : 2 ≤ (kept t).length := by
    rw [← hys, List.length_map] at hN; exact hN
  have hsp := points_spread p hh hfs t hl2
  have hz : trackPoints p t =
      ((kept t).map fun e => pointTime p e.1).zip ((kept t).map fun e => e.2.mag) := by
    rw [List.zip_map']; rfl
  have hfst : (trackPoints p t).map Prod.fst = (kept t).map fun e => pointTime p e.1 := by
    simp [trackPoints, Function.comp_def]
  rw [hfst] at hsp
  rw [hz, leastSquares_iff _ _ (by simp) hsp] at hls
  have hα : (0 : ℝ) < (p.hop : ℝ) / p.tracker.fs := by
    have : (0 : ℝ) < p.hop := by exact_mod_cast hh
    positivity
  obtain ⟨β, hβ⟩ : ∃ β : ℝ, ((kept t).map fun e => pointTime p e.1) =
      (lmX p.cfg.reverse a.mag.length).map fun x => (p.hop : ℝ) / p.tracker.fs * x + β := by
    have e1 : ((kept t).map fun e => pointTime p e.1) =
        (List.range a.mag.length).map fun i => pointTime p (a.start + i) := by
      have : ((kept t).map fun e => pointTime p e.1) = ((kept t).map fun e => e.1).map (pointTime p) := by
        simp [Function.comp_def]
      rw [this, hxs, List.range'_eq_map_range, List.map_map]; rfl
    rw [e1]
    by_cases hr : p.tracker.reverse = true
    · refine ⟨-((a.start : ℝ) + ((a.mag.length - 1 : Nat) : ℝ)) * ((p.hop : ℝ) / p.tracker.fs), ?_⟩
      have : p.cfg.reverse = true := hr
      apply List.ext_getElem?
      intro i
      simp only [lmX, this, if_true, List.getElem?_map]
      by_cases hi : i < a.mag.length
      · rw [List.getElem?_reverse (by simpa using hi)]
        simp only [List.length_map, List.length_range, List.getElem?_map, List.getElem?_range hi,
          Option.map_some, List.getElem?_range (show a.mag.length - 1 - i < a.mag.length by omega),
          Option.some.injEq, pointTime, hm, hr, and_self, if_true]
        have : ((a.mag.length - 1 - i : Nat) : ℝ) = ((a.mag.length - 1 : Nat) : ℝ) - (i : ℝ) := by
          rw [Nat.cast_sub (by omega)]
        rw [this]
        push_cast
        ring
      · rw [List.getElem?_eq_none (by simp; omega), List.getElem?_eq_none (by simp; omega)]
        rfl
    · refine ⟨(a.start : ℝ) * ((p.hop : ℝ) / p.tracker.fs), ?_⟩
      have : p.cfg.reverse = false := by
        change p.tracker.reverse = false
        simpa using hr
      simp only [lmX, this, Bool.false_eq_true, if_false, List.map_map]
      apply List.map_congr_left
      intro i _
      simp only [pointTime, if_neg (fun h : p.modal = true ∧ p.tracker.reverse = true => hr h.2),
        Function.comp]
      push_cast
      ring
  rw [hls.1, hβ, hys]
  have hxn : (lmX p.cfg.reverse a.mag.length : List ℝ) ≠ [] := by
    intro h
    have := congrArg List.length h
    simp only [lmX] at this
    split at this <;> simp at this <;> simp [this] at hN
  have hyn : a.mag ≠ [] := by rintro h; simp [h] at hN
  have := olsSlope_affine _ β 0 hα.ne' (lmX p.cfg.reverse a.mag.length) a.mag hxn hyn
  simp only [add_zero, List.map_id'] at this
  rw [this]
  exact div_nonpos_of_nonpos_of_nonneg h4 hα.le

theorem points_leastSquares (p : Sms.Params ℝ) (hh : 1 ≤ p.hop) (hfs : 0 < p.tracker.fs) (t : Track ℝ)
    (ht : t.Aligned) (h2 : 2 ≤ (t.freq.filterMap id).length) :
    ∃ k q, LeastSquares (trackPoints p t) k q ∧
      ∀ k' q', LeastSquares (trackPoints p t) k' q' → k' = k := by
  have hl2 : 2 ≤ (kept t).length := by
    rw [← kept_freq t ht, List.length_map] at h2; exact h2
  have hsp := points_spread p hh hfs t hl2
  set xs := (trackPoints p t).map Prod.fst
  set ys := (trackPoints p t).map Prod.snd
  have hz : trackPoints p t = xs.zip ys := by
    simp only [xs, ys]
    rw [List.zip_map']
    simp
  have := fun k q => leastSquares_iff xs ys (by simp [xs, ys]) hsp k q
  refine ⟨olsSlope xs ys, olsIntercept xs ys, ?_, ?_⟩
  · rw [hz, this]; exact ⟨rfl, rfl⟩
  · intro k' q' h
    rw [hz, this] at h
    exact h.1

theorem starmapList_map {α β : Type*} (f : α → Except PyErr β) (g : α → β) :
    ∀ l : List α, (∀ a ∈ l, f a = .ok (g a)) → Training.starmapList f l = .ok (l.map g) := by
  intro l
  induction l with
  | nil => intro _; rfl
  | cons a l ih =>
    intro h
    simp only [Training.starmapList, h a (by simp), ih (fun b hb => h b (by simp [hb])), List.map_cons]

/-- C69: what `SAMPLE.fit` guarantees with the modal or the plain tracker, the default regressor and
the default frequency reduction.  `T` lists the kept tracks with their decay times and amplitudes.
-/
theorem C69_fit (spec : List ℝ → List ℝ × List ℝ) (sort : List (Peak ℝ) → List Nat)
    (hsort : ∀ peaks, IsArgsort peaks (sort peaks))
    (solve : (Hinge.Coeffs ℝ → List ℝ) → Hinge.Coeffs ℝ → Hinge.Coeffs ℝ → Hinge.Coeffs ℝ →
      Except PyErr (Hinge.Coeffs ℝ)) (hsolve : SolverOk solve)
    (m : Sms.Model ℝ) (x : List ℝ) (p : Sms.Params ℝ) (hp : p = m.params)
    (hspec : ∀ z, z.length = p.n →
      (spec z).1.length = p.n / 2 + 1 ∧ (spec z).2.length = p.n / 2 + 1)
    (hw : p.w.sum ≠ 0) (h2 : 2 ≤ p.w.length) (hn : p.w.length ≤ p.n) (hh : 1 ≤ p.hop)
    (hfs : 0 < p.tracker.fs)
    (hk : p.modal = true → p.tracker.mergeStrategy = "average" ∨ p.tracker.mergeStrategy = "single")
    (hx : p.padded = true ∨ p.w.length ≤ x.length) :
    ∃ (m' : Sms.Model ℝ) (T : List (Track ℝ × ℝ × ℝ)) (P : Track ℝ → Bool),
      m.fit spec sort x Sms.Kwargs.none = .ok m' ∧
      fit spec sort (hingeRegressor solve) npMean false (some 0) [] m x = some (.ok (m',
        [T.map fun e => some (mean (e.1.freq.filterMap id)), T.map fun e => some e.2.1,
          T.map fun e => some e.2.2])) ∧
      (∀ poolGiven nJobs evs res, Training.poolOk poolGiven nJobs = true →
        fit spec sort (hingeRegressor solve) npMean poolGiven nJobs evs m x = some res →
        some res = fit spec sort (hingeRegressor solve) npMean false (some 0) [] m x) ∧
      T.map Prod.fst = m'.tracks.filter P ∧
      (∀ tr ∈ m'.tracks, ∀ k q, LeastSquares (trackPoints p tr) k q → k ≠ 0 → P tr = true) ∧
      ∀ e ∈ T, 0 < mean (e.1.freq.filterMap id) ∧ mean (e.1.freq.filterMap id) < p.tracker.fs / 2 ∧
        (p.modal = true →
          (∀ lo, p.tracker.freqLo = some lo → lo ≤ mean (e.1.freq.filterMap id)) ∧
          (∀ hi, p.tracker.freqHi = some hi → mean (e.1.freq.filterMap id) ≤ hi)) ∧
        e.2.1 ≠ 0 ∧ 0 < e.2.2 ∧
        ∃ k q, LeastSquares (trackPoints p e.1) k q ∧
          (k < 0 → 40 * Real.logb 10 (Real.exp 1) / (8 * -k) ≤ e.2.1 ∧
            e.2.1 ≤ 40 * Real.logb 10 (Real.exp 1) / -k) ∧
          (0 < k → e.2.1 < 0 ∧ -(40 * Real.logb 10 (Real.exp 1) / k) ≤ e.2.1 ∧
            e.2.1 ≤ -(40 * Real.logb 10 (Real.exp 1) / (8 * k))) ∧
          (p.modal = true → none ∉ e.1.mag → k ≤ 0) := by
  obtain ⟨m', frames, f1, f2, f3, f4, _, f6, f7, f8⟩ := Sms.C63_end_to_end spec sort hsort m x
    Sms.Kwargs.none p (by rw [hp]; rfl) hspec hw h2 hn hh hfs hk hx
  have htf : ∃ fr, Sms.timeFrames p.padded p.w.length p.hop x = .ok fr := by
    obtain ⟨fr, h, _⟩ := Sms.timeFrames_ok p.padded p.w.length p.hop x hh hx
    exact ⟨fr, h⟩
  obtain ⟨fr, hfr⟩ := htf
  have hex : ∀ tr ∈ m'.tracks, ∃ (d : Option ℝ) (a k q : ℝ),
      trackParams (hingeRegressor solve) npMean p x.length tr =
        .ok [[some (mean (tr.freq.filterMap id)), d, some a]] ∧ 0 < a ∧ d ≠ some 0 ∧
      LeastSquares (trackPoints p tr) k q ∧ (∀ k' q', LeastSquares (trackPoints p tr) k' q' → k' = k) ∧
      (k < 0 → ∃ d', d = some d' ∧ 40 * Real.logb 10 (Real.exp 1) / (8 * -k) ≤ d' ∧
        d' ≤ 40 * Real.logb 10 (Real.exp 1) / -k) ∧
      (0 < k → ∃ d', d = some d' ∧ -(40 * Real.logb 10 (Real.exp 1) / k) ≤ d' ∧
        d' ≤ -(40 * Real.logb 10 (Real.exp 1) / (8 * k))) := by
    intro tr htr
    obtain ⟨g1, g2, _, _⟩ := f7 tr htr
    obtain ⟨k, q, l1, l2⟩ := points_leastSquares p hh hfs tr g1 g2
    obtain ⟨d, a, e1, e2, e3, e4, e5⟩ := C65_decay solve hsolve p hh hfs x.length tr g1 g2 k q l1
    exact ⟨d, a, k, q, e1, e2, e3, l1, l2, e4, e5⟩
  choose! D A kk qq hD using hex
  set P : Track ℝ → Bool := fun tr => (D tr).isSome with hP
  set T : List (Track ℝ × ℝ × ℝ) := (m'.tracks.filter P).map fun tr => (tr, (D tr).getD 0, A tr)
    with hT
  have hmap : Training.starmapList (trackParams (hingeRegressor solve) npMean m'.params x.length)
      m'.tracks = .ok (m'.tracks.map fun tr =>
        [[some (mean (tr.freq.filterMap id)), D tr, some (A tr)]]) := by
    apply starmapList_map
    intro tr htr
    rw [f6]
    exact (hD tr htr).1
  have hctx : Training.contextMap false (some 0)
      (trackParams (hingeRegressor solve) npMean m'.params x.length) m'.tracks [] =
      some (.ok (m'.tracks.map fun tr => [[some (mean (tr.freq.filterMap id)), D tr, some (A tr)]])) := by
    simp [Training.contextMap, Training.contextStarmap, Training.poolOk, hmap]
  have hflat : (m'.tracks.map fun tr =>
      [[some (mean (tr.freq.filterMap id)), D tr, some (A tr)]]).flatten =
      m'.tracks.map fun tr => [some (mean (tr.freq.filterMap id)), D tr, some (A tr)] := by
    generalize m'.tracks = l
    induction l with
    | nil => rfl
    | cons a l ih => simp only [List.map_cons, List.flatten_cons, ih]; rfl
  have hclean : cleanParams 3 (m'.tracks.map fun tr =>
      [some (mean (tr.freq.filterMap id)), D tr, some (A tr)]) =
      .ok [T.map fun e => some (mean (e.1.freq.filterMap id)), T.map fun e => some e.2.1,
          T.map fun e => some e.2.2] := by
    obtain ⟨rows, r1, r2, r3, r4⟩ := C22_finite_columns 3 (by norm_num) (m'.tracks.map fun tr =>
      [some (mean (tr.freq.filterMap id)), D tr, some (A tr)]) (by
        intro c hc
        obtain ⟨tr, _, rfl⟩ := List.mem_map.1 hc
        rfl)
    rw [r1]
    congr 1
    have hfil : ((m'.tracks.map fun tr =>
        [some (mean (tr.freq.filterMap id)), D tr, some (A tr)]).filter fun c => c.all Option.isSome) =
        (m'.tracks.filter P).map fun tr =>
          [some (mean (tr.freq.filterMap id)), D tr, some (A tr)] := by
      rw [List.filter_map]
      congr 1
      apply List.filter_congr
      intro tr _
      simp [hP]
    have hrow : ∀ (r : Nat) (row : List (Option ℝ)), rows[r]? = some row → row.map some =
        (m'.tracks.filter P).map fun tr =>
          [some (mean (tr.freq.filterMap id)), D tr, some (A tr)][r]? := by
      intro r row h
      rw [r4 r row h, hfil, List.map_map]; rfl
    have hinj : Function.Injective (List.map (some : Option ℝ → Option (Option ℝ))) :=
      List.map_injective_iff.2 (Option.some_injective _)
    obtain ⟨ra, rb, rc, rfl⟩ := List.length_eq_three.1 r2
    have h0 := hrow 0 ra rfl
    have h1 := hrow 1 rb rfl
    have h2' := hrow 2 rc rfl
    have ea : ra = T.map fun e => some (mean (e.1.freq.filterMap id)) := by
      apply hinj
      rw [h0, hT]
      simp [Function.comp_def]
    have eb : rb = T.map fun e => some e.2.1 := by
      apply hinj
      rw [h1, hT]
      simp only [List.map_map]
      apply List.map_congr_left
      intro tr htr
      have : (D tr).isSome = true := (List.mem_filter.1 htr).2
      obtain ⟨d, hd⟩ := Option.isSome_iff_exists.1 this
      simp [hd]
    have ec : rc = T.map fun e => some e.2.2 := by
      apply hinj
      rw [h2', hT]
      simp [Function.comp_def]
    rw [ea, eb, ec]
  have hseq : fit spec sort (hingeRegressor solve) npMean false (some 0) [] m x = some (.ok (m',
        [T.map fun e => some (mean (e.1.freq.filterMap id)), T.map fun e => some e.2.1,
          T.map fun e => some e.2.2])) := by
    unfold fit
    rw [show Training.poolOk false (some 0) = true from rfl, ← hp, hfr]
    simp only [f1, hctx, hflat, hclean, Bool.not_true, Bool.false_eq_true, if_false]
  refine ⟨m', T, P, f1, hseq, ?_, ?_, ?_, ?_⟩
  · intro poolGiven nJobs evs res hj h
    rw [hseq]
    unfold fit at h
    rw [hj, ← hp, hfr] at h
    simp only [f1, Bool.not_true, Bool.false_eq_true, if_false] at h
    split at h
    · simp at h
    · rename_i e he
      have := ((Training.C56_context _ _ _ _ _ _ he).1 ((Training.poolOk_iff _ _).1 hj)).1
      rw [hctx] at this
      simp at this
    · rename_i cols he
      have := ((Training.C56_context _ _ _ _ _ _ he).1 ((Training.poolOk_iff _ _).1 hj)).1
      rw [hctx] at this
      simp only [Option.some.injEq, Except.ok.injEq] at this
      rw [← this, hflat, hclean] at h
      exact h.symm
  · rw [hT, List.map_map]
    simp [Function.comp_def]
  · intro tr htr k q hls hk0
    obtain ⟨_, _, _, _, d5, d6, d7⟩ := hD tr htr
    rw [d5 k q hls] at hk0
    rcases lt_or_gt_of_ne hk0 with h | h
    · obtain ⟨d', hd', _⟩ := d6 h
      simp [hP, hd']
    · obtain ⟨d', hd', _⟩ := d7 h
      simp [hP, hd']
  · intro e he
    rw [hT] at he
    obtain ⟨tr, htr, rfl⟩ := List.mem_map.1 he
    obtain ⟨htr, hsome⟩ := List.mem_filter.1 htr
    obtain ⟨d, hd⟩ := Option.isSome_iff_exists.1 hsome
    obtain ⟨d1, d2, d3, d4, d5, d6, d7⟩ := hD tr htr
    obtain ⟨g1, g2, _, g4⟩ := f7 tr htr
    have hfr2 : ∀ f ∈ tr.freq.filterMap id, 0 < f ∧ f < p.tracker.fs / 2 := by
      intro f hf
      rw [← kept_freq tr g1] at hf
      obtain ⟨e, he1, rfl⟩ := List.mem_map.1 hf
      obtain ⟨k, _, he2⟩ := List.mem_filterMap.1 he1
      obtain ⟨pk, hpk, rfl⟩ := Option.map_eq_some_iff.1 he2
      obtain ⟨_, _, _, _, _, _, b1, b2⟩ := f8 tr htr k pk hpk
      exact ⟨b1, b2⟩
    have hne : tr.freq.filterMap id ≠ [] := by intro h; rw [h] at g2; simp at g2
    simp only [hd, Option.getD_some]
    refine ⟨mean_pos _ hne fun f hf => (hfr2 f hf).1, mean_lt _ hne fun f hf => (hfr2 f hf).2, ?_, ?_, d2,
      kk tr, qq tr, d4, ?_, ?_, ?_⟩
    · intro hm
      exact ⟨(g4 hm).bounds.2.1, (g4 hm).bounds.2.2⟩
    · rintro rfl; exact d3 hd
    · intro h
      obtain ⟨d', hd', h1, h3⟩ := d6 h
      rw [hd] at hd'
      cases hd'
      exact ⟨h1, h3⟩
    · intro h
      obtain ⟨d', hd', h1, h3⟩ := d7 h
      rw [hd] at hd'
      cases hd'
      have hlog : 0 < Real.logb 10 (Real.exp 1) :=
        Real.logb_pos (by norm_num) (Real.one_lt_exp_iff.2 one_pos)
      have : 0 < 40 * Real.logb 10 (Real.exp 1) / (8 * kk tr) := by positivity
      exact ⟨by linarith, h1, h3⟩
    · intro hm hnn
      exact C65_unmerged p hm hh hfs tr g1 (g4 hm) hnn _ _ d4

/-! ## Concrete cases -/

/-- A search that stays at the starting point. -/
theorem solverOk_start : SolverOk fun _ x0 _ _ => .ok x0 :=
  fun _ x0 _ _ h1 h2 => ⟨x0, rfl, h1, h2⟩

/-- There is a sort for real peaks. -/
theorem argsort_exists : ∃ sort : List (Peak ℝ) → List Nat, ∀ peaks, IsArgsort peaks (sort peaks) := by
  classical
  have : ∀ peaks : List (Peak ℝ), ∃ o, IsArgsort peaks o := by
    intro peaks
    let r : Nat → Nat → Prop := fun i j =>
      (peaks.getD j ⟨0, 0, 0⟩).mag ≤ (peaks.getD i ⟨0, 0, 0⟩).mag
    haveI : Std.Total r := ⟨fun _ _ => le_total _ _⟩
    haveI : IsTrans Nat r := ⟨fun _ _ _ h1 h2 => le_trans h2 h1⟩
    refine ⟨(List.range peaks.length).insertionSort r, List.perm_insertionSort _ _, ?_⟩
    refine (List.pairwise_insertionSort r (List.range peaks.length)).imp ?_
    intro i j hij p q hp hq
    simpa [r, List.getD_eq_getElem?_getD, hp, hq] using hij
  choose sort h using this
  exact ⟨sort, h⟩

/-- Rectangular window of 4 in an FFT of 8, hop 2, modal tracker. -/
noncomputable def exParams : Sms.Params ℝ :=
  ⟨[1, 1, 1, 1], 8, -60, true, true,
    { fs := 8, h := 2, maxNSines := 10, minSineDur := 0, freqDevOffset := 5, freqDevSlope := 0,
      freqLo := some 20, freqHi := none, peakThreshold := -90, reverse := false,
      mergeStrategy := "average", stripT := none }, 2⟩

/-- All hypotheses of `C69_fit` can be met. -/
example : ∃ (spec : List ℝ → List ℝ × List ℝ) (sort : List (Peak ℝ) → List Nat),
    (∀ peaks, IsArgsort peaks (sort peaks)) ∧
    (∀ z, z.length = exParams.n →
      (spec z).1.length = exParams.n / 2 + 1 ∧ (spec z).2.length = exParams.n / 2 + 1) ∧
    exParams.w.sum ≠ 0 ∧ 2 ≤ exParams.w.length ∧ exParams.w.length ≤ exParams.n ∧
    1 ≤ exParams.hop ∧ 0 < exParams.tracker.fs ∧
    (exParams.tracker.mergeStrategy = "average" ∨ exParams.tracker.mergeStrategy = "single") ∧
    exParams.padded = true := by
  obtain ⟨sort, h⟩ := argsort_exists
  refine ⟨fun z => (z.take 5, z.take 5), sort, h, ?_, ?_, ?_, ?_, ?_, ?_, Or.inl rfl, rfl⟩
  · intro z hz
    simp only [exParams] at hz
    simp [exParams, hz]
  all_goals simp [exParams]
  norm_num

/-- A partial that pauses and then comes back louder. -/
def exLouder : List (Frame ℚ) :=
  [⟨[⟨100, -60, 0⟩], [0]⟩, ⟨[⟨100, -61, 0⟩], [0]⟩, ⟨[], []⟩, ⟨[], []⟩,
   ⟨[⟨100, -10, 0⟩], [0]⟩, ⟨[⟨100, -11, 0⟩], [0]⟩, ⟨[], []⟩]

/-- The track that is reported for it. -/
def exLouderTrack {K : Type*} [Field K] : Track K :=
  ⟨0, [some 100, some 100, none, none, some 100, some 100],
    [some (-60), some (-61), none, none, some (-10), some (-11)],
    [some 0, some 0, none, none, some 0, some 0]⟩

/-- Finding: merging is not followed by another acceptance test, so a reported track can have an
increasing trend; the decay time of the mode is then negative (and finite, so the mode is kept): the
synthesised mode grows exponentially. -/
theorem C65_merged_grows :
    (trackerFit (modalDeactivate (exModal false "average")) (exModal false "average").toCfg
      ⟨[], [], 0⟩ exLouder).toOption.map (fun s => s.tracks) = some [exLouderTrack] ∧
    ∀ solve, SolverOk solve → ∀ n, ∃ (d a : ℝ),
      trackParams (hingeRegressor solve) npMean exParams n exLouderTrack =
        .ok [[some 100, some d, some a]] ∧ d < 0 := by
  refine ⟨by decide +kernel, ?_⟩
  intro solve hs n
  have hal : (exLouderTrack : Track ℝ).Aligned := by
    refine ⟨rfl, rfl, ?_⟩
    intro j
    match j with
    | 0 | 1 | 2 | 3 | 4 | 5 => simp [exLouderTrack]
    | j + 6 => simp [exLouderTrack]
  have hf : (exLouderTrack : Track ℝ).freq.filterMap id = [100, 100, 100, 100] := rfl
  have h2 : 2 ≤ ((exLouderTrack : Track ℝ).freq.filterMap id).length := by rw [hf]; simp
  have hpts : trackPoints exParams exLouderTrack =
      [(0, -60), (1 / 4, -61), (1, -10), (5 / 4, -11)] := by
    have hkp : kept (exLouderTrack : Track ℝ) = [(0, ⟨100, -60, 0⟩), (1, ⟨100, -61, 0⟩),
        (4, ⟨100, -10, 0⟩), (5, ⟨100, -11, 0⟩)] := by
      simp [kept, exLouderTrack, Track.sampleAt, List.range'_succ, List.range'_zero]
    rw [trackPoints, hkp]
    simp only [List.map_cons, List.map_nil, pointTime, exParams]
    norm_num
  have hls : LeastSquares (trackPoints exParams exLouderTrack) (796 / 17) (-(1101 / 17)) := by
    rw [hpts]
    have := (leastSquares_iff (K := ℝ) [0, 1 / 4, 1, 5 / 4] [-60, -61, -10, -11] rfl
      (by simp [mean]; norm_num) (796 / 17) (-(1101 / 17))).2 (by
        simp [olsSlope, olsIntercept, mean]
        norm_num)
    exact this
  obtain ⟨d, a, e1, _, _, _, e5⟩ := C65_decay solve hs exParams (by simp [exParams])
    (by simp [exParams]) n exLouderTrack hal h2 _ _ hls
  obtain ⟨d', rfl, _, e7⟩ := e5 (by norm_num)
  refine ⟨d', a, ?_, ?_⟩
  · rw [e1, hf]
    norm_num [mean]
  · have hlog : 0 < Real.logb 10 (Real.exp 1) :=
      Real.logb_pos (by norm_num) (Real.one_lt_exp_iff.2 one_pos)
    have : 0 < 40 * Real.logb 10 (Real.exp 1) / (8 * (796 / 17)) := by positivity
    linarith

end Verif.Sample
