import Mathlib.Data.Rat.Floor
import Verif.Float.ModalLemmas
import Verif.Float.SynthLemmas
import Verif.Float.TrackerProps
import Verif.Tracker.Props

/-!
# The modal tracker in floating point (C147)
-/

set_option autoImplicit false
set_option linter.unusedSectionVars false
set_option linter.unusedSimpArgs false

namespace Verif.Float

open Verif.Tracker

variable {K : Type} [Field K] [LinearOrder K] [IsStrictOrderedRing K] [FloorRing K] (A : Arith K)
  (N : Numerics K)

/-! ## Histories, whatever the libraries compute -/

/-- C147: with a known merge strategy an analysis never raises. -/
theorem C147_total (c : ModalCfg K)
    (hk : c.mergeStrategy = "average" ∨ c.mergeStrategy = "single") (prior : State K)
    (frames : List (Frame K)) (hv : ∀ f ∈ frames, f.Valid)
    (hr : ∀ f ∈ frames, ∀ pk ∈ f.peaks, A.Rep pk.freq) :
    ∃ s, modalFitF A N c prior frames = .ok s := by
  obtain ⟨s, h, _⟩ := run_wfm A N hk frames [] (reset prior) hv hr (wfm_reset A c prior)
  exact ⟨s, h⟩

/-- C147: shape of the tracks, bounded jumps, enough numbers, and no invented samples. -/
theorem C147_shape (c : ModalCfg K) (prior : State K) (frames : List (Frame K))
    (hv : ∀ f ∈ frames, f.Valid) (hr : ∀ f ∈ frames, ∀ pk ∈ f.peaks, A.Rep pk.freq) (s : State K)
    (h : modalFitF A N c prior frames = .ok s) :
    s.frame = frames.length ∧ s.active.length ≤ c.maxNSines ∧
    (∀ t ∈ s.active, t.start < frames.length ∧ t.freq.length = frames.length - t.start ∧
      t.mag.length = t.freq.length ∧ t.phase.length = t.freq.length ∧
      ∀ (i : Nat) (f g : K), t.freq[i]? = some f → t.freq[i + 1]? = some g →
        |f - g| < dfF A c.toCfg g) ∧
    (∀ u, u ∈ s.tracks ∨ u ∈ modalAllTracksF A N c s →
      u.Aligned ∧ u.start + u.mag.length ≤ frames.length ∧
      minSineLenF A c.toCfg ≤ ((u.freq.filter Option.isSome).length : ℤ) ∧
      ∀ (i : Nat) (f g : K), u.freq[i]? = some (some f) → u.freq[i + 1]? = some (some g) →
        |f - g| < dfF A c.toCfg g) ∧
    (∀ k, (samplesAt k (s.tracks ++ s.active.map numpyTrack)).Subperm
        ((frames[k]?.map (·.peaks)).getD []) ∧
      (samplesAt k (modalAllTracksF A N c s)).Subperm ((frames[k]?.map (·.peaks)).getD [])) := by
  have w := modal_runF A N c prior frames hv hr s h
  refine ⟨w.frame, w.bound, ?_, ?_, fun k => ⟨w.samples k,
    (((modalAllTracksF_sublist A N c s).filterMap _).subperm).trans (w.samples k)⟩⟩
  · intro t ht
    have g := w.good t ht
    have g1 := g.clock
    have g2 := g.pos
    rw [w.frame] at g1
    exact ⟨by omega, by omega, g.magLen, g.phaseLen, g.jump⟩
  · intro u hu
    have g : GoodFinF A c.toCfg s.frame u := by
      rcases hu with hu | hu
      · exact w.done u hu
      · exact goodFinF_all A N w u hu
    have hlen : ∀ l : List (Option K), (l.filter Option.isSome).length = (l.filterMap id).length := by
      intro l
      induction l with
      | nil => rfl
      | cons a l ih => cases a <;> simp [ih]
    refine ⟨g.aligned, ?_, ?_, g.jump⟩
    · have := g.past
      rw [w.frame] at this
      exact this
    · rw [hlen]
      exact g.long

/-- C147: one update follows the greedy matching for exact distances and the computed threshold, and
afterwards the finished tracks hold the old samples and those of the accepted tracks. -/
theorem C147_step (c : ModalCfg K)
    (hk : c.mergeStrategy = "average" ∨ c.mergeStrategy = "single") (prior : State K)
    (frames : List (Frame K)) (hv : ∀ f ∈ frames, f.Valid)
    (hr : ∀ f ∈ frames, ∀ pk ∈ f.peaks, A.Rep pk.freq) (s : State K)
    (h : modalFitF A N c prior frames = .ok s) (fr : Frame K) (hf : fr.Valid)
    (hP : ∀ pk ∈ fr.peaks, A.Rep pk.freq) :
    ∃ m s', callF A (modalDeactivateF A N c) c.toCfg fr.order fr.peaks s = .ok s' ∧
      GreedyF (dfF A c.toCfg) s.active fr.peaks m ∧ s'.frame = s.frame + 1 ∧
      s'.active = continued s.active fr.peaks m ++
        ((unused fr.peaks m).take (c.maxNSines - (continued s.active fr.peaks m).length)).map
          (newborn s.frame) ∧
      ∀ k, (samplesAt k s'.tracks).Perm (samplesAt k (s.tracks ++
        ((dropped s.active m).filter (modalTrackOkF A N c)).map numpyTrack)) := by
  have w := modal_runF A N c prior frames hv hr s h
  obtain ⟨m, s', h1, h2, _⟩ := callF_spec A (saveModalF A N c) (modalDeactivateF A N c)
      (popSave_modalF A N c hk) c.toCfg fr.order fr.peaks s hf (wfm_ne A w) w.last
  refine ⟨m, s', h1, greedy_exact A c.toCfg ?_ hP h2.greedy, h2.frame, h2.active, ?_⟩
  · exact fun t ht f hf => (w.good t ht).rep f (List.mem_of_getLast? hf)
  · intro k
    have hD : ∀ t ∈ (dropped s.active m).reverse, GoodF A c.toCfg s.frame t :=
      fun t ht => w.good t (mem_dropped (List.mem_reverse.1 ht))
    have f2 := (foldl_saveModalF A N c hk s.frame _ s.tracks hD w.last w.done).2 k
    rw [← h2.tracks] at f2
    refine f2.trans ?_
    apply List.Perm.filterMap
    apply List.Perm.append_left
    apply List.Perm.map
    exact (List.reverse_perm _).filter _

/-- C147: an unknown merge strategy raises `KeyError` when an accepted track is finished, and not
before. -/
theorem C147_unknown (c : ModalCfg K) (h1 : c.mergeStrategy ≠ "average")
    (h2 : c.mergeStrategy ≠ "single") (tr : List (Track K)) (t : ATrack K) :
    finishF A N c tr t = if modalTrackOkF A N c t then .error .keyError else .ok tr := by
  by_cases hok : modalTrackOkF A N c t = true
  · simp [finishF, hok, freqDiffFunctionF, h1, h2]
  · simp [finishF, hok]

/-! ## Merging -/

/-- C147: what finishing a track does, in terms of computed differences. -/
theorem C147_finish (c : ModalCfg K)
    (hk : c.mergeStrategy = "average" ∨ c.mergeStrategy = "single")
    (tr : List (Track K)) (hJ : ∀ u ∈ tr, ∃ f, u.freq.getLast? = some (some f))
    (ha : ∀ u ∈ tr, u.Aligned) (t : ATrack K) (hm : t.mag.length = t.freq.length)
    (hp : t.phase.length = t.freq.length) (f0 : K) (hf0 : t.freq.head? = some f0) :
    (modalTrackOkF A N c t = false → finishF A N c tr t = .ok tr) ∧
    (modalTrackOkF A N c t = true →
      (∃ (i : Nat) (u v : Track K) (d : K), tr[i]? = some u ∧ u.stop < t.start ∧
        FreqDiffF A N c.mergeStrategy u (numpyTrack t) d ∧ d < dfF A c.toCfg f0 ∧
        MergedFrom u (numpyTrack t) v ∧
        (Numeric A N c.mergeStrategy tr t →
          ∀ (j : Nat) (w : Track K) (e : K), tr[j]? = some w → w.stop < t.start →
          FreqDiffF A N c.mergeStrategy w (numpyTrack t) e → d < e ∨ (d = e ∧ i ≤ j)) ∧
        finishF A N c tr t = .ok (tr.set i v)) ∨
      ((Numeric A N c.mergeStrategy tr t → ∀ (u : Track K) (d : K), u ∈ tr → u.stop < t.start →
          FreqDiffF A N c.mergeStrategy u (numpyTrack t) d → dfF A c.toCfg f0 ≤ d) ∧
        finishF A N c tr t = .ok (tr ++ [numpyTrack t]))) := by
  have hne : t.freq ≠ [] := by
    intro h0; rw [h0] at hf0; simp at hf0
  refine ⟨finishF_not_ok A N c tr t, fun hok => ?_⟩
  rcases finishF_spec A N c hk tr hJ t hne hok f0 hf0 with ⟨i, u, d, g1, g2, g3, g4, g5, g6⟩ | g
  · left
    refine ⟨i, u, _, d, g1, g2, g3, g4, ?_, g5, g6⟩
    refine mergeTrack_merged (ha u (List.mem_of_getElem? g1)) ?_ (by simp only [numpyTrack]; omega)
    exact ⟨by simp [numpyTrack, hm], by simp [numpyTrack, hm, hp], fun j => by simp [numpyTrack]⟩
  · exact Or.inr g

/-- C147: with the strategy `"single"` a merge is below the computed threshold in exact numbers, and
above half the first frequency nothing is lost to rounding. -/
theorem C147_single (c : ModalCfg K) (u : Track K) (t : ATrack K) (a f0 : K)
    (hu : u.freq.getLast? = some (some a)) (hf0 : t.freq.head? = some f0) (ha : A.Rep a)
    (hf : A.Rep f0) :
    (∃ d, FreqDiffF A N "single" u (numpyTrack t) d) ∧
    ∀ d, FreqDiffF A N "single" u (numpyTrack t) d →
      (d < dfF A c.toCfg f0 → |a - f0| < dfF A c.toCfg f0) ∧
      (2 * |a - f0| ≤ f0 → d = |a - f0|) ∧
      (2 * dfF A c.toCfg f0 ≤ f0 → (d < dfF A c.toCfg f0 ↔ |a - f0| < dfF A c.toCfg f0)) := by
  have hh : (numpyTrack t).freq.head? = some (some f0) := by
    simp only [numpyTrack, List.head?_map, hf0, Option.map_some]
  refine ⟨⟨_, Or.inr ⟨rfl, a, f0, hu, hh, rfl⟩⟩, ?_⟩
  rintro d (⟨h, _⟩ | ⟨_, a', b', h1, h2, rfl⟩)
  · exact absurd h (by decide)
  · rw [hu] at h1
    rw [hh] at h2
    cases h1
    cases h2
    exact ⟨dist_lt A (dfF_rep A _ _), dist_exact A ha hf,
      dist_lt_iff A ha hf (dfF_rep A _ _)⟩

/-- C147: with the strategy `"average"` and two averages within `e`, a merge is below the computed
threshold up to `2 * e`, and tracks closer than the threshold by more than `2 * e` have a computed
difference below it. -/
theorem C147_average (c : ModalCfg K) (e : K) (u : Track K) (t : ATrack K) (f0 a b : K)
    (a1 : N.nanmean u.freq = some a) (a2 : A.Rep a)
    (a3 : |a - (u.freq.filterMap id).sum / ((u.freq.filterMap id).length : K)| ≤ e)
    (b1 : N.nanmean (t.freq.map some) = some b) (b2 : A.Rep b)
    (b3 : |b - t.freq.sum / (t.freq.length : K)| ≤ e) :
    (∃ d, FreqDiffF A N "average" u (numpyTrack t) d) ∧
    ∀ d, FreqDiffF A N "average" u (numpyTrack t) d →
      (d < dfF A c.toCfg f0 →
        |(u.freq.filterMap id).sum / ((u.freq.filterMap id).length : K) -
          t.freq.sum / (t.freq.length : K)| < dfF A c.toCfg f0 + 2 * e) ∧
      (|(u.freq.filterMap id).sum / ((u.freq.filterMap id).length : K) -
          t.freq.sum / (t.freq.length : K)| + 2 * e < dfF A c.toCfg f0 →
        2 * dfF A c.toCfg f0 + e ≤ t.freq.sum / (t.freq.length : K) → d < dfF A c.toCfg f0) := by
  have b1 : N.nanmean (numpyTrack t).freq = some b := b1
  generalize (u.freq.filterMap id).sum / ((u.freq.filterMap id).length : K) = x at a3 ⊢
  generalize t.freq.sum / (t.freq.length : K) = y at b3 ⊢
  have h1 := abs_sub_abs_le_abs_sub (x - y) (a - b)
  have h2 := abs_sub_abs_le_abs_sub (a - b) (x - y)
  have h3 : |(x - y) - (a - b)| ≤ 2 * e := by
    have : (x - y) - (a - b) = (b - y) - (a - x) := by ring
    rw [this]
    exact (abs_sub _ _).trans (by linarith)
  have h4 : |(a - b) - (x - y)| ≤ 2 * e := by rw [abs_sub_comm]; exact h3
  refine ⟨⟨_, Or.inl ⟨rfl, a, b, a1, b1, rfl⟩⟩, ?_⟩
  rintro d (⟨_, a', b', h5, h6, rfl⟩ | ⟨h, _⟩)
  · rw [a1] at h5
    rw [b1] at h6
    cases h5
    cases h6
    refine ⟨fun hd => ?_, fun hd hy => ?_⟩
    · have := dist_lt A (f := a) (p := b) (dfF_rep A c.toCfg f0) hd
      linarith
    · rw [abs_le] at b3
      exact (dist_lt_iff A a2 b2 (dfF_rep A c.toCfg f0) (by linarith)).2 (by linarith)
  · exact absurd h (by decide)

/-! ## Acceptance -/

/-- C147: acceptance with a computed average within `e₁` of the exact one, and a computed line within
`e₂` and `e₃` of a slope `k₀` and a value at the onset `q₀`. -/
theorem C147_accept (c : ModalCfg K) (t : ATrack K) (m k q k₀ q₀ e₁ e₂ e₃ : K)
    (hm : N.mean t.freq = some m) (he₁ : |m - t.freq.sum / (t.freq.length : K)| ≤ e₁)
    (hk : N.slope (lmX c.reverse t.mag.length) t.mag = some k) (he₂ : |k - k₀| ≤ e₂)
    (hq : N.intercept (lmX c.reverse t.mag.length) t.mag = some q) (he₃ : |q - q₀| ≤ e₃) :
    (modalTrackOkF A N c t = true → minSineLenF A c.toCfg ≤ (t.freq.length : ℤ) ∧
      (∀ lo, c.freqLo = some lo → lo - e₁ ≤ t.freq.sum / (t.freq.length : K)) ∧
      (∀ hi, c.freqHi = some hi → t.freq.sum / (t.freq.length : K) ≤ hi + e₁) ∧
      k₀ ≤ e₂ ∧ c.peakThreshold - e₃ ≤ q₀) ∧
    (minSineLenF A c.toCfg ≤ (t.freq.length : ℤ) →
      (∀ lo, c.freqLo = some lo → lo + e₁ ≤ t.freq.sum / (t.freq.length : K)) →
      (∀ hi, c.freqHi = some hi → t.freq.sum / (t.freq.length : K) ≤ hi - e₁) →
      k₀ ≤ -e₂ → c.peakThreshold + e₃ ≤ q₀ → modalTrackOkF A N c t = true) := by
  rw [abs_le] at he₁ he₂ he₃
  rw [modalTrackOkF_iff, hm, hk, hq]
  constructor
  · rintro ⟨h1, h2, h3, h4, h5⟩
    have g4 := h4 k rfl
    have g5 := h5 q rfl
    refine ⟨h1, ?_, ?_, by linarith, by linarith⟩
    · intro lo hlo
      have := h2 lo m hlo rfl
      linarith
    · intro hi hhi
      have := h3 hi m hhi rfl
      linarith
  · intro h1 h2 h3 h4 h5
    refine ⟨h1, ?_, ?_, ?_, ?_⟩
    · intro lo m' hlo hm'
      cases hm'
      have := h2 lo hlo
      linarith
    · intro hi m' hhi hm'
      cases hm'
      have := h3 hi hhi
      linarith
    · intro k' hk'
      cases hk'
      linarith
    · intro q' hq'
      cases hq'
      linarith

/-- C147: acceptance is that of the exact tracker (C09) if the errors of the average and of the
least-squares line in forward time are smaller than the distances from the limits. -/
theorem C147_agree (c : ModalCfg K) (t : ATrack K) (m k q k₀ q₀ e₁ e₂ e₃ : K)
    (h2 : 2 ≤ t.mag.length) (hlen : minSineLenF A c.toCfg = max 2 ⌈c.minSineDur * (c.fs / c.h)⌉)
    (hm : N.mean t.freq = some m) (he₁ : |m - t.freq.sum / (t.freq.length : K)| ≤ e₁)
    (hl : LeastSquares (forwardPoints c.reverse t.mag) k₀ q₀)
    (hk : N.slope (lmX c.reverse t.mag.length) t.mag = some k) (he₂ : |k - k₀| ≤ e₂)
    (hq : N.intercept (lmX c.reverse t.mag.length) t.mag = some q) (he₃ : |q - q₀| ≤ e₃)
    (h_lo : ∀ lo, c.freqLo = some lo → e₁ < |t.freq.sum / (t.freq.length : K) - lo|)
    (h_hi : ∀ hi, c.freqHi = some hi → e₁ < |t.freq.sum / (t.freq.length : K) - hi|)
    (h_k : e₂ < |k₀|) (h_q : e₃ < |q₀ - c.peakThreshold|) :
    modalTrackOkF A N c t = modalTrackOk c t := by
  have hu := (C09_acceptance c t h2).2
  rw [Bool.eq_iff_iff, (C09_acceptance c t h2).1, modalTrackOkF_iff, hm, hk, hq, hlen]
  generalize t.freq.sum / (t.freq.length : K) = x at he₁ h_lo h_hi ⊢
  rw [abs_le] at he₁ he₂ he₃
  refine and_congr Iff.rfl (and_congr ?_ (and_congr ?_ ?_))
  · constructor
    · intro h lo hlo
      have h1 := h lo m hlo rfl
      have h3 := h_lo lo hlo
      by_contra hc
      rw [abs_of_neg (by linarith [not_le.1 hc])] at h3
      linarith
    · intro h lo m' hlo hm'
      cases hm'
      have h1 := h lo hlo
      have h3 := h_lo lo hlo
      rw [abs_of_nonneg (by linarith)] at h3
      linarith
  · constructor
    · intro h hi hhi
      have h1 := h hi m hhi rfl
      have h3 := h_hi hi hhi
      by_contra hc
      rw [abs_of_pos (by linarith [not_le.1 hc])] at h3
      linarith
    · intro h hi m' hhi hm'
      cases hm'
      have h1 := h hi hhi
      have h3 := h_hi hi hhi
      rw [abs_of_nonpos (by linarith)] at h3
      linarith
  · constructor
    · rintro ⟨h4, h5⟩
      have h4 := h4 k rfl
      have h5 := h5 q rfl
      refine ⟨k₀, q₀, hl, ?_, ?_⟩
      · by_contra hc
        rw [abs_of_pos (not_le.1 hc)] at h_k
        linarith
      · by_contra hc
        rw [abs_of_neg (by linarith [not_le.1 hc])] at h_q
        linarith
    · rintro ⟨k', q', h3, h4, h5⟩
      have := hu.unique (y₁ := (k', q')) (y₂ := (k₀, q₀)) h3 hl
      simp only [Prod.mk.injEq] at this
      obtain ⟨rfl, rfl⟩ := this
      constructor
      · intro k'' hk''
        cases hk''
        rw [abs_of_nonpos h4] at h_k
        linarith
      · intro q'' hq''
        cases hq''
        rw [abs_of_nonneg (by linarith)] at h_q
        linarith

/-- C147: numbers that are NaN reject nothing. -/
theorem C147_nan (c : ModalCfg K) (t : ATrack K) (hm : N.mean t.freq = none)
    (hk : N.slope (lmX c.reverse t.mag.length) t.mag = none)
    (hq : N.intercept (lmX c.reverse t.mag.length) t.mag = none) :
    modalTrackOkF A N c t = true ↔ minSineLenF A c.toCfg ≤ (t.freq.length : ℤ) := by
  rw [modalTrackOkF_iff, hm, hk, hq]
  simp

/-- There is a computed average for every list. -/
theorem meanF_exists (l : List K) : MeanF A l (A.div (l.foldr A.add 0) (l.length : K)) := by
  refine ⟨_, ?_, rfl⟩
  induction l with
  | nil => exact DotF.nil
  | cons a l ih =>
    have := DotF.fma (A := A) a 1 ih
    rw [mul_one] at this
    exact this

/-- C147: error of a computed average, for any order of the additions. -/
theorem C147_mean (l : List K) (m : K) (hl : l ≠ []) (h : MeanF A l m)
    (hn : (l.length : K) * A.u ≤ 1 / 2) :
    |m - l.sum / (l.length : K)| ≤
      (2 * l.length + 2) * A.u * ((l.map fun x => |x|).sum / (l.length : K)) + 4 * A.eta := by
  obtain ⟨s, h1, rfl⟩ := h
  have hb := dot_bound A h1 (by rw [List.length_map]; exact hn)
  have e1 : dotSum (l.map fun x => (x, (1 : K))) = l.sum := by
    unfold dotSum
    rw [List.map_map]
    congr 1
    conv_rhs => rw [← List.map_id l]
    apply List.map_congr_left
    intro x _
    simp
  have e2 : absSum (l.map fun x => (x, (1 : K))) = (l.map fun x => |x|).sum := by
    unfold absSum
    rw [List.map_map]
    congr 1
    apply List.map_congr_left
    intro x _
    simp
  have hS := abs_dotSum (l.map fun x => (x, (1 : K)))
  rw [e1, e2] at hb hS
  rw [List.length_map] at hb
  have hpos : (0 : K) < l.length := by
    rw [Nat.cast_pos]; exact List.length_pos_iff.2 hl
  generalize (l.length : K) = n at hpos hb hn ⊢
  generalize (l.map fun x => |x|).sum = T at hb hS ⊢
  generalize l.sum = S at hb hS ⊢
  have hu := A.u_pos
  have hu' := A.u_le
  have he := A.eta_nonneg
  have r := A.err (s / n)
  unfold Arith.div
  -- divide by `n`
  have hb' : |s / n - S / n| ≤ 2 * n * A.u * (T / n) + 2 * A.eta := by
    rw [← sub_div, abs_div, abs_of_pos hpos, div_le_iff₀ hpos]
    have : (2 * n * A.u * (T / n) + 2 * A.eta) * n = 2 * n * A.u * T + 2 * n * A.eta := by
      field_simp
    rw [this]
    exact hb
  have hS' : |S / n| ≤ T / n := by
    rw [abs_div, abs_of_pos hpos]
    exact div_le_div_of_nonneg_right hS hpos.le
  generalize s / n = x at r hb'
  generalize S / n = y at hb' hS' ⊢
  generalize T / n = M at hb' hS' ⊢
  have hM : 0 ≤ M := (abs_nonneg _).trans hS'
  have hx : |x| ≤ M + (2 * n * A.u * M + 2 * A.eta) := by
    have := abs_sub_abs_le_abs_sub x y
    linarith
  have q1 : A.u * |x| ≤ A.u * (M + (2 * n * A.u * M + 2 * A.eta)) :=
    mul_le_mul_of_nonneg_left hx hu.le
  have q2 : n * A.u * (A.u * M) ≤ 1 / 2 * (A.u * M) :=
    mul_le_mul_of_nonneg_right hn (mul_nonneg hu.le hM)
  have q3 : A.u * A.eta ≤ 1 / 8 * A.eta := mul_le_mul_of_nonneg_right hu' he
  have q4 : A.u * (M + (2 * n * A.u * M + 2 * A.eta)) =
      A.u * M + 2 * (n * A.u * (A.u * M)) + 2 * (A.u * A.eta) := by ring
  have t1 := abs_sub_le (A.rnd x) x y
  have q5 : (2 * n + 2) * A.u * M = 2 * n * A.u * M + 2 * (A.u * M) := by ring
  rw [q5]
  linarith

/-! ## The strip time -/

/-- C147: without a strip time all finished and accepted active tracks are reported; with one, those
whose onset in forward time is within the computed number of frames. -/
theorem C147_strip (c : ModalCfg K) (s : State K) (u : Track K) :
    u ∈ modalAllTracksF A N c s ↔
      (u ∈ s.tracks ∨ ∃ t ∈ s.active, modalTrackOkF A N c t = true ∧ u = numpyTrack t) ∧
      ∀ τ, c.stripT = some τ →
        (if c.reverse then (s.frame : ℤ) - (u.start + u.mag.length) else (u.start : ℤ)) ≤
          ⌈A.mul τ (A.div c.fs c.h)⌉ := by
  have h1 : u ∈ s.tracks ++ (s.active.filter (modalTrackOkF A N c)).map numpyTrack ↔
      (u ∈ s.tracks ∨ ∃ t ∈ s.active, modalTrackOkF A N c t = true ∧ u = numpyTrack t) := by
    simp only [List.mem_append, List.mem_map, List.mem_filter]
    constructor
    · rintro (h | ⟨t, ⟨h1, h2⟩, rfl⟩)
      · exact Or.inl h
      · exact Or.inr ⟨t, h1, h2, rfl⟩
    · rintro (h | ⟨t, h1, h2, rfl⟩)
      · exact Or.inl h
      · exact Or.inr ⟨t, ⟨h1, h2⟩, rfl⟩
  unfold modalAllTracksF stripNF
  cases hs : c.stripT with
  | none =>
    simp only [h1]
    simp
  | some τ =>
    simp only [List.mem_filter, h1]
    refine and_congr Iff.rfl ?_
    unfold onsetOk
    cases c.reverse <;> simp

/-- C147: the computed number of frames is within one of the exact one, and equal to it if no integer
is near. -/
theorem C147_strip_error (c : ModalCfg K) (τ : K) (hτ : 0 ≤ τ) (hf : 0 ≤ c.fs) (hh : 0 < c.h) :
    let e := 3 * A.u * (τ * (c.fs / c.h)) + 2 * A.eta * (τ + 1)
    (e < 1 → |⌈A.mul τ (A.div c.fs c.h)⌉ - ⌈τ * (c.fs / c.h)⌉| ≤ 1) ∧
    ((∀ n : ℤ, e < |τ * (c.fs / c.h) - n|) →
      ⌈A.mul τ (A.div c.fs c.h)⌉ = ⌈τ * (c.fs / c.h)⌉) := by
  have e := len_err A { c.toCfg with minSineDur := τ } hτ hf hh
  simp only [lenErr] at e
  intro e'
  generalize A.mul τ (A.div c.fs c.h) = y at e ⊢
  generalize hx : τ * (c.fs / c.h) = x at e ⊢
  have e : |y - x| ≤ e' := by simpa only [e', hx] using e
  clear_value e'
  rw [abs_le] at e
  constructor
  · intro hlt
    have h1 : ⌈y⌉ ≤ ⌈x⌉ + 1 := by
      rw [Int.ceil_le]
      push_cast
      linarith [Int.le_ceil x, e.2]
    have h2 : ⌈x⌉ ≤ ⌈y⌉ + 1 := by
      rw [Int.ceil_le]
      push_cast
      linarith [Int.le_ceil y, e.1]
    rw [abs_le]
    omega
  · intro hn
    rw [Int.ceil_eq_iff]
    have h1 := hn (⌈x⌉ - 1)
    have h2 := hn ⌈x⌉
    have h3 := Int.le_ceil x
    have h4 := Int.ceil_lt_add_one x
    push_cast at h1
    rw [abs_of_pos (by linarith)] at h1
    rw [abs_of_nonpos (by linarith)] at h2
    constructor
    · linarith [e.1]
    · linarith [e.2]

/-! ## Agreement with the exact tracker -/

/-- The smallest computed and the smallest exact distance: with a threshold of at most half the
frequency both choices agree where it matters. -/
theorem min_same {α : Type} {r : α → α → Prop} (hr : ∀ a b, r a b → ¬ r b a) (it : List α)
    (hs : it.Pairwise r) (fr : α → K) (p d : K) (hfr : ∀ x ∈ it, A.Rep (fr x)) (hp : A.Rep p)
    (hd : A.Rep d) (h : 2 * d ≤ p) (i j : α) (pre post pre' post' : List α)
    (h1 : it = pre ++ i :: post) (h1' : it = pre' ++ j :: post')
    (h2 : ∀ x ∈ pre, distF A (fr i) p < distF A (fr x) p)
    (h3 : ∀ x ∈ post, distF A (fr i) p ≤ distF A (fr x) p)
    (h2' : ∀ x ∈ pre', |fr j - p| < |fr x - p|) (h3' : ∀ x ∈ post', |fr j - p| ≤ |fr x - p|) :
    (distF A (fr i) p < d ↔ |fr j - p| < d) ∧ (distF A (fr i) p < d → i = j) := by
  have hii : i ∈ it := by rw [h1]; simp
  have hjj : j ∈ it := by rw [h1']; simp
  have hFmin : ∀ k ∈ it, distF A (fr i) p ≤ distF A (fr k) p := by
    intro k hk
    rw [h1] at hk
    simp only [List.mem_append, List.mem_cons] at hk
    rcases hk with hk | rfl | hk
    · exact (h2 k hk).le
    · exact le_refl _
    · exact h3 k hk
  have hEmin : ∀ k ∈ it, |fr j - p| ≤ |fr k - p| := by
    intro k hk
    rw [h1'] at hk
    simp only [List.mem_append, List.mem_cons] at hk
    rcases hk with hk | rfl | hk
    · exact (h2' k hk).le
    · exact le_refl _
    · exact h3' k hk
  have hiff : ∀ k ∈ it, distF A (fr k) p < d ↔ |fr k - p| < d :=
    fun k hk => dist_lt_iff A (hfr k hk) hp hd h
  refine ⟨⟨fun g => lt_of_le_of_lt (hEmin i hii) ((hiff i hii).1 g), fun g =>
    lt_of_le_of_lt (hFmin j hjj) ((hiff j hjj).2 g)⟩, ?_⟩
  intro g
  obtain ⟨e1, e2⟩ := dist_order A (hfr i hii) (hfr j hjj) hp hd h ((hiff i hii).1 g) (hEmin i hii)
  by_contra hne
  have m1 : j ∈ post := by
    rw [h1] at hjj
    simp only [List.mem_append, List.mem_cons] at hjj
    rcases hjj with h | h | h
    · have a1 := h2 j h
      have a2 := hEmin i hii
      rw [e1, e2] at a1
      linarith
    · exact absurd h.symm hne
    · exact h
  have m2 : i ∈ post' := by
    rw [h1'] at hii
    simp only [List.mem_append, List.mem_cons] at hii
    rcases hii with h | h | h
    · have a1 := h2' i h
      have a2 := hFmin j hjj
      rw [e1, e2] at a2
      linarith
    · exact absurd h hne
    · exact h
  have o1 : r i j := by
    have := hs
    rw [h1, List.pairwise_append] at this
    exact (List.pairwise_cons.1 this.2.1).1 j m1
  have o2 : r j i := by
    have := hs
    rw [h1', List.pairwise_append] at this
    exact (List.pairwise_cons.1 this.2.1).1 i m2
  exact hr _ _ o1 o2

/-- A track at frame clock `n` that could arise from the frames: one peak of each frame. -/
def FromFrames (frames : List (Frame K)) (n : Nat) (t : ATrack K) : Prop :=
  t.start + t.freq.length = n ∧ t.mag.length = t.freq.length ∧ t.freq ≠ [] ∧
    ∀ (i : Nat) (f g : K), t.freq[i]? = some f → t.mag[i]? = some g →
      ∃ fr pk, frames[t.start + i]? = some fr ∧ pk ∈ fr.peaks ∧ pk.freq = f ∧ pk.mag = g

/-- Some track of the frames, at any time. -/
def Arises (frames : List (Frame K)) (t : ATrack K) : Prop :=
  ∃ n, n ≤ frames.length ∧ FromFrames frames n t

/-- Finished tracks end with a frequency in `S`. -/
def TailIn (S : K → Prop) (tr : List (Track K)) : Prop :=
  ∀ u ∈ tr, ∃ f, u.freq.getLast? = some (some f) ∧ S f

theorem FromFrames.freq {frames : List (Frame K)} {n : Nat} {t : ATrack K}
    (h : FromFrames frames n t) {S : K → Prop} (hP : ∀ f ∈ frames, ∀ pk ∈ f.peaks, S pk.freq) :
    ∀ f ∈ t.freq, S f := by
  intro f hf
  obtain ⟨i, hi⟩ := List.mem_iff_getElem?.1 hf
  have hlt : i < t.mag.length := by rw [h.2.1]; exact getElem?_lt hi
  obtain ⟨fr, pk, h1, h2, rfl, _⟩ := h.2.2.2 i f _ hi (List.getElem?_eq_getElem hlt)
  exact hP fr (List.mem_of_getElem? h1) pk h2

theorem FromFrames.push {frames : List (Frame K)} {n : Nat} {t : ATrack K}
    (h : FromFrames frames n t) {fr : Frame K} {pk : Peak K} (hf : frames[n]? = some fr)
    (hp : pk ∈ fr.peaks) : FromFrames frames (n + 1) (t.push pk) := by
  obtain ⟨h1, h2, h3, h4⟩ := h
  refine ⟨by simp [ATrack.push]; omega, by simp [ATrack.push, h2], by simp [ATrack.push], ?_⟩
  intro i f g hi hg
  simp only [ATrack.push] at hi hg ⊢
  by_cases hlt : i < t.freq.length
  · rw [List.getElem?_append_left hlt] at hi
    rw [List.getElem?_append_left (by omega)] at hg
    exact h4 i f g hi hg
  · have hil := getElem?_lt hi
    simp only [List.length_append, List.length_cons, List.length_nil] at hil
    have he : i = t.freq.length := by omega
    subst he
    rw [List.getElem?_append_right (le_refl _)] at hi
    rw [List.getElem?_append_right (by omega)] at hg
    simp only [Nat.sub_self, List.getElem?_cons_zero, Option.some.injEq] at hi
    simp only [h2, Nat.sub_self, List.getElem?_cons_zero, Option.some.injEq] at hg
    exact ⟨fr, pk, by rw [h1]; exact hf, hp, hi, hg⟩

theorem FromFrames.newborn {frames : List (Frame K)} {n : Nat} {fr : Frame K} {pk : Peak K}
    (hf : frames[n]? = some fr) (hp : pk ∈ fr.peaks) :
    FromFrames frames (n + 1) (newborn n pk) := by
  refine ⟨by simp [Verif.Tracker.newborn], by simp [Verif.Tracker.newborn],
    by simp [Verif.Tracker.newborn], ?_⟩
  intro i f g hi hg
  have hil := getElem?_lt hi
  simp only [Verif.Tracker.newborn, List.length_cons, List.length_nil] at hil
  have he : i = 0 := by omega
  subst he
  simp only [Verif.Tracker.newborn, List.getElem?_cons_zero, Option.some.injEq] at hi hg
  exact ⟨fr, pk, by simpa [Verif.Tracker.newborn] using hf, hp, hi, hg⟩

theorem FromFrames.last {frames : List (Frame K)} {n : Nat} {T : List (ATrack K)}
    (h : ∀ t ∈ T, FromFrames frames n t) {S : K → Prop}
    (hP : ∀ f ∈ frames, ∀ pk ∈ f.peaks, S pk.freq) : LastIn S T := by
  intro t ht
  have h1 := (h t ht).2.2.1
  exact ⟨lastFreq t, getLast?_lastFreq t h1,
    (h t ht).freq hP _ (List.mem_of_getLast? (getLast?_lastFreq t h1))⟩

theorem finish_same {c : ModalCfg K} {S : K → Prop} (hS : Settled A c.toCfg S)
    (hst : c.mergeStrategy = "single")
    (tr : List (Track K)) (htr : TailIn S tr) (t : ATrack K) (ht : t.freq ≠ [])
    (hok : modalTrackOkF A N c t = modalTrackOk c t)
    (htS : ∀ f ∈ t.freq, S f) :
    finishF A N c tr t = finish c tr t ∧
      ∀ tr', finish c tr t = .ok tr' → TailIn S tr' := by
  unfold finishF finish
  rw [hok]
  by_cases h : modalTrackOk c t = true
  swap
  · simp only [h, if_false, Bool.false_eq_true, true_and]
    intro tr' h'
    cases h'
    exact htr
  rw [if_pos h, if_pos h]
  obtain ⟨f0, l, hl⟩ := List.exists_cons_of_ne_nil ht
  have hf0 : S f0 := htS f0 (by simp [hl])
  have hg0 : getE t.freq 0 = .ok f0 := by simp [getE, hl]
  have hend : ∃ f, (numpyTrack t).freq.getLast? = some (some f) ∧ S f := by
    refine ⟨lastFreq t, by simp [numpyTrack, getLast?_lastFreq t ht], ?_⟩
    exact htS _ (List.mem_of_getLast? (getLast?_lastFreq t ht))
  have happ : TailIn S (tr ++ [numpyTrack t]) := by
    intro u hu
    rcases List.mem_append.1 hu with hu | hu
    · exact htr u hu
    · rw [List.mem_singleton.1 hu]; exact hend
  have hset : ∀ i u, TailIn S (tr.set i (mergeTrack u (numpyTrack t))) := by
    intro i u w hw
    rcases List.mem_or_eq_of_mem_set hw with hw | rfl
    · exact htr w hw
    · obtain ⟨f, h1, h2⟩ := hend
      refine ⟨f, ?_, h2⟩
      simp only [mergeTrack]
      rw [List.getLast?_append, h1]
      rfl
  rw [hst]
  simp only [freqDiffFunctionF, freqDiffFunction, if_true]
  generalize hit : (tr.zipIdx.filter fun ui =>
    decide (ui.1.start + ui.1.mag.length < (numpyTrack t).start)) = it
  have hmem : ∀ ui ∈ it, ui.1 ∈ tr := by
    intro ui hui
    rw [← hit, List.mem_filter, List.mem_zipIdx_iff_getElem?] at hui
    exact List.mem_of_getElem? hui.1
  have hsorted : it.Pairwise fun a b => a.2 < b.2 := by
    rw [← hit]
    apply List.Pairwise.filter
    have hz : (tr.zipIdx.map Prod.snd) = List.range tr.length := by
      rw [List.zipIdx_map_snd, List.range_eq_range']
    have := List.pairwise_lt_range (n := tr.length)
    rw [← hz, List.pairwise_map] at this
    exact this
  by_cases hne : it = []
  · subst hne
    simp only [minKey, minKeyLoop, true_and]
    intro tr' h'
    cases h'
    exact happ
  let fr : Track K × Nat → K := fun ui => (ui.1.freq.getLast?.join).getD 0
  have hfr : ∀ ui ∈ it, ui.1.freq.getLast? = some (some (fr ui)) ∧ S (fr ui) := by
    intro ui hui
    obtain ⟨f, h1, h2⟩ := htr ui.1 (hmem ui hui)
    have : fr ui = f := by simp [fr, h1]
    rw [this]
    exact ⟨h1, h2⟩
  have hkF : ∀ ui ∈ it, trackDiffSingleF A ui.1 (numpyTrack t) =
      .ok (some (distF A (fr ui) f0)) := by
    intro ui hui
    simp [trackDiffSingleF, lastE, (hfr ui hui).1, getE, numpyTrack, hl, absDiffF]
  have hk : ∀ ui ∈ it, trackDiffSingle ui.1 (numpyTrack t) = .ok (some |fr ui - f0|) := by
    intro ui hui
    simp [trackDiffSingle, lastE, (hfr ui hui).1, getE, numpyTrack, hl]
  obtain ⟨⟨u, i⟩, pre, post, h1, hmF, h2, h3⟩ := minKey_spec' (fun x : K => some x)
    nanLt (fun x y => rfl) (fun ui => trackDiffSingleF A ui.1 (numpyTrack t)) _ it hne hkF
  obtain ⟨⟨u', i'⟩, pre', post', h1', hmE, h2', h3'⟩ := minKey_spec' (fun x : K => some x)
    nanLt (fun x y => rfl) (fun ui => trackDiffSingle ui.1 (numpyTrack t)) _ it hne hk
  rw [hmF, hmE]
  simp only [hg0, nanLt, decide_eq_true_eq]
  obtain ⟨g1, g2⟩ := min_same A (fun a b h1 h2 => by omega) it hsorted fr f0 (dfF A c.toCfg f0)
    (fun x hx => hS.rep _ (hfr x hx).2) (hS.rep _ hf0) (dfF_rep A _ _) (hS.half _ hf0)
    (u, i) (u', i') pre post pre' post' h1 h1' h2 h3 h2' h3'
  have hag : |fr (u', i') - f0| < dfF A c.toCfg f0 ↔ |fr (u', i') - f0| < c.toCfg.df f0 :=
    hS.agree _ _ (hfr _ (by rw [h1']; simp)).2 hf0
  by_cases hd : distF A (fr (u, i)) f0 < dfF A c.toCfg f0
  · have := g2 hd
    simp only [Prod.mk.injEq] at this
    obtain ⟨rfl, rfl⟩ := this
    rw [if_pos hd, if_pos (hag.1 (g1.1 hd))]
    refine ⟨rfl, fun tr' h' => ?_⟩
    cases h'
    exact hset _ _
  · have hd' : ¬ |fr (u', i') - f0| < c.toCfg.df f0 := fun h' => hd (g1.2 (hag.2 h'))
    rw [if_neg hd, if_neg hd']
    refine ⟨rfl, fun tr' h' => ?_⟩
    cases h'
    exact happ

theorem modalDeactivateLoop_same {c : ModalCfg K} {S : K → Prop} (hS : Settled A c.toCfg S)
    (hst : c.mergeStrategy = "single") (all : List (Frame K))
    (hP : ∀ f ∈ all, ∀ pk ∈ f.peaks, S pk.freq)
    (hok : ∀ t : ATrack K, Arises all t → modalTrackOkF A N c t = modalTrackOk c t) :
    ∀ (is : List Nat) (s : State K), (∀ t ∈ s.active, Arises all t) → TailIn S s.tracks →
    deactivateLoop (modalDeactivateF A N c) is s = deactivateLoop (modalDeactivate c) is s ∧
    ∀ s', deactivateLoop (modalDeactivate c) is s = .ok s' → TailIn S s'.tracks := by
  intro is
  induction is with
  | nil => intro s h1 h2; exact ⟨rfl, fun s' h => by cases h; exact h2⟩
  | cons i is ih =>
    intro s h1 h2
    unfold deactivateLoop modalDeactivateF modalDeactivate popE
    cases hi : s.active[i]? with
    | none => exact ⟨rfl, fun s' h => by cases h⟩
    | some t =>
      dsimp only
      have har := h1 t (List.mem_of_getElem? hi)
      obtain ⟨n, _, hfr⟩ := id har
      obtain ⟨f1, f2⟩ := finish_same A N hS hst s.tracks h2 t hfr.2.2.1 (hok t har) (hfr.freq hP)
      rw [f1]
      cases hf : finish c s.tracks t with
      | error e => exact ⟨rfl, fun s' h => by cases h⟩
      | ok tr =>
        exact ih ⟨tr, s.active.eraseIdx i, s.frame⟩
          (fun u hu => h1 u (List.mem_of_mem_eraseIdx hu)) (f2 tr hf)

theorem continueLoop_mem (c : Cfg K) (order : List Nat) (peaks : List (Peak K))
    (T : List (ATrack K)) (hs : IsArgsort peaks order) (hne : ∀ t ∈ T, t.freq ≠ [])
    (l : LoopSt K) (h : continueLoop c peaks order
      ⟨T, List.replicate T.length true, List.replicate peaks.length true⟩ = .ok l) :
    ∀ t' ∈ l.active, t' ∈ T ∨ ∃ t ∈ T, ∃ pk ∈ peaks, t' = t.push pk := by
  have hrel0 : Rel T peaks (List.replicate T.length none)
      ⟨T, List.replicate T.length true, List.replicate peaks.length true⟩ := by
    refine ⟨?_, ?_, ?_⟩
    · simp only
      apply List.ext_getElem?
      intro i
      by_cases h : i < T.length
      · rw [applyMatch_getElem?_free _ _ _ _ T[i] (by simp [h])
          (List.getElem?_eq_getElem h), List.getElem?_eq_getElem h]
      · rw [List.getElem?_eq_none (by omega), List.getElem?_eq_none]
        rw [applyMatch_length _ _ _ (by simp)]; omega
    · simp
    · simp only
      apply List.ext_getElem?
      intro i
      by_cases h : i < peaks.length
      · simp [h]
      · have h1 : (List.range peaks.length)[i]? = none := by simpa using h
        rw [List.getElem?_map, h1, List.getElem?_eq_none (by simpa using h)]; rfl
  have hinv0 : LoopInv c T peaks [] (List.replicate T.length none) := by
    refine ⟨by simp, ?_, ?_, ?_, ?_, ?_, ?_, ?_⟩ <;> simp [List.getElem?_replicate]
  obtain ⟨m, l', hl, hrel, hg⟩ := continueLoop_spec c T peaks hne order [] _ _
    (by simpa using hs) hrel0 hinv0
  rw [h] at hl
  cases hl
  intro t' ht'
  rw [hrel.active, applyMatch, List.mem_iff_getElem?] at ht'
  obtain ⟨i, hi⟩ := ht'
  rw [List.getElem?_zipWith_eq_some] at hi
  obtain ⟨a, o, h1, h2, rfl⟩ := hi
  have ha := List.mem_of_getElem? h1
  cases ho : o.bind fun p => peaks[p]? with
  | none => exact Or.inl ha
  | some pk =>
    refine Or.inr ⟨a, ha, pk, ?_, rfl⟩
    rw [Option.bind_eq_some_iff] at ho
    obtain ⟨p, _, hp⟩ := ho
    exact List.mem_of_getElem? hp

theorem modal_run_same {c : ModalCfg K} {S : K → Prop} (hS : Settled A c.toCfg S)
    (hst : c.mergeStrategy = "single") (all : List (Frame K))
    (hP : ∀ f ∈ all, ∀ pk ∈ f.peaks, S pk.freq) (hv : ∀ f ∈ all, f.Valid)
    (hok : ∀ t : ATrack K, Arises all t → modalTrackOkF A N c t = modalTrackOk c t) :
    ∀ (frames : List (Frame K)) (s : State K), all.drop s.frame = frames →
    (∀ t ∈ s.active, FromFrames all s.frame t) → TailIn S s.tracks →
    runFromF A (modalDeactivateF A N c) c.toCfg frames s =
      runFrom (modalDeactivate c) c.toCfg frames s := by
  intro frames
  induction frames with
  | nil => intro s _ _ _; rfl
  | cons f frames ih =>
    intro s hdrop hl htr
    have hf : all[s.frame]? = some f := by
      have := congrArg List.head? hdrop
      simpa [List.head?_drop] using this
    have hlt := getElem?_lt hf
    have hmf := List.mem_of_getElem? hf
    have hne : ∀ t ∈ s.active, t.freq ≠ [] := fun t ht => (hl t ht).2.2.1
    have h0 := (continueLoop_same A hS (hP f hmf) f.order
      ⟨s.active, List.replicate s.active.length true, List.replicate f.peaks.length true⟩
      (FromFrames.last hl hP)).1
    have h0' := continueLoop_mem c.toCfg f.order f.peaks s.active (hv f hmf) hne
    have hJ : LastProper s.tracks := fun u hu => by
      obtain ⟨f, h1, _⟩ := htr u hu
      exact ⟨f, h1⟩
    obtain ⟨m, s', hc, hsp, _⟩ := call_spec (saveModal c) (modalDeactivate c)
      (popSave_modal c (Or.inr hst)) c.toCfg f.order f.peaks s (hv f hmf) hne hJ
    have hcF : callF A (modalDeactivateF A N c) c.toCfg f.order f.peaks s = .ok s' ∧
        TailIn S s'.tracks := by
      unfold call at hc
      unfold callF
      rw [h0]
      cases h1 : continueLoop c.toCfg f.peaks f.order
          ⟨s.active, List.replicate s.active.length true, List.replicate f.peaks.length true⟩ with
      | error e => rw [h1] at hc; cases hc
      | ok l =>
        rw [h1] at hc
        dsimp only at hc ⊢
        have hl1 : ∀ t ∈ l.active, Arises all t := by
          intro t' ht'
          rcases h0' l h1 t' ht' with ht' | ⟨t, ht, pk, hpk, rfl⟩
          · exact ⟨s.frame, hlt.le, hl t' ht'⟩
          · exact ⟨s.frame + 1, hlt, (hl t ht).push hf hpk⟩
        obtain ⟨e1, e2⟩ := modalDeactivateLoop_same A N hS hst all hP hok
          ((List.range l.active.length).reverse.filter (fun i => l.freeTrack.getD i false))
          { s with active := l.active } hl1 htr
        rw [e1]
        cases h2 : deactivateLoop (modalDeactivate c)
            ((List.range l.active.length).reverse.filter (fun i => l.freeTrack.getD i false))
            { s with active := l.active } with
        | error e => rw [h2] at hc; cases hc
        | ok s₁ =>
          rw [h2] at hc
          dsimp only at hc ⊢
          have g2 := e2 s₁ h2
          cases h3 : activateLoop c.toCfg s₁.frame f.peaks
              ((List.range f.peaks.length).filter (fun p => l.freePeak.getD p false)) s₁.active with
          | error e => rw [h3] at hc; cases hc
          | ok act =>
            rw [h3] at hc
            cases hc
            exact ⟨rfl, g2⟩
    unfold runFromF runFrom
    rw [hcF.1, hc]
    refine ih s' ?_ ?_ hcF.2
    · rw [hsp.frame, ← List.drop_drop, hdrop]
      rfl
    · intro t ht
      rw [hsp.active, List.mem_append] at ht
      rw [hsp.frame]
      rcases ht with ht | ht
      · obtain ⟨i, u, p, pk, h1, h2, h3, rfl⟩ := mem_continued ht
        exact (hl u (List.mem_of_getElem? h1)).push hf (List.mem_of_getElem? h3)
      · obtain ⟨pk, hpk, rfl⟩ := List.mem_map.1 ht
        refine FromFrames.newborn hf ?_
        have := List.mem_of_mem_take hpk
        simp only [unused, List.mem_map, List.mem_filter] at this
        obtain ⟨⟨a, i⟩, ⟨h1, _⟩, rfl⟩ := this
        exact List.mem_of_getElem? (List.mk_mem_zipIdx_iff_getElem?.1 h1)

/-- C147: with the strategy `"single"`, where no threshold decision and no acceptance of a track that
can arise is within the rounding error, the analysis is the exact one. -/
theorem C147_same (c : ModalCfg K) (hst : c.mergeStrategy = "single") (S : K → Prop)
    (hS : Settled A c.toCfg S) (prior : State K) (frames : List (Frame K))
    (hv : ∀ f ∈ frames, f.Valid) (hP : ∀ f ∈ frames, ∀ pk ∈ f.peaks, S pk.freq)
    (hok : ∀ t : ATrack K, Arises frames t → modalTrackOkF A N c t = modalTrackOk c t) :
    modalFitF A N c prior frames = trackerFit (modalDeactivate c) c.toCfg prior frames :=
  modal_run_same A N hS hst frames hP hv hok frames (reset prior) rfl
    (by intro t ht; simp [reset] at ht) (by intro t ht; simp [reset] at ht)

/-! ## Examples -/

/-- Rounded averages (added from the right) and rounded least-squares lines. -/
def exNum : Numerics ℚ where
  mean l := some ((double ℚ).div (l.foldr (double ℚ).add 0) (l.length : ℚ))
  nanmean l := if l.filterMap id = [] then none else
    some ((double ℚ).div ((l.filterMap id).foldr (double ℚ).add 0) ((l.filterMap id).length : ℚ))
  slope x y := some ((double ℚ).rnd (olsSlope x y))
  intercept x y := some ((double ℚ).rnd (olsIntercept x y))

/-- Exact numbers. -/
def exExact : Numerics ℚ where
  mean l := some (Tracker.mean l)
  nanmean l := nanmean l
  slope x y := some (olsSlope x y)
  intercept x y := some (olsIntercept x y)

/-- Libraries that compute NaN only. -/
def exNaN : Numerics ℚ := ⟨fun _ => none, fun _ => none, fun _ _ => none, fun _ _ => none⟩

/-- The default thresholds with tracks of two frames at least. -/
def exModalF (reverse : Bool) (strategy : String) (strip : Option ℚ) : ModalCfg ℚ :=
  { exCfgF with freqLo := some 20, freqHi := some 16000, peakThreshold := -90, reverse := reverse,
                mergeStrategy := strategy, stripT := strip }

/-- The frames of the exact examples: a partial near 100 Hz with a pause, one near 200 Hz. -/
example : (∀ f ∈ exFrames, f.Valid) ∧ ∀ f ∈ exFrames, ∀ pk ∈ f.peaks, (double ℚ).Rep pk.freq :=
  ⟨exFrames_valid, by decide +kernel⟩

/-- Both strategies merge the two halves of the first partial. -/
example : ∀ st ∈ ["average", "single"], (modalFitF (double ℚ) exNum (exModalF false st none)
    ⟨[], [], 0⟩ exFrames).toOption.map (fun s => s.tracks.map fun t => (t.start, t.freq)) =
    some [(0, [some 100, some 101, none, none, some 102, some 104]),
      (0, [some 200, some 202, some 201, some 201, some 201, some 199])] := by
  decide +kernel

/-- NaN: nothing is rejected, and with averages nothing is merged. -/
example : (modalFitF (double ℚ) exNaN (exModalF false "average" none) ⟨[], [], 0⟩
      exFrames).toOption.map (fun s => s.tracks.map fun t => (t.start, t.freq)) =
    some [(0, [some 100, some 101]), (4, [some 102, some 104]),
      (0, [some 200, some 202, some 201, some 201, some 201, some 199])] := by
  decide +kernel

/-- A rising track is accepted if the regression computes NaN, and rejected if it computes a
number. -/
example : modalTrackOkF (double ℚ) exNaN (exModalF false "average" none)
      ⟨0, [5, 5], [-10, -5], [0, 0]⟩ = true ∧
    modalTrackOkF (double ℚ) exNum (exModalF false "average" none)
      ⟨0, [100, 100], [-10, -5], [0, 0]⟩ = false := by
  decide +kernel

/-- The unknown strategy of `C147_unknown`: no error while nothing is accepted. -/
example : (finishF (double ℚ) exNum (exModalF false "median" none) []
      ⟨0, [100], [-10], [0]⟩).toOption = some [] ∧
    finishF (double ℚ) exNum (exModalF false "median" none) [] ⟨0, [100, 101], [-10, -11], [0, 0]⟩ =
      .error .keyError := by
  have h : modalTrackOkF (double ℚ) exNum (exModalF false "median" none)
      ⟨0, [100, 101], [-10, -11], [0, 0]⟩ = true := by decide +kernel
  refine ⟨by decide +kernel, ?_⟩
  rw [C147_unknown _ _ _ (by decide) (by decide), if_pos h]

/-- The hypotheses of `C147_finish`, with a track that is merged and one that is not. -/
example : (∀ u ∈ [(⟨0, [some 100, some 101], [some (-10), some (-11)], [some 0, some 0]⟩ : Track ℚ)],
      u.freq.getLast? = some (some 101)) ∧
    Numeric (double ℚ) exNum "average" [⟨0, [some 100, some 101], [some (-10), some (-11)], [some 0, some 0]⟩]
      ⟨4, [102, 104], [-12, -13], [0, 0]⟩ ∧
    (finishF (double ℚ) exNum (exModalF false "average" none)
      [⟨0, [some 100, some 101], [some (-10), some (-11)], [some 0, some 0]⟩]
      ⟨4, [102, 104], [-12, -13], [0, 0]⟩).toOption.map (·.length) = some 1 ∧
    (finishF (double ℚ) exNum (exModalF false "average" none)
      [⟨0, [some 100, some 101], [some (-10), some (-11)], [some 0, some 0]⟩]
      ⟨4, [150, 152], [-12, -13], [0, 0]⟩).toOption.map (·.length) = some 2 := by
  refine ⟨by decide +kernel, ?_, by decide +kernel, by decide +kernel⟩
  intro w hw _
  simp only [List.mem_singleton] at hw
  subst hw
  exact ⟨_, Or.inl ⟨rfl, 201 / 2, 103, by decide +kernel, by decide +kernel, rfl⟩⟩

/-- The hypotheses of `C147_single` and `C147_average`. -/
example : (double ℚ).Rep 101 ∧ (double ℚ).Rep 102 ∧
    2 * |(101 : ℚ) - 102| ≤ 102 ∧ 2 * dfF (double ℚ) (exModalF false "single" none).toCfg 102 ≤ 102 ∧
    exNum.nanmean [some 100, some 101, none, some 101] = some (7083786913884843 / 2 ^ 46) ∧
    (double ℚ).Rep (7083786913884843 / 2 ^ 46) ∧
    |(7083786913884843 / 2 ^ 46 : ℚ) - (100 + 101 + 101) / 3| ≤ 1 / 2 ^ 45 ∧
    |(302 / 3 : ℚ) - 103| + 2 * (1 / 2 ^ 45) <
      dfF (double ℚ) (exModalF false "average" none).toCfg 102 ∧
    2 * dfF (double ℚ) (exModalF false "average" none).toCfg 102 + 1 / 2 ^ 45 ≤ 103 := by
  decide +kernel

/-- The hypotheses of `C147_accept` and `C147_agree`: three frames, and lines with errors. -/
example : modalTrackOkF (double ℚ) exNum (exModalF false "single" none)
      ⟨0, [100, 101, 101], [-10, -11, -14], [0, 0, 0]⟩ = true ∧
    modalTrackOkF (double ℚ) exNum (exModalF false "single" none)
      ⟨0, [100, 101, 101], [-10, -11, -14], [0, 0, 0]⟩ =
    modalTrackOk (exModalF false "single" none)
      ⟨0, [100, 101, 101], [-10, -11, -14], [0, 0, 0]⟩ := by
  refine ⟨by decide +kernel, ?_⟩
  refine C147_agree (double ℚ) exNum _ _ (7083786913884843 / 2 ^ 46) (-2)
    ((double ℚ).rnd (-29 / 3)) (-2) (-29 / 3) (1 / 2 ^ 45) 0 (1 / 2 ^ 45)
    (by decide) (by decide +kernel) (by decide +kernel) (by decide +kernel) ?_
    (by decide +kernel) (by decide +kernel) (by decide +kernel) (by decide +kernel)
    ?_ ?_ (by decide +kernel) (by decide +kernel)
  · have h := (leastSquares_iff ([0, 1, 2] : List ℚ) [-10, -11, -14] (by decide) (by decide +kernel)
      (-2) (-29 / 3)).2 (by decide +kernel)
    have e : forwardPoints false ([-10, -11, -14] : List ℚ) = [0, 1, 2].zip [-10, -11, -14] := by
      decide +kernel
    show LeastSquares (forwardPoints false ([-10, -11, -14] : List ℚ)) (-2) (-29 / 3)
    rw [e]
    exact h
  · intro lo h
    cases h
    decide +kernel
  · intro hi h
    cases h
    decide +kernel

/-- The hypotheses of `C147_mean`. -/
example : MeanF (double ℚ) [100, 101, 101] (7083786913884843 / 2 ^ 46) ∧
    ((3 : ℕ) : ℚ) * (double ℚ).u ≤ 1 / 2 := by
  refine ⟨?_, by decide +kernel⟩
  have h := meanF_exists (double ℚ) [100, 101, 101]
  have e : (double ℚ).div ([100, 101, 101].foldr (double ℚ).add 0)
      (([100, 101, 101] : List ℚ).length : ℚ) = 7083786913884843 / 2 ^ 46 := by decide +kernel
  rw [e] at h
  exact h

/-- `C147_strip`: only the first of two tracks begins early enough, forwards and backwards. -/
example : (modalAllTracksF (double ℚ) exNum (exModalF false "single" (some (1 / 64)))
      ⟨[⟨0, [some 100], [some (-10)], [some 0]⟩, ⟨3, [some 200], [some (-10)], [some 0]⟩],
        [], 5⟩).map (·.start) = [0] ∧
    (modalAllTracksF (double ℚ) exNum (exModalF true "single" (some (1 / 64)))
      ⟨[⟨0, [some 100], [some (-10)], [some 0]⟩, ⟨3, [some 200], [some (-10)], [some 0]⟩],
        [], 5⟩).map (·.start) = [3] := by
  decide +kernel

/-- The hypotheses of `C147_strip_error`; and a strip time whose number of frames is changed by
rounding (the double nearest to 0.1 seconds at 30 frames per second, as in `C146_length_off`). -/
example : 3 * (double ℚ).u * (1 / 64 * (44100 / 500)) + 2 * (double ℚ).eta * (1 / 64 + 1) < 1 ∧
    stripNF (double ℚ) { exModalF false "single" (some (3602879701896397 / 2 ^ 55)) with
      fs := 30, h := 1 } = some 3 ∧
    ⌈(3602879701896397 / 2 ^ 55 : ℚ) * (30 / 1)⌉ = 4 := by
  decide +kernel

/-- The hypotheses of `C147_same`: the thresholds are rounded, the libraries are exact. -/
example : modalFitF (double ℚ) exExact (exModalF false "single" none) ⟨[], [], 0⟩ exFramesF =
    trackerFit (modalDeactivate (exModalF false "single" none))
      (exModalF false "single" none).toCfg ⟨[], [], 0⟩ exFramesF := by
  have h : ∀ f ∈ [1000, 440, 8001 / 8, 441, 3000, (1001 : ℚ)],
      ∀ p ∈ [1000, 440, 8001 / 8, 441, 3000, (1001 : ℚ)],
        (|f - p| < dfF (double ℚ) exCfgF p ↔
          |f - p| < exCfgF.freqDevOffset + exCfgF.freqDevSlope * p) := by
    decide +kernel
  refine C147_same (double ℚ) exExact _ rfl
    (fun f => f ∈ [1000, 440, 8001 / 8, 441, 3000, 1001]) ?_ _ _ exFramesF_ok.1 (by decide +kernel) ?_
  · refine ⟨?_, ?_, fun f p hf hp => h f hf p hp⟩ <;> decide +kernel
  · intro t _
    have hlen : minSineLenF (double ℚ) (exModalF false "single" none).toCfg =
        (exModalF false "single" none).toCfg.minSineLen := by decide +kernel
    simp only [modalTrackOkF, modalTrackOk, trackOkF, trackOk, hlen, nanLt, exExact]
    rfl

end Verif.Float
