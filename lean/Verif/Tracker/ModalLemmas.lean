import Verif.Tracker.ModalSpec
import Verif.Tracker.Invariants

/-! # Lemmas about the modal tracker -/

set_option autoImplicit false
set_option linter.unusedSectionVars false
set_option linter.unusedSimpArgs false

namespace Verif.Tracker

variable {K : Type*} [Field K] [LinearOrder K]

/-! ## Least squares -/

theorem sum_expand (pts : List (K × K)) (mx my k e : K) :
    (pts.map fun p => ((p.2 - my) - k * (p.1 - mx) + e) ^ 2).sum =
      (pts.map fun p => (p.2 - my) ^ 2).sum -
        2 * k * (pts.map fun p => (p.1 - mx) * (p.2 - my)).sum +
        k ^ 2 * (pts.map fun p => (p.1 - mx) ^ 2).sum + (pts.length : K) * e ^ 2 +
        2 * e * (pts.map fun p => p.2 - my).sum - 2 * k * e * (pts.map fun p => p.1 - mx).sum := by
  induction pts with
  | nil => simp
  | cons p pts ih =>
    simp only [List.map_cons, List.sum_cons, List.length_cons, Nat.cast_add, Nat.cast_one]
    rw [ih]; ring

theorem sum_centered (l : List K) (h : (l.length : K) ≠ 0) :
    (l.map fun x => x - mean l).sum = 0 := by
  have : ∀ (l : List K) (m : K), (l.map fun x => x - m).sum = l.sum - l.length * m := by
    intro l m
    induction l with
    | nil => simp
    | cons a l ih =>
      simp only [List.map_cons, List.sum_cons, List.length_cons, Nat.cast_add, Nat.cast_one, ih]
      ring
  rw [this, mean]
  field_simp
  ring

/-- Decomposition of the sum of squared residuals around the closed-form line. -/
theorem ssr_decomp [IsStrictOrderedRing K] (xs ys : List K) (hl : xs.length = ys.length)
    (hn : xs ≠ [])
    (hs : (xs.map fun x => (x - mean xs) ^ 2).sum ≠ 0) (k q : K) :
    ssr (xs.zip ys) k q =
      ssr (xs.zip ys) (olsSlope xs ys) (olsIntercept xs ys) +
        (xs.map fun x => (x - mean xs) ^ 2).sum * (k - olsSlope xs ys) ^ 2 +
        (xs.length : K) * (mean ys - k * mean xs - q) ^ 2 := by
  have hlen : (xs.length : K) ≠ 0 := by
    rw [Nat.cast_ne_zero]; simpa using hn
  have hfst : (xs.zip ys).map Prod.fst = xs := by rw [List.map_fst_zip]; omega
  have hsnd : (xs.zip ys).map Prod.snd = ys := by rw [List.map_snd_zip]; omega
  have h1 : ∀ k q, ssr (xs.zip ys) k q = ((xs.zip ys).map fun p =>
      ((p.2 - mean ys) - k * (p.1 - mean xs) + (mean ys - k * mean xs - q)) ^ 2).sum := by
    intro k q
    unfold ssr
    congr 1
    apply List.map_congr_left
    intro p _
    ring
  have hcx : ((xs.zip ys).map fun p => p.1 - mean xs).sum = 0 := by
    have := sum_centered xs hlen
    conv at this => lhs; rw [← hfst]
    rw [List.map_map] at this
    rw [hfst] at this
    exact this
  have hcy : ((xs.zip ys).map fun p => p.2 - mean ys).sum = 0 := by
    have := sum_centered ys (by rw [← hl]; exact hlen)
    conv at this => lhs; rw [← hsnd]
    rw [List.map_map] at this
    rw [hsnd] at this
    exact this
  have hsxx : ((xs.zip ys).map fun p => (p.1 - mean xs) ^ 2).sum =
      (xs.map fun x => (x - mean xs) ^ 2).sum := by
    conv_rhs => rw [← hfst]
    rw [List.map_map, hfst]
    rfl
  have hzl : (xs.zip ys).length = xs.length := by rw [List.length_zip]; omega
  rw [h1 k q, h1 (olsSlope xs ys), sum_expand, sum_expand, hcx, hcy, hsxx, hzl]
  have hslope : ((xs.zip ys).map fun p => (p.1 - mean xs) * (p.2 - mean ys)).sum =
      olsSlope xs ys * (xs.map fun x => (x - mean xs) ^ 2).sum := by
    unfold olsSlope
    field_simp
  rw [hslope]
  unfold olsIntercept
  ring

theorem sum_sq_pos [IsStrictOrderedRing K] (xs : List K) (m a b : K) (ha : a ∈ xs) (hb : b ∈ xs)
    (hab : a ≠ b) :
    0 < (xs.map fun x => (x - m) ^ 2).sum := by
  have hnn : ∀ y ∈ xs.map fun x => (x - m) ^ 2, 0 ≤ y := by
    intro y hy
    obtain ⟨x, _, rfl⟩ := List.mem_map.1 hy
    positivity
  have h1 : (a - m) ^ 2 ≤ (xs.map fun x => (x - m) ^ 2).sum :=
    List.single_le_sum hnn _ (List.mem_map.2 ⟨a, ha, rfl⟩)
  have h2 : (b - m) ^ 2 ≤ (xs.map fun x => (x - m) ^ 2).sum :=
    List.single_le_sum hnn _ (List.mem_map.2 ⟨b, hb, rfl⟩)
  by_contra hcon
  have hz := not_lt.1 hcon
  have e1 : (a - m) ^ 2 = 0 := le_antisymm (le_trans h1 hz) (sq_nonneg _)
  have e2 : (b - m) ^ 2 = 0 := le_antisymm (le_trans h2 hz) (sq_nonneg _)
  have e1' : a - m = 0 := by simpa using e1
  have e2' : b - m = 0 := by simpa using e2
  apply hab
  linarith

theorem leastSquares_iff [IsStrictOrderedRing K] (xs ys : List K) (hl : xs.length = ys.length)
    (hs : 0 < (xs.map fun x => (x - mean xs) ^ 2).sum) (k q : K) :
    LeastSquares (xs.zip ys) k q ↔ k = olsSlope xs ys ∧ q = olsIntercept xs ys := by
  have hn : xs ≠ [] := by rintro rfl; simp at hs
  have hlen : (0 : K) < xs.length := by
    rw [Nat.cast_pos]; exact List.length_pos_iff.2 hn
  have hd := ssr_decomp xs ys hl hn hs.ne'
  constructor
  · intro h
    have h1 := h (olsSlope xs ys) (olsIntercept xs ys)
    rw [hd k q] at h1
    have p1 : 0 ≤ (xs.map fun x => (x - mean xs) ^ 2).sum * (k - olsSlope xs ys) ^ 2 := by
      positivity
    have p2 : 0 ≤ (xs.length : K) * (mean ys - k * mean xs - q) ^ 2 := by positivity
    have z1 : (xs.map fun x => (x - mean xs) ^ 2).sum * (k - olsSlope xs ys) ^ 2 = 0 := by
      linarith
    have z2 : (xs.length : K) * (mean ys - k * mean xs - q) ^ 2 = 0 := by linarith
    have y1 : k - olsSlope xs ys = 0 := by
      rcases mul_eq_zero.1 z1 with h | h
      · exact absurd h hs.ne'
      · simpa using h
    have y2 : mean ys - k * mean xs - q = 0 := by
      rcases mul_eq_zero.1 z2 with h | h
      · exact absurd h hlen.ne'
      · simpa using h
    have hk : k = olsSlope xs ys := by linarith
    refine ⟨hk, ?_⟩
    unfold olsIntercept
    rw [← hk]; linarith
  · rintro ⟨rfl, rfl⟩ k' q'
    rw [hd k' q']
    have p1 : 0 ≤ (xs.map fun x => (x - mean xs) ^ 2).sum * (k' - olsSlope xs ys) ^ 2 := by
      positivity
    have p2 : 0 ≤ (xs.length : K) * (mean ys - k' * mean xs - q') ^ 2 := by positivity
    linarith

theorem ssr_perm {p₁ p₂ : List (K × K)} (h : p₁.Perm p₂) (k q : K) : ssr p₁ k q = ssr p₂ k q :=
  (h.map _).sum_eq

theorem leastSquares_perm {p₁ p₂ : List (K × K)} (h : p₁.Perm p₂) (k q : K) :
    LeastSquares p₁ k q ↔ LeastSquares p₂ k q := by
  unfold LeastSquares
  simp only [ssr_perm h]

theorem lmX_length (rev : Bool) (n : Nat) : (lmX rev n : List K).length = n := by
  cases rev <;> simp [lmX]

theorem lmX_sxx_pos [IsStrictOrderedRing K] (rev : Bool) (n : Nat) (hn : 2 ≤ n) :
    0 < ((lmX rev n : List K).map fun x => (x - mean (lmX rev n : List K)) ^ 2).sum := by
  apply sum_sq_pos _ _ (0 : K) 1
  · have : (0 : K) ∈ (List.range n).map (fun i : Nat => (i : K)) :=
      List.mem_map.2 ⟨0, List.mem_range.2 (by omega), by simp⟩
    cases rev
    · simpa [lmX] using this
    · simpa [lmX] using this
  · have : (1 : K) ∈ (List.range n).map (fun i : Nat => (i : K)) :=
      List.mem_map.2 ⟨1, List.mem_range.2 (by omega), by simp⟩
    cases rev
    · simpa [lmX] using this
    · simpa [lmX] using this
  · exact zero_ne_one

theorem zip_range_eq {α : Type*} (l : List α) :
    ((List.range l.length).map (fun i : Nat => (i : K))).zip l =
      l.zipIdx.map fun p => ((p.2 : K), p.1) := by
  apply List.ext_getElem?
  intro i
  by_cases h : i < l.length
  · simp [h]
  · have h' : l.length ≤ i := by omega
    rw [List.getElem?_eq_none (by simp; omega), List.getElem?_eq_none (by simp; omega)]

theorem zip_reverse {α β : Type*} (l : List α) (m : List β) (h : l.length = m.length) :
    (l.zip m).reverse = l.reverse.zip m.reverse := by
  induction l generalizing m with
  | nil => simp
  | cons a l ih =>
    cases m with
    | nil => simp at h
    | cons b m =>
      simp only [List.length_cons, Nat.add_right_cancel_iff] at h
      simp only [List.zip_cons_cons, List.reverse_cons]
      rw [ih m h, List.zip_append (by simpa using h)]
      rfl

theorem forwardPoints_perm (rev : Bool) (mags : List K) :
    ((lmX rev mags.length : List K).zip mags).Perm (forwardPoints rev mags) := by
  cases rev with
  | false =>
    have : (lmX false mags.length : List K).zip mags = forwardPoints false mags := by
      simp only [lmX, forwardPoints, if_false, Bool.false_eq_true]
      exact zip_range_eq mags
    rw [this]
  | true =>
    have : (lmX true mags.length : List K).zip mags = (forwardPoints true mags).reverse := by
      simp only [lmX, forwardPoints, if_true]
      have h := zip_range_eq (K := K) mags.reverse
      rw [List.length_reverse] at h
      rw [← h, zip_reverse _ _ (by simp), List.reverse_reverse]
    rw [this]
    exact List.reverse_perm _

/-! ## Merging -/

/-- Finished tracks end with a proper sample. -/
def LastProper (tr : List (Track K)) : Prop :=
  ∀ u ∈ tr, ∃ f, u.freq.getLast? = some (some f)

theorem filterMap_id_ne_nil {l : List (Option K)} {f : K} (h : l.getLast? = some (some f)) :
    l.filterMap id ≠ [] := by
  intro h0
  rw [List.filterMap_eq_nil_iff] at h0
  have := h0 (some f) (List.mem_of_getLast? h)
  simp at this

theorem nanmean_eq {l : List (Option K)} (h : l.filterMap id ≠ []) :
    nanmean l = some (mean (l.filterMap id)) := by
  unfold nanmean
  cases h' : l.filterMap id with
  | nil => exact absurd h' h
  | cons a as => rfl

theorem numpyTrack_last {t : ATrack K} (h : t.freq ≠ []) :
    ∃ f, (numpyTrack t).freq.getLast? = some (some f) := by
  refine ⟨lastFreq t, ?_⟩
  simp [numpyTrack, getLast?_lastFreq t h]

theorem numpyTrack_filterMap (t : ATrack K) : (numpyTrack t).freq.filterMap id = t.freq := by
  simp [numpyTrack]

/-- The difference function of a valid strategy gives a number on proper tracks. -/
theorem diff_spec {strategy : String} (hv : strategy = "average" ∨ strategy = "single")
    {t : ATrack K} (ht : t.freq ≠ []) :
    ∃ diff, freqDiffFunction strategy = .ok diff ∧
      ∀ u : Track K, (∃ f, u.freq.getLast? = some (some f)) →
        ∃ d, diff u (numpyTrack t) = .ok (some d) ∧
          ∀ d', FreqDiff strategy u (numpyTrack t) d' ↔ d' = d := by
  rcases hv with rfl | rfl
  · refine ⟨trackDiffAvg, by simp [freqDiffFunction], ?_⟩
    rintro u ⟨f, hf⟩
    have h1 := filterMap_id_ne_nil hf
    obtain ⟨g, hg⟩ := numpyTrack_last ht
    have h2 := filterMap_id_ne_nil hg
    refine ⟨_, by simp only [trackDiffAvg, nanmean_eq h1, nanmean_eq h2]; rfl, ?_⟩
    intro d'
    constructor
    · rintro (⟨_, _, _, h⟩ | ⟨h, _⟩)
      · exact h
      · exact absurd h (by decide)
    · intro h
      exact Or.inl ⟨rfl, h1, h2, h⟩
  · refine ⟨trackDiffSingle, by simp [freqDiffFunction], ?_⟩
    rintro u ⟨f, hf⟩
    obtain ⟨g, l, hl⟩ := List.exists_cons_of_ne_nil ht
    refine ⟨|f - g|, by simp [trackDiffSingle, lastE, hf, getE, numpyTrack, hl], ?_⟩
    intro d'
    constructor
    · rintro (⟨h, _⟩ | ⟨_, a, b, ha, hb, h⟩)
      · exact absurd h (by decide)
      · rw [hf] at ha
        simp only [Option.some.injEq] at ha
        simp [numpyTrack, hl] at hb
        rw [h, ← ha, ← hb]
    · intro h
      exact Or.inr ⟨rfl, f, g, hf, by simp [numpyTrack, hl], h⟩

/-- What finishing an accepted track does. -/
theorem finish_spec [IsStrictOrderedRing K] [FloorRing K] (c : ModalCfg K)
    (hv : c.mergeStrategy = "average" ∨ c.mergeStrategy = "single")
    (tr : List (Track K)) (hJ : LastProper tr) (t : ATrack K) (ht : t.freq ≠ [])
    (hok : modalTrackOk c t = true) (f0 : K) (hf0 : t.freq.head? = some f0) :
    (∃ (i : Nat) (u : Track K) (d : K), tr[i]? = some u ∧ u.stop < t.start ∧
      FreqDiff c.mergeStrategy u (numpyTrack t) d ∧ d < c.df f0 ∧
      (∀ (j : Nat) (w : Track K) (e : K), tr[j]? = some w → w.stop < t.start →
        FreqDiff c.mergeStrategy w (numpyTrack t) e → d < e ∨ (d = e ∧ i ≤ j)) ∧
      finish c tr t = .ok (tr.set i (mergeTrack u (numpyTrack t)))) ∨
    ((∀ (u : Track K) (d : K), u ∈ tr → u.stop < t.start →
        FreqDiff c.mergeStrategy u (numpyTrack t) d → c.df f0 ≤ d) ∧
      finish c tr t = .ok (tr ++ [numpyTrack t])) := by
  obtain ⟨diff, hdiff, hval⟩ := diff_spec hv ht
  set it := tr.zipIdx.filter fun ui =>
    decide (ui.1.start + ui.1.mag.length < (numpyTrack t).start) with hit
  have hmem : ∀ ui : Track K × Nat, ui ∈ it ↔ tr[ui.2]? = some ui.1 ∧ ui.1.stop < t.start := by
    intro ui
    rw [hit, List.mem_filter, List.mem_zipIdx_iff_getElem?]
    exact and_congr Iff.rfl decide_eq_true_iff
  have hg0 : getE t.freq 0 = .ok f0 := by
    rw [List.head?_eq_getElem?] at hf0
    simp [getE, hf0]
  let v : Track K × Nat → K := fun ui =>
    match diff ui.1 (numpyTrack t) with
    | .ok (some d) => d
    | _ => 0
  have hvk : ∀ ui ∈ it, diff ui.1 (numpyTrack t) = .ok (some (v ui)) ∧
      ∀ d', FreqDiff c.mergeStrategy ui.1 (numpyTrack t) d' ↔ d' = v ui := by
    intro ui hui
    obtain ⟨d, h1, h2⟩ := hval ui.1 (hJ ui.1 (List.mem_of_getElem? ((hmem ui).1 hui).1))
    have : v ui = d := by simp only [v, h1]
    rw [this]
    exact ⟨h1, h2⟩
  by_cases hne : it = []
  · right
    refine ⟨?_, ?_⟩
    · intro u d hu hstop _
      obtain ⟨i, hi⟩ := List.mem_iff_getElem?.1 hu
      have : (u, i) ∈ it := (hmem (u, i)).2 ⟨hi, hstop⟩
      rw [hne] at this
      simp at this
    · simp only [finish, hok, if_true, hdiff]
      rw [← hit, hne]
      simp [minKey, minKeyLoop]
  · obtain ⟨⟨u, i⟩, pre, post, hsplit, hmk, hpre, hpost⟩ := minKey_spec' (fun x : K => some x)
      nanLt (fun x y => rfl) (fun ui => diff ui.1 (numpyTrack t)) v it hne
      (fun ui hui => (hvk ui hui).1)
    have huit : (u, i) ∈ it := by rw [hsplit]; simp
    obtain ⟨hui, hustop⟩ := (hmem (u, i)).1 huit
    have hsorted : it.Pairwise fun a b => a.2 < b.2 := by
      rw [hit]
      apply List.Pairwise.filter
      have hz : (tr.zipIdx.map Prod.snd) = List.range tr.length := by
        rw [List.zipIdx_map_snd, List.range_eq_range']
      have := List.pairwise_lt_range (n := tr.length)
      rw [← hz, List.pairwise_map] at this
      exact this
    have hmin : ∀ (j : Nat) (w : Track K) (e : K), tr[j]? = some w → w.stop < t.start →
        FreqDiff c.mergeStrategy w (numpyTrack t) e → v (u, i) < e ∨ (v (u, i) = e ∧ i ≤ j) := by
      intro j w e hj hw hfd
      have hwit : (w, j) ∈ it := (hmem (w, j)).2 ⟨hj, hw⟩
      have he := ((hvk _ hwit).2 e).1 hfd
      subst he
      rw [hsplit] at hwit hsorted
      simp only [List.mem_append, List.mem_cons] at hwit
      rcases hwit with h | h | h
      · exact Or.inl (hpre _ h)
      · rw [← h]; simp only [Prod.mk.injEq] at h
        exact Or.inr ⟨rfl, by omega⟩
      · rw [List.pairwise_append] at hsorted
        have hlt := (List.pairwise_cons.1 hsorted.2.1).1 _ h
        rcases lt_or_eq_of_le (hpost _ h) with h' | h'
        · exact Or.inl h'
        · exact Or.inr ⟨h', by simp only at hlt; omega⟩
    have hrun : finish c tr t = if v (u, i) < c.df f0 then
        .ok (tr.set i (mergeTrack u (numpyTrack t))) else .ok (tr ++ [numpyTrack t]) := by
      simp only [finish, hok, if_true, hdiff]
      rw [← hit, hmk]
      simp only [hg0, nanLt, decide_eq_true_eq]
    by_cases hlt : v (u, i) < c.df f0
    · left
      rw [if_pos hlt] at hrun
      exact ⟨i, u, v (u, i), hui, hustop, ((hvk _ huit).2 _).2 rfl, hlt, hmin, hrun⟩
    · right
      rw [if_neg hlt] at hrun
      refine ⟨?_, hrun⟩
      intro w d hw hstop hfd
      obtain ⟨j, hj⟩ := List.mem_iff_getElem?.1 hw
      have := hmin j w d hj hstop hfd
      have h' := not_lt.1 hlt
      rcases this with h | ⟨h, _⟩
      · exact le_trans h' h.le
      · rw [← h]; exact h'

/-- Total version of `finish` (used only where `finish` succeeds). -/
def saveModal [FloorRing K] (c : ModalCfg K) (tr : List (Track K)) (t : ATrack K) :
    List (Track K) :=
  match finish c tr t with
  | .ok tr' => tr'
  | .error _ => tr

theorem finish_not_ok [FloorRing K] (c : ModalCfg K) (tr : List (Track K)) (t : ATrack K)
    (h : modalTrackOk c t = false) : finish c tr t = .ok tr := by
  simp [finish, h]

theorem mergeTrack_last {u : Track K} {t : ATrack K} (h : t.freq ≠ []) :
    ∃ f, (mergeTrack u (numpyTrack t)).freq.getLast? = some (some f) := by
  obtain ⟨f, hf⟩ := numpyTrack_last h
  refine ⟨f, ?_⟩
  simp only [mergeTrack]
  rw [List.getLast?_append, hf]
  rfl

theorem finish_ok [IsStrictOrderedRing K] [FloorRing K] (c : ModalCfg K)
    (hv : c.mergeStrategy = "average" ∨ c.mergeStrategy = "single")
    (tr : List (Track K)) (hJ : LastProper tr) (t : ATrack K) (ht : t.freq ≠ []) :
    finish c tr t = .ok (saveModal c tr t) := by
  cases hok : modalTrackOk c t with
  | false => simp [saveModal, finish_not_ok c tr t hok]
  | true =>
    obtain ⟨f0, l, hl⟩ := List.exists_cons_of_ne_nil ht
    rcases finish_spec c hv tr hJ t ht hok f0 (by simp [hl]) with
      ⟨i, u, d, _, _, _, _, _, h⟩ | ⟨_, h⟩ <;> simp [saveModal, h]

theorem lastProper_saveModal [IsStrictOrderedRing K] [FloorRing K] (c : ModalCfg K)
    (hv : c.mergeStrategy = "average" ∨ c.mergeStrategy = "single")
    (tr : List (Track K)) (t : ATrack K) (hJ : LastProper tr) (ht : t.freq ≠ []) :
    LastProper (saveModal c tr t) := by
  cases hok : modalTrackOk c t with
  | false => simpa [saveModal, finish_not_ok c tr t hok] using hJ
  | true =>
    obtain ⟨f0, l, hl⟩ := List.exists_cons_of_ne_nil ht
    rcases finish_spec c hv tr hJ t ht hok f0 (by simp [hl]) with
      ⟨i, u, d, _, _, _, _, _, h⟩ | ⟨_, h⟩
    · simp only [saveModal, h]
      intro w hw
      rcases List.mem_or_eq_of_mem_set hw with hw | rfl
      · exact hJ w hw
      · exact mergeTrack_last ht
    · simp only [saveModal, h]
      intro w hw
      rcases List.mem_append.1 hw with hw | hw
      · exact hJ w hw
      · rw [List.mem_singleton.1 hw]; exact numpyTrack_last ht

theorem popSave_modal [IsStrictOrderedRing K] [FloorRing K] (c : ModalCfg K)
    (hv : c.mergeStrategy = "average" ∨ c.mergeStrategy = "single") :
    PopSave LastProper (saveModal c) (modalDeactivate c) := by
  refine ⟨by intro u hu; simp at hu, lastProper_saveModal c hv, ?_⟩
  intro s i t hJ hi ht
  simp only [modalDeactivate, popE, hi, finish_ok c hv s.tracks hJ t ht]

/-! ## Samples after merging -/

/-- Adjacent proper samples are closer than the threshold. -/
def JumpOk (c : Cfg K) (u : Track K) : Prop :=
  ∀ (i : Nat) (f g : K), u.freq[i]? = some (some f) → u.freq[i + 1]? = some (some g) →
    |f - g| < c.df g

/-- What is known of a finished track of the modal tracker at frame clock `n`. -/
structure GoodFin [FloorRing K] (c : Cfg K) (n : Nat) (u : Track K) : Prop where
  aligned : u.Aligned
  past : u.stop ≤ n
  jump : JumpOk c u
  long : c.minSineLen ≤ ((u.freq.filterMap id).length : ℤ)

/-- Finished modal tracks at frame clock `n`: aligned arrays that end before `n`, with bounded
jumps, long enough, ending with proper samples. -/
def ModalInv [FloorRing K] (c : Cfg K) (n : Nat) (tr : List (Track K)) : Prop :=
  LastProper tr ∧ ∀ u ∈ tr, GoodFin c n u

theorem numpyTrack_jump {c : Cfg K} {n : Nat} {t : ATrack K} (h : GoodTrack c n t) :
    JumpOk c (numpyTrack t) := by
  intro i f g hf hg
  simp only [numpyTrack, List.getElem?_map, Option.map_eq_some_iff, Option.some.injEq,
    exists_eq_right] at hf hg
  exact h.jump i f g hf hg

theorem numpyTrack_aligned {c : Cfg K} {n : Nat} {t : ATrack K} (h : GoodTrack c n t) :
    (numpyTrack t).Aligned := by
  refine ⟨by simp [numpyTrack, h.magLen], by simp [numpyTrack, h.magLen, h.phaseLen], ?_⟩
  intro j
  simp [numpyTrack]

theorem mergeTrack_merged {u t : Track K} (hu : u.Aligned) (ht : t.Aligned)
    (h : u.stop ≤ t.start) : MergedFrom u t (mergeTrack u t) := by
  obtain ⟨u1, u2, _⟩ := hu
  obtain ⟨t1, t2, _⟩ := ht
  unfold Track.stop at h
  refine ⟨rfl, ?_, ?_, ?_, ?_⟩
  · simp only [mergeTrack, List.length_append, List.length_replicate, Track.stop]
    omega
  · intro j hj
    simp only [Track.stop] at hj
    simp only [mergeTrack]
    refine ⟨?_, ?_, ?_⟩
    · rw [List.append_assoc, List.getElem?_append_left (by omega)]
    · rw [List.append_assoc, List.getElem?_append_left (by omega)]
    · rw [List.append_assoc, List.getElem?_append_left (by omega)]
  · intro j h1 h2
    simp only [Track.stop] at h1
    simp only [mergeTrack]
    refine ⟨?_, ?_, ?_⟩ <;>
    · rw [List.append_assoc, List.getElem?_append_right (by omega),
        List.getElem?_append_left (by simp; omega), List.getElem?_replicate, if_pos (by omega)]
  · intro j hj
    simp only [Track.stop] at hj
    simp only [mergeTrack]
    refine ⟨?_, ?_, ?_⟩ <;>
    · rw [List.getElem?_append_right (by simp; omega)]
      congr 1
      simp
      omega

theorem MergedFrom.aligned {u t v : Track K} (hm : MergedFrom u t v) (hu : u.Aligned)
    (ht : t.Aligned) (h : u.stop ≤ t.start) : v.Aligned := by
  obtain ⟨h1, h2, h3⟩ := hm.lens
  refine ⟨by omega, by omega, ?_⟩
  intro j
  have hstop : u.start ≤ u.stop := Nat.le_add_right _ _
  have htstop : t.start ≤ t.stop := Nat.le_add_right _ _
  by_cases c1 : j < u.stop - u.start
  · obtain ⟨e1, e2, e3⟩ := hm.left j c1
    rw [e1, e2, e3]; exact hu.2.2 j
  by_cases c2 : j < t.start - u.start
  · obtain ⟨e1, e2, e3⟩ := hm.gap j (by omega) c2
    rw [e1, e2, e3]; simp
  by_cases c3 : j < t.stop - u.start
  · obtain ⟨e1, e2, e3⟩ := hm.right (j - (t.start - u.start)) (by omega)
    have : t.start - u.start + (j - (t.start - u.start)) = j := by omega
    rw [this] at e1 e2 e3
    rw [e1, e2, e3]; exact ht.2.2 _
  · rw [List.getElem?_eq_none (by omega), List.getElem?_eq_none (by omega),
      List.getElem?_eq_none (by omega)]
    simp

theorem MergedFrom.sampleAt {u t v : Track K} (hm : MergedFrom u t v) (hu : u.Aligned)
    (ht : t.Aligned) (h : u.stop ≤ t.start) (k : Nat) :
    v.sampleAt k = if k < t.start then u.sampleAt k else t.sampleAt k := by
  obtain ⟨h1, h2, h3⟩ := hm.lens
  have hstop : u.start ≤ u.stop := Nat.le_add_right _ _
  have htstop : t.start ≤ t.stop := Nat.le_add_right _ _
  have ul : u.stop - u.start = u.mag.length := by unfold Track.stop; omega
  have tl : t.stop - t.start = t.mag.length := by unfold Track.stop; omega
  obtain ⟨u1, u2, _⟩ := hu
  obtain ⟨t1, t2, _⟩ := ht
  unfold Track.sampleAt
  rw [hm.start]
  by_cases c0 : u.start ≤ k
  · rw [if_pos c0, if_pos c0]
    by_cases c1 : k < u.stop
    · obtain ⟨e1, e2, e3⟩ := hm.left (k - u.start) (by omega)
      rw [e1, e2, e3, if_pos (by omega)]
    by_cases c2 : k < t.start
    · obtain ⟨e1, e2, e3⟩ := hm.gap (k - u.start) (by omega) (by omega)
      rw [e1, e2, e3, if_pos c2, List.getElem?_eq_none (by omega)]
    rw [if_neg c2, if_pos (by omega)]
    by_cases c3 : k < t.stop
    · obtain ⟨e1, e2, e3⟩ := hm.right (k - t.start) (by omega)
      have e : t.start - u.start + (k - t.start) = k - u.start := by omega
      rw [e] at e1 e2 e3
      rw [e1, e2, e3]
    · rw [List.getElem?_eq_none (by omega), List.getElem?_eq_none (l := t.freq) (by omega)]
  · rw [if_neg c0, if_neg c0]
    by_cases c2 : k < t.start
    · rw [if_pos c2]
    · rw [if_neg c2, if_neg (by omega)]

theorem MergedFrom.jump {c : Cfg K} {u t v : Track K} (hm : MergedFrom u t v)
    (hu : JumpOk c u) (ht : JumpOk c t) (h : u.stop < t.start) : JumpOk c v := by
  obtain ⟨h1, h2, h3⟩ := hm.lens
  have hstop : u.start ≤ u.stop := Nat.le_add_right _ _
  have htstop : t.start ≤ t.stop := Nat.le_add_right _ _
  intro i f g hf hg
  have hi := getElem?_lt hg
  by_cases c1 : i + 1 < u.stop - u.start
  · rw [(hm.left (i + 1) c1).1] at hg
    rw [(hm.left i (by omega)).1] at hf
    exact hu i f g hf hg
  by_cases c2 : i + 1 < t.start - u.start
  · rw [(hm.gap (i + 1) (by omega) c2).1] at hg
    simp at hg
  by_cases c3 : i < t.start - u.start
  · rw [(hm.gap i (by omega) c3).1] at hf
    simp at hf
  · have e1 := (hm.right (i - (t.start - u.start)) (by omega)).1
    have e2 := (hm.right (i - (t.start - u.start) + 1) (by omega)).1
    rw [show t.start - u.start + (i - (t.start - u.start)) = i by omega] at e1
    rw [show t.start - u.start + (i - (t.start - u.start) + 1) = i + 1 by omega] at e2
    rw [e1] at hf
    rw [e2] at hg
    exact ht _ f g hf hg

theorem mergeTrack_filterMap (u t : Track K) : (mergeTrack u t).freq.filterMap id =
    u.freq.filterMap id ++ t.freq.filterMap id := by
  have : ∀ n, (List.replicate n (none : Option K)).filterMap id = [] := by
    intro n
    rw [List.filterMap_eq_nil_iff]
    intro a ha
    rw [List.mem_replicate] at ha
    rw [ha.2]; rfl
  simp [mergeTrack, this]

theorem modalTrackOk_long [FloorRing K] {c : ModalCfg K} {t : ATrack K}
    (h : modalTrackOk c t = true) : c.minSineLen ≤ (t.freq.length : ℤ) := by
  unfold modalTrackOk at h
  by_cases h' : trackOk c.toCfg t = true
  · simpa [trackOk] using h'
  · simp [h'] at h

theorem sampleAt_none_of_stop {t : Track K} (ha : t.Aligned) (k : Nat) (h : t.stop ≤ k) :
    t.sampleAt k = none := by
  unfold Track.sampleAt
  unfold Track.stop at h
  split
  · rw [List.getElem?_eq_none (l := t.freq) (by have := ha.1; omega)]
  · rfl

theorem sampleAt_none_of_start {t : Track K} (k : Nat) (h : k < t.start) :
    t.sampleAt k = none := by
  unfold Track.sampleAt
  rw [if_neg (by omega)]

theorem samplesAt_set_merge {tr : List (Track K)} {i : Nat} {u t : Track K} (hi : tr[i]? = some u)
    (hu : u.Aligned) (ht : t.Aligned) (h : u.stop ≤ t.start) (k : Nat) :
    (samplesAt k (tr.set i (mergeTrack u t))).Perm (samplesAt k (tr ++ [t])) := by
  have hlt := getElem?_lt hi
  have hget : tr[i] = u := by
    rw [List.getElem?_eq_getElem hlt] at hi; exact Option.some.inj hi
  have e1 : tr = tr.take i ++ u :: tr.drop (i + 1) := by
    rw [← hget, List.cons_getElem_drop_succ, List.take_append_drop]
  have e2 : tr.set i (mergeTrack u t) = tr.take i ++ mergeTrack u t :: tr.drop (i + 1) := by
    rw [List.set_eq_take_append_cons_drop, if_pos hlt]
  have hs := (mergeTrack_merged hu ht h).sampleAt hu ht h k
  rw [e2]
  conv_rhs => rw [e1]
  unfold samplesAt
  rw [List.filterMap_append, List.append_assoc, List.filterMap_append, List.cons_append,
    List.filterMap_cons, List.filterMap_cons, hs]
  apply List.Perm.append_left
  by_cases c : k < t.start
  · rw [if_pos c, List.filterMap_append]
    have : [t].filterMap (fun x => x.sampleAt k) = [] := by
      simp [sampleAt_none_of_start k c]
    rw [this, List.append_nil]
  · rw [if_neg c, sampleAt_none_of_stop hu k (by omega), List.filterMap_append]
    cases hts : t.sampleAt k with
    | none => simp [hts]
    | some a => simp only [hts, List.filterMap_cons, List.filterMap_nil]; exact (List.perm_append_singleton _ _).symm

theorem saveModal_samples [IsStrictOrderedRing K] [FloorRing K] (c : ModalCfg K)
    (hv : c.mergeStrategy = "average" ∨ c.mergeStrategy = "single") {n : Nat}
    {tr : List (Track K)} {t : ATrack K} (hI : ModalInv c.toCfg n tr) (ht : GoodTrack c.toCfg n t) :
    ModalInv c.toCfg n (saveModal c tr t) ∧
      ∀ k, if modalTrackOk c t then
        (samplesAt k (saveModal c tr t)).Perm (samplesAt k (tr ++ [numpyTrack t]))
      else saveModal c tr t = tr := by
  have hne : t.freq ≠ [] := by
    intro h0; have := ht.pos; rw [h0] at this; simp at this
  have hta := numpyTrack_aligned ht
  have hts : (numpyTrack t).stop = n := by
    have := ht.clock; have := ht.magLen
    simp [Track.stop, numpyTrack]; omega
  cases hok : modalTrackOk c t with
  | false =>
    have : saveModal c tr t = tr := by simp [saveModal, finish_not_ok c tr t hok]
    rw [this]
    exact ⟨hI, fun k => by simp⟩
  | true =>
    obtain ⟨f0, l, hl⟩ := List.exists_cons_of_ne_nil hne
    have hJ' := lastProper_saveModal c hv tr t hI.1 hne
    rcases finish_spec c hv tr hI.1 t hne hok f0 (by simp [hl]) with
      ⟨i, u, d, hu, hstop, _, _, _, h⟩ | ⟨_, h⟩
    · have hsv : saveModal c tr t = tr.set i (mergeTrack u (numpyTrack t)) := by
        simp only [saveModal, h]
      rw [hsv] at hJ' ⊢
      have hua := hI.2 u (List.mem_of_getElem? hu)
      have hle : u.stop ≤ (numpyTrack t).start := by simp only [numpyTrack]; omega
      have hm := mergeTrack_merged hua.aligned hta hle
      refine ⟨⟨hJ', ?_⟩, ?_⟩
      · intro w hw
        rcases List.mem_or_eq_of_mem_set hw with hw | rfl
        · exact hI.2 w hw
        · refine ⟨hm.aligned hua.aligned hta hle, ?_,
            hm.jump hua.jump (numpyTrack_jump ht) (by simpa only [numpyTrack] using hstop), ?_⟩
          swap
          · rw [mergeTrack_filterMap, List.length_append]
            have := hua.long
            push_cast
            omega
          have h1 := hm.lens.2.1
          have h2 := hm.start
          rw [hts] at h1
          have h3 : (numpyTrack t).start ≤ (numpyTrack t).stop := Nat.le_add_right _ _
          have h4 : u.start ≤ u.stop := Nat.le_add_right _ _
          unfold Track.stop
          unfold Track.stop at *
          omega
      · intro k
        simp only [if_true]
        exact samplesAt_set_merge hu hua.aligned hta hle k
    · have hsv : saveModal c tr t = tr ++ [numpyTrack t] := by simp only [saveModal, h]
      rw [hsv] at hJ' ⊢
      refine ⟨⟨hJ', ?_⟩, fun k => by simp⟩
      intro w hw
      rcases List.mem_append.1 hw with hw | hw
      · exact hI.2 w hw
      · rw [List.mem_singleton.1 hw]
        exact ⟨hta, le_of_eq hts, numpyTrack_jump ht, by
          rw [numpyTrack_filterMap]; exact modalTrackOk_long hok⟩

theorem saveOk_modal [IsStrictOrderedRing K] [FloorRing K] (c : ModalCfg K)
    (hv : c.mergeStrategy = "average" ∨ c.mergeStrategy = "single") :
    SaveOk c.toCfg (saveModal c) (ModalInv c.toCfg) := by
  refine ⟨⟨by intro u hu; simp at hu, by intro u hu; simp at hu⟩, ?_, ?_, ?_⟩
  · rintro n tr ⟨h1, h2⟩
    exact ⟨h1, fun u hu => { h2 u hu with past := Nat.le_succ_of_le (h2 u hu).past }⟩
  · intro n tr t hI ht
    exact (saveModal_samples c hv hI ht).1
  · intro n tr t hI ht k
    have := (saveModal_samples c hv hI ht).2 k
    split at this
    · exact this.subperm
    · rw [this]
      rw [samplesAt_append]
      exact (List.sublist_append_left _ _).subperm

end Verif.Tracker
