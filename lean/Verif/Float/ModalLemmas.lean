import Verif.Float.ModalSpec
import Verif.Float.TrackerLemmas
import Verif.Tracker.BaseLemmas

/-! # Lemmas about the modal tracker in floating point -/

set_option autoImplicit false
set_option linter.unusedSectionVars false
set_option linter.unusedSimpArgs false

namespace Verif.Float

open Verif.Tracker

variable {K : Type} [Field K] [LinearOrder K] [IsStrictOrderedRing K] [FloorRing K] (A : Arith K)
  (N : Numerics K)

/-! ## Acceptance -/

theorem nanLt_none_left (x : Option K) : nanLt none x = false := rfl

theorem nanLt_none_right (x : Option K) : nanLt x none = false := by cases x <;> rfl

/-- The acceptance test, spelled out. -/
theorem modalTrackOkF_iff (c : ModalCfg K) (t : ATrack K) :
    modalTrackOkF A N c t = true ↔ minSineLenF A c.toCfg ≤ (t.freq.length : ℤ) ∧
      (∀ lo m, c.freqLo = some lo → N.mean t.freq = some m → lo ≤ m) ∧
      (∀ hi m, c.freqHi = some hi → N.mean t.freq = some m → m ≤ hi) ∧
      (∀ k, N.slope (lmX c.reverse t.mag.length) t.mag = some k → k ≤ 0) ∧
      ∀ q, N.intercept (lmX c.reverse t.mag.length) t.mag = some q → c.peakThreshold ≤ q := by
  unfold modalTrackOkF
  by_cases h1 : trackOkF A c.toCfg t = true
  swap
  · simp only [h1, Bool.not_false, if_true, Bool.false_eq_true, false_iff]
    intro h
    exact h1 (by simpa [trackOkF] using h.1)
  have h1' : minSineLenF A c.toCfg ≤ (t.freq.length : ℤ) := by simpa [trackOkF] using h1
  simp only [h1, Bool.not_true, Bool.false_eq_true, if_false, h1', true_and]
  cases c.freqLo <;> cases c.freqHi <;> cases N.mean t.freq <;>
    cases N.slope (lmX c.reverse t.mag.length) t.mag <;>
    cases N.intercept (lmX c.reverse t.mag.length) t.mag <;>
    simp [nanLt, not_lt]

theorem modalTrackOkF_long {c : ModalCfg K} {t : ATrack K} (h : modalTrackOkF A N c t = true) :
    minSineLenF A c.toCfg ≤ (t.freq.length : ℤ) :=
  ((modalTrackOkF_iff A N c t).1 h).1

/-! ## Differences -/

theorem minKey_mem {α V : Type} (lt : V → V → Bool) (key : α → Except PyErr V) (v : α → V)
    (it : List α) (hne : it ≠ []) (hk : ∀ x ∈ it, key x = .ok (v x)) :
    ∃ x ∈ it, minKey lt it key = .ok (some (x, v x)) := by
  have h : ∀ (it : List α) (y : α), (∀ x ∈ it, key x = .ok (v x)) →
      ∃ x ∈ y :: it, minKeyLoop lt key it (some (y, v y)) = .ok (some (x, v x)) := by
    intro it
    induction it with
    | nil => intro y _; exact ⟨y, by simp, rfl⟩
    | cons a it ih =>
      intro y hk
      unfold minKeyLoop
      rw [hk a (by simp)]
      dsimp only
      have hk' : ∀ x ∈ it, key x = .ok (v x) := fun x hx => hk x (by simp [hx])
      split
      · obtain ⟨x, hx, h⟩ := ih a hk'
        refine ⟨x, ?_, h⟩
        simp only [List.mem_cons] at hx ⊢
        tauto
      · obtain ⟨x, hx, h⟩ := ih y hk'
        refine ⟨x, ?_, h⟩
        simp only [List.mem_cons] at hx ⊢
        tauto
  cases it with
  | nil => exact absurd rfl hne
  | cons a it =>
    unfold minKey minKeyLoop
    rw [hk a (by simp)]
    exact h it a (fun x hx => hk x (by simp [hx]))

/-- A known strategy: the difference function does not raise on tracks that end with a number. -/
theorem diffF_spec {strategy : String} (hv : strategy = "average" ∨ strategy = "single")
    {t : ATrack K} (ht : t.freq ≠ []) :
    ∃ diff, freqDiffFunctionF A N strategy = .ok diff ∧
      ∀ u : Track K, (∃ f, u.freq.getLast? = some (some f)) →
        ∃ d, diff u (numpyTrack t) = .ok d ∧
          ∀ d', FreqDiffF A N strategy u (numpyTrack t) d' ↔ d = some d' := by
  rcases hv with rfl | rfl
  · refine ⟨trackDiffAvgF A N, by simp [freqDiffFunctionF], ?_⟩
    rintro u ⟨f, hf⟩
    refine ⟨_, rfl, ?_⟩
    intro d'
    constructor
    · rintro (⟨_, a, b, h1, h2, h⟩ | ⟨h, _⟩)
      · rw [h1, h2, h]; rfl
      · exact absurd h (by decide)
    · intro h
      cases h1 : N.nanmean u.freq with
      | none => rw [h1] at h; simp [absDiffF] at h
      | some a =>
        cases h2 : N.nanmean (numpyTrack t).freq with
        | none => rw [h1, h2] at h; simp [absDiffF] at h
        | some b =>
          rw [h1, h2] at h
          simp only [absDiffF, Option.some.injEq] at h
          exact Or.inl ⟨rfl, a, b, h1, h2, h.symm⟩
  · refine ⟨trackDiffSingleF A, by simp [freqDiffFunctionF], ?_⟩
    rintro u ⟨f, hf⟩
    obtain ⟨g, l, hl⟩ := List.exists_cons_of_ne_nil ht
    refine ⟨some (distF A f g), by
      simp [trackDiffSingleF, lastE, hf, getE, numpyTrack, hl, absDiffF], ?_⟩
    intro d'
    constructor
    · rintro (⟨h, _⟩ | ⟨_, a, b, ha, hb, h⟩)
      · exact absurd h (by decide)
      · rw [hf] at ha
        simp only [Option.some.injEq] at ha
        simp [numpyTrack, hl] at hb
        rw [h, ← ha, ← hb]
        rfl
    · intro h
      exact Or.inr ⟨rfl, f, g, hf, by simp [numpyTrack, hl], by
        simp only [Option.some.injEq] at h; exact h.symm⟩

/-- What finishing an accepted track does, whatever the libraries compute. -/
theorem finishF_spec (c : ModalCfg K)
    (hv : c.mergeStrategy = "average" ∨ c.mergeStrategy = "single")
    (tr : List (Track K)) (hJ : LastProper tr) (t : ATrack K) (ht : t.freq ≠ [])
    (hok : modalTrackOkF A N c t = true) (f0 : K) (hf0 : t.freq.head? = some f0) :
    (∃ (i : Nat) (u : Track K) (d : K), tr[i]? = some u ∧ u.stop < t.start ∧
      FreqDiffF A N c.mergeStrategy u (numpyTrack t) d ∧ d < dfF A c.toCfg f0 ∧
      (Numeric A N c.mergeStrategy tr t →
        ∀ (j : Nat) (w : Track K) (e : K), tr[j]? = some w → w.stop < t.start →
        FreqDiffF A N c.mergeStrategy w (numpyTrack t) e → d < e ∨ (d = e ∧ i ≤ j)) ∧
      finishF A N c tr t = .ok (tr.set i (mergeTrack u (numpyTrack t)))) ∨
    ((Numeric A N c.mergeStrategy tr t → ∀ (u : Track K) (d : K), u ∈ tr → u.stop < t.start →
        FreqDiffF A N c.mergeStrategy u (numpyTrack t) d → dfF A c.toCfg f0 ≤ d) ∧
      finishF A N c tr t = .ok (tr ++ [numpyTrack t])) := by
  obtain ⟨diff, hdiff, hval⟩ := diffF_spec A N hv ht
  set it := tr.zipIdx.filter fun ui =>
    decide (ui.1.start + ui.1.mag.length < (numpyTrack t).start) with hit
  have hmem : ∀ ui : Track K × Nat, ui ∈ it ↔ tr[ui.2]? = some ui.1 ∧ ui.1.stop < t.start := by
    intro ui
    rw [hit, List.mem_filter, List.mem_zipIdx_iff_getElem?]
    exact and_congr Iff.rfl decide_eq_true_iff
  have hg0 : getE t.freq 0 = .ok f0 := by
    rw [List.head?_eq_getElem?] at hf0
    simp [getE, hf0]
  let v : Track K × Nat → Option K := fun ui =>
    match diff ui.1 (numpyTrack t) with
    | .ok d => d
    | _ => none
  have hvk : ∀ ui ∈ it, diff ui.1 (numpyTrack t) = .ok (v ui) ∧
      ∀ d', FreqDiffF A N c.mergeStrategy ui.1 (numpyTrack t) d' ↔ v ui = some d' := by
    intro ui hui
    obtain ⟨d, h1, h2⟩ := hval ui.1 (hJ ui.1 (List.mem_of_getElem? ((hmem ui).1 hui).1))
    have : v ui = d := by simp only [v, h1]
    rw [this]
    exact ⟨h1, h2⟩
  by_cases hne : it = []
  · right
    refine ⟨?_, ?_⟩
    · intro _ u d hu hstop _
      obtain ⟨i, hi⟩ := List.mem_iff_getElem?.1 hu
      have : (u, i) ∈ it := (hmem (u, i)).2 ⟨hi, hstop⟩
      rw [hne] at this
      simp at this
    · simp only [finishF, hok, if_true, hdiff]
      rw [← hit, hne]
      simp [minKey, minKeyLoop]
  · obtain ⟨⟨u, i⟩, huit, hmk⟩ := minKey_mem nanLt (fun ui => diff ui.1 (numpyTrack t)) v it hne
      (fun ui hui => (hvk ui hui).1)
    obtain ⟨hui, hustop⟩ := (hmem (u, i)).1 huit
    have hsorted : it.Pairwise fun a b => a.2 < b.2 := by
      rw [hit]
      apply List.Pairwise.filter
      have hz : (tr.zipIdx.map Prod.snd) = List.range tr.length := by
        rw [List.zipIdx_map_snd, List.range_eq_range']
      have := List.pairwise_lt_range (n := tr.length)
      rw [← hz, List.pairwise_map] at this
      exact this
    have hmin : Numeric A N c.mergeStrategy tr t → ∃ d, v (u, i) = some d ∧
        ∀ (j : Nat) (w : Track K) (e : K), tr[j]? = some w → w.stop < t.start →
        FreqDiffF A N c.mergeStrategy w (numpyTrack t) e → d < e ∨ (d = e ∧ i ≤ j) := by
      intro hnum
      let v' : Track K × Nat → K := fun ui => (v ui).getD 0
      have hv' : ∀ ui ∈ it, v ui = some (v' ui) := by
        intro ui hui
        obtain ⟨h1, h2⟩ := (hmem ui).1 hui
        obtain ⟨e, he⟩ := hnum ui.1 (List.mem_of_getElem? h1) h2
        have := ((hvk ui hui).2 e).1 he
        simp [v', this]
      obtain ⟨⟨u', i'⟩, pre, post, hsplit, hmk', hpre, hpost⟩ := minKey_spec' (fun x : K => some x)
        nanLt (fun x y => rfl) (fun ui => diff ui.1 (numpyTrack t)) v' it hne
        (fun ui hui => by rw [(hvk ui hui).1, hv' ui hui])
      rw [hmk] at hmk'
      simp only [Except.ok.injEq, Option.some.injEq, Prod.mk.injEq] at hmk'
      obtain ⟨⟨rfl, rfl⟩, hvv⟩ := hmk'
      refine ⟨_, hvv, ?_⟩
      intro j w e hj hw hfd
      have hwit : (w, j) ∈ it := (hmem (w, j)).2 ⟨hj, hw⟩
      have he := ((hvk _ hwit).2 e).1 hfd
      rw [hv' _ hwit] at he
      simp only [Option.some.injEq] at he
      subst he
      rw [hsplit] at hwit hsorted
      simp only [List.mem_append, List.mem_cons] at hwit
      rcases hwit with h | h | h
      · exact Or.inl (hpre _ h)
      · rw [← h]; simp only [Prod.mk.injEq] at h
        exact Or.inr ⟨rfl, by omega⟩
      · rw [List.pairwise_append] at hsorted
        have hlt := (List.pairwise_cons.1 hsorted.2.1).1 _ h
        rcases lt_or_eq_of_le (hpost _ h) with h' | h'
        · exact Or.inl h'
        · exact Or.inr ⟨h', by simp only at hlt; omega⟩
    have hrun : finishF A N c tr t = if nanLt (v (u, i)) (some (dfF A c.toCfg f0)) then
        .ok (tr.set i (mergeTrack u (numpyTrack t))) else .ok (tr ++ [numpyTrack t]) := by
      simp only [finishF, hok, if_true, hdiff]
      rw [← hit, hmk]
      simp only [hg0]
    by_cases hlt : nanLt (v (u, i)) (some (dfF A c.toCfg f0)) = true
    · left
      rw [if_pos hlt] at hrun
      cases hvu : v (u, i) with
      | none => rw [hvu] at hlt; simp [nanLt] at hlt
      | some d =>
        rw [hvu] at hlt
        refine ⟨i, u, d, hui, hustop, ((hvk _ huit).2 _).2 hvu, by simpa [nanLt] using hlt, ?_, hrun⟩
        intro hnum
        obtain ⟨d', h1, h2⟩ := hmin hnum
        rw [hvu] at h1
        cases h1
        exact h2
    · right
      rw [if_neg hlt] at hrun
      refine ⟨?_, hrun⟩
      intro hnum w d hw hstop hfd
      obtain ⟨j, hj⟩ := List.mem_iff_getElem?.1 hw
      obtain ⟨d', h1, h2⟩ := hmin hnum
      have := h2 j w d hj hstop hfd
      rw [h1] at hlt
      have h' : dfF A c.toCfg f0 ≤ d' := by simpa [nanLt] using hlt
      rcases this with h | ⟨h, _⟩
      · exact le_trans h' h.le
      · rw [← h]; exact h'

/-- Total version of `finishF` (used only where `finishF` succeeds). -/
def saveModalF (c : ModalCfg K) (tr : List (Track K)) (t : ATrack K) : List (Track K) :=
  match finishF A N c tr t with
  | .ok tr' => tr'
  | .error _ => tr

theorem finishF_not_ok (c : ModalCfg K) (tr : List (Track K)) (t : ATrack K)
    (h : modalTrackOkF A N c t = false) : finishF A N c tr t = .ok tr := by
  simp [finishF, h]

theorem finishF_ok (c : ModalCfg K)
    (hv : c.mergeStrategy = "average" ∨ c.mergeStrategy = "single")
    (tr : List (Track K)) (hJ : LastProper tr) (t : ATrack K) (ht : t.freq ≠ []) :
    finishF A N c tr t = .ok (saveModalF A N c tr t) := by
  cases hok : modalTrackOkF A N c t with
  | false => simp [saveModalF, finishF_not_ok A N c tr t hok]
  | true =>
    obtain ⟨f0, l, hl⟩ := List.exists_cons_of_ne_nil ht
    rcases finishF_spec A N c hv tr hJ t ht hok f0 (by simp [hl]) with
      ⟨i, u, d, _, _, _, _, _, h⟩ | ⟨_, h⟩ <;> simp [saveModalF, h]

theorem lastProper_saveModalF (c : ModalCfg K)
    (hv : c.mergeStrategy = "average" ∨ c.mergeStrategy = "single")
    (tr : List (Track K)) (t : ATrack K) (hJ : LastProper tr) (ht : t.freq ≠ []) :
    LastProper (saveModalF A N c tr t) := by
  cases hok : modalTrackOkF A N c t with
  | false => simpa [saveModalF, finishF_not_ok A N c tr t hok] using hJ
  | true =>
    obtain ⟨f0, l, hl⟩ := List.exists_cons_of_ne_nil ht
    rcases finishF_spec A N c hv tr hJ t ht hok f0 (by simp [hl]) with
      ⟨i, u, d, _, _, _, _, _, h⟩ | ⟨_, h⟩
    · simp only [saveModalF, h]
      intro w hw
      rcases List.mem_or_eq_of_mem_set hw with hw | rfl
      · exact hJ w hw
      · exact mergeTrack_last ht
    · simp only [saveModalF, h]
      intro w hw
      rcases List.mem_append.1 hw with hw | hw
      · exact hJ w hw
      · rw [List.mem_singleton.1 hw]; exact numpyTrack_last ht

theorem popSave_modalF (c : ModalCfg K)
    (hv : c.mergeStrategy = "average" ∨ c.mergeStrategy = "single") :
    PopSave LastProper (saveModalF A N c) (modalDeactivateF A N c) := by
  refine ⟨by intro u hu; simp at hu, lastProper_saveModalF A N c hv, ?_⟩
  intro s i t hJ hi ht
  simp only [modalDeactivateF, popE, hi, finishF_ok A N c hv s.tracks hJ t ht]

/-! ## Finished tracks -/

/-- Adjacent proper samples are closer than the computed threshold. -/
def JumpF (c : Cfg K) (u : Track K) : Prop :=
  ∀ (i : Nat) (f g : K), u.freq[i]? = some (some f) → u.freq[i + 1]? = some (some g) →
    |f - g| < dfF A c g

/-- What is known of a finished track of the modal tracker at frame clock `n`. -/
structure GoodFinF (c : Cfg K) (n : Nat) (u : Track K) : Prop where
  aligned : u.Aligned
  past : u.stop ≤ n
  jump : JumpF A c u
  long : minSineLenF A c ≤ ((u.freq.filterMap id).length : ℤ)

theorem alignedF {c : Cfg K} {n : Nat} {t : ATrack K} (h : GoodF A c n t) :
    (numpyTrack t).Aligned := by
  refine ⟨by simp [numpyTrack, h.magLen], by simp [numpyTrack, h.magLen, h.phaseLen], ?_⟩
  intro j
  simp [numpyTrack]

theorem jumpF_numpy {c : Cfg K} {n : Nat} {t : ATrack K} (h : GoodF A c n t) :
    JumpF A c (numpyTrack t) := by
  intro i f g hf hg
  simp only [numpyTrack, List.getElem?_map, Option.map_eq_some_iff, Option.some.injEq,
    exists_eq_right] at hf hg
  exact h.jump i f g hf hg

theorem jumpF_merged {c : Cfg K} {u t v : Track K} (hm : MergedFrom u t v)
    (hu : JumpF A c u) (ht : JumpF A c t) (h : u.stop < t.start) : JumpF A c v := by
  obtain ⟨h1, h2, h3⟩ := hm.lens
  have hstop : u.start ≤ u.stop := Nat.le_add_right _ _
  have htstop : t.start ≤ t.stop := Nat.le_add_right _ _
  intro i f g hf hg
  have hi := getElem?_lt hg
  by_cases c1 : i + 1 < u.stop - u.start
  · rw [(hm.left (i + 1) c1).1] at hg
    rw [(hm.left i (by omega)).1] at hf
    exact hu i f g hf hg
  by_cases c2 : i + 1 < t.start - u.start
  · rw [(hm.gap (i + 1) (by omega) c2).1] at hg
    simp at hg
  by_cases c3 : i < t.start - u.start
  · rw [(hm.gap i (by omega) c3).1] at hf
    simp at hf
  · have e1 := (hm.right (i - (t.start - u.start)) (by omega)).1
    have e2 := (hm.right (i - (t.start - u.start) + 1) (by omega)).1
    rw [show t.start - u.start + (i - (t.start - u.start)) = i by omega] at e1
    rw [show t.start - u.start + (i - (t.start - u.start) + 1) = i + 1 by omega] at e2
    rw [e1] at hf
    rw [e2] at hg
    exact ht _ f g hf hg

theorem goodFinF_numpy {c : Cfg K} {n : Nat} {t : ATrack K} (h : GoodF A c n t)
    (hl : minSineLenF A c ≤ (t.freq.length : ℤ)) : GoodFinF A c n (numpyTrack t) := by
  refine ⟨alignedF A h, ?_, jumpF_numpy A h, ?_⟩
  · have := h.clock; have := h.magLen
    simp [Track.stop, numpyTrack]; omega
  · rw [numpyTrack_filterMap]
    exact hl

theorem goodFinF_mono {c : Cfg K} {n n' : Nat} (hn : n ≤ n') {u : Track K}
    (h : GoodFinF A c n u) : GoodFinF A c n' u :=
  ⟨h.aligned, h.past.trans hn, h.jump, h.long⟩

theorem saveModalF_good (c : ModalCfg K)
    (hv : c.mergeStrategy = "average" ∨ c.mergeStrategy = "single") {n : Nat}
    {tr : List (Track K)} {t : ATrack K} (hJ : LastProper tr)
    (hI : ∀ u ∈ tr, GoodFinF A c.toCfg n u) (ht : GoodF A c.toCfg n t) :
    (∀ u ∈ saveModalF A N c tr t, GoodFinF A c.toCfg n u) ∧
      ∀ k, if modalTrackOkF A N c t then
        (samplesAt k (saveModalF A N c tr t)).Perm (samplesAt k (tr ++ [numpyTrack t]))
      else saveModalF A N c tr t = tr := by
  have hne : t.freq ≠ [] := by
    intro h0; have := ht.pos; rw [h0] at this; simp at this
  have hta := alignedF A ht
  have hts : (numpyTrack t).stop = n := by
    have := ht.clock; have := ht.magLen
    simp [Track.stop, numpyTrack]; omega
  cases hok : modalTrackOkF A N c t with
  | false =>
    have : saveModalF A N c tr t = tr := by simp [saveModalF, finishF_not_ok A N c tr t hok]
    rw [this]
    exact ⟨hI, fun k => by simp⟩
  | true =>
    obtain ⟨f0, l, hl⟩ := List.exists_cons_of_ne_nil hne
    rcases finishF_spec A N c hv tr hJ t hne hok f0 (by simp [hl]) with
      ⟨i, u, d, hu, hstop, _, _, _, h⟩ | ⟨_, h⟩
    · have hsv : saveModalF A N c tr t = tr.set i (mergeTrack u (numpyTrack t)) := by
        simp only [saveModalF, h]
      rw [hsv]
      have hua := hI u (List.mem_of_getElem? hu)
      have hle : u.stop ≤ (numpyTrack t).start := by simp only [numpyTrack]; omega
      have hm := mergeTrack_merged hua.aligned hta hle
      refine ⟨?_, ?_⟩
      · intro w hw
        rcases List.mem_or_eq_of_mem_set hw with hw | rfl
        · exact hI w hw
        · refine ⟨hm.aligned hua.aligned hta hle, ?_,
            jumpF_merged A hm hua.jump (jumpF_numpy A ht) (by simpa only [numpyTrack] using hstop), ?_⟩
          swap
          · rw [mergeTrack_filterMap, List.length_append]
            have := hua.long
            push_cast
            omega
          have h1 := hm.lens.2.1
          have h2 := hm.start
          rw [hts] at h1
          have h3 : (numpyTrack t).start ≤ (numpyTrack t).stop := Nat.le_add_right _ _
          have h4 : u.start ≤ u.stop := Nat.le_add_right _ _
          unfold Track.stop
          unfold Track.stop at *
          omega
      · intro k
        simp only [if_true]
        exact samplesAt_set_merge hu hua.aligned hta hle k
    · have hsv : saveModalF A N c tr t = tr ++ [numpyTrack t] := by simp only [saveModalF, h]
      rw [hsv]
      refine ⟨?_, fun k => by simp⟩
      intro w hw
      rcases List.mem_append.1 hw with hw | hw
      · exact hI w hw
      · rw [List.mem_singleton.1 hw]
        exact goodFinF_numpy A ht (modalTrackOkF_long A N hok)

theorem foldl_saveModalF (c : ModalCfg K)
    (hv : c.mergeStrategy = "average" ∨ c.mergeStrategy = "single") (n : Nat) :
    ∀ (D : List (ATrack K)) (tr : List (Track K)), (∀ t ∈ D, GoodF A c.toCfg n t) → LastProper tr →
      (∀ u ∈ tr, GoodFinF A c.toCfg n u) →
      (∀ u ∈ D.foldl (saveModalF A N c) tr, GoodFinF A c.toCfg n u) ∧
      ∀ k, (samplesAt k (D.foldl (saveModalF A N c) tr)).Perm
        (samplesAt k (tr ++ (D.filter (modalTrackOkF A N c)).map numpyTrack)) := by
  intro D
  induction D with
  | nil => intro tr _ _ hI; exact ⟨hI, fun k => by simp⟩
  | cons t D ih =>
    intro tr hD hJ hI
    have ht := hD t (by simp)
    have hne : t.freq ≠ [] := by
      intro h0; have := ht.pos; rw [h0] at this; simp at this
    obtain ⟨h1, h2⟩ := saveModalF_good A N c hv hJ hI ht
    obtain ⟨h3, h4⟩ := ih (saveModalF A N c tr t) (fun u hu => hD u (by simp [hu]))
      (lastProper_saveModalF A N c hv tr t hJ hne) h1
    refine ⟨h3, fun k => (h4 k).trans ?_⟩
    have h5 := h2 k
    rw [samplesAt_append]
    by_cases hok : modalTrackOkF A N c t = true
    · rw [if_pos hok] at h5
      rw [List.filter_cons, if_pos hok, List.map_cons,
        show tr ++ numpyTrack t :: (D.filter (modalTrackOkF A N c)).map numpyTrack =
          (tr ++ [numpyTrack t]) ++ (D.filter (modalTrackOkF A N c)).map numpyTrack by simp,
        samplesAt_append]
      exact h5.append (List.Perm.refl _)
    · rw [if_neg hok] at h5
      rw [h5, List.filter_cons, if_neg hok, ← samplesAt_append]

/-! ## Runs -/

/-- Invariant of a run. -/
structure WfM (c : ModalCfg K) (hist : List (Frame K)) (s : State K) : Prop where
  frame : s.frame = hist.length
  good : ∀ t ∈ s.active, GoodF A c.toCfg s.frame t
  bound : s.active.length ≤ c.maxNSines
  last : LastProper s.tracks
  done : ∀ u ∈ s.tracks, GoodFinF A c.toCfg s.frame u
  samples : ∀ k, (samplesAt k s.everyTrack).Subperm ((hist[k]?.map (·.peaks)).getD [])

theorem wfm_step {c : ModalCfg K}
    (hv : c.mergeStrategy = "average" ∨ c.mergeStrategy = "single") {hist : List (Frame K)}
    {fr : Frame K} {m : List (Option Nat)} {s s' : State K}
    (hP : ∀ pk ∈ fr.peaks, A.Rep pk.freq) (h : WfM A c hist s)
    (hs : StepC A (saveModalF A N c) c.toCfg fr.peaks m s s') (hl : LastProper s'.tracks) :
    WfM A c (hist ++ [fr]) s' := by
  have hD : ∀ t ∈ (dropped s.active m).reverse, GoodF A c.toCfg s.frame t :=
    fun t ht => h.good t (mem_dropped (List.mem_reverse.1 ht))
  obtain ⟨f1, f2⟩ := foldl_saveModalF A N c hv s.frame _ s.tracks hD h.last h.done
  rw [← hs.tracks] at f1 f2
  have hact : ∀ t ∈ s'.active, GoodF A c.toCfg s'.frame t := by
    intro t ht
    rw [hs.active, List.mem_append] at ht
    rw [hs.frame]
    rcases ht with ht | ht
    · obtain ⟨i, u, p, pk, h1, h2, h3, rfl⟩ := mem_continued ht
      refine push_goodF A (h.good u (List.mem_of_getElem? h1)) (hP pk (List.mem_of_getElem? h3)) ?_
      intro f hf
      exact dist_lt A (dfF_rep A _ _) (hs.greedy.near i p u pk f h2 h1 h3 hf)
    · obtain ⟨pk, hpk, rfl⟩ := List.mem_map.1 ht
      refine newborn_goodF A c.toCfg _ pk (hP pk ?_)
      have := List.mem_of_mem_take hpk
      simp only [unused, List.mem_map, List.mem_filter] at this
      obtain ⟨⟨a, i⟩, ⟨h1, _⟩, rfl⟩ := this
      exact List.mem_of_getElem? (List.mk_mem_zipIdx_iff_getElem?.1 h1)
  refine ⟨by rw [hs.frame, h.frame]; simp, hact, ?_, hl, ?_, ?_⟩
  · rw [hs.active, List.length_append, List.length_map, List.length_take]
    have h1 := continued_length_le s.active fr.peaks m
    have h2 := h.bound
    omega
  · intro u hu
    rw [hs.frame]
    exact goodFinF_mono A (Nat.le_succ _) (f1 u hu)
  · refine samples_stepF A h.frame h.good h.samples hs.greedy.len hs.greedy.valid hs.greedy.inj
      hs.active ?_
    intro k
    refine (f2 k).subperm.trans ?_
    exact (((List.Sublist.refl _).append (List.filter_sublist.map _)).filterMap _).subperm

theorem wfm_ne {c : ModalCfg K} {hist : List (Frame K)} {s : State K} (h : WfM A c hist s) :
    ∀ t ∈ s.active, t.freq ≠ [] := by
  intro t ht h0
  have := (h.good t ht).pos
  rw [h0] at this
  simp at this

theorem run_wfm {c : ModalCfg K}
    (hv : c.mergeStrategy = "average" ∨ c.mergeStrategy = "single") :
    ∀ (frames hist : List (Frame K)) (s : State K),
    (∀ f ∈ frames, f.Valid) → (∀ f ∈ frames, ∀ pk ∈ f.peaks, A.Rep pk.freq) → WfM A c hist s →
    ∃ s', runFromF A (modalDeactivateF A N c) c.toCfg frames s = .ok s' ∧
      WfM A c (hist ++ frames) s' := by
  intro frames
  induction frames with
  | nil => intro hist s _ _ h; exact ⟨s, rfl, by simpa using h⟩
  | cons f frames ih =>
    intro hist s hvf hr hw
    obtain ⟨m, s1, h1, h2, h2'⟩ := callF_spec A (saveModalF A N c) (modalDeactivateF A N c)
      (popSave_modalF A N c hv) c.toCfg f.order f.peaks s (hvf f (by simp)) (wfm_ne A hw) hw.last
    obtain ⟨s', h3, h4⟩ := ih (hist ++ [f]) s1 (fun g hg => hvf g (by simp [hg]))
      (fun g hg => hr g (by simp [hg])) (wfm_step A N hv (hr f (by simp)) hw h2 h2')
    refine ⟨s', ?_, by simpa using h4⟩
    simp only [runFromF, h1]
    exact h3

theorem wfm_reset (c : ModalCfg K) (prior : State K) : WfM A c [] (reset prior) :=
  ⟨by simp [reset], by simp [reset], by simp [reset], by intro u hu; simp [reset] at hu,
    by simp [reset], by intro k; simp [reset, State.everyTrack, samplesAt]⟩

/-! ## Unknown strategies -/

theorem callF_mono {d d' : State K → Nat → Except PyErr (State K)}
    (h : ∀ s i s', d s i = .ok s' → d' s i = .ok s') (c : Cfg K) (order : List Nat)
    (peaks : List (Peak K)) (s s' : State K) (hr : callF A d c order peaks s = .ok s') :
    callF A d' c order peaks s = .ok s' := by
  unfold callF at hr ⊢
  split at hr
  · simp at hr
  · rename_i l hl
    split at hr
    · simp at hr
    · rename_i s1 hs1
      simp only [deactivateLoop_mono h _ _ _ hs1]
      exact hr

theorem runFromF_mono {d d' : State K → Nat → Except PyErr (State K)}
    (h : ∀ s i s', d s i = .ok s' → d' s i = .ok s') (c : Cfg K) :
    ∀ frames s s', runFromF A d c frames s = .ok s' → runFromF A d' c frames s = .ok s' := by
  intro frames
  induction frames with
  | nil => intro s s' hr; exact hr
  | cons f frames ih =>
    intro s s' hr
    unfold runFromF at hr ⊢
    cases h1 : callF A d c f.order f.peaks s with
    | error e => simp [h1] at hr
    | ok s1 =>
      rw [h1] at hr
      rw [callF_mono A h c _ _ _ _ h1]
      exact ih _ _ hr

theorem finishF_known (c : ModalCfg K) (tr tr' : List (Track K)) (t : ATrack K)
    (h : finishF A N c tr t = .ok tr') : finishF A N c.known tr t = .ok tr' := by
  by_cases hc : c.mergeStrategy = "average" ∨ c.mergeStrategy = "single"
  · unfold ModalCfg.known; rw [if_pos hc]; exact h
  · unfold ModalCfg.known; rw [if_neg hc]
    by_cases hok : modalTrackOkF A N c t = true
    · exfalso
      push Not at hc
      simp [finishF, hok, freqDiffFunctionF, hc.1, hc.2] at h
    · have hok' : modalTrackOkF A N c t = false := by simpa using hok
      have hok2 : modalTrackOkF A N { c with mergeStrategy := "average" } t = false := hok'
      rw [finishF_not_ok _ _ _ _ _ hok2, ← h, finishF_not_ok _ _ _ _ _ hok']

theorem modalDeactivateF_known (c : ModalCfg K) (s : State K) (i : Nat) (s' : State K)
    (h : modalDeactivateF A N c s i = .ok s') : modalDeactivateF A N c.known s i = .ok s' := by
  unfold modalDeactivateF at h ⊢
  split at h
  · simp at h
  · rename_i t rest hp
    split at h
    · simp at h
    · rename_i tr htr
      simp only [finishF_known A N c _ _ _ htr]
      exact h

/-- Facts about any successful run, for every merge strategy. -/
theorem modal_runF (c : ModalCfg K) (prior : State K)
    (frames : List (Frame K)) (hv : ∀ f ∈ frames, f.Valid)
    (hr : ∀ f ∈ frames, ∀ pk ∈ f.peaks, A.Rep pk.freq) (s : State K)
    (h : modalFitF A N c prior frames = .ok s) : WfM A c frames s := by
  have hk := known_spec c
  obtain ⟨s', h1, h2⟩ := run_wfm A N hk.1 frames [] (reset prior) hv hr (wfm_reset A c.known prior)
  rw [hk.2] at h1
  have := runFromF_mono A (modalDeactivateF_known A N c) c.toCfg frames _ _ h
  rw [this] at h1
  cases h1
  rw [List.nil_append] at h2
  obtain ⟨g1, g2, g3, g4, g5, g6⟩ := h2
  rw [hk.2] at g2 g3 g5
  exact ⟨g1, g2, g3, g4, g5, g6⟩

theorem modalAllTracksF_mem {c : ModalCfg K} {s : State K} {u : Track K}
    (hu : u ∈ modalAllTracksF A N c s) :
    u ∈ s.tracks ++ (s.active.filter (modalTrackOkF A N c)).map numpyTrack := by
  unfold modalAllTracksF at hu
  split at hu
  · exact hu
  · exact (List.mem_filter.1 hu).1

theorem modalAllTracksF_sublist (c : ModalCfg K) (s : State K) :
    (modalAllTracksF A N c s).Sublist s.everyTrack := by
  have h : (s.tracks ++ (s.active.filter (modalTrackOkF A N c)).map numpyTrack).Sublist
      s.everyTrack := (List.Sublist.refl _).append (List.filter_sublist.map _)
  unfold modalAllTracksF
  split
  · exact h
  · exact List.filter_sublist.trans h

theorem goodFinF_all {c : ModalCfg K} {hist : List (Frame K)} {s : State K} (hw : WfM A c hist s) :
    ∀ u ∈ modalAllTracksF A N c s, GoodFinF A c.toCfg s.frame u := by
  intro u hu
  rcases List.mem_append.1 (modalAllTracksF_mem A N hu) with hu | hu
  · exact hw.done u hu
  · obtain ⟨t, ht, rfl⟩ := List.mem_map.1 hu
    rw [List.mem_filter] at ht
    exact goodFinF_numpy A (hw.good t ht.1) (modalTrackOkF_long A N ht.2)

end Verif.Float
