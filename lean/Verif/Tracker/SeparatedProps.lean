import Verif.Tracker.SeparatedLemmas
import Verif.Tracker.Props

/-!
# Well separated partials are tracked exactly (C122)

`Separated c frames part`: the peaks of the frames are those of partials that stay apart.  The
tracks of the whole analysis are then the maximal runs of the partials, sample by sample.
-/

set_option autoImplicit false
set_option linter.unusedSectionVars false
set_option linter.unusedSimpArgs false

namespace Verif.Tracker

variable {K : Type*} [Field K] [LinearOrder K] {L : Type*}

theorem segment_inj {c : Cfg K} {frames : List (Frame K)} {part : Nat → L → Option (Peak K)}
    (hs : Separated c frames part) {b b' : L} {i i' j j' : Nat}
    (h : Run part frames.length b i j) (h' : Run part frames.length b' i' j')
    (he : segment part b i j = segment part b' i' j') : b = b' ∧ i = i' ∧ j = j' := by
  have hlt := h.1.lt
  have hlt' := h'.1.lt
  have hi : i = i' := congrArg Track.start he
  subst hi
  have hl : j - i = j' - i := by
    have := congrArg (fun t => t.freq.length) he
    simpa [segment] using this
  have hj : j = j' := by omega
  subst hj
  refine ⟨?_, rfl, rfl⟩
  obtain ⟨p, hp⟩ := h.1.some i (le_refl _) hlt
  obtain ⟨q, hq⟩ := h'.1.some i (le_refl _) hlt
  have hz : ∃ l, List.range' i (j - i) = i :: l := by
    obtain ⟨d, hd⟩ : ∃ d, j - i = d + 1 := ⟨j - i - 1, by omega⟩
    exact ⟨_, by rw [hd, List.range'_succ]⟩
  obtain ⟨l, hl⟩ := hz
  have e1 := congrArg (fun t => t.freq[0]?) he
  have e2 := congrArg (fun t => t.mag[0]?) he
  have e3 := congrArg (fun t => t.phase[0]?) he
  simp only [segment, hl, List.map_cons, List.getElem?_cons_zero, hp, hq, Option.map_some,
    Option.some.injEq] at e1 e2 e3
  have hpq : p = q := Peak.ext e1 e2 e3
  subst hpq
  refine hs.label i ?_ _ _ _ hp hq
  rcases h.2 with h2 | h2 <;> omega

/-- All runs, finished or not, as one list. -/
theorem sepInv_list {part : Nat → L → Option (Peak K)}
    {save : List (Track K) → ATrack K → List (Track K)} {n : Nat} {s : State K}
    (h : SepInv part save n s) :
    ∃ (D : List (L × Nat × Nat)) (E : List (L × Nat × Nat)), (D ++ E).Nodup ∧
      (∀ x, x ∈ D ++ E ↔ Run part n x.1 x.2.1 x.2.2) ∧
      s.tracks = (D.map fun x => atrack part x.1 x.2.1 x.2.2).foldl save [] ∧
      (D.Pairwise fun x y => x.2.2 ≤ y.2.2) ∧ (∀ x ∈ D, x.2.2 < n) ∧ (∀ x ∈ E, x.2.2 = n) ∧
      s.active = E.map fun x => atrack part x.1 x.2.1 x.2.2 := by
  obtain ⟨B, hBn, hB, hact⟩ := h.active
  obtain ⟨D, hDn, hDs, hD, htr⟩ := h.tracks
  refine ⟨D, B.map fun x => (x.1, x.2, n), ?_, ?_, htr, hDs, fun x hx => ((hD x).1 hx).2.1, ?_, ?_⟩
  · rw [List.nodup_append]
    refine ⟨hDn, hBn.map (fun a b h => ?_), ?_⟩
    · simp only [Prod.mk.injEq, and_true] at h
      exact Prod.ext h.1 h.2
    · intro x hx y hy hxy
      subst hxy
      have h1 := ((hD x).1 hx).2.1
      obtain ⟨b, _, rfl⟩ := List.mem_map.1 hy
      simp at h1
  · intro x
    rw [List.mem_append, hD, List.mem_map]
    constructor
    · rintro (⟨h1, h2, h3⟩ | ⟨y, hy, rfl⟩)
      · exact ⟨h1, Or.inr ⟨h2, h3⟩⟩
      · exact ⟨(hB y).1 hy, Or.inl rfl⟩
    · rintro ⟨h1, h2 | h2⟩
      · right
        rw [h2] at h1
        exact ⟨(x.1, x.2.1), (hB _).2 h1, by rw [← h2]⟩
      · exact Or.inl ⟨h1, h2⟩
  · intro x hx
    obtain ⟨y, _, rfl⟩ := List.mem_map.1 hx
    rfl
  · rw [hact, List.map_map]
    rfl

variable [IsStrictOrderedRing K] [FloorRing K]

/-- C122, plain tracker: of separated partials, the tracks are the long enough maximal runs, each
exactly once, with the frequencies, magnitudes and phases of the partial. -/
theorem C122_tracks (c : Cfg K) (prior : State K) (frames : List (Frame K))
    (hv : ∀ f ∈ frames, f.Valid) (part : Nat → L → Option (Peak K))
    (hs : Separated c frames part) :
    ∃ s, trackerFit (deactivate c) c prior frames = .ok s ∧ (allTracks c s).Nodup ∧
      ∀ u, u ∈ allTracks c s ↔ ∃ b i j, Run part frames.length b i j ∧
        max 2 ⌈c.minSineDur * (c.fs / c.h)⌉ ≤ ((j - i : Nat) : ℤ) ∧ u = segment part b i j := by
  obtain ⟨s, h1, h2⟩ := sep_run hs (popSave_base c) prior hv
  obtain ⟨D, E, hnd, hmem, htr, _, _, _, hact⟩ := sepInv_list h2
  refine ⟨s, h1, ?_⟩
  have hall : allTracks c s = ((D ++ E).filter fun x =>
      trackOk c (atrack part x.1 x.2.1 x.2.2)).map
        (fun x => numpyTrack (atrack part x.1 x.2.1 x.2.2)) := by
    rw [allTracks, htr, hact, foldl_saveBase, List.filter_append, List.map_append]
    simp only [List.nil_append, List.filter_map, List.map_map]
    rfl
  rw [hall]
  refine ⟨?_, ?_⟩
  · refine List.Nodup.map_on ?_ (hnd.filter _)
    intro x hx y hy hxy
    have hx' := (hmem x).1 (List.mem_filter.1 hx).1
    have hy' := (hmem y).1 (List.mem_filter.1 hy).1
    rw [numpyTrack_atrack hx'.1, numpyTrack_atrack hy'.1] at hxy
    obtain ⟨e1, e2, e3⟩ := segment_inj hs hx' hy' hxy
    exact Prod.ext e1 (Prod.ext e2 e3)
  · intro u
    simp only [List.mem_map, List.mem_filter, trackOk, decide_eq_true_eq, Cfg.minSineLen,
      Cfg.frameRate]
    constructor
    · rintro ⟨x, ⟨hx, hl⟩, rfl⟩
      have hx' := (hmem x).1 hx
      rw [atrack_length hx'.1] at hl
      exact ⟨x.1, x.2.1, x.2.2, hx', of_decide_eq_true hl, numpyTrack_atrack hx'.1⟩
    · rintro ⟨b, i, j, hr, hl, rfl⟩
      refine ⟨(b, i, j), ⟨(hmem _).2 hr, ?_⟩, numpyTrack_atrack hr.1⟩
      rw [atrack_length hr.1]
      exact decide_eq_true hl

theorem accepted_iff (c : ModalCfg K) {part : Nat → L → Option (Peak K)} {b : L} {i j : Nat}
    (h : Sounds part b i j) :
    modalTrackOk c (atrack part b i j) = true ↔ Accepted c part b i j := by
  by_cases h2 : 2 ≤ j - i
  · rw [(C09_acceptance c _ (by rw [atrack_mag_length h]; exact h2)).1, atrack_length h]
    exact ⟨fun ⟨h1, h2, h3, h4⟩ => ⟨h1, h2, h3, h4⟩, fun ⟨h1, h2, h3, h4⟩ => ⟨h1, h2, h3, h4⟩⟩
  · constructor
    · intro hok
      have := modalTrackOk_long hok
      rw [atrack_length h] at this
      have h3 : (2 : ℤ) ≤ c.minSineLen := le_max_left _ _
      omega
    · intro hok
      have := hok.long
      have h3 : (2 : ℤ) ≤ max 2 ⌈c.minSineDur * (c.fs / c.h)⌉ := le_max_left _ _
      omega

/-- Without merging, the modal tracker keeps what it accepts. -/
theorem foldl_saveModal_apart (c : ModalCfg K)
    (hstr : c.mergeStrategy = "average" ∨ c.mergeStrategy = "single")
    {part : Nat → L → Option (Peak K)} {n : Nat} (ha : Apart c part n) :
    ∀ (D : List (L × Nat × Nat)), (∀ x ∈ D, Run part n x.1 x.2.1 x.2.2) →
      (D.map fun x => atrack part x.1 x.2.1 x.2.2).foldl (saveModal c) [] =
        (D.filter fun x => modalTrackOk c (atrack part x.1 x.2.1 x.2.2)).map
          (fun x => numpyTrack (atrack part x.1 x.2.1 x.2.2)) := by
  intro D
  induction D using List.reverseRecOn with
  | nil => intro _; rfl
  | append_singleton D x ih =>
    intro hD
    have ih' := ih (fun y hy => hD y (by simp [hy]))
    have hx := hD x (by simp)
    rw [List.map_append, List.foldl_append, ih', List.filter_append, List.map_append]
    simp only [List.map_cons, List.map_nil, List.foldl_cons, List.foldl_nil, List.filter_cons,
      List.filter_nil]
    cases hok : modalTrackOk c (atrack part x.1 x.2.1 x.2.2) with
    | false => simp [saveModal, finish_not_ok c _ _ hok]
    | true =>
      obtain ⟨p, hp⟩ := hx.1.some x.2.1 (le_refl _) hx.1.lt
      have hhead : (atrack part x.1 x.2.1 x.2.2).freq.head? = some p.freq := by
        obtain ⟨d, hd⟩ : ∃ d, x.2.2 - x.2.1 = d + 1 :=
          ⟨x.2.2 - x.2.1 - 1, by have := hx.1.lt; omega⟩
        simp only [atrack, hd, List.range'_succ, List.filterMap_cons, hp, Option.map_some,
          List.head?_cons]
      have hJ : LastProper ((D.filter fun x => modalTrackOk c (atrack part x.1 x.2.1 x.2.2)).map
          (fun x => numpyTrack (atrack part x.1 x.2.1 x.2.2))) := by
        intro u hu
        obtain ⟨y, hy, rfl⟩ := List.mem_map.1 hu
        exact numpyTrack_last (atrack_ne (hD y (by simp [(List.mem_filter.1 hy).1])).1)
      rcases finish_spec c hstr _ hJ _ (atrack_ne hx.1) hok p.freq hhead with
        ⟨i, u, d, h1, h2, h3, h4, _, _⟩ | ⟨_, h⟩
      · exfalso
        obtain ⟨y, hy, rfl⟩ := List.mem_map.1 (List.mem_of_getElem? h1)
        obtain ⟨hyD, hyok⟩ := List.mem_filter.1 hy
        have hyr := hD y (by simp [hyD])
        rw [numpyTrack_atrack hyr.1, numpyTrack_atrack hx.1] at h3
        have hstop : y.2.2 < x.2.1 := by
          rw [numpyTrack_atrack hyr.1] at h2
          have h5 := hyr.1.lt
          simp only [Track.stop, segment, List.length_map, List.length_range', atrack] at h2
          omega
        have := ha y.1 y.2.1 y.2.2 x.1 x.2.1 x.2.2 p d hyr hx ((accepted_iff c hyr.1).1 hyok)
          ((accepted_iff c hx.1).1 hok) hstop hp h3
        exact absurd h4 (not_lt.2 this)
      · simp [saveModal, h]

/-- C122, modal tracker: of separated partials whose accepted runs are not close enough to be
merged, the tracks are the accepted maximal runs in the strip, each exactly once, with the
frequencies, magnitudes and phases of the partial. -/
theorem C122_modal (c : ModalCfg K)
    (hstr : c.mergeStrategy = "average" ∨ c.mergeStrategy = "single") (prior : State K)
    (frames : List (Frame K)) (hv : ∀ f ∈ frames, f.Valid) (part : Nat → L → Option (Peak K))
    (hs : Separated c.toCfg frames part) (ha : Apart c part frames.length) :
    ∃ s, trackerFit (modalDeactivate c) c.toCfg prior frames = .ok s ∧
      (modalAllTracks c s).Nodup ∧
      ∀ u, u ∈ modalAllTracks c s ↔ ∃ b i j, Run part frames.length b i j ∧
        Accepted c part b i j ∧ InStrip c frames.length i j ∧ u = segment part b i j := by
  obtain ⟨s, h1, h2⟩ := sep_run hs (popSave_modal c hstr) prior hv
  obtain ⟨D, E, hnd, hmem, htr, _, _, _, hact⟩ := sepInv_list h2
  refine ⟨s, h1, ?_⟩
  have hall : s.tracks ++ (s.active.filter (modalTrackOk c)).map numpyTrack =
      ((D ++ E).filter fun x =>
      modalTrackOk c (atrack part x.1 x.2.1 x.2.2)).map
        (fun x => numpyTrack (atrack part x.1 x.2.1 x.2.2)) := by
    rw [htr, hact, foldl_saveModal_apart c hstr ha D
      (fun x hx => (hmem x).1 (by simp [hx])), List.filter_append, List.map_append]
    simp only [List.filter_map, List.map_map]
    rfl
  have hnod : (s.tracks ++ (s.active.filter (modalTrackOk c)).map numpyTrack).Nodup := by
    rw [hall]
    refine List.Nodup.map_on ?_ (hnd.filter _)
    intro x hx y hy hxy
    have hx' := (hmem x).1 (List.mem_filter.1 hx).1
    have hy' := (hmem y).1 (List.mem_filter.1 hy).1
    rw [numpyTrack_atrack hx'.1, numpyTrack_atrack hy'.1] at hxy
    obtain ⟨e1, e2, e3⟩ := segment_inj hs hx' hy' hxy
    exact Prod.ext e1 (Prod.ext e2 e3)
  have hin : ∀ u, u ∈ s.tracks ++ (s.active.filter (modalTrackOk c)).map numpyTrack ↔
      ∃ b i j, Run part frames.length b i j ∧ Accepted c part b i j ∧ u = segment part b i j := by
    intro u
    rw [hall]
    simp only [List.mem_map, List.mem_filter]
    constructor
    · rintro ⟨x, ⟨hx, hl⟩, rfl⟩
      have hx' := (hmem x).1 hx
      exact ⟨x.1, x.2.1, x.2.2, hx', (accepted_iff c hx'.1).1 hl, numpyTrack_atrack hx'.1⟩
    · rintro ⟨b, i, j, hr, hl, rfl⟩
      exact ⟨(b, i, j), ⟨(hmem _).2 hr, (accepted_iff c hr.1).2 hl⟩, numpyTrack_atrack hr.1⟩
  unfold modalAllTracks
  cases hst : c.stripT with
  | none =>
    have : c.stripN = none := by simp [ModalCfg.stripN, hst]
    simp only [this]
    refine ⟨hnod, ?_⟩
    intro u
    rw [hin]
    constructor
    · rintro ⟨b, i, j, h3, h4, h5⟩
      exact ⟨b, i, j, h3, h4, by intro t ht; rw [hst] at ht; simp at ht, h5⟩
    · rintro ⟨b, i, j, h3, h4, _, h5⟩
      exact ⟨b, i, j, h3, h4, h5⟩
  | some t =>
    have : c.stripN = some ⌈t * (c.fs / c.h)⌉ := by simp [ModalCfg.stripN, hst, Cfg.frameRate]
    simp only [this]
    refine ⟨hnod.filter _, ?_⟩
    have hon : ∀ b i j, Run part frames.length b i j →
        (onsetOk c.reverse s.frame ⌈t * (c.fs / c.h)⌉ (segment part b i j) = true ↔
          InStrip c frames.length i j) := by
      intro b i j hr
      have hlt := hr.1.lt
      have e : (i : ℤ) + ((j - i : Nat) : ℤ) = j := by omega
      simp only [onsetOk, h2.frame, segment, List.length_map, List.length_range', e,
        decide_eq_true_eq, InStrip, hst, Option.some.injEq, forall_eq']
    intro u
    rw [List.mem_filter, hin]
    constructor
    · rintro ⟨⟨b, i, j, h3, h4, rfl⟩, h5⟩
      exact ⟨b, i, j, h3, h4, (hon b i j h3).1 h5, rfl⟩
    · rintro ⟨b, i, j, h3, h4, h5, rfl⟩
      exact ⟨⟨b, i, j, h3, h4, rfl⟩, (hon b i j h3).2 h5⟩

/-! ### A concrete case: two partials within the deviation of each other, one stops earlier -/

/-- Peaks of the two partials. -/
def exPart : Nat → Bool → Option (Peak ℚ)
  | 0, true => some ⟨100, -10, 0⟩
  | 1, true => some ⟨101, -11, 1⟩
  | 2, true => some ⟨102, -13, 2⟩
  | 0, false => some ⟨104, -8, 3⟩
  | 1, false => some ⟨104, -9, 1⟩
  | _, _ => none

/-- The frames with the peaks of the two partials. -/
def exSepFrames : List (Frame ℚ) :=
  [⟨[⟨100, -10, 0⟩, ⟨104, -8, 3⟩], [1, 0]⟩, ⟨[⟨104, -9, 1⟩, ⟨101, -11, 1⟩], [0, 1]⟩,
   ⟨[⟨102, -13, 2⟩], [0]⟩, ⟨[], []⟩]

theorem exSep_valid : ∀ f ∈ exSepFrames, f.Valid := by
  unfold exSepFrames Frame.Valid
  decide +kernel

theorem exSep_separated : Separated exCfg exSepFrames exPart := by
  refine ⟨?_, ?_, ?_, ?_, ?_, ?_⟩
  · intro k f hf p
    match k with
    | 0 => simp [exSepFrames] at hf; subst hf; simp [exPart, eq_comm, or_comm]
    | 1 => simp [exSepFrames] at hf; subst hf; simp [exPart, eq_comm, or_comm]
    | 2 => simp [exSepFrames] at hf; subst hf; simp [exPart, eq_comm]
    | 3 => simp [exSepFrames] at hf; subst hf; simp [exPart]
    | k + 4 => simp [exSepFrames] at hf
  · simp [exSepFrames]
  · intro k hk b b' p
    match k with
    | 0 => cases b <;> cases b' <;> simp [exPart] <;> rintro rfl <;> simp
    | 1 => cases b <;> cases b' <;> simp [exPart] <;> rintro rfl <;> simp
    | 2 => cases b <;> cases b' <;> simp [exPart]
    | k + 3 => cases b <;> cases b' <;> simp [exPart]
  · intro k hk b p q
    match k with
    | 0 => cases b <;> simp only [exPart, Option.some.injEq] <;> rintro rfl rfl <;>
        norm_num [exCfg]
    | 1 => cases b <;> simp only [exPart, Option.some.injEq, reduceCtorEq, false_imp_iff, imp_self,
        implies_true] <;> rintro rfl rfl <;> norm_num [exCfg]
    | k + 2 => cases b <;> simp [exPart]
  · intro k hk b b' p q hb
    match k with
    | 0 =>
      cases b <;> cases b' <;> simp only [ne_eq, not_true, not_false_eq_true, reduceCtorEq] at hb <;>
        simp only [exPart, Option.some.injEq] <;> rintro rfl rfl <;> right <;> left <;>
        exact ⟨_, rfl, by norm_num⟩
    | 1 =>
      cases b <;> cases b' <;> simp only [ne_eq, not_true, not_false_eq_true, reduceCtorEq] at hb
      · simp only [exPart, Option.some.injEq]; rintro rfl rfl; right; left; exact ⟨_, rfl, by norm_num⟩
      · simp [exPart]
    | k + 2 => cases b <;> cases b' <;> simp [exPart]
  · simp [exSepFrames, exCfg]

example : ∃ s, trackerFit (deactivate exCfg) exCfg ⟨[], [], 0⟩ exSepFrames = .ok s ∧
    (allTracks exCfg s).length = 2 ∧
    (⟨0, [some 104, some 104], [some (-8), some (-9)], [some 3, some 1]⟩ : Track ℚ) ∈
      allTracks exCfg s ∧
    (⟨0, [some 100, some 101, some 102], [some (-10), some (-11), some (-13)],
      [some 0, some 1, some 2]⟩ : Track ℚ) ∈ allTracks exCfg s := by
  refine ⟨⟨[⟨0, [some 104, some 104], [some (-8), some (-9)], [some 3, some 1]⟩,
    ⟨0, [some 100, some 101, some 102], [some (-10), some (-11), some (-13)],
      [some 0, some 1, some 2]⟩], [], 4⟩, ?_, ?_, ?_, ?_⟩ <;> decide +kernel

theorem exSep_apart : Apart (exModal false "average") exPart exSepFrames.length := by
  intro b i j b' i' j' p d h1 h2 _ _ hlt hp _
  exfalso
  have h3 := h1.1.lt
  match i' with
  | 0 => omega
  | 1 => omega
  | 2 =>
    have := h2.1.first 1 rfl
    cases b' <;> simp [exPart] at this hp
  | i' + 3 => cases b' <;> simp [exPart] at hp

example : ∃ s, trackerFit (modalDeactivate (exModal false "average")) exCfg ⟨[], [], 0⟩
      exSepFrames = .ok s ∧
    ∀ u, u ∈ modalAllTracks (exModal false "average") s ↔ ∃ b i j,
      Run exPart 4 b i j ∧ Accepted (exModal false "average") exPart b i j ∧
        InStrip (exModal false "average") 4 i j ∧ u = segment exPart b i j :=
  have ⟨s, h1, _, h3⟩ := C122_modal (exModal false "average") (Or.inl rfl) ⟨[], [], 0⟩ exSepFrames
    exSep_valid exPart exSep_separated exSep_apart
  ⟨s, h1, h3⟩

example : (trackerFit (modalDeactivate (exModal false "average")) exCfg ⟨[], [], 0⟩
      exSepFrames).toOption.map (fun s =>
        (modalAllTracks (exModal false "average") s).map (·.freq)) =
    some [[some 104, some 104], [some 100, some 101, some 102]] := by
  decide +kernel

end Verif.Tracker
