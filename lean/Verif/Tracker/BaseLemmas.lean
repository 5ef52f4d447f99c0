import Verif.Tracker.ModalLemmas

/-! # Lemmas about the plain tracker, and about runs of the modal tracker -/

set_option autoImplicit false
set_option linter.unusedSectionVars false
set_option linter.unusedSimpArgs false

namespace Verif.Tracker

variable {K : Type*} [Field K] [LinearOrder K]

/-- What the plain tracker does with a finished track. -/
def saveBase [FloorRing K] (c : Cfg K) (tr : List (Track K)) (t : ATrack K) : List (Track K) :=
  if trackOk c t then tr ++ [numpyTrack t] else tr

theorem popSave_base [FloorRing K] (c : Cfg K) :
    PopSave (fun _ => True) (saveBase c) (deactivate c) := by
  refine ⟨trivial, fun _ _ _ _ => trivial, ?_⟩
  intro s i t _ hi _
  simp only [deactivate, popE, hi, saveBase]
  split <;> rfl

/-- Finished tracks of the plain tracker. -/
def BaseInv [FloorRing K] (c : Cfg K) (n : Nat) (tr : List (Track K)) : Prop :=
  ∀ u ∈ tr, (∃ t, u = numpyTrack t) ∧ GoodFin c n u

theorem goodFin_numpyTrack [FloorRing K] {c : Cfg K} {n : Nat} {t : ATrack K}
    (h : GoodTrack c n t) (hok : trackOk c t = true) : GoodFin c n (numpyTrack t) := by
  refine ⟨numpyTrack_aligned h, ?_, numpyTrack_jump h, ?_⟩
  · have := h.clock; have := h.magLen
    simp [Track.stop, numpyTrack]; omega
  · rw [numpyTrack_filterMap]
    simpa [trackOk] using hok

theorem saveOk_base [FloorRing K] (c : Cfg K) : SaveOk c (saveBase c) (BaseInv c) := by
  refine ⟨by intro u hu; simp at hu, ?_, ?_, ?_⟩
  · intro n tr h u hu
    exact ⟨(h u hu).1, { (h u hu).2 with past := Nat.le_succ_of_le (h u hu).2.past }⟩
  · intro n tr t hI ht u hu
    unfold saveBase at hu
    split at hu
    · rename_i hok
      rcases List.mem_append.1 hu with hu | hu
      · exact hI u hu
      · rw [List.mem_singleton.1 hu]
        exact ⟨⟨t, rfl⟩, goodFin_numpyTrack ht hok⟩
    · exact hI u hu
  · intro n tr t _ _ k
    unfold saveBase
    split
    · exact List.Subperm.refl _
    · rw [samplesAt_append]
      exact (List.sublist_append_left _ _).subperm

theorem foldl_saveBase [FloorRing K] (c : Cfg K) (D : List (ATrack K)) (tr : List (Track K)) :
    D.foldl (saveBase c) tr = tr ++ (D.filter (trackOk c)).map numpyTrack := by
  induction D generalizing tr with
  | nil => simp
  | cons t D ih =>
    rw [List.foldl_cons, ih, saveBase]
    by_cases h : trackOk c t = true
    · simp [h]
    · simp [h]

/-! ## Monotonicity of a run in the `deactivate` method -/

theorem deactivateLoop_mono {d d' : State K → Nat → Except PyErr (State K)}
    (h : ∀ s i s', d s i = .ok s' → d' s i = .ok s') :
    ∀ is s s', deactivateLoop d is s = .ok s' → deactivateLoop d' is s = .ok s' := by
  intro is
  induction is with
  | nil => intro s s' hr; exact hr
  | cons i is ih =>
    intro s s' hr
    unfold deactivateLoop at hr ⊢
    cases h1 : d s i with
    | error e => simp [h1] at hr
    | ok s1 =>
      rw [h1] at hr
      rw [h _ _ _ h1]
      exact ih _ _ hr

theorem call_mono {d d' : State K → Nat → Except PyErr (State K)}
    (h : ∀ s i s', d s i = .ok s' → d' s i = .ok s') (c : Cfg K) (order : List Nat)
    (peaks : List (Peak K)) (s s' : State K) (hr : call d c order peaks s = .ok s') :
    call d' c order peaks s = .ok s' := by
  unfold call at hr ⊢
  split at hr
  · simp at hr
  · rename_i l hl
    split at hr
    · simp at hr
    · rename_i s1 hs1
      simp only [deactivateLoop_mono h _ _ _ hs1]
      exact hr

theorem runFrom_mono {d d' : State K → Nat → Except PyErr (State K)}
    (h : ∀ s i s', d s i = .ok s' → d' s i = .ok s') (c : Cfg K) :
    ∀ frames s s', runFrom d c frames s = .ok s' → runFrom d' c frames s = .ok s' := by
  intro frames
  induction frames with
  | nil => intro s s' hr; exact hr
  | cons f frames ih =>
    intro s s' hr
    unfold runFrom at hr ⊢
    cases h1 : call d c f.order f.peaks s with
    | error e => simp [h1] at hr
    | ok s1 =>
      rw [h1] at hr
      rw [call_mono h c _ _ _ _ h1]
      exact ih _ _ hr

/-- The same configuration with a known merge strategy. -/
def ModalCfg.known (c : ModalCfg K) : ModalCfg K :=
  if c.mergeStrategy = "average" ∨ c.mergeStrategy = "single" then c
  else { c with mergeStrategy := "average" }

theorem known_spec (c : ModalCfg K) : (c.known.mergeStrategy = "average" ∨
    c.known.mergeStrategy = "single") ∧ c.known.toCfg = c.toCfg := by
  unfold ModalCfg.known
  split
  · rename_i h; exact ⟨h, rfl⟩
  · exact ⟨Or.inl rfl, rfl⟩

theorem finish_known [FloorRing K] (c : ModalCfg K) (tr tr' : List (Track K)) (t : ATrack K)
    (h : finish c tr t = .ok tr') : finish c.known tr t = .ok tr' := by
  by_cases hc : c.mergeStrategy = "average" ∨ c.mergeStrategy = "single"
  · unfold ModalCfg.known; rw [if_pos hc]; exact h
  · unfold ModalCfg.known; rw [if_neg hc]
    by_cases hok : modalTrackOk c t = true
    · exfalso
      push Not at hc
      simp [finish, hok, freqDiffFunction, hc.1, hc.2] at h
    · have hok' : modalTrackOk c t = false := by simpa using hok
      have hok2 : modalTrackOk { c with mergeStrategy := "average" } t = false := hok'
      rw [finish_not_ok _ _ _ hok2, ← h, finish_not_ok _ _ _ hok']

theorem modalDeactivate_known [FloorRing K] (c : ModalCfg K) (s : State K) (i : Nat) (s' : State K)
    (h : modalDeactivate c s i = .ok s') : modalDeactivate c.known s i = .ok s' := by
  unfold modalDeactivate at h ⊢
  split at h
  · simp at h
  · rename_i t rest hp
    split at h
    · simp at h
    · rename_i tr htr
      simp only [finish_known c _ _ _ htr]
      exact h

/-- Facts about any successful run of the modal tracker, for every merge strategy. -/
theorem modal_run [IsStrictOrderedRing K] [FloorRing K] (c : ModalCfg K) (prior : State K)
    (frames : List (Frame K)) (hv : ∀ f ∈ frames, f.Valid) (s : State K)
    (h : trackerFit (modalDeactivate c) c.toCfg prior frames = .ok s) :
    Wf c.toCfg s ∧ s.frame = frames.length ∧ ModalInv c.toCfg s.frame s.tracks ∧
      ∀ k, (samplesAt k s.everyTrack).Subperm ((frames[k]?.map (·.peaks)).getD []) := by
  have hk := known_spec c
  obtain ⟨s', h1, h2, h3, h4, _, h6⟩ := samples_run (saveOk_modal c.known hk.1)
    (popSave_modal c.known hk.1) frames prior hv
  rw [hk.2] at h1 h2 h4
  have := runFrom_mono (modalDeactivate_known c) c.toCfg frames _ _ h
  rw [this] at h1
  cases h1
  exact ⟨h2, h3, h4, h6⟩

theorem modal_total [IsStrictOrderedRing K] [FloorRing K] (c : ModalCfg K)
    (hv' : c.mergeStrategy = "average" ∨ c.mergeStrategy = "single") (prior : State K)
    (frames : List (Frame K)) (hv : ∀ f ∈ frames, f.Valid) :
    ∃ s, trackerFit (modalDeactivate c) c.toCfg prior frames = .ok s := by
  obtain ⟨s', h1, _⟩ := samples_run (saveOk_modal c hv') (popSave_modal c hv') frames prior hv
  exact ⟨s', h1⟩

theorem base_run [IsStrictOrderedRing K] [FloorRing K] (c : Cfg K) (prior : State K)
    (frames : List (Frame K)) (hv : ∀ f ∈ frames, f.Valid) :
    ∃ s, trackerFit (deactivate c) c prior frames = .ok s ∧
    Wf c s ∧ s.frame = frames.length ∧ BaseInv c s.frame s.tracks ∧
      ∀ k, (samplesAt k s.everyTrack).Subperm ((frames[k]?.map (·.peaks)).getD []) := by
  obtain ⟨s', h1, h2, h3, h4, _, h6⟩ := samples_run (saveOk_base c) (popSave_base c) frames prior hv
  exact ⟨s', h1, h2, h3, h4, h6⟩

theorem allTracks_sublist [FloorRing K] (c : Cfg K) (s : State K) :
    (allTracks c s).Sublist s.everyTrack :=
  (List.Sublist.refl _).append (List.filter_sublist.map _)

theorem modalAllTracks_sublist [FloorRing K] (c : ModalCfg K) (s : State K) :
    (modalAllTracks c s).Sublist s.everyTrack := by
  have h : (s.tracks ++ (s.active.filter (modalTrackOk c)).map numpyTrack).Sublist s.everyTrack :=
    (List.Sublist.refl _).append (List.filter_sublist.map _)
  unfold modalAllTracks
  split
  · exact h
  · exact List.filter_sublist.trans h

theorem goodFin_allTracks [FloorRing K] {c : Cfg K} {s : State K} (hw : Wf c s)
    (hI : BaseInv c s.frame s.tracks) : ∀ u ∈ allTracks c s, GoodFin c s.frame u := by
  intro u hu
  rcases List.mem_append.1 hu with hu | hu
  · exact (hI u hu).2
  · obtain ⟨t, ht, rfl⟩ := List.mem_map.1 hu
    rw [List.mem_filter] at ht
    exact goodFin_numpyTrack (hw.good t ht.1) ht.2

theorem modalTrackOk_base [FloorRing K] {c : ModalCfg K} {t : ATrack K}
    (h : modalTrackOk c t = true) : trackOk c.toCfg t = true := by
  have := modalTrackOk_long h
  simpa [trackOk] using this

theorem modalAllTracks_mem [FloorRing K] {c : ModalCfg K} {s : State K} {u : Track K}
    (hu : u ∈ modalAllTracks c s) :
    u ∈ s.tracks ++ (s.active.filter (modalTrackOk c)).map numpyTrack := by
  unfold modalAllTracks at hu
  split at hu
  · exact hu
  · exact (List.mem_filter.1 hu).1

theorem goodFin_modalAllTracks [FloorRing K] {c : ModalCfg K} {s : State K} (hw : Wf c.toCfg s)
    (hI : ModalInv c.toCfg s.frame s.tracks) :
    ∀ u ∈ modalAllTracks c s, GoodFin c.toCfg s.frame u := by
  intro u hu
  rcases List.mem_append.1 (modalAllTracks_mem hu) with hu | hu
  · exact hI.2 u hu
  · obtain ⟨t, ht, rfl⟩ := List.mem_map.1 hu
    rw [List.mem_filter] at ht
    exact goodFin_numpyTrack (hw.good t ht.1) (modalTrackOk_base ht.2)

/-- The acceptance test, spelled out. -/
theorem modalTrackOk_iff [IsStrictOrderedRing K] [FloorRing K] (c : ModalCfg K) (t : ATrack K) :
    modalTrackOk c t = true ↔ c.minSineLen ≤ (t.freq.length : ℤ) ∧
      (∀ lo, c.freqLo = some lo → lo ≤ mean t.freq) ∧
      (∀ hi, c.freqHi = some hi → mean t.freq ≤ hi) ∧
      olsSlope (lmX c.reverse t.mag.length) t.mag ≤ 0 ∧
      c.peakThreshold ≤ olsIntercept (lmX c.reverse t.mag.length) t.mag := by
  unfold modalTrackOk
  by_cases h1 : trackOk c.toCfg t = true
  swap
  · simp only [h1, Bool.not_false, if_true, Bool.false_eq_true, false_iff]
    intro h
    exact h1 (by simpa [trackOk] using h.1)
  have h1' : c.minSineLen ≤ (t.freq.length : ℤ) := by simpa [trackOk] using h1
  simp only [h1, Bool.not_true, Bool.false_eq_true, if_false, h1', true_and]
  cases hlo : c.freqLo <;> cases hhi : c.freqHi <;> simp [not_lt]

theorem continued_length_kept {A : List (ATrack K)} {peaks : List (Peak K)}
    {m : List (Option Nat)} (hl : m.length = A.length)
    (hv : ∀ p, some p ∈ m → p < peaks.length) :
    (continued A peaks m).length = (kept A m).length := by
  induction A generalizing m with
  | nil => cases m with
    | nil => simp [continued, kept]
    | cons _ _ => simp at hl
  | cons a A ih =>
    cases m with
    | nil => simp at hl
    | cons o m =>
      have ih' := ih (m := m) (by simpa using hl) (fun p hp => hv p (by simp [hp]))
      cases o with
      | none => simpa [continued, kept] using ih'
      | some p =>
        have hp := hv p (by simp)
        simpa [continued, kept, hp] using ih'

theorem continued_last {A : List (ATrack K)} {peaks : List (Peak K)}
    {m : List (Option Nat)} (hl : m.length = A.length)
    (hv : ∀ p, some p ∈ m → p < peaks.length) :
    (continued A peaks m).map (fun t => (t.freq.getLast?, t.mag.getLast?, t.phase.getLast?)) =
      (matchedPeaks peaks m).map fun pk => (some pk.freq, some pk.mag, some pk.phase) := by
  induction A generalizing m with
  | nil => cases m with
    | nil => simp [continued, matchedPeaks]
    | cons _ _ => simp at hl
  | cons a A ih =>
    cases m with
    | nil => simp at hl
    | cons o m =>
      have ih' := ih (m := m) (by simpa using hl) (fun p hp => hv p (by simp [hp]))
      cases o with
      | none => simpa [continued, matchedPeaks] using ih'
      | some p =>
        have hp := hv p (by simp)
        simpa [continued, matchedPeaks, hp] using ih'

theorem long_enough [IsStrictOrderedRing K] [FloorRing K] {c : Cfg K} {n : Nat} {u : Track K}
    (h : GoodFin c n u) :
    2 ≤ u.freq.length ∧ ⌈c.minSineDur * (c.fs / c.h)⌉ ≤ (u.freq.length : ℤ) ∧
      (0 < c.fs → 0 < c.h → c.minSineDur ≤ (u.freq.length : K) * (c.h / c.fs)) := by
  have g := h.long
  have g3 : (u.freq.filterMap id).length ≤ u.freq.length := List.length_filterMap_le _ _
  unfold Cfg.minSineLen at g
  have g1 := le_trans (le_max_left _ _) g
  have g2 := le_trans (le_max_right _ _) g
  unfold Cfg.frameRate at g2
  have g4 : ⌈c.minSineDur * (c.fs / c.h)⌉ ≤ (u.freq.length : ℤ) := by omega
  refine ⟨by omega, g4, ?_⟩
  intro hfs hh
  rw [Int.ceil_le] at g4
  have e : c.minSineDur = c.minSineDur * (c.fs / c.h) * (c.h / c.fs) := by
    field_simp
  rw [e]
  apply mul_le_mul_of_nonneg_right _ (by positivity)
  exact_mod_cast g4

end Verif.Tracker
