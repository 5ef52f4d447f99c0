import Verif.Tracker.BaseLemmas

/-!
# Finished modal tracks are made of accepted parts

Every track that the modal tracker reports is either one accepted track, or the result of merging
accepted tracks (with NaN between them).  Consequences: its mean frequency respects the bounds, and
it has a decreasing trend if it was never merged.
-/

set_option autoImplicit false
set_option linter.unusedSectionVars false
set_option linter.unusedSimpArgs false

namespace Verif.Tracker

variable {K : Type*} [Field K] [LinearOrder K] [IsStrictOrderedRing K] [FloorRing K]

/-- A track made of accepted parts. -/
inductive Parts (c : ModalCfg K) : Track K → Prop
  | one (a : ATrack K) (hm : a.mag.length = a.freq.length) (hok : modalTrackOk c a = true) :
      Parts c (numpyTrack a)
  | merge (u : Track K) (a : ATrack K) (hu : Parts c u) (hm : a.mag.length = a.freq.length)
      (hok : modalTrackOk c a = true) (hgap : u.stop < a.start) :
      Parts c (mergeTrack u (numpyTrack a))

/-- The invariant of runs. -/
def PartsInv (c : ModalCfg K) (n : Nat) (tr : List (Track K)) : Prop :=
  ModalInv c.toCfg n tr ∧ ∀ u ∈ tr, Parts c u

theorem saveOk_parts (c : ModalCfg K)
    (hv : c.mergeStrategy = "average" ∨ c.mergeStrategy = "single") :
    SaveOk c.toCfg (saveModal c) (PartsInv c) := by
  have h0 := saveOk_modal c hv
  refine ⟨⟨h0.nil, by simp⟩, fun n tr h => ⟨h0.mono n tr h.1, h.2⟩, ?_,
    fun n tr t hI ht => h0.samples n tr t hI.1 ht⟩
  rintro n tr t ⟨hI, hP⟩ ht
  refine ⟨h0.keep n tr t hI ht, ?_⟩
  have hne : t.freq ≠ [] := by
    intro h0; have := ht.pos; rw [h0] at this; simp at this
  cases hok : modalTrackOk c t with
  | false =>
    have : saveModal c tr t = tr := by simp [saveModal, finish_not_ok c tr t hok]
    rw [this]; exact hP
  | true =>
    obtain ⟨f0, l, hl⟩ := List.exists_cons_of_ne_nil hne
    rcases finish_spec c hv tr hI.1 t hne hok f0 (by simp [hl]) with
      ⟨i, u, d, hu, hstop, _, _, _, h⟩ | ⟨_, h⟩
    · have hsv : saveModal c tr t = tr.set i (mergeTrack u (numpyTrack t)) := by
        simp only [saveModal, h]
      rw [hsv]
      intro w hw
      rcases List.mem_or_eq_of_mem_set hw with hw | rfl
      · exact hP w hw
      · exact .merge u t (hP u (List.mem_of_getElem? hu)) ht.magLen hok hstop
    · have hsv : saveModal c tr t = tr ++ [numpyTrack t] := by simp only [saveModal, h]
      rw [hsv]
      intro w hw
      rcases List.mem_append.1 hw with hw | hw
      · exact hP w hw
      · rw [List.mem_singleton.1 hw]
        exact .one t ht.magLen hok

theorem modalTrackOk_known (c : ModalCfg K) (a : ATrack K) :
    modalTrackOk c.known a = modalTrackOk c a := by
  unfold ModalCfg.known
  split
  · rfl
  · rfl

theorem parts_known {c : ModalCfg K} {u : Track K} (h : Parts c.known u) : Parts c u := by
  induction h with
  | one a hm hok => exact .one a hm (by rw [← modalTrackOk_known]; exact hok)
  | merge u a _ hm hok hgap ih => exact .merge u a ih hm (by rw [← modalTrackOk_known]; exact hok) hgap

/-- Every reported track is made of accepted parts. -/
theorem parts_run (c : ModalCfg K) (prior : State K)
    (frames : List (Frame K)) (hv : ∀ f ∈ frames, f.Valid) (s : State K)
    (h : trackerFit (modalDeactivate c) c.toCfg prior frames = .ok s) :
    ∀ u ∈ modalAllTracks c s, Parts c u := by
  have hk := known_spec c
  obtain ⟨s', h1, h2, h3, h4, _, h6⟩ := samples_run (saveOk_parts c.known hk.1)
    (popSave_modal c.known hk.1) frames prior hv
  rw [hk.2] at h1 h2
  have := runFrom_mono (modalDeactivate_known c) c.toCfg frames _ _ h
  rw [this] at h1
  cases h1
  intro u hu
  rcases List.mem_append.1 (modalAllTracks_mem hu) with hu | hu
  · exact parts_known (h4.2 u hu)
  · obtain ⟨t, ht, rfl⟩ := List.mem_map.1 hu
    rw [List.mem_filter] at ht
    exact .one t (h2.good t ht.1).magLen ht.2

/-- A track without NaN was never merged. -/
theorem Parts.unmerged {c : ModalCfg K} {u : Track K} (h : Parts c u) (hn : none ∉ u.mag) :
    ∃ a : ATrack K, u = numpyTrack a ∧ modalTrackOk c a = true ∧ a.mag.length = a.freq.length := by
  cases h with
  | one a hm hok => exact ⟨a, rfl, hok, hm⟩
  | merge v a _ _ _ hgap =>
    exfalso
    apply hn
    simp only [mergeTrack, numpyTrack, Track.stop] at *
    refine List.mem_append_left _ (List.mem_append_right _ ?_)
    rw [List.mem_replicate]
    exact ⟨by omega, rfl⟩

theorem mean_append_between {l m : List K} {lo hi : K} (hl : l ≠ []) (hm : m ≠ [])
    (h1 : lo ≤ mean l) (h2 : lo ≤ mean m) (h3 : mean l ≤ hi) (h4 : mean m ≤ hi) :
    lo ≤ mean (l ++ m) ∧ mean (l ++ m) ≤ hi := by
  have hl' : (0 : K) < l.length := by exact_mod_cast List.length_pos_iff.2 hl
  have hm' : (0 : K) < m.length := by exact_mod_cast List.length_pos_iff.2 hm
  simp only [mean, List.sum_append, List.length_append, Nat.cast_add] at *
  rw [le_div_iff₀ hl'] at h1
  rw [le_div_iff₀ hm'] at h2
  rw [div_le_iff₀ hl'] at h3
  rw [div_le_iff₀ hm'] at h4
  rw [le_div_iff₀ (by positivity), div_le_iff₀ (by positivity)]
  constructor <;> linarith

theorem mean_append_lo {l m : List K} {lo : K} (hl : l ≠ []) (hm : m ≠ [])
    (h1 : lo ≤ mean l) (h2 : lo ≤ mean m) : lo ≤ mean (l ++ m) :=
  (mean_append_between hl hm h1 h2 (le_max_left _ (mean m)) (le_max_right (mean l) _)).1

theorem mean_append_hi {l m : List K} {hi : K} (hl : l ≠ []) (hm : m ≠ [])
    (h3 : mean l ≤ hi) (h4 : mean m ≤ hi) : mean (l ++ m) ≤ hi :=
  (mean_append_between hl hm (min_le_left _ (mean m)) (min_le_right (mean l) _) h3 h4).2

/-- The mean frequency of a reported track is within the bounds, merged or not. -/
theorem Parts.bounds {c : ModalCfg K} {u : Track K} (h : Parts c u) :
    u.freq.filterMap id ≠ [] ∧
    (∀ lo, c.freqLo = some lo → lo ≤ mean (u.freq.filterMap id)) ∧
    (∀ hi, c.freqHi = some hi → mean (u.freq.filterMap id) ≤ hi) := by
  have key : ∀ a : ATrack K, modalTrackOk c a = true → a.freq ≠ [] ∧
      (∀ lo, c.freqLo = some lo → lo ≤ mean a.freq) ∧
      (∀ hi, c.freqHi = some hi → mean a.freq ≤ hi) := by
    intro a ha
    obtain ⟨h1, h2, h3, _⟩ := (modalTrackOk_iff c a).1 ha
    refine ⟨?_, h2, h3⟩
    rintro h0
    rw [h0] at h1
    have : (2 : ℤ) ≤ c.minSineLen := le_max_left _ _
    simp at h1
    omega
  induction h with
  | one a _ hok => rw [numpyTrack_filterMap]; exact key a hok
  | merge v a _ _ hok _ ih =>
    rw [mergeTrack_filterMap, numpyTrack_filterMap]
    obtain ⟨a1, a2, a3⟩ := key a hok
    exact ⟨by simp [a1], fun lo hlo => mean_append_lo ih.1 a1 (ih.2.1 lo hlo) (a2 lo hlo),
      fun hi hhi => mean_append_hi ih.1 a1 (ih.2.2 hi hhi) (a3 hi hhi)⟩

end Verif.Tracker
