import Verif.Tracker.ExtendSpec
import Verif.Tracker.BaseLemmas

/-!
# Lemmas for C133: what further frames do to the tracks
-/

set_option autoImplicit false
set_option linter.unusedSectionVars false
set_option linter.unusedSimpArgs false

namespace Verif.Tracker

variable {K : Type*} [Field K] [LinearOrder K]

theorem Extends.refl (u : Track K) : Extends u u :=
  ⟨rfl, List.prefix_rfl, List.prefix_rfl, List.prefix_rfl⟩

theorem Extends.trans {u v w : Track K} (h : Extends u v) (h' : Extends v w) : Extends u w :=
  ⟨h'.start.trans h.start, h.freq.trans h'.freq, h.mag.trans h'.mag, h.phase.trans h'.phase⟩

theorem extends_push (t : ATrack K) (pk : Peak K) : Extends (numpyTrack t) (numpyTrack (t.push pk)) := by
  refine ⟨rfl, ?_, ?_, ?_⟩ <;> simp [numpyTrack, ATrack.push]

theorem extends_merge (u t : Track K) : Extends u (mergeTrack u t) := by
  refine ⟨rfl, ?_, ?_, ?_⟩ <;> simp [mergeTrack, List.append_assoc]

/-- What is used of saving a finished track: earlier tracks are kept or extended, nothing else is earlier than
the new one, and a track that is `ok` is kept. -/
structure SaveExt (R : Track K → Track K → Prop) (J : List (Track K) → Prop) (ok : ATrack K → Prop)
    (save : List (Track K) → ATrack K → List (Track K)) : Prop where
  refl : ∀ u, R u u
  trans : ∀ u v w, R u v → R v w → R u w
  ext : ∀ u v, R u v → Extends u v
  old : ∀ tr t, J tr → t.freq ≠ [] → ∀ u ∈ tr, ∃ u' ∈ save tr t, R u u'
  back : ∀ tr t, J tr → t.freq ≠ [] → ∀ u' ∈ save tr t, u'.stop < t.start + t.mag.length → u' ∈ tr
  new : ∀ tr t, J tr → t.freq ≠ [] → ok t → ∃ u' ∈ save tr t, Extends (numpyTrack t) u'

theorem SaveExt.foldl {R : Track K → Track K → Prop} {J : List (Track K) → Prop} {ok : ATrack K → Prop}
    {save : List (Track K) → ATrack K → List (Track K)} {deact : State K → Nat → Except PyErr (State K)}
    (hd : PopSave J save deact) (h : SaveExt R J ok save) (n : Nat) :
    ∀ (D : List (ATrack K)) (tr : List (Track K)), J tr → (∀ t ∈ D, t.freq ≠ []) →
      (∀ t ∈ D, t.start + t.mag.length = n) →
      (∀ u ∈ tr, ∃ u' ∈ D.foldl save tr, R u u') ∧
      (∀ u' ∈ D.foldl save tr, u'.stop < n → u' ∈ tr) ∧
      (∀ t ∈ D, ok t → ∃ u' ∈ D.foldl save tr, Extends (numpyTrack t) u') := by
  intro D
  induction D with
  | nil =>
    intro tr _ _ _
    exact ⟨fun u hu => ⟨u, hu, h.refl u⟩, fun _ hu _ => hu, by simp⟩
  | cons t D ih =>
    intro tr hJ hne hn
    have ht := hne t (by simp)
    obtain ⟨i1, i2, i3⟩ := ih (save tr t) (hd.keep tr t hJ ht) (fun u hu => hne u (by simp [hu]))
      (fun u hu => hn u (by simp [hu]))
    refine ⟨?_, ?_, ?_⟩
    · intro u hu
      obtain ⟨v, hv, e1⟩ := h.old tr t hJ ht u hu
      obtain ⟨w, hw, e2⟩ := i1 v hv
      exact ⟨w, hw, h.trans _ _ _ e1 e2⟩
    · intro u' hu' hs
      exact h.back tr t hJ ht u' (i2 u' hu' hs) (by rw [hn t (by simp)]; exact hs)
    · intro v hv hok
      rcases List.mem_cons.1 hv with rfl | hv
      · obtain ⟨u, hu, e1⟩ := h.new tr v hJ ht hok
        obtain ⟨w, hw, e2⟩ := i1 u hu
        exact ⟨w, hw, e1.trans (h.ext _ _ e2)⟩
      · exact i3 v hv hok

theorem mem_active_cases {A : List (ATrack K)} {m : List (Option Nat)} {peaks : List (Peak K)}
    (hl : m.length = A.length) (hv : ∀ p, some p ∈ m → p < peaks.length) {t : ATrack K} (ht : t ∈ A) :
    (∃ pk, t.push pk ∈ continued A peaks m) ∨ t ∈ dropped A m := by
  obtain ⟨i, hi⟩ := List.getElem?_of_mem ht
  have hi' : i < m.length := by rw [hl]; exact getElem?_lt hi
  have hm : m[i]? = some m[i] := List.getElem?_eq_getElem hi'
  have hz : (t, m[i]) ∈ A.zip m :=
    List.mem_iff_getElem?.2 ⟨i, by rw [List.getElem?_zip_eq_some]; exact ⟨hi, hm⟩⟩
  cases ho : m[i] with
  | none =>
    right
    rw [ho] at hz
    unfold dropped
    exact List.mem_map.2 ⟨(t, none), List.mem_filter.2 ⟨hz, rfl⟩, rfl⟩
  | some p =>
    left
    rw [ho] at hz hm
    have hp := hv p (List.mem_of_getElem? hm)
    refine ⟨peaks[p], ?_⟩
    unfold continued
    refine List.mem_filterMap.2 ⟨(t, some p), hz, ?_⟩
    simp [List.getElem?_eq_getElem hp, ATrack.push]

/-- What further frames do to the tracks of a state. -/
structure Further (R : Track K → Track K → Prop) (ok : ATrack K → Prop) (s₁ s : State K) : Prop where
  frame : s₁.frame ≤ s.frame
  old : ∀ u ∈ s₁.tracks, ∃ u' ∈ s.tracks, R u u'
  back : ∀ u' ∈ s.tracks, u'.stop < s₁.frame → u' ∈ s₁.tracks
  active : ∀ t ∈ s₁.active, ok t → (∃ t' ∈ s.active, ok t' ∧ Extends (numpyTrack t) (numpyTrack t')) ∨
    ∃ u' ∈ s.tracks, Extends (numpyTrack t) u'

theorem further_step [IsStrictOrderedRing K] {R : Track K → Track K → Prop} {J : List (Track K) → Prop} {ok : ATrack K → Prop}
    {save : List (Track K) → ATrack K → List (Track K)} {deact : State K → Nat → Except PyErr (State K)}
    (hd : PopSave J save deact) (h : SaveExt R J ok save) (hok : ∀ t pk, ok t → ok (t.push pk)) {c : Cfg K}
    {peaks : List (Peak K)} {m : List (Option Nat)} {s₁ s s' : State K} (hw : Wf c s) (hJ : J s.tracks)
    (hf : Further R ok s₁ s) (hs : StepSpec save c peaks m s s') : Further R ok s₁ s' := by
  have hne : ∀ t ∈ (dropped s.active m).reverse, t.freq ≠ [] := by
    intro t ht
    exact wf_ne hw t (mem_dropped (List.mem_reverse.1 ht))
  have hstop : ∀ t ∈ (dropped s.active m).reverse, t.start + t.mag.length = s.frame := by
    intro t ht
    have hg := hw.good t (mem_dropped (List.mem_reverse.1 ht))
    rw [hg.magLen]
    exact hg.clock
  obtain ⟨f1, f2, f3⟩ := h.foldl hd s.frame (dropped s.active m).reverse s.tracks hJ hne hstop
  rw [← hs.tracks] at f1 f2 f3
  refine ⟨by rw [hs.frame]; exact Nat.le_succ_of_le hf.frame, ?_, ?_, ?_⟩
  · intro u hu
    obtain ⟨v, hv, e1⟩ := hf.old u hu
    obtain ⟨w, hw', e2⟩ := f1 v hv
    exact ⟨w, hw', h.trans _ _ _ e1 e2⟩
  · intro u' hu' hst
    exact hf.back u' (f2 u' hu' (lt_of_lt_of_le hst hf.frame)) hst
  · intro t ht ho
    rcases hf.active t ht ho with ⟨t', ht', ho', e1⟩ | ⟨u, hu, e1⟩
    · rcases mem_active_cases hs.greedy.len hs.greedy.valid ht' with ⟨pk, hpk⟩ | hdr
      · left
        refine ⟨t'.push pk, ?_, hok t' pk ho', e1.trans (extends_push t' pk)⟩
        rw [hs.active]
        exact List.mem_append_left _ hpk
      · right
        obtain ⟨w, hw', e2⟩ := f3 t' (List.mem_reverse.2 hdr) ho'
        exact ⟨w, hw', e1.trans e2⟩
    · right
      obtain ⟨w, hw', e2⟩ := f1 u hu
      exact ⟨w, hw', e1.trans (h.ext _ _ e2)⟩

theorem further_run [IsStrictOrderedRing K] {R : Track K → Track K → Prop} {J : List (Track K) → Prop} {ok : ATrack K → Prop}
    {save : List (Track K) → ATrack K → List (Track K)} {deact : State K → Nat → Except PyErr (State K)}
    (hd : PopSave J save deact) (h : SaveExt R J ok save) (hok : ∀ t pk, ok t → ok (t.push pk)) (c : Cfg K)
    (frames : List (Frame K)) (s₁ : State K) (hv : ∀ f ∈ frames, f.Valid) (hw : Wf c s₁) (hJ : J s₁.tracks) :
    ∃ s, runFrom deact c frames s₁ = .ok s ∧ Wf c s ∧ J s.tracks ∧ Further R ok s₁ s := by
  obtain ⟨s, r1, r2, r3, r4⟩ := run_induction save deact hd c (fun _ s => Further R ok s₁ s)
    (fun _ f m s s' _ hw hJ hf hs => further_step hd h hok hw hJ hf hs) frames [] s₁ hv hw hJ
    ⟨le_refl _, fun u hu => ⟨u, hu, h.refl u⟩, fun _ hu _ => hu,
      fun t ht ho => Or.inl ⟨t, ht, ho, Extends.refl _⟩⟩
  exact ⟨s, r1, r2, r3, r4⟩

theorem saveExt_base [FloorRing K] (c : Cfg K) :
    SaveExt Eq (fun _ => True) (fun t => trackOk c t = true) (saveBase c) := by
  refine ⟨fun _ => rfl, fun _ _ _ => Eq.trans, fun _ _ e => e ▸ Extends.refl _, ?_, ?_, ?_⟩
  · intro tr t _ _ u hu
    refine ⟨u, ?_, rfl⟩
    unfold saveBase
    split
    · exact List.mem_append_left _ hu
    · exact hu
  · intro tr t _ _ u' hu' hs
    unfold saveBase at hu'
    split at hu'
    · rcases List.mem_append.1 hu' with h | h
      · exact h
      · rw [List.mem_singleton.1 h] at hs
        simp [Track.stop, numpyTrack] at hs
    · exact hu'
  · intro tr t _ _ ho
    refine ⟨numpyTrack t, ?_, Extends.refl _⟩
    simp [saveBase, ho]

theorem saveExt_modal [IsStrictOrderedRing K] [FloorRing K] (c : ModalCfg K)
    (hv : c.mergeStrategy = "average" ∨ c.mergeStrategy = "single") :
    SaveExt Extends LastProper (fun _ => False) (saveModal c) := by
  have key : ∀ tr t, LastProper tr → t.freq ≠ [] → saveModal c tr t = tr ∨
      saveModal c tr t = tr ++ [numpyTrack t] ∨
      ∃ (i : Nat) (u : Track K), tr[i]? = some u ∧ u.stop < t.start ∧
        saveModal c tr t = tr.set i (mergeTrack u (numpyTrack t)) := by
    intro tr t hJ ht
    cases hok : modalTrackOk c t with
    | false => left; simp [saveModal, finish_not_ok c tr t hok]
    | true =>
      right
      obtain ⟨f0, l, hl⟩ := List.exists_cons_of_ne_nil ht
      rcases finish_spec c hv tr hJ t ht hok f0 (by simp [hl]) with
        ⟨i, u, d, h1, h2, _, _, _, h⟩ | ⟨_, h⟩
      · right
        exact ⟨i, u, h1, h2, by simp only [saveModal, h]⟩
      · left
        simp only [saveModal, h]
  refine ⟨Extends.refl, fun _ _ _ => Extends.trans, fun _ _ e => e, ?_, ?_, fun _ _ _ _ h => h.elim⟩
  · intro tr t hJ ht u hu
    rcases key tr t hJ ht with h | h | ⟨i, v, h1, _, h⟩
    · rw [h]; exact ⟨u, hu, Extends.refl u⟩
    · rw [h]; exact ⟨u, List.mem_append_left _ hu, Extends.refl u⟩
    · rw [h]
      obtain ⟨j, hj⟩ := List.getElem?_of_mem hu
      have hi := getElem?_lt h1
      by_cases hij : i = j
      · subst hij
        rw [h1] at hj
        cases hj
        exact ⟨mergeTrack u (numpyTrack t), List.mem_iff_getElem?.2 ⟨i, by simp [hi]⟩, extends_merge _ _⟩
      · exact ⟨u, List.mem_iff_getElem?.2 ⟨j, by rw [List.getElem?_set_ne hij]; exact hj⟩, Extends.refl u⟩
  · intro tr t hJ ht u' hu' hs
    rcases key tr t hJ ht with h | h | ⟨i, v, h1, h2, h⟩
    · rw [h] at hu'; exact hu'
    · rw [h] at hu'
      rcases List.mem_append.1 hu' with h | h
      · exact h
      · rw [List.mem_singleton.1 h] at hs
        simp [Track.stop, numpyTrack] at hs
    · rw [h] at hu'
      rcases List.mem_or_eq_of_mem_set hu' with h | h
      · exact h
      · rw [h] at hs
        unfold Track.stop at h2 hs
        simp only [mergeTrack, numpyTrack, List.length_append, List.length_replicate, List.length_map] at hs
        omega

end Verif.Tracker
