import Verif.Tracker.Lemmas

/-! # Invariants of the tracker over arbitrary histories (helper lemmas) -/

set_option autoImplicit false
set_option linter.unusedSectionVars false
set_option linter.unusedSimpArgs false

namespace Verif.Tracker

variable {K : Type*} [Field K] [LinearOrder K]

/-- Shape of an active track at frame clock `n`: non-empty, three lists of equal length, one
sample per frame since the start, and bounded frequency jumps. -/
structure GoodTrack (c : Cfg K) (n : Nat) (t : ATrack K) : Prop where
  clock : t.start + t.freq.length = n
  magLen : t.mag.length = t.freq.length
  phaseLen : t.phase.length = t.freq.length
  pos : 0 < t.freq.length
  jump : ∀ (i : Nat) (f g : K), t.freq[i]? = some f → t.freq[i + 1]? = some g →
    |f - g| < c.df g

theorem mem_continued {A : List (ATrack K)} {peaks : List (Peak K)} {m : List (Option Nat)}
    {t' : ATrack K} (h : t' ∈ continued A peaks m) :
    ∃ (i : Nat) (t : ATrack K) (p : Nat) (pk : Peak K), A[i]? = some t ∧ m[i]? = some (some p) ∧ peaks[p]? = some pk ∧
      t' = t.push pk := by
  unfold continued at h
  obtain ⟨⟨t, o⟩, h1, h2⟩ := List.mem_filterMap.1 h
  obtain ⟨i, hi⟩ := List.mem_iff_getElem?.1 h1
  rw [List.getElem?_zip_eq_some] at hi
  simp only [Option.map_eq_some_iff] at h2
  obtain ⟨pk, h2, rfl⟩ := h2
  cases o with
  | none => simp at h2
  | some p => exact ⟨i, t, p, pk, hi.1, hi.2, by simpa using h2, rfl⟩

theorem mem_dropped {A : List (ATrack K)} {m : List (Option Nat)} {t : ATrack K}
    (h : t ∈ dropped A m) : t ∈ A := by
  unfold dropped at h
  simp only [List.mem_map, List.mem_filter] at h
  obtain ⟨⟨a, o⟩, ⟨h1, _⟩, rfl⟩ := h
  exact (List.of_mem_zip h1).1

theorem push_good [IsStrictOrderedRing K] {c : Cfg K} {n : Nat} {t : ATrack K} {pk : Peak K}
    (h : GoodTrack c n t)
    (hn : ∀ f, t.freq.getLast? = some f → |f - pk.freq| < c.df pk.freq) :
    GoodTrack c (n + 1) (t.push pk) := by
  refine ⟨?_, ?_, ?_, ?_, ?_⟩
  · have := h.clock; simp [ATrack.push]; omega
  · simp [ATrack.push, h.magLen]
  · simp [ATrack.push, h.phaseLen]
  · simp [ATrack.push]
  · intro i f g hf hg
    simp only [ATrack.push] at hf hg
    have hi1 : i + 1 < t.freq.length + 1 := by
      have := getElem?_lt hg
      simpa using this
    rw [List.getElem?_append_left (by omega)] at hf
    by_cases hlast : i + 1 < t.freq.length
    · rw [List.getElem?_append_left hlast] at hg
      exact h.jump i f g hf hg
    · have hi : i + 1 = t.freq.length := by omega
      rw [hi, List.getElem?_append_right (le_refl _)] at hg
      simp at hg
      subst hg
      apply hn
      rw [List.getLast?_eq_getElem?, ← hi]
      simpa using hf

theorem newborn_good (c : Cfg K) (n : Nat) (pk : Peak K) :
    GoodTrack c (n + 1) (newborn n pk) := by
  refine ⟨by simp [newborn], by simp [newborn], by simp [newborn], by simp [newborn], ?_⟩
  intro i f g _ hg
  simp [newborn] at hg

theorem continued_length_le (A : List (ATrack K)) (peaks : List (Peak K)) (m : List (Option Nat)) :
    (continued A peaks m).length ≤ A.length := by
  unfold continued
  refine le_trans (List.length_filterMap_le _ _) ?_
  simp

/-- Main invariant of the active tracks. -/
structure Wf (c : Cfg K) (s : State K) : Prop where
  good : ∀ t ∈ s.active, GoodTrack c s.frame t
  bound : s.active.length ≤ c.maxNSines

theorem wf_reset (c : Cfg K) (s : State K) : Wf c (reset s) :=
  ⟨by simp [reset], by simp [reset]⟩

theorem wf_step [IsStrictOrderedRing K] {save : List (Track K) → ATrack K → List (Track K)}
    {c : Cfg K}
    {peaks : List (Peak K)} {m : List (Option Nat)} {s s' : State K} (h : Wf c s)
    (hs : StepSpec save c peaks m s s') : Wf c s' := by
  refine ⟨?_, ?_⟩
  · intro t ht
    rw [hs.active, List.mem_append] at ht
    rw [hs.frame]
    rcases ht with ht | ht
    · obtain ⟨i, u, p, pk, h1, h2, h3, rfl⟩ := mem_continued ht
      refine push_good (h.good u (List.mem_of_getElem? h1)) ?_
      intro f hf
      exact hs.greedy.near i p u pk f h2 h1 h3 hf
    · obtain ⟨pk, _, rfl⟩ := List.mem_map.1 ht
      exact newborn_good c _ pk
  · rw [hs.active, List.length_append, List.length_map, List.length_take]
    have h1 := continued_length_le s.active peaks m
    have h2 := h.bound
    omega

theorem wf_ne {c : Cfg K} {s : State K} (h : Wf c s) : ∀ t ∈ s.active, t.freq ≠ [] := by
  intro t ht h0
  have := (h.good t ht).pos
  rw [h0] at this
  simp at this

/-- Induction over histories: the tracker never raises, and what is kept by each update holds at
the end. -/
theorem run_induction [IsStrictOrderedRing K]
    (save : List (Track K) → ATrack K → List (Track K))
    (deact : State K → Nat → Except PyErr (State K)) {J : List (Track K) → Prop}
    (hd : PopSave J save deact) (c : Cfg K)
    (P : List (Frame K) → State K → Prop)
    (hstep : ∀ (hist : List (Frame K)) (f : Frame K) (m : List (Option Nat)) (s s' : State K),
      f.Valid → Wf c s → J s.tracks → P hist s → StepSpec save c f.peaks m s s' →
        P (hist ++ [f]) s') :
    ∀ (frames hist : List (Frame K)) (s : State K), (∀ f ∈ frames, f.Valid) → Wf c s →
      J s.tracks → P hist s →
      ∃ s', runFrom deact c frames s = .ok s' ∧ Wf c s' ∧ J s'.tracks ∧
        P (hist ++ frames) s' := by
  intro frames
  induction frames with
  | nil => intro hist s _ hw hJ hp; exact ⟨s, rfl, hw, hJ, by simpa using hp⟩
  | cons f frames ih =>
    intro hist s hv hw hJ hp
    obtain ⟨m, s1, h1, h2, hJ1⟩ := call_spec save deact hd c f.order f.peaks s (hv f (by simp))
      (wf_ne hw) hJ
    obtain ⟨s', h3, h4, hJ', h5⟩ := ih (hist ++ [f]) s1 (fun g hg => hv g (by simp [hg]))
      (wf_step hw h2) hJ1 (hstep hist f m s s1 (hv f (by simp)) hw hJ hp h2)
    refine ⟨s', ?_, h4, hJ', by simpa using h5⟩
    simp only [runFrom, h1]
    exact h3

theorem frame_count [IsStrictOrderedRing K]
    (save : List (Track K) → ATrack K → List (Track K))
    (deact : State K → Nat → Except PyErr (State K)) {J : List (Track K) → Prop}
    (hd : PopSave J save deact) (c : Cfg K)
    (frames : List (Frame K)) (prior s : State K) (hv : ∀ f ∈ frames, f.Valid)
    (h : runFrom deact c frames (reset prior) = .ok s) :
    s.frame = frames.length := by
  obtain ⟨s', h1, _, _, h2⟩ := run_induction save deact hd c (fun hist s => s.frame = hist.length)
    (by intro hist f m s s' _ _ _ hp hs; rw [hs.frame, hp]; simp) frames [] (reset prior) hv
    (wf_reset c prior) (by simpa [reset] using hd.nil) (by simp [reset])
  rw [h] at h1
  cases h1
  simpa using h2

/-! ## Samples at absolute frames -/

theorem sampleAt_numpyTrack (t : ATrack K) (k : Nat) (hm : t.mag.length = t.freq.length)
    (hp : t.phase.length = t.freq.length) (h1 : t.start ≤ k)
    (h2 : k - t.start < t.freq.length) :
    (numpyTrack t).sampleAt k = some ⟨t.freq[k - t.start], t.mag[k - t.start],
      t.phase[k - t.start]⟩ := by
  simp [Track.sampleAt, numpyTrack, h1, h2, hm, hp]

theorem sampleAt_numpyTrack_none (t : ATrack K) (k : Nat)
    (h : k < t.start ∨ t.start + t.freq.length ≤ k) : (numpyTrack t).sampleAt k = none := by
  unfold Track.sampleAt numpyTrack
  simp only
  split
  · rename_i hle
    have : t.freq.length ≤ k - t.start := by omega
    rw [List.getElem?_eq_none (by simpa using this)]
  · rfl

theorem sampleAt_push {c : Cfg K} {n : Nat} {t : ATrack K} (h : GoodTrack c n t) (pk : Peak K)
    (k : Nat) :
    (numpyTrack (t.push pk)).sampleAt k =
      if k = n then some pk else (numpyTrack t).sampleAt k := by
  have hc := h.clock
  have hm := h.magLen
  have hp := h.phaseLen
  by_cases hk : k = n
  · subst hk
    rw [if_pos rfl, sampleAt_numpyTrack _ _ (by simp [ATrack.push, hm])
      (by simp [ATrack.push, hp]) (by simp [ATrack.push]; omega) (by simp [ATrack.push]; omega)]
    have e : k - t.start = t.freq.length := by omega
    ext
    simp only [ATrack.push, e, Option.mem_def, Option.some.injEq]
    have e2 : (t.mag ++ [pk.mag])[t.freq.length]'(by simp [hm]) = pk.mag := by
      rw [List.getElem_append_right (by omega)]; simp
    have e3 : (t.phase ++ [pk.phase])[t.freq.length]'(by simp [hp]) = pk.phase := by
      rw [List.getElem_append_right (by omega)]; simp
    rw [e2, e3]
    simp
  · rw [if_neg hk]
    by_cases hin : t.start ≤ k ∧ k < n
    · rw [sampleAt_numpyTrack t k hm hp hin.1 (by omega),
        sampleAt_numpyTrack (t.push pk) k (by simp [ATrack.push, hm])
        (by simp [ATrack.push, hp]) (by simp [ATrack.push]; omega)
        (by simp [ATrack.push]; omega)]
      simp only [ATrack.push]
      rw [List.getElem_append_left (by omega), List.getElem_append_left (by omega),
        List.getElem_append_left (by omega)]
    · rw [sampleAt_numpyTrack_none t k (by omega),
        sampleAt_numpyTrack_none (t.push pk) k (by simp [ATrack.push]; omega)]

theorem sampleAt_newborn (n : Nat) (pk : Peak K) (k : Nat) :
    (numpyTrack (newborn n pk)).sampleAt k = if k = n then some pk else none := by
  by_cases hk : k = n
  · subst hk; simp [Track.sampleAt, numpyTrack, newborn]
  · rw [if_neg hk]
    exact sampleAt_numpyTrack_none _ _ (by simp [newborn]; omega)

theorem samplesAt_append (k : Nat) (a b : List (Track K)) :
    samplesAt k (a ++ b) = samplesAt k a ++ samplesAt k b := by
  simp [samplesAt]

/-- The peaks chosen by a matching. -/
def matchedPeaks (peaks : List (Peak K)) (m : List (Option Nat)) : List (Peak K) :=
  m.filterMap fun o => o.bind fun p => peaks[p]?

/-- Tracks that are matched (before being extended). -/
def kept (A : List (ATrack K)) (m : List (Option Nat)) : List (ATrack K) :=
  ((A.zip m).filter fun tm => tm.2.isSome).map Prod.fst

theorem samplesAt_continued {c : Cfg K} {n : Nat} {A : List (ATrack K)} {peaks : List (Peak K)}
    {m : List (Option Nat)} (hA : ∀ t ∈ A, GoodTrack c n t) (hl : m.length = A.length)
    (hv : ∀ p, some p ∈ m → p < peaks.length) (k : Nat) :
    samplesAt k ((continued A peaks m).map numpyTrack) =
      if k = n then matchedPeaks peaks m else samplesAt k ((kept A m).map numpyTrack) := by
  induction A generalizing m with
  | nil =>
    cases m with
    | nil => simp [continued, kept, matchedPeaks, samplesAt]
    | cons _ _ => simp at hl
  | cons a A ih =>
    cases m with
    | nil => simp at hl
    | cons o m =>
      have ih' := ih (m := m) (fun t ht => hA t (by simp [ht])) (by simpa using hl)
        (fun p hp => hv p (by simp [hp]))
      cases o with
      | none =>
        have e1 : continued (a :: A) peaks (none :: m) = continued A peaks m := by
          simp [continued]
        have e2 : kept (a :: A) (none :: m) = kept A m := by simp [kept]
        have e3 : matchedPeaks peaks (none :: m) = matchedPeaks peaks m := by
          simp [matchedPeaks]
        rw [e1, e2, e3, ih']
      | some p =>
        have hp := hv p (by simp)
        have e1 : continued (a :: A) peaks (some p :: m) =
            a.push peaks[p] :: continued A peaks m := by simp [continued, hp, ATrack.push]
        have e2 : kept (a :: A) (some p :: m) = a :: kept A m := by simp [kept]
        have e3 : matchedPeaks peaks (some p :: m) = peaks[p] :: matchedPeaks peaks m := by
          simp [matchedPeaks, hp]
        rw [e1, e2, e3, List.map_cons, List.map_cons]
        have hs := sampleAt_push (hA a (by simp)) peaks[p] k
        by_cases hk : k = n
        · rw [if_pos hk] at hs ih' ⊢
          rw [← ih']
          simp [samplesAt, hs]
        · rw [if_neg hk] at hs ih' ⊢
          simp only [samplesAt] at ih' ⊢
          rw [List.filterMap_cons, List.filterMap_cons, hs, ih']

theorem kept_dropped_perm (A : List (ATrack K)) (m : List (Option Nat))
    (hl : m.length = A.length) : (kept A m ++ dropped A m).Perm A := by
  have h1 : (kept A m ++ dropped A m) =
      (((A.zip m).filter fun tm => tm.2.isSome) ++
        ((A.zip m).filter fun tm => !tm.2.isSome)).map Prod.fst := by
    simp [kept, dropped]
  rw [h1]
  have h2 : (A.zip m).map Prod.fst = A := by
    rw [List.map_fst_zip]; omega
  conv_rhs => rw [← h2]
  exact (List.filter_append_perm _ _).map _

theorem matched_unused_perm (peaks : List (Peak K)) (m : List (Option Nat))
    (hv : ∀ p, some p ∈ m → p < peaks.length)
    (hi : ∀ (i j p : Nat), m[i]? = some (some p) → m[j]? = some (some p) → i = j) :
    (matchedPeaks peaks m ++ unused peaks m).Perm peaks := by
  have hnd : (m.filterMap id).Nodup := by
    clear hv
    induction m with
    | nil => simp
    | cons o m ih =>
      have ih' := ih (fun i j p h1 h2 => by
        have := hi (i + 1) (j + 1) p (by simpa using h1) (by simpa using h2)
        omega)
      cases o with
      | none => simpa using ih'
      | some p =>
        simp only [List.filterMap_cons, id, List.nodup_cons]
        refine ⟨?_, ih'⟩
        intro hmem
        simp only [List.mem_filterMap, id, exists_eq_right] at hmem
        obtain ⟨j, hj⟩ := List.mem_iff_getElem?.1 hmem
        have := hi 0 (j + 1) p (by simp) (by simpa using hj)
        omega
  have hperm : (m.filterMap id ++ (List.range peaks.length).filter fun p => decide (some p ∉ m)).Perm
      (List.range peaks.length) := by
    rw [List.perm_ext_iff_of_nodup]
    · intro p
      simp only [List.mem_append, List.mem_filterMap, id, exists_eq_right, List.mem_filter,
        List.mem_range, decide_eq_true_eq]
      constructor
      · rintro (h | h)
        · exact hv p h
        · exact h.1
      · intro h
        by_cases hp : some p ∈ m
        · exact Or.inl hp
        · exact Or.inr ⟨h, hp⟩
    · rw [List.nodup_append]
      refine ⟨hnd, List.nodup_range.filter _, ?_⟩
      intro a ha b hb hab
      subst hab
      simp at ha hb
      exact hb.2 ha
    · exact List.nodup_range
  have h2 := hperm.filterMap (fun p => peaks[p]?)
  rw [List.filterMap_append, range_filter_unused] at h2
  have h3 : (m.filterMap id).filterMap (fun p => peaks[p]?) = matchedPeaks peaks m := by
    simp [matchedPeaks, List.filterMap_filterMap]
  have h4 : (List.range peaks.length).filterMap (fun p => peaks[p]?) = peaks := by
    have := range_filter_unused peaks []
    simpa [unused] using this
  rw [h3, h4] at h2
  exact h2

/-- Requirements on `save` for the conservation of samples: an invariant `I n` of the list of
finished tracks at frame clock `n`. -/
structure SaveOk (c : Cfg K) (save : List (Track K) → ATrack K → List (Track K))
    (I : Nat → List (Track K) → Prop) : Prop where
  nil : I 0 []
  mono : ∀ n tr, I n tr → I (n + 1) tr
  keep : ∀ n tr t, I n tr → GoodTrack c n t → I n (save tr t)
  samples : ∀ n tr t, I n tr → GoodTrack c n t → ∀ k,
    (samplesAt k (save tr t)).Subperm (samplesAt k (tr ++ [numpyTrack t]))

theorem foldl_save {c : Cfg K} {save : List (Track K) → ATrack K → List (Track K)}
    {I : Nat → List (Track K) → Prop} (hs : SaveOk c save I) (n : Nat) :
    ∀ (D : List (ATrack K)) (tr : List (Track K)), (∀ t ∈ D, GoodTrack c n t) → I n tr →
      I n (D.foldl save tr) ∧
        ∀ k, (samplesAt k (D.foldl save tr)).Subperm (samplesAt k (tr ++ D.map numpyTrack)) := by
  intro D
  induction D with
  | nil => intro tr _ hI; exact ⟨hI, fun k => by simpa using List.Subperm.refl _⟩
  | cons t D ih =>
    intro tr hD hI
    have ht := hD t (by simp)
    obtain ⟨h1, h2⟩ := ih (save tr t) (fun u hu => hD u (by simp [hu])) (hs.keep n tr t hI ht)
    refine ⟨h1, fun k => (h2 k).trans ?_⟩
    have h3 := hs.samples n tr t hI ht k
    rw [samplesAt_append]
    rw [List.map_cons, show tr ++ numpyTrack t :: D.map numpyTrack =
      (tr ++ [numpyTrack t]) ++ D.map numpyTrack by simp, samplesAt_append]
    exact h3.append (List.Subperm.refl _)

/-- Conservation of samples by one update. -/
theorem samples_step [IsStrictOrderedRing K]
    {save : List (Track K) → ATrack K → List (Track K)}
    {I : Nat → List (Track K) → Prop} {c : Cfg K} (hsave : SaveOk c save I)
    {peaks : List (Peak K)} {m : List (Option Nat)} {s s' : State K} (hw : Wf c s)
    (hI : I s.frame s.tracks) (hs : StepSpec save c peaks m s s') :
    I s'.frame s'.tracks ∧
    (∀ k, k ≠ s.frame →
      (samplesAt k s'.everyTrack).Subperm (samplesAt k s.everyTrack)) ∧
    (samplesAt s.frame s'.everyTrack).Subperm (samplesAt s.frame s.everyTrack ++ peaks) := by
  have hD : ∀ t ∈ (dropped s.active m).reverse, GoodTrack c s.frame t := by
    intro t ht
    exact hw.good t (mem_dropped (List.mem_reverse.1 ht))
  obtain ⟨h1, h2⟩ := foldl_save hsave s.frame (dropped s.active m).reverse s.tracks hD hI
  rw [← hs.tracks] at h1 h2
  refine ⟨by rw [hs.frame]; exact hsave.mono _ _ h1, ?_, ?_⟩
  · intro k hk
    unfold State.everyTrack
    rw [hs.active, List.map_append, samplesAt_append, samplesAt_append,
      samplesAt_continued hw.good hs.greedy.len hs.greedy.valid, if_neg hk]
    have hnew : samplesAt k (List.map numpyTrack (List.map (newborn s.frame)
        (List.take (c.maxNSines - (continued s.active peaks m).length) (unused peaks m)))) = [] := by
      simp only [samplesAt, List.filterMap_eq_nil_iff, List.mem_map]
      rintro _ ⟨_, ⟨pk, _, rfl⟩, rfl⟩
      rw [sampleAt_newborn, if_neg hk]
    rw [hnew, List.append_nil]
    refine ((h2 k).append (List.Subperm.refl _)).trans ?_
    rw [samplesAt_append, samplesAt_append, List.append_assoc]
    refine (List.Perm.subperm ?_)
    refine List.Perm.append (List.Perm.refl _) ?_
    rw [← samplesAt_append, ← List.map_append]
    unfold samplesAt
    apply List.Perm.filterMap
    apply List.Perm.map
    refine List.Perm.trans ?_ (kept_dropped_perm s.active m hs.greedy.len)
    refine List.Perm.trans List.perm_append_comm ?_
    exact (List.Perm.refl _).append (List.reverse_perm _)
  · unfold State.everyTrack
    rw [hs.active, List.map_append, samplesAt_append, samplesAt_append,
      samplesAt_continued hw.good hs.greedy.len hs.greedy.valid, if_pos rfl]
    have hnew : samplesAt s.frame (List.map numpyTrack (List.map (newborn s.frame)
        (List.take (c.maxNSines - (continued s.active peaks m).length) (unused peaks m)))) =
        List.take (c.maxNSines - (continued s.active peaks m).length) (unused peaks m) := by
      simp only [samplesAt, List.map_map, List.filterMap_map]
      conv_rhs => rw [← List.filterMap_some (l := List.take _ _)]
      apply List.filterMap_congr
      intro pk _
      simp [sampleAt_newborn]
    rw [hnew]
    have hdrop : samplesAt s.frame ((dropped s.active m).reverse.map numpyTrack) = [] := by
      simp only [samplesAt, List.filterMap_eq_nil_iff, List.mem_map]
      rintro _ ⟨t, ht, rfl⟩
      exact sampleAt_numpyTrack_none t _ (Or.inr (le_of_eq (hD t ht).clock))
    have hact : samplesAt s.frame (s.active.map numpyTrack) = [] := by
      simp only [samplesAt, List.filterMap_eq_nil_iff, List.mem_map]
      rintro _ ⟨t, ht, rfl⟩
      exact sampleAt_numpyTrack_none t _ (Or.inr (le_of_eq (hw.good t ht).clock))
    have h3 := h2 s.frame
    rw [samplesAt_append, hdrop, List.append_nil] at h3
    rw [samplesAt_append, hact, List.append_nil]
    refine h3.append ?_
    refine List.Subperm.trans ?_ (matched_unused_perm peaks m hs.greedy.valid hs.greedy.inj).subperm
    exact (List.Subperm.refl _).append (List.take_sublist _ _).subperm

/-- History form of the conservation of samples. -/
theorem samples_run [IsStrictOrderedRing K]
    {save : List (Track K) → ATrack K → List (Track K)}
    {I : Nat → List (Track K) → Prop} {c : Cfg K} (hsave : SaveOk c save I)
    {deact : State K → Nat → Except PyErr (State K)} {J : List (Track K) → Prop}
    (hd : PopSave J save deact) (frames : List (Frame K)) (prior : State K) (hv : ∀ f ∈ frames, f.Valid) :
    ∃ s, runFrom deact c frames (reset prior) = .ok s ∧ Wf c s ∧ s.frame = frames.length ∧
      I s.frame s.tracks ∧ J s.tracks ∧
      ∀ k, (samplesAt k s.everyTrack).Subperm ((frames[k]?.map (·.peaks)).getD []) := by
  obtain ⟨s, h1, h2, hJ, h3, h4, h5⟩ := run_induction save deact hd c
    (fun hist s => s.frame = hist.length ∧ I s.frame s.tracks ∧
      ∀ k, (samplesAt k s.everyTrack).Subperm ((hist[k]?.map (·.peaks)).getD []))
    (by
      rintro hist f m s s' _ hw _ ⟨hp1, hp2, hp3⟩ hs
      obtain ⟨g1, g2, g3⟩ := samples_step hsave hw hp2 hs
      refine ⟨by rw [hs.frame, hp1]; simp, g1, ?_⟩
      intro k
      by_cases hk : k = s.frame
      · subst hk
        have h0 := hp3 s.frame
        rw [List.getElem?_eq_none (by omega)] at h0
        simp only [Option.map_none, Option.getD_none, List.subperm_nil] at h0
        rw [h0, List.nil_append] at g3
        rw [List.getElem?_append_right (by omega), hp1]
        simpa [hp1] using g3
      · refine (g2 k hk).trans ?_
        by_cases hlt : k < hist.length
        · rw [List.getElem?_append_left hlt]; exact hp3 k
        · have h0 := hp3 k
          rw [List.getElem?_eq_none (by omega)] at h0
          rw [List.getElem?_eq_none (by simp; omega)]
          exact h0)
    frames [] (reset prior) hv (wf_reset c prior) (by simpa [reset] using hd.nil)
    ⟨by simp [reset], by simpa [reset] using hsave.nil, by
      intro k; simp [reset, State.everyTrack, samplesAt]⟩
  exact ⟨s, h1, h2, by simpa using h3, h4, hJ, by simpa using h5⟩

end Verif.Tracker
