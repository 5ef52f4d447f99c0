import Verif.Tracker.BaseLemmas

/-!
# Properties of the sine trackers (C01-C07, C09-C13)

`trackerFit (deactivate c) c prior frames` is a whole analysis with the plain tracker,
`trackerFit (modalDeactivate c) c.toCfg prior frames` one with the modal tracker.  `Frame.Valid`
says that the order used for a frame is a possible result of `np.argsort(-pmag)`.
-/

set_option autoImplicit false

namespace Verif.Tracker

variable {K : Type*} [Field K] [LinearOrder K] [IsStrictOrderedRing K] [FloorRing K]

/-! ## Concrete cases used to show that hypotheses can be met -/

/-- Limit of 2 tracks, tracks of 2 frames or more, threshold of 5 Hz. -/
def exCfg : Cfg ℚ := ⟨10, 1, 2, 1/5, 5, 0⟩

/-- Modal tracker on top of `exCfg`. -/
def exModal (reverse : Bool) (strategy : String) : ModalCfg ℚ :=
  { exCfg with freqLo := some 20, freqHi := some 16000, peakThreshold := -90, reverse := reverse,
               mergeStrategy := strategy, stripT := some (1/10) }

/-- A partial near 100 Hz that pauses for two frames, and another one near 200 Hz. -/
def exFrames : List (Frame ℚ) :=
  [⟨[⟨100, -10, 0⟩, ⟨200, -20, 1⟩], [0, 1]⟩,
   ⟨[⟨101, -11, 0⟩, ⟨202, -22, 1⟩, ⟨300, -5, 2⟩], [2, 0, 1]⟩,
   ⟨[⟨201, -23, 1⟩], [0]⟩,
   ⟨[⟨201, -24, 1⟩], [0]⟩,
   ⟨[⟨102, -12, 1⟩, ⟨201, -25, 1⟩], [0, 1]⟩,
   ⟨[⟨103, -13, 1⟩, ⟨104, -13, 1⟩, ⟨199, -26, 1⟩], [1, 0, 2]⟩,
   ⟨[], []⟩]

instance (peaks : List (Peak ℚ)) (order : List Nat) : Decidable (IsArgsort peaks order) := by
  have : ∀ i j : Nat, Decidable (∀ (p q : Peak ℚ), peaks[i]? = some p → peaks[j]? = some q →
      q.mag ≤ p.mag) := by
    intro i j
    cases hi : peaks[i]? with
    | none => exact isTrue (by intro p q h; simp at h)
    | some p =>
      cases hj : peaks[j]? with
      | none => exact isTrue (by intro p q _ h; simp at h)
      | some q =>
        exact decidable_of_iff (q.mag ≤ p.mag) (by simp)
  unfold IsArgsort
  exact inferInstance

theorem exFrames_valid : ∀ f ∈ exFrames, f.Valid := by
  unfold exFrames Frame.Valid
  decide +kernel

/-! ## C01 -/

/-- C01, plain tracker: the analysis never raises and never has more than `max_n_sines` active
tracks (`frames` is an arbitrary history, so this covers every intermediate point). -/
theorem C01_active_bound (c : Cfg K) (prior : State K) (frames : List (Frame K))
    (hv : ∀ f ∈ frames, f.Valid) :
    ∃ s, trackerFit (deactivate c) c prior frames = .ok s ∧ s.active.length ≤ c.maxNSines := by
  obtain ⟨s, h1, h2, _⟩ := base_run c prior frames hv
  exact ⟨s, h1, h2.bound⟩

/-- C01, modal tracker. -/
theorem C01_active_bound_modal (c : ModalCfg K) (prior : State K) (frames : List (Frame K))
    (hv : ∀ f ∈ frames, f.Valid) :
    (∀ s, trackerFit (modalDeactivate c) c.toCfg prior frames = .ok s →
      s.active.length ≤ c.maxNSines) ∧
    (c.mergeStrategy = "average" ∨ c.mergeStrategy = "single" →
      ∃ s, trackerFit (modalDeactivate c) c.toCfg prior frames = .ok s) :=
  ⟨fun s h => (modal_run c prior frames hv s h).1.bound,
    fun hk => modal_total c hk prior frames hv⟩

/-- The limit is reached: the second frame has three peaks and only two tracks. -/
example : exCfg.maxNSines = 2 ∧
    (trackerFit (deactivate exCfg) exCfg ⟨[], [], 0⟩ (exFrames.take 2)).toOption.map
      (fun s => s.active.map (·.freq)) = some [[100, 101], [200, 202]] := by
  decide +kernel

/-! ## C02 -/

/-- C02: frame clock of active tracks; finished tracks are in the past, aligned, without NaN. -/
theorem C02_clock (c : Cfg K) (prior : State K) (frames : List (Frame K))
    (hv : ∀ f ∈ frames, f.Valid) :
    ∃ s, trackerFit (deactivate c) c prior frames = .ok s ∧ s.frame = frames.length ∧
      (∀ t ∈ s.active, t.start < frames.length ∧ t.freq.length = frames.length - t.start ∧
        t.mag.length = frames.length - t.start ∧ t.phase.length = frames.length - t.start) ∧
      (∀ u ∈ s.tracks, u.freq.length = u.mag.length ∧ u.phase.length = u.mag.length ∧
        u.start + u.freq.length ≤ frames.length ∧ none ∉ u.freq ∧ none ∉ u.mag ∧
        none ∉ u.phase) := by
  obtain ⟨s, h1, h2, h3, h4, _⟩ := base_run c prior frames hv
  refine ⟨s, h1, h3, ?_, ?_⟩
  · intro t ht
    have g := h2.good t ht
    have := g.clock; have := g.pos; have := g.magLen; have := g.phaseLen
    omega
  · intro u hu
    obtain ⟨⟨t, rfl⟩, g⟩ := h4 u hu
    have := g.past
    have ga := g.aligned
    refine ⟨ga.1, ga.2.1, ?_, by simp [numpyTrack], by simp [numpyTrack], by simp [numpyTrack]⟩
    have := ga.1
    unfold Track.stop at *
    omega

/-- C02, modal tracker: the same, with NaN at common positions of the three arrays. -/
theorem C02_clock_modal (c : ModalCfg K) (prior : State K) (frames : List (Frame K))
    (hv : ∀ f ∈ frames, f.Valid) (s : State K)
    (h : trackerFit (modalDeactivate c) c.toCfg prior frames = .ok s) :
    s.frame = frames.length ∧
      (∀ t ∈ s.active, t.start < frames.length ∧ t.freq.length = frames.length - t.start ∧
        t.mag.length = frames.length - t.start ∧ t.phase.length = frames.length - t.start) ∧
      (∀ u ∈ s.tracks, u.freq.length = u.mag.length ∧ u.phase.length = u.mag.length ∧
        u.start + u.freq.length ≤ frames.length ∧
        ∀ j : Nat, (u.freq[j]? = some none ↔ u.mag[j]? = some none) ∧
          (u.phase[j]? = some none ↔ u.mag[j]? = some none)) := by
  obtain ⟨h2, h3, h4, _⟩ := modal_run c prior frames hv s h
  refine ⟨h3, ?_, ?_⟩
  · intro t ht
    have g := h2.good t ht
    have := g.clock; have := g.pos; have := g.magLen; have := g.phaseLen
    omega
  · intro u hu
    have g := h4.2 u hu
    have := g.past
    obtain ⟨g1, g2, g3⟩ := g.aligned
    refine ⟨g1, g2, ?_, g3⟩
    unfold Track.stop at *
    omega

/-- A run with finished and active tracks. -/
example : (trackerFit (deactivate exCfg) exCfg ⟨[], [], 0⟩ (exFrames.take 6)).toOption.map
      (fun s => (s.active.map (fun t => (t.start, t.freq)),
        s.tracks.map (fun t => (t.start, t.freq)))) =
    some ([(0, [200, 202, 201, 201, 201, 199]), (4, [102, 104])], [(0, [some 100, some 101])]) := by
  decide +kernel

/-! ## C03 -/

/-- C03: at every frame the samples of all tracks (and hence of the reported ones) are a
sub-multiset of the peaks given for that frame. -/
theorem C03_samples (c : Cfg K) (prior : State K) (frames : List (Frame K))
    (hv : ∀ f ∈ frames, f.Valid) :
    ∃ s, trackerFit (deactivate c) c prior frames = .ok s ∧
      ∀ k, (samplesAt k (s.tracks ++ s.active.map numpyTrack)).Subperm
          ((frames[k]?.map (·.peaks)).getD []) ∧
        (samplesAt k (allTracks c s)).Subperm ((frames[k]?.map (·.peaks)).getD []) := by
  obtain ⟨s, h1, _, _, _, h5⟩ := base_run c prior frames hv
  exact ⟨s, h1, fun k => ⟨h5 k, (((allTracks_sublist c s).filterMap _).subperm).trans (h5 k)⟩⟩

/-- C03, modal tracker (tracks with merged segments included). -/
theorem C03_samples_modal (c : ModalCfg K) (prior : State K) (frames : List (Frame K))
    (hv : ∀ f ∈ frames, f.Valid) (s : State K)
    (h : trackerFit (modalDeactivate c) c.toCfg prior frames = .ok s) (k : Nat) :
    (samplesAt k (s.tracks ++ s.active.map numpyTrack)).Subperm
        ((frames[k]?.map (·.peaks)).getD []) ∧
      (samplesAt k (modalAllTracks c s)).Subperm ((frames[k]?.map (·.peaks)).getD []) := by
  obtain ⟨_, _, _, h5⟩ := modal_run c prior frames hv s h
  exact ⟨h5 k, (((modalAllTracks_sublist c s).filterMap _).subperm).trans (h5 k)⟩

/-- A merged track and its samples: the two segments and nothing in the gap. -/
example : (trackerFit (modalDeactivate (exModal false "average")) exCfg ⟨[], [], 0⟩
      exFrames).toOption.map (fun s => (s.tracks.map fun t => (t.start, t.freq),
        samplesAt 4 s.tracks, samplesAt 3 s.tracks)) =
    some ([(0, [some 100, some 101, none, none, some 102, some 104]),
       (0, [some 200, some 202, some 201, some 201, some 201, some 199])],
      [⟨102, -12, 1⟩, ⟨201, -25, 1⟩], [⟨201, -24, 1⟩]) := by
  decide +kernel

/-! ## C04 -/

/-- C04: consecutive samples of a reported track are closer than the deviation threshold. -/
theorem C04_jump (c : Cfg K) (prior : State K) (frames : List (Frame K))
    (hv : ∀ f ∈ frames, f.Valid) :
    ∃ s, trackerFit (deactivate c) c prior frames = .ok s ∧
      ∀ u ∈ allTracks c s, ∀ (i : Nat) (f g : K), u.freq[i]? = some (some f) →
        u.freq[i + 1]? = some (some g) → |f - g| < c.freqDevOffset + c.freqDevSlope * g := by
  obtain ⟨s, h1, h2, _, h4, _⟩ := base_run c prior frames hv
  exact ⟨s, h1, fun u hu => (goodFin_allTracks h2 h4 u hu).jump⟩

/-- C04, modal tracker: merged tracks too, since merged segments never touch. -/
theorem C04_jump_modal (c : ModalCfg K) (prior : State K) (frames : List (Frame K))
    (hv : ∀ f ∈ frames, f.Valid) (s : State K)
    (h : trackerFit (modalDeactivate c) c.toCfg prior frames = .ok s) :
    ∀ u ∈ modalAllTracks c s, ∀ (i : Nat) (f g : K), u.freq[i]? = some (some f) →
      u.freq[i + 1]? = some (some g) → |f - g| < c.freqDevOffset + c.freqDevSlope * g := by
  obtain ⟨h2, _, h4, _⟩ := modal_run c prior frames hv s h
  exact fun u hu => (goodFin_modalAllTracks h2 h4 u hu).jump

example : (trackerFit (deactivate exCfg) exCfg ⟨[], [], 0⟩ exFrames).toOption.map
    (fun s => (allTracks exCfg s).map (·.freq.length)) = some [2, 2, 6] := by decide +kernel

/-! ## C05 and C07 -/

/-- C05: one update of the plain tracker, from any state with proper tracks.  There is a matching
`m` with the stated properties that the new active list shows: tracks in order, each extended by
its peak, followed by new tracks. -/
theorem C05_greedy (c : Cfg K) (s : State K) (hs : ∀ t ∈ s.active, t.freq ≠ [])
    (peaks : List (Peak K)) (order : List Nat) (ho : IsArgsort peaks order) :
    ∃ m s', call (deactivate c) c order peaks s = .ok s' ∧ Greedy c s.active peaks m ∧
      ∃ new, s'.active = continued s.active peaks m ++ new ∧ ∀ t ∈ new, t.start = s.frame := by
  obtain ⟨m, s', h1, h2, _⟩ := call_spec (saveBase c) (deactivate c) (popSave_base c) c order peaks
    s ho hs trivial
  refine ⟨m, s', h1, h2.greedy, _, h2.active, ?_⟩
  intro t ht
  obtain ⟨pk, _, rfl⟩ := List.mem_map.1 ht
  rfl

/-- C05, modal tracker (finished tracks end with a number, as in every reachable state). -/
theorem C05_greedy_modal (c : ModalCfg K)
    (hk : c.mergeStrategy = "average" ∨ c.mergeStrategy = "single") (s : State K)
    (hs : ∀ t ∈ s.active, t.freq ≠ [])
    (htr : ∀ u ∈ s.tracks, ∃ f, u.freq.getLast? = some (some f))
    (peaks : List (Peak K)) (order : List Nat) (ho : IsArgsort peaks order) :
    ∃ m s', call (modalDeactivate c) c.toCfg order peaks s = .ok s' ∧
      Greedy c.toCfg s.active peaks m ∧
      ∃ new, s'.active = continued s.active peaks m ++ new ∧ ∀ t ∈ new, t.start = s.frame := by
  obtain ⟨m, s', h1, h2, _⟩ := call_spec (saveModal c) (modalDeactivate c) (popSave_modal c hk)
    c.toCfg order peaks s ho hs htr
  refine ⟨m, s', h1, h2.greedy, _, h2.active, ?_⟩
  intro t ht
  obtain ⟨pk, _, rfl⟩ := List.mem_map.1 ht
  rfl

/-- A competition: the louder peak takes the nearest track, the other peak the remaining one. -/
example : IsArgsort ([⟨101, -10, 0⟩, ⟨102, -5, 0⟩] : List (Peak ℚ)) [1, 0] ∧
    (call (deactivate exCfg) exCfg [1, 0] [⟨101, -10, 0⟩, ⟨102, -5, 0⟩]
      ⟨[], [⟨0, [101], [0], [0]⟩, ⟨0, [105], [0], [0]⟩], 1⟩).toOption.map
      (fun s' => s'.active.map (·.freq)) = some [[101, 102], [105, 101]] := by
  decide +kernel

/-- C07: what one update does to the lists, for the plain tracker.  Unmatched tracks leave the
active list; those with enough frames, and no others, are appended to the finished list (in the
order of the loop, from the last to the first); matched tracks stay in order; unmatched peaks start
tracks in index order while there is room; with room left, every peak is the current sample of an
active track. -/
theorem C07_no_loss (c : Cfg K) (s : State K) (hs : ∀ t ∈ s.active, t.freq ≠ [])
    (peaks : List (Peak K)) (order : List Nat) (ho : IsArgsort peaks order) :
    ∃ m s', call (deactivate c) c order peaks s = .ok s' ∧ Greedy c s.active peaks m ∧
      s'.frame = s.frame + 1 ∧
      s'.tracks = s.tracks ++ ((dropped s.active m).reverse.filter
        (fun t => decide (max 2 ⌈c.minSineDur * (c.fs / c.h)⌉ ≤ (t.freq.length : ℤ)))).map
          (fun t => ⟨t.start, t.freq.map some, t.mag.map some, t.phase.map some⟩) ∧
      s'.active = continued s.active peaks m ++
        ((unused peaks m).take (c.maxNSines - (continued s.active peaks m).length)).map
          (fun pk => ⟨s.frame, [pk.freq], [pk.mag], [pk.phase]⟩) ∧
      ((continued s.active peaks m ++ dropped s.active m).length = s.active.length) ∧
      (s'.active.length < c.maxNSines →
        (s'.active.map fun t => (t.freq.getLast?, t.mag.getLast?, t.phase.getLast?)).Perm
          (peaks.map fun pk => (some pk.freq, some pk.mag, some pk.phase))) := by
  obtain ⟨m, s', h1, h2, _⟩ := call_spec (saveBase c) (deactivate c) (popSave_base c) c order peaks
    s ho hs trivial
  have hact := h2.active
  have hlen : (continued s.active peaks m ++ dropped s.active m).length = s.active.length := by
    have h3 := (kept_dropped_perm s.active m h2.greedy.len).length_eq
    have h4 := continued_length_kept (A := s.active) (peaks := peaks) h2.greedy.len h2.greedy.valid
    rw [List.length_append] at h3 ⊢
    omega
  refine ⟨m, s', h1, h2.greedy, h2.frame, ?_, hact, hlen, ?_⟩
  · rw [h2.tracks, foldl_saveBase]
    rfl
  · intro hlt
    have htake : (unused peaks m).take (c.maxNSines - (continued s.active peaks m).length) =
        unused peaks m := by
      apply List.take_of_length_le
      rw [hact, List.length_append, List.length_map, List.length_take] at hlt
      omega
    rw [htake] at hact
    rw [hact, List.map_append, continued_last h2.greedy.len h2.greedy.valid, List.map_map]
    have hnew : (unused peaks m).map ((fun t : ATrack K =>
        (t.freq.getLast?, t.mag.getLast?, t.phase.getLast?)) ∘ newborn s.frame) =
        (unused peaks m).map fun pk => (some pk.freq, some pk.mag, some pk.phase) := by
      apply List.map_congr_left
      intro pk _
      simp [newborn]
    rw [hnew, ← List.map_append]
    exact (matched_unused_perm peaks m h2.greedy.valid h2.greedy.inj).map _

/-- One track is dropped (and saved), one continued, one peak starts a track. -/
example : (call (deactivate exCfg) exCfg [1, 0] [⟨300, -10, 0⟩, ⟨102, -5, 0⟩]
      ⟨[], [⟨0, [101], [0], [0]⟩, ⟨0, [204, 205], [0, 0], [0, 0]⟩], 2⟩).toOption.map
      (fun s' => (s'.active.map (fun t => (t.start, t.freq)), s'.tracks.map (·.freq))) =
    some ([(0, [101, 102]), (2, [300])], [[some 204, some 205]]) := by
  decide +kernel

/-! ## C06 -/

/-- C06: reported tracks have at least `max(2, ceil(min_sine_dur * fs / h))` frames; with positive
rates that is at least `min_sine_dur` seconds of hops. -/
theorem C06_min_length (c : Cfg K) (prior : State K) (frames : List (Frame K))
    (hv : ∀ f ∈ frames, f.Valid) :
    ∃ s, trackerFit (deactivate c) c prior frames = .ok s ∧ ∀ u ∈ allTracks c s,
      2 ≤ u.freq.length ∧ ⌈c.minSineDur * (c.fs / c.h)⌉ ≤ (u.freq.length : ℤ) ∧
      (0 < c.fs → 0 < c.h → c.minSineDur ≤ (u.freq.length : K) * (c.h / c.fs)) := by
  obtain ⟨s, h1, h2, _, h4, _⟩ := base_run c prior frames hv
  refine ⟨s, h1, ?_⟩
  intro u hu
  exact long_enough (goodFin_allTracks h2 h4 u hu)

/-- C06, modal tracker (gap frames of merged tracks are not needed to reach the length). -/
theorem C06_min_length_modal (c : ModalCfg K) (prior : State K) (frames : List (Frame K))
    (hv : ∀ f ∈ frames, f.Valid) (s : State K)
    (h : trackerFit (modalDeactivate c) c.toCfg prior frames = .ok s) :
    ∀ u ∈ modalAllTracks c s,
      2 ≤ (u.freq.filterMap id).length ∧
      ⌈c.minSineDur * (c.fs / c.h)⌉ ≤ ((u.freq.filterMap id).length : ℤ) := by
  obtain ⟨h2, _, h4, _⟩ := modal_run c prior frames hv s h
  intro u hu
  have g := (goodFin_modalAllTracks h2 h4 u hu).long
  unfold Cfg.minSineLen at g
  have g1 := le_trans (le_max_left _ _) g
  have g2 := le_trans (le_max_right _ _) g
  exact ⟨by exact_mod_cast g1, g2⟩

/-- With a minimum of half a second (5 frames) only the long track is reported. -/
example : (trackerFit (deactivate { exCfg with minSineDur := 1/2 })
      { exCfg with minSineDur := 1/2 } ⟨[], [], 0⟩ exFrames).toOption.map
    (fun s => (allTracks { exCfg with minSineDur := 1/2 } s).map (·.freq.length)) = some [6] := by
  decide +kernel

/-! ## C09 and C10 -/

/-- C09: the acceptance criteria.  The least-squares line is characterised by minimality, and it is
unique. -/
theorem C09_acceptance (c : ModalCfg K) (t : ATrack K) (h2 : 2 ≤ t.mag.length) :
    (modalTrackOk c t = true ↔ max 2 ⌈c.minSineDur * (c.fs / c.h)⌉ ≤ (t.freq.length : ℤ) ∧
      (∀ lo, c.freqLo = some lo → lo ≤ t.freq.sum / (t.freq.length : K)) ∧
      (∀ hi, c.freqHi = some hi → t.freq.sum / (t.freq.length : K) ≤ hi) ∧
      ∃ k q, LeastSquares (forwardPoints c.reverse t.mag) k q ∧ k ≤ 0 ∧ c.peakThreshold ≤ q) ∧
    (∃! kq : K × K, LeastSquares (forwardPoints c.reverse t.mag) kq.1 kq.2) := by
  have hls : ∀ k q, LeastSquares (forwardPoints c.reverse t.mag) k q ↔
      k = olsSlope (lmX c.reverse t.mag.length) t.mag ∧
      q = olsIntercept (lmX c.reverse t.mag.length) t.mag := by
    intro k q
    rw [← leastSquares_perm (forwardPoints_perm c.reverse t.mag)]
    exact leastSquares_iff _ _ (lmX_length _ _) (lmX_sxx_pos _ _ h2) k q
  constructor
  · rw [modalTrackOk_iff]
    constructor
    · rintro ⟨a, b, d, e, f⟩
      exact ⟨a, b, d, _, _, (hls _ _).2 ⟨rfl, rfl⟩, e, f⟩
    · rintro ⟨a, b, d, k, q, hkq, e, f⟩
      obtain ⟨rfl, rfl⟩ := (hls _ _).1 hkq
      exact ⟨a, b, d, e, f⟩
  · refine ⟨(_, _), (hls _ _).2 ⟨rfl, rfl⟩, ?_⟩
    rintro ⟨k, q⟩ h
    obtain ⟨h1, h2⟩ := (hls _ _).1 h
    exact Prod.ext h1 h2

/-- An accepted track, and the same one with increasing magnitudes, rejected. -/
example : modalTrackOk (exModal false "average") ⟨0, [100, 101, 99], [-10, -12, -11], [0, 0, 0]⟩
      = true ∧
    modalTrackOk (exModal false "average") ⟨0, [100, 101, 99], [-12, -11, -10], [0, 0, 0]⟩
      = false := by
  decide +kernel

/-- C10: acceptance in reverse mode is acceptance of the reversed track in forward mode. -/
theorem C10_reverse (c : ModalCfg K) (t : ATrack K) (h2 : 2 ≤ t.mag.length) :
    modalTrackOk { c with reverse := true } t =
      modalTrackOk { c with reverse := false }
        ⟨t.start, t.freq.reverse, t.mag.reverse, t.phase.reverse⟩ := by
  rw [Bool.eq_iff_iff, (C09_acceptance _ _ h2).1, (C09_acceptance _ _ (by simpa using h2)).1]
  simp only [forwardPoints, List.sum_reverse, List.length_reverse, if_true, Bool.false_eq_true,
    if_false]

/-- The condition on the length is only needed for the slope to be defined; shorter tracks are
rejected in both modes. -/
theorem C10_short (c : ModalCfg K) (t : ATrack K) (h : t.freq.length < 2) :
    modalTrackOk c t = false := by
  cases hok : modalTrackOk c t with
  | false => rfl
  | true =>
    have := modalTrackOk_long hok
    unfold Cfg.minSineLen at this
    have := le_trans (le_max_left _ _) this
    omega

/-- Rising magnitudes are accepted in reverse mode. -/
example : modalTrackOk (exModal true "average") ⟨0, [100, 101, 99], [-12, -11, -10], [0, 0, 0]⟩
      = true := by
  decide +kernel

/-! ## C11 and C12 -/

/-- C11: finishing a track in any reachable state of the modal tracker. -/
theorem C11_merge_preserves (c : ModalCfg K)
    (hk : c.mergeStrategy = "average" ∨ c.mergeStrategy = "single") (prior : State K)
    (frames : List (Frame K)) (hv : ∀ f ∈ frames, f.Valid) (s : State K)
    (h : trackerFit (modalDeactivate c) c.toCfg prior frames = .ok s)
    (i : Nat) (t : ATrack K) (ht : s.active[i]? = some t) :
    ∃ s', modalDeactivate c s i = .ok s' ∧ s'.active = s.active.eraseIdx i ∧ s'.frame = s.frame ∧
      (modalTrackOk c t = false → s'.tracks = s.tracks) ∧
      (modalTrackOk c t = true →
        (s'.tracks = s.tracks ++ [numpyTrack t] ∨
          ∃ (j : Nat) (u v : Track K), s.tracks[j]? = some u ∧ u.stop < t.start ∧
            MergedFrom u (numpyTrack t) v ∧ s'.tracks = s.tracks.set j v) ∧
        ∀ k, (samplesAt k s'.tracks).Perm (samplesAt k (s.tracks ++ [numpyTrack t]))) := by
  obtain ⟨hw, _, hI, _⟩ := modal_run c prior frames hv s h
  have hg := hw.good t (List.mem_of_getElem? ht)
  have hne := wf_ne hw t (List.mem_of_getElem? ht)
  obtain ⟨hI', hsamp⟩ := saveModal_samples c hk hI hg
  refine ⟨{ s with active := s.active.eraseIdx i, tracks := saveModal c s.tracks t }, ?_, rfl, rfl,
    ?_, ?_⟩
  · simp only [modalDeactivate, popE, ht, finish_ok c hk s.tracks hI.1 t hne]
  · intro hok
    have := hsamp 0
    simpa [hok] using this
  · intro hok
    refine ⟨?_, fun k => by simpa [hok] using hsamp k⟩
    obtain ⟨f0, l, hl⟩ := List.exists_cons_of_ne_nil hne
    rcases finish_spec c hk s.tracks hI.1 t hne hok f0 (by simp [hl]) with
      ⟨j, u, d, hu, hstop, _, _, _, hfin⟩ | ⟨_, hfin⟩
    · right
      refine ⟨j, u, mergeTrack u (numpyTrack t), hu, hstop, ?_, by simp only [saveModal, hfin]⟩
      exact mergeTrack_merged (hI.2 u (List.mem_of_getElem? hu)).aligned (numpyTrack_aligned hg)
        hstop.le
    · left
      simp only [saveModal, hfin]

/-- A merge of the second segment into the first (the state before the last frame of `exFrames`). -/
example : (trackerFit (modalDeactivate (exModal false "single")) exCfg ⟨[], [], 0⟩
      (exFrames.take 6)).toOption.map (fun s => (s.tracks.map (·.freq),
        (modalDeactivate (exModal false "single") s 1).toOption.map
          (fun s' => s'.tracks.map (·.freq)))) =
    some ([[some 100, some 101]],
      some [[some 100, some 101, none, none, some 102, some 104]]) := by
  decide +kernel

/-- C12: an accepted track is merged into the first of the closest tracks that ended strictly
before its start if that difference is below the threshold at its first frequency, and appended
otherwise.  `FreqDiff` is the frequency difference of the strategy. -/
theorem C12_merge_choice (c : ModalCfg K)
    (hk : c.mergeStrategy = "average" ∨ c.mergeStrategy = "single") (tr : List (Track K))
    (htr : ∀ u ∈ tr, u.Aligned ∧ ∃ f, u.freq.getLast? = some (some f))
    (t : ATrack K) (hlen : t.mag.length = t.freq.length ∧ t.phase.length = t.freq.length)
    (f0 : K) (hf0 : t.freq.head? = some f0) (hok : modalTrackOk c t = true) :
    (∃ (i : Nat) (u v : Track K) (d : K), tr[i]? = some u ∧ u.stop < t.start ∧
      FreqDiff c.mergeStrategy u (numpyTrack t) d ∧
      d < c.freqDevOffset + c.freqDevSlope * f0 ∧
      (∀ (j : Nat) (w : Track K) (e : K), tr[j]? = some w → w.stop < t.start →
        FreqDiff c.mergeStrategy w (numpyTrack t) e → d < e ∨ (d = e ∧ i ≤ j)) ∧
      MergedFrom u (numpyTrack t) v ∧ finish c tr t = .ok (tr.set i v)) ∨
    ((∀ (u : Track K) (d : K), u ∈ tr → u.stop < t.start →
        FreqDiff c.mergeStrategy u (numpyTrack t) d →
        c.freqDevOffset + c.freqDevSlope * f0 ≤ d) ∧
      finish c tr t = .ok (tr ++ [numpyTrack t])) := by
  have hne : t.freq ≠ [] := by intro h; rw [h] at hf0; simp at hf0
  rcases finish_spec c hk tr (fun u hu => (htr u hu).2) t hne hok f0 hf0 with
    ⟨i, u, d, h1, h2, h3, h4, h5, h6⟩ | h
  · left
    refine ⟨i, u, _, d, h1, h2, h3, h4, h5, ?_, h6⟩
    refine mergeTrack_merged (htr u (List.mem_of_getElem? h1)).1 ?_ h2.le
    refine ⟨by simp [numpyTrack, hlen.1], by simp [numpyTrack, hlen.1, hlen.2], ?_⟩
    intro j
    simp [numpyTrack]
  · exact Or.inr h

/-- C12: the difference is defined for all candidates (so "closest" makes sense). -/
theorem C12_diff_defined (strategy : String) (hk : strategy = "average" ∨ strategy = "single")
    (u : Track K) (hu : ∃ f, u.freq.getLast? = some (some f)) (t : ATrack K) (ht : t.freq ≠ []) :
    ∃! d, FreqDiff strategy u (numpyTrack t) d := by
  obtain ⟨_, _, hval⟩ := diff_spec hk ht
  obtain ⟨d, _, hd⟩ := hval u hu
  exact ⟨d, (hd d).2 rfl, fun d' h => (hd d').1 h⟩

/-- C12: an unknown strategy raises `KeyError` as soon as a track is accepted. -/
theorem C12_unknown_strategy (c : ModalCfg K)
    (hk : c.mergeStrategy ≠ "average" ∧ c.mergeStrategy ≠ "single") (s : State K) (i : Nat)
    (t : ATrack K) (ht : s.active[i]? = some t) (hok : modalTrackOk c t = true) :
    modalDeactivate c s i = .error .keyError := by
  simp [modalDeactivate, popE, ht, finish, hok, freqDiffFunction, hk.1, hk.2]

/-- Two candidates at the same distance: the first one is chosen; a third one touches the new
track and is not a candidate. -/
example : (finish (exModal false "single")
      [⟨0, [some 99], [some 0], [some 0]⟩, ⟨0, [some 103], [some 0], [some 0]⟩,
       ⟨1, [some 101], [some 0], [some 0]⟩]
      ⟨2, [101, 101], [0, -1], [0, 0]⟩).toOption =
    some [⟨0, [some 99, none, some 101, some 101], [some 0, none, some 0, some (-1)],
        [some 0, none, some 0, some 0]⟩,
      ⟨0, [some 103], [some 0], [some 0]⟩, ⟨1, [some 101], [some 0], [some 0]⟩] := by
  decide +kernel

example : modalDeactivate (exModal false "median") ⟨[], [⟨0, [100, 100], [0, -1], [0, 0]⟩], 2⟩ 0 =
    .error .keyError :=
  C12_unknown_strategy _ (by decide) _ _ ⟨0, [100, 100], [0, -1], [0, 0]⟩ rfl (by decide +kernel)

/-! ## C13 -/

/-- Frame `k` of the analysis in forward time: the analysed audio is flipped in reverse mode. -/
def forwardFrame (reverse : Bool) (total k : Nat) : ℤ :=
  if reverse then (total : ℤ) - 1 - k else k

/-- `o` is the earliest forward frame of the track. -/
def IsOnset (reverse : Bool) (total : Nat) (t : Track K) (o : ℤ) : Prop :=
  (∃ k, t.start ≤ k ∧ k < t.start + t.mag.length ∧ forwardFrame reverse total k = o) ∧
    ∀ k, t.start ≤ k → k < t.start + t.mag.length → o ≤ forwardFrame reverse total k

open Classical in
/-- C13: with `strip_t` the reported tracks are those of the unstripped list whose onset is not
later than `ceil(strip_t * fs / h)`, in the same order; every reported track has an onset. -/
theorem C13_strip (c : ModalCfg K) (prior : State K)
    (frames : List (Frame K)) (hv : ∀ f ∈ frames, f.Valid) (s : State K)
    (h : trackerFit (modalDeactivate c) c.toCfg prior frames = .ok s) :
    (c.stripT = none → modalAllTracks c s =
      s.tracks ++ (s.active.filter (modalTrackOk c)).map numpyTrack) ∧
    (∀ T, c.stripT = some T → modalAllTracks c s =
      (modalAllTracks { c with stripT := none } s).filter fun t =>
        decide (∃ o, IsOnset c.reverse frames.length t o ∧ o ≤ ⌈T * (c.fs / c.h)⌉)) ∧
    (∀ t ∈ modalAllTracks { c with stripT := none } s,
      ∃! o, IsOnset c.reverse frames.length t o) := by
  obtain ⟨hw, hfr, hI, _⟩ := modal_run c prior frames hv s h
  have hpos : ∀ t ∈ modalAllTracks { c with stripT := none } s, 0 < t.mag.length := by
    intro t ht
    have g := goodFin_modalAllTracks (c := { c with stripT := none }) hw hI t ht
    have g1 := g.long
    have g2 := g.aligned.1
    have g3 : (t.freq.filterMap id).length ≤ t.freq.length := List.length_filterMap_le _ _
    unfold Cfg.minSineLen at g1
    have g4 := le_trans (le_max_left _ _) g1
    omega
  have honset : ∀ t : Track K, 0 < t.mag.length → ∀ o, IsOnset c.reverse frames.length t o ↔
      o = (if c.reverse then (s.frame : ℤ) - (t.start + t.mag.length) else t.start) := by
    intro t ht o
    rw [hfr]
    constructor
    · rintro ⟨⟨k, k1, k2, k3⟩, h2⟩
      unfold forwardFrame at *
      cases hr : c.reverse
      · simp only [hr, Bool.false_eq_true, if_false] at *
        have := h2 t.start (le_refl _) (by omega)
        omega
      · simp only [hr, if_true] at *
        have := h2 (t.start + t.mag.length - 1) (by omega) (by omega)
        omega
    · rintro rfl
      unfold IsOnset forwardFrame
      cases hr : c.reverse
      · simp only [Bool.false_eq_true, if_false]
        exact ⟨⟨t.start, le_refl _, by omega, rfl⟩, fun k h1 _ => by omega⟩
      · simp only [if_true]
        exact ⟨⟨t.start + t.mag.length - 1, by omega, by omega, by omega⟩,
          fun k h1 _ => by omega⟩
  refine ⟨?_, ?_, ?_⟩
  · intro h0
    simp [modalAllTracks, ModalCfg.stripN, h0]
  · intro T hT
    have e1 : modalAllTracks c s = (modalAllTracks { c with stripT := none } s).filter
        (onsetOk c.reverse s.frame ⌈T * c.frameRate⌉) := by
      simp only [modalAllTracks, ModalCfg.stripN, hT]
      rfl
    rw [e1]
    apply List.filter_congr
    intro t ht
    have hp := hpos t ht
    unfold onsetOk
    rw [decide_eq_decide]
    constructor
    · intro hle
      exact ⟨_, (honset t hp _).2 rfl, hle⟩
    · rintro ⟨o, ho, hle⟩
      rw [(honset t hp o).1 ho] at hle
      exact hle
  · intro t ht
    exact ⟨_, (honset t (hpos t ht) _).2 rfl, fun o ho => (honset t (hpos t ht) o).1 ho⟩

/-- Seven frames, `strip_n = 1`: the early track stays, a track that starts at frame 2 goes. -/
example : modalAllTracks (exModal false "average")
      ⟨[⟨1, [some 99, some 99], [some 0, some 0], [some 0, some 0]⟩,
        ⟨2, [some 103, some 103], [some 0, some 0], [some 0, some 0]⟩], [], 7⟩ =
    [⟨1, [some 99, some 99], [some 0, some 0], [some 0, some 0]⟩] := by
  decide +kernel

/-- In reverse mode the track at frames 4-5 of 7 starts at forward frame 1. -/
example : modalAllTracks (exModal true "average")
      ⟨[⟨4, [some 99, some 99], [some 0, some 0], [some 0, some 0]⟩,
        ⟨2, [some 103, some 103], [some 0, some 0], [some 0, some 0]⟩], [], 7⟩ =
    [⟨4, [some 99, some 99], [some 0, some 0], [some 0, some 0]⟩] := by
  decide +kernel

end Verif.Tracker
