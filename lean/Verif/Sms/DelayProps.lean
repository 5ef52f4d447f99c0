import Verif.Sms.DelayLemmas

/-!
# C135: sounds after silence, and before silence
-/

set_option autoImplicit false
set_option linter.unusedSectionVars false
set_option linter.unusedSimpArgs false

namespace Verif.Sms

open Verif.Tracker Verif.Learn

variable {K : Type*} [Field K] [LinearOrder K] [IsStrictOrderedRing K] [FloorRing K]

/-- In the spectrum computed by `dft`, the bins of silence have the same level: that of the machine precision. -/
theorem flatSilence_spectrum (tol : ℝ) (n : Nat) : FlatSilence (spectrum tol) n := by
  refine ⟨(Dsp.a2dbFloorless (max ‖(0 : ℂ)‖ floatEps)).getD 0, ?_⟩
  intro a ha
  have hz : ∀ v ∈ Dsp.rfft (List.replicate n (0 : ℝ)) (List.replicate n (0 : ℝ)).length, v = 0 := by
    intro v hv
    unfold Dsp.rfft Dsp.fft at hv
    obtain ⟨k, _, rfl⟩ := List.mem_map.1 (List.mem_of_mem_take hv)
    apply Finset.sum_eq_zero
    intro i _
    have : ((List.replicate n (0 : ℝ)).map (fun x : ℝ => (x : ℂ))).getD i 0 = 0 := by
      rw [List.map_replicate, List.getD_eq_getElem?_getD, List.getElem?_replicate]
      split <;> simp
    rw [this, zero_mul]
  unfold spectrum at ha
  obtain ⟨b, hb, rfl⟩ := List.mem_map.1 ha
  obtain ⟨v, hv, rfl⟩ := List.mem_map.1 hb
  rw [hz v hv]

/-- C135: silence before the sound (of a whole number of hops), forward analysis, with `strip_t` later by as much:
the analysis fails in the same cases, and with the same error; the tracks are the same tracks, in the same order,
as many frames later. -/
theorem C135_before (spec : List K → List K × List K) (sort : List (Peak K) → List Nat) (m : Model K)
    (hsil : FlatSilence spec m.params.n) (hr : m.params.reverse = false) (hfs : 0 < m.params.tracker.fs)
    (hh : 1 ≤ m.params.hop) (h2 : 2 ≤ m.params.w.length) (hn : m.params.w.length ≤ m.params.n)
    (d z : Nat) (hz : EnoughSilence m.params z) (y : List K) :
    (({ m with params := m.params.later ((d : K) * (m.params.hop : K) / m.params.tracker.fs) } : Model K).fit spec sort
        (silence (d * m.params.hop) ++ (silence z ++ y)) Kwargs.none).map Model.tracks =
      (m.fit spec sort (silence z ++ y) Kwargs.none).map fun r => r.tracks.map (Track.delay d) := by
  set τ := (d : K) * (m.params.hop : K) / m.params.tracker.fs with hτ
  have h := fit_delay spec sort d z m ({ m with params := m.params.later τ } : Model K) hsil h2 hn hh hz rfl rfl rfl
    rfl rfl rfl (punctual_deact d τ m.params) (silence z ++ y) (silence (d * m.params.hop) ++ (silence z ++ y)) y
    (by rw [hr]; rfl) (by
      have : (m.params.later τ).reverse = m.params.reverse := rfl
      simp only [this, hr]; rfl)
  have ht : ∀ r : Model K, r.params = m.params → ∀ r' : Model K, r'.params = m.params.later τ →
      r'.state = r.state.delay d → r'.tracks = r.tracks.map (Track.delay d) := by
    intro r h1 r' h3 h4
    unfold Model.tracks
    rw [h1, h3, h4]
    have e : (m.params.later τ).modal = m.params.modal := rfl
    rw [e]
    split
    · rename_i hmod
      have hrev : m.params.cfg.reverse = false := by
        have : m.params.reverse = (m.params.modal && m.params.tracker.reverse) := rfl
        rw [this, hmod] at hr
        exact hr
      exact modalAllTracks_before d m.params.cfg r.state hrev hfs (by
        show (0 : K) < (m.params.hop : K)
        exact_mod_cast hh)
    · exact allTracks_delay d _ _
  cases ha : m.fit spec sort (silence z ++ y) Kwargs.none with
  | error e =>
    cases hb : ({ m with params := m.params.later τ } : Model K).fit spec sort
        (silence (d * m.params.hop) ++ (silence z ++ y)) Kwargs.none with
    | error e' => rw [ha, hb] at h; simpa [Except.map] using h
    | ok r => rw [ha, hb] at h; simp [Except.map] at h
  | ok r =>
    cases hb : ({ m with params := m.params.later τ } : Model K).fit spec sort
        (silence (d * m.params.hop) ++ (silence z ++ y)) Kwargs.none with
    | error e' => rw [ha, hb] at h; simp [Except.map] at h
    | ok r' =>
      rw [ha, hb] at h
      simp only [Except.map, Except.ok.injEq, Prod.mk.injEq] at h
      simp only [Except.map, Except.ok.injEq]
      exact ht r (fit_params spec sort m r _ _ ha).1 r' h.1 h.2

/-- C135: silence after the sound (of a whole number of hops), backward analysis: the analysis fails in the same
cases, and with the same error; the tracks are the same tracks, in the same order, as many frames later in the
direction of the analysis (their times in the sound are the same, see `C135_modes_after`). -/
theorem C135_after (spec : List K → List K × List K) (sort : List (Peak K) → List Nat) (m : Model K)
    (hsil : FlatSilence spec m.params.n) (hr : m.params.reverse = true)
    (hh : 1 ≤ m.params.hop) (h2 : 2 ≤ m.params.w.length) (hn : m.params.w.length ≤ m.params.n)
    (d z : Nat) (hz : EnoughSilence m.params z) (y : List K) :
    (m.fit spec sort (y ++ silence z ++ silence (d * m.params.hop)) Kwargs.none).map
        (fun r => (r.params, r.tracks)) =
      (m.fit spec sort (y ++ silence z) Kwargs.none).map fun r => (r.params, r.tracks.map (Track.delay d)) := by
  have hsr : ∀ k, (silence k : List K).reverse = silence k := by
    intro k; unfold silence; exact List.reverse_replicate
  have hpun : Punctual d m.params.deact m.params.deact := by
    have := punctual_deact d 0 m.params
    rwa [later_zero] at this
  have h := fit_delay spec sort d z m m hsil h2 hn hh hz rfl rfl rfl rfl rfl rfl hpun (y ++ silence z)
    (y ++ silence z ++ silence (d * m.params.hop)) y.reverse (by rw [hr]; simp [hsr]) (by rw [hr]; simp [hsr])
  cases ha : m.fit spec sort (y ++ silence z) Kwargs.none with
  | error e =>
    cases hb : m.fit spec sort (y ++ silence z ++ silence (d * m.params.hop)) Kwargs.none with
    | error e' => rw [ha, hb] at h; simpa [Except.map] using h
    | ok r => rw [ha, hb] at h; simp [Except.map] at h
  | ok r =>
    cases hb : m.fit spec sort (y ++ silence z ++ silence (d * m.params.hop)) Kwargs.none with
    | error e' => rw [ha, hb] at h; simp [Except.map] at h
    | ok r' =>
      rw [ha, hb] at h
      simp only [Except.map, Except.ok.injEq, Prod.mk.injEq] at h
      simp only [Except.map, Except.ok.injEq, Prod.mk.injEq]
      have h1 : r.params = m.params := (fit_params spec sort m r _ _ ha).1
      refine ⟨by rw [h.1, h1], ?_⟩
      unfold Model.tracks
      rw [h1, h.1, h.2]
      have hmod : m.params.modal = true ∧ m.params.tracker.reverse = true := by
        have : m.params.reverse = (m.params.modal && m.params.tracker.reverse) := rfl
        rw [this] at hr
        simpa using hr
      simp only [hmod.1, if_true]
      exact modalAllTracks_after d m.params.cfg r.state hmod.2

/-! ### Cases -/

/-- The object of `C63_end_to_end` with a modal tracker and a limit for onsets. -/
def exLate (reverse : Bool) (strip : Option ℚ) : Model ℚ :=
  ⟨{ exParams with modal := true, tracker := { exModal reverse "average" with freqLo := none, stripT := strip } },
    ⟨[], [], 0⟩, Storage.init false, none⟩

theorem exSpec_flat (n : Nat) : FlatSilence exSpec n := by
  refine ⟨0, fun a ha => ?_⟩
  exact (List.mem_replicate.1 (List.mem_of_mem_take ha)).2

/-- The hypotheses of `C135_before` and `C135_after` hold for this object without any zeros in the sound, because
the hop is half of the window; the track that is found begins at frame 0, and at frame 3 after three hops of
silence (forward, `strip_t` from 0 to 3/5 of a second) and also before two hops of silence (backward). -/
example : (FlatSilence exSpec 8 ∧ EnoughSilence (exLate false (some 0)).params 0 ∧
      EnoughSilence (exLate true (some (1 / 5))).params 0 ∧ (exLate false (some 0)).params.reverse = false ∧
      (exLate true (some (1 / 5))).params.reverse = true ∧ 0 < (exLate false (some 0)).params.tracker.fs) ∧
    ((exLate false (some 0)).fit exSpec exSort [1, 10, 1, 8, 1, 6, 1] Kwargs.none).toOption.map
      (fun m => m.tracks.map fun t => (t.start, t.freq)) =
        some [(0, [some (185 / 152), some (29 / 24), some (105 / 88)])] ∧
    ((⟨(exLate false (some 0)).params.later (3 * 2 / 10), ⟨[], [], 0⟩, Storage.init false, none⟩ : Model ℚ).fit
        exSpec exSort (silence 6 ++ [1, 10, 1, 8, 1, 6, 1]) Kwargs.none).toOption.map
      (fun m => m.tracks.map fun t => (t.start, t.freq)) =
        some [(3, [some (185 / 152), some (29 / 24), some (105 / 88)])] ∧
    ((exLate true (some (1 / 5))).fit exSpec exSort [1, 10, 1, 8, 1, 6, 1] Kwargs.none).toOption.map
      (fun m => m.tracks.map fun t => (t.start, t.freq)) =
        some [(0, [some (105 / 88), some (29 / 24), some (185 / 152)])] ∧
    ((exLate true (some (1 / 5))).fit exSpec exSort ([1, 10, 1, 8, 1, 6, 1] ++ silence 4) Kwargs.none).toOption.map
      (fun m => m.tracks.map fun t => (t.start, t.freq)) =
        some [(2, [some (105 / 88), some (29 / 24), some (185 / 152)])] := by
  refine ⟨⟨exSpec_flat 8, ?_, ?_, rfl, rfl, ?_⟩, ?_⟩
  · show 4 ≤ 0 + 2 + 2; omega
  · show 4 ≤ 0 + 2 + 2; omega
  · decide +kernel
  · refine ⟨?_, ?_, ?_, ?_⟩ <;> decide +kernel

/-- The limit `EnoughSilence` is needed: with a hop of one sample and no zeros in the sound, frames that begin in
the silence already contain some of the sound, and the track begins there. -/
theorem C135_straddling :
    ((exModel false).fit exSpec exSort [1, 2, 3, 4, 5, 6]
      ⟨fun p => { p with hop := 1, padded := false }, none, none⟩).toOption.map
      (fun m => m.tracks.map fun t => (t.start, t.mag.length)) = some [(0, 3)] ∧
    ((exModel false).fit exSpec exSort (silence 2 ++ [1, 2, 3, 4, 5, 6])
      ⟨fun p => { p with hop := 1, padded := false }, none, none⟩).toOption.map
      (fun m => m.tracks.map fun t => (t.start, t.mag.length)) = some [(0, 5)] := by
  decide +kernel

end Verif.Sms
