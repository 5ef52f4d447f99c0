import Verif.Sample.DelayLemmas
import Verif.Sample.RescaleProps
import Verif.Sms.DelayProps

/-!
# C135: the modes of sounds after silence, and before silence
-/

set_option autoImplicit false
set_option linter.unusedSectionVars false
set_option linter.unusedSimpArgs false

namespace Verif.Sample

open Verif.Tracker Verif.Dsp

/-- What `laterAmp` means: the envelope of the delayed mode at `t + T` is the envelope of the mode at `t`. -/
theorem laterAmp_envelope (T t d a : ℝ) (hd : d ≠ 0) :
    ∃ a', laterAmp T (some d) (some a) = some a' ∧
      a' * Real.exp (-2 * (t + T) / d) = a * Real.exp (-2 * t / d) := by
  refine ⟨_, rfl, ?_⟩
  rw [mul_assoc, ← Real.exp_add]
  congr 2
  field_simp
  ring

/-- The number of frames is never negative for a sound with enough silence. -/
theorem timeFrames_total (p : Sms.Params ℝ) (z : Nat) (x : List ℝ) (hh : 1 ≤ p.hop) (hz : Sms.EnoughSilence p z)
    (hx : z ≤ x.length) : ∃ fr, Sms.timeFrames p.padded p.w.length p.hop x = .ok fr := by
  by_cases h : p.padded = true ∨ p.w.length ≤ x.length
  · obtain ⟨fr, h1, _⟩ := Sms.timeFrames_ok p.padded p.w.length p.hop x hh h
    exact ⟨fr, h1⟩
  · have hp : p.padded = false := by
      rcases hpp : p.padded with _ | _
      · rfl
      · exact absurd (Or.inl hpp) h
    have hw : ¬ p.w.length ≤ x.length := fun h' => h (Or.inr h')
    unfold Sms.EnoughSilence at hz
    simp only [hp, Bool.false_eq_true, if_false, Nat.add_zero] at hz
    refine ⟨[], ?_⟩
    rw [hp, (Sms.C19_unpadded x _ _).2]
    exact (Sms.C18_short x _ _).1 hh (by omega) (by omega)

/-- C135: silence of `d` hops before the sound, forward analysis, with `strip_t` later by as much, and a regressor
that follows the delay: `SAMPLE.fit` fails in the same cases, and with the same error; the modes are the same, in
the same order, with the same frequencies and decay times, and with the amplitudes of the same envelopes, later by
the duration of the silence.  Also with a pool, for every schedule. -/
theorem C135_modes_before (spec : List ℝ → List ℝ × List ℝ) (sort : List (Peak ℝ) → List Nat)
    (reg : List ℝ → List (Option ℝ) → Except PyErr (ℝ × ℝ)) (red : List (Option ℝ) → Option ℝ)
    (pool : Bool) (nJobs : Option Int) (evs : List Training.Ev) (m : Sms.Model ℝ)
    (hsil : Sms.FlatSilence spec m.params.n) (hr : m.params.reverse = false) (hfs : 0 < m.params.tracker.fs)
    (hh : 1 ≤ m.params.hop) (h2 : 2 ≤ m.params.w.length) (hn : m.params.w.length ≤ m.params.n)
    (d z : Nat) (hz : Sms.EnoughSilence m.params z) (y : List ℝ)
    (hreg : FollowsDelay ((d : ℝ) * (m.params.hop : ℝ) / m.params.tracker.fs) reg) :
    (fit spec sort reg red pool nJobs evs
        { m with params := m.params.later ((d : ℝ) * (m.params.hop : ℝ) / m.params.tracker.fs) }
        (Sms.silence (d * m.params.hop) ++ (Sms.silence z ++ y))).map (Except.map Prod.snd) =
      (fit spec sort reg red pool nJobs evs m (Sms.silence z ++ y)).map
        (Except.map fun r => delayModes ((d : ℝ) * (m.params.hop : ℝ) / m.params.tracker.fs) r.2) := by
  have hb := Sms.C135_before spec sort m hsil hr hfs hh h2 hn d z hz y
  set T := (d : ℝ) * (m.params.hop : ℝ) / m.params.tracker.fs with hT
  have hcomp : (fit spec sort reg red pool nJobs evs m (Sms.silence z ++ y)).map
        (Except.map fun r => delayModes T r.2) =
      ((fit spec sort reg red pool nJobs evs m (Sms.silence z ++ y)).map (Except.map Prod.snd)).map
        (Except.map (delayModes T)) := by
    rcases fit spec sort reg red pool nJobs evs m (Sms.silence z ++ y) with _ | _ | _ <;> rfl
  cases hj : Training.poolOk pool nJobs with
  | false =>
    rw [hcomp, fit_no_pool _ _ _ _ _ _ hj, fit_no_pool _ _ _ _ _ _ hj]
    rfl
  | true =>
  rw [hcomp, fit_modes _ _ _ _ _ _ hj, fit_modes _ _ _ _ _ _ hj]
  simp only
  have e : Sms.timeFrames (m.params.later T).padded (m.params.later T).w.length (m.params.later T).hop
      (Sms.silence (d * m.params.hop) ++ (Sms.silence z ++ y)) =
      Sms.timeFrames m.params.padded m.params.w.length m.params.hop
        (Sms.silence (d * m.params.hop) ++ (Sms.silence z ++ y)) := rfl
  rw [e, Sms.timeFrames_delay m.params d z y hh hz]
  cases Sms.timeFrames m.params.padded m.params.w.length m.params.hop (Sms.silence z ++ y) with
  | error e => rfl
  | ok fr =>
    simp only [Except.map]
    cases ha : m.fit spec sort (Sms.silence z ++ y) Sms.Kwargs.none with
    | error e =>
      cases hc : ({ m with params := m.params.later T } : Sms.Model ℝ).fit spec sort
          (Sms.silence (d * m.params.hop) ++ (Sms.silence z ++ y)) Sms.Kwargs.none with
      | error e' =>
        rw [ha, hc] at hb
        simp only [Except.map, Except.error.injEq] at hb
        simp [hb, Except.map]
      | ok r => rw [ha, hc] at hb; simp [Except.map] at hb
    | ok r =>
      cases hc : ({ m with params := m.params.later T } : Sms.Model ℝ).fit spec sort
          (Sms.silence (d * m.params.hop) ++ (Sms.silence z ++ y)) Sms.Kwargs.none with
      | error e' => rw [ha, hc] at hb; simp [Except.map] at hb
      | ok r' =>
        rw [ha, hc] at hb
        simp only [Except.map, Except.ok.injEq] at hb
        have p1 : r.params = m.params := (Sms.fit_params spec sort m r _ _ ha).1
        have p2 : r'.params = m.params.later T := (Sms.fit_params spec sort _ r' _ _ hc).1
        simp only
        rw [hb, p1, p2]
        exact modes_before d reg red pool nJobs evs m.params (m.params.later T) rfl hr hreg _ _ r.tracks

/-- C135: silence of `d` hops after the sound, backward analysis, any regressor: `SAMPLE.fit` fails in the same
cases, and with the same error; the modes are exactly the same.  Also with a pool, for every schedule. -/
theorem C135_modes_after (spec : List ℝ → List ℝ × List ℝ) (sort : List (Peak ℝ) → List Nat)
    (reg : List ℝ → List (Option ℝ) → Except PyErr (ℝ × ℝ)) (red : List (Option ℝ) → Option ℝ)
    (pool : Bool) (nJobs : Option Int) (evs : List Training.Ev) (m : Sms.Model ℝ)
    (hsil : Sms.FlatSilence spec m.params.n) (hr : m.params.reverse = true)
    (hh : 1 ≤ m.params.hop) (h2 : 2 ≤ m.params.w.length) (hn : m.params.w.length ≤ m.params.n)
    (d z : Nat) (hz : Sms.EnoughSilence m.params z) (y : List ℝ) :
    (fit spec sort reg red pool nJobs evs m
        (y ++ Sms.silence z ++ Sms.silence (d * m.params.hop))).map (Except.map Prod.snd) =
      (fit spec sort reg red pool nJobs evs m (y ++ Sms.silence z)).map (Except.map Prod.snd) := by
  have hb := Sms.C135_after spec sort m hsil hr hh h2 hn d z hz y
  cases hj : Training.poolOk pool nJobs with
  | false =>
    rw [fit_no_pool _ _ _ _ _ _ hj, fit_no_pool _ _ _ _ _ _ hj]
  | true =>
  rw [fit_modes _ _ _ _ _ _ hj, fit_modes _ _ _ _ _ _ hj]
  obtain ⟨f1, g1⟩ := timeFrames_total m.params z (y ++ Sms.silence z) hh hz (by simp [Sms.silence])
  obtain ⟨f2, g2⟩ := timeFrames_total m.params z (y ++ Sms.silence z ++ Sms.silence (d * m.params.hop)) hh hz
    (by simp [Sms.silence]; omega)
  rw [g1, g2]
  simp only
  rw [hb]
  cases ha : m.fit spec sort (y ++ Sms.silence z) Sms.Kwargs.none with
  | error e => rfl
  | ok r =>
    have p1 : r.params = m.params := (Sms.fit_params spec sort m r _ _ ha).1
    simp only [Except.map]
    have hl : (y ++ Sms.silence z ++ Sms.silence (d * m.params.hop)).length =
        (y ++ Sms.silence z).length + d * r.params.hop := by
      rw [List.length_append, p1]; simp [Sms.silence]
    rw [hl]
    exact modes_after d reg red pool nJobs evs r.params (by rw [p1]; exact hr) _ r.tracks

/-! ### Cases -/

/-- Linear regression follows every delay. -/
theorem exLine_delay (T : ℝ) : FollowsDelay T exLine := by
  intro ts mag
  unfold exLine
  rcases allSome mag with _ | _ | ⟨y, ys⟩
  · rfl
  · rfl
  · simp only [List.length_map]
    split
    · rename_i hl
      have hne : ts ≠ [] := by intro h0; simp [h0] at hl
      have hf : ts.map (· + T) = ts.map (fun x => 1 * x + T) := by
        apply List.map_congr_left; intro x _; ring
      have hg : (y :: ys) = (y :: ys).map (· + (0 : ℝ)) := by simp
      have hs : olsSlope (ts.map (· + T)) (y :: ys) = olsSlope ts (y :: ys) := by
        have := olsSlope_affine 1 T 0 one_ne_zero ts (y :: ys) hne (by simp)
        rw [← hf, ← hg] at this
        rw [this, div_one]
      have hmt : Tracker.mean (ts.map (· + T)) = Tracker.mean ts + T := mean_add T ts hne
      have hi : olsIntercept (ts.map (· + T)) (y :: ys) =
          olsIntercept ts (y :: ys) - olsSlope ts (y :: ys) * T := by
        unfold olsIntercept
        rw [hs, hmt]
        ring
      simp only [Except.map, hs, hi]
    · rfl

/-- The sound of the example in `Sms/RescaleProps.lean` after three hops of silence, with linear regression, for
every schedule of the pool. -/
example (tol : ℝ) (evs : List Training.Ev) :
    (fit (Sms.spectrum tol) Sms.exLoudest exLine npMean true none evs
        ⟨Sms.exGainParams.later ((3 : Nat) * (Sms.exGainParams.hop : ℝ) / Sms.exGainParams.tracker.fs), ⟨[], [], 0⟩,
          Learn.Storage.init false, none⟩
        (Sms.silence (3 * Sms.exGainParams.hop) ++ (Sms.silence 0 ++ [2, 1, -1, -1, 2, 1, -1, -1]))).map
          (Except.map Prod.snd) =
      (fit (Sms.spectrum tol) Sms.exLoudest exLine npMean true none evs
        ⟨Sms.exGainParams, ⟨[], [], 0⟩, Learn.Storage.init false, none⟩
        (Sms.silence 0 ++ [2, 1, -1, -1, 2, 1, -1, -1])).map (Except.map fun r =>
          delayModes ((3 : Nat) * (Sms.exGainParams.hop : ℝ) / Sms.exGainParams.tracker.fs) r.2) :=
  C135_modes_before (Sms.spectrum tol) Sms.exLoudest exLine npMean true none evs
    ⟨Sms.exGainParams, ⟨[], [], 0⟩, Learn.Storage.init false, none⟩ (Sms.flatSilence_spectrum tol _) rfl
    (by simp [Sms.exGainParams]) (by simp [Sms.exGainParams]) (by simp [Sms.exGainParams])
    (by simp [Sms.exGainParams]) 3 0 (by simp [Sms.EnoughSilence, Sms.exGainParams]) _ (exLine_delay _)

/-- The same analysis backward, with a modal tracker. -/
noncomputable def exBackward : Sms.Params ℝ :=
  { Sms.exGainParams with modal := true, tracker := { Sms.exGainParams.tracker with reverse := true } }

/-- The sound before three hops of silence, backward, with the default regressor. -/
example (tol : ℝ) (evs : List Training.Ev) :
    (fit (Sms.spectrum tol) Sms.exLoudest (hingeRegressor fun _ x0 _ _ => .ok x0) npMean true none evs
        ⟨exBackward, ⟨[], [], 0⟩, Learn.Storage.init false, none⟩
        ([2, 1, -1, -1, 2, 1, -1, -1] ++ Sms.silence 0 ++ Sms.silence (3 * exBackward.hop))).map
          (Except.map Prod.snd) =
      (fit (Sms.spectrum tol) Sms.exLoudest (hingeRegressor fun _ x0 _ _ => .ok x0) npMean true none evs
        ⟨exBackward, ⟨[], [], 0⟩, Learn.Storage.init false, none⟩
        ([2, 1, -1, -1, 2, 1, -1, -1] ++ Sms.silence 0)).map (Except.map Prod.snd) :=
  C135_modes_after (Sms.spectrum tol) Sms.exLoudest (hingeRegressor fun _ x0 _ _ => .ok x0) npMean true none evs
    ⟨exBackward, ⟨[], [], 0⟩, Learn.Storage.init false, none⟩ (Sms.flatSilence_spectrum tol _) rfl
    (by simp [exBackward, Sms.exGainParams]) (by simp [exBackward, Sms.exGainParams])
    (by simp [exBackward, Sms.exGainParams]) 3 0 (by simp [Sms.EnoughSilence, exBackward, Sms.exGainParams]) _

end Verif.Sample
