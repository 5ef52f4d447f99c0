import Verif.Sample.RescaleLemmas
import Verif.Sms.RescaleProps

/-!
# C134: the modes of `SAMPLE.fit` in other units, and of a louder sound
-/

set_option autoImplicit false
set_option linter.unusedSectionVars false
set_option linter.unusedSimpArgs false

namespace Verif.Sample

open Verif.Tracker Verif.Dsp

theorem unitFactor_one (r : Nat) : unitFactor 1 1 r = 1 := by
  match r with
  | 0 => rfl
  | 1 => simp [unitFactor]
  | _ + 2 => rfl

theorem inUnits_one (rows : List (List (Option ℝ))) : inUnits 1 1 rows = rows := by
  unfold inUnits
  apply List.ext_getElem?
  intro i
  rw [List.getElem?_mapIdx]
  cases rows[i]? with
  | none => rfl
  | some row => simp [unitFactor_one, Option.map_id']

theorem followsUnits_one (reg : List ℝ → List (Option ℝ) → Except PyErr (ℝ × ℝ)) : FollowsUnits 1 0 reg := by
  intro ts mag
  have h1 : ts.map (· / (1 : ℝ)) = ts := by simp
  rw [h1, Sms.map_add_zero]
  cases reg ts mag <;> simp [Except.map]

theorem homogeneous_one (red : List (Option ℝ) → Option ℝ) : Homogeneous 1 red := by
  intro l
  rw [Sms.map_one_mul]
  cases red l <;> simp

/-- The default reduction follows every change of units. -/
theorem homogeneous_npMean (c : ℝ) : Homogeneous c npMean := by
  have h : ∀ l : List (Option ℝ), allSome (l.map (Option.map (c * ·))) = (allSome l).map (List.map (c * ·)) := by
    intro l
    induction l with
    | nil => rfl
    | cons a l ih =>
      cases a with
      | none => rfl
      | some a =>
        simp only [List.map_cons, Option.map_some, allSome, ih]
        cases allSome l <;> rfl
  intro l
  unfold npMean
  rw [h]
  rcases allSome l with _ | _ | ⟨a, as⟩
  · rfl
  · rfl
  · have := mean_mul c (a :: as)
    rw [List.map_cons] at this
    simp only [Option.map_some, List.map_cons, this]

/-- The same samples at `c` times the sampling frequency, with all frequencies of the parameters multiplied by
`c` and all times divided by `c`: `SAMPLE.fit` fails in the same cases, and with the same error; the modes are
the same, in the same order, at `c` times the frequencies, with decay times divided by `c` and with the same
amplitudes.  Also with a pool, for every schedule. -/
theorem C134_modes_rate (spec : List ℝ → List ℝ × List ℝ) (sort : List (Peak ℝ) → List Nat)
    (hs : Sms.LevelsOnly sort) (c : ℝ) (hc : 0 < c)
    (reg : List ℝ → List (Option ℝ) → Except PyErr (ℝ × ℝ)) (hreg : FollowsUnits c 0 reg)
    (red : List (Option ℝ) → Option ℝ) (hred : Homogeneous c red)
    (pool : Bool) (nJobs : Option Int) (evs : List Training.Ev) (m : Sms.Model ℝ) (x : List ℝ) :
    (fit spec sort reg red pool nJobs evs (m.rate c) x).map (Except.map Prod.snd) =
      (fit spec sort reg red pool nJobs evs m x).map (Except.map fun r => inUnits c 1 r.2) := by
  have hcomp : (fit spec sort reg red pool nJobs evs m x).map (Except.map fun r => inUnits c 1 r.2) =
      ((fit spec sort reg red pool nJobs evs m x).map (Except.map Prod.snd)).map (Except.map (inUnits c 1)) := by
    rcases fit spec sort reg red pool nJobs evs m x with _ | _ | _ <;> rfl
  cases hj : Training.poolOk pool nJobs with
  | false =>
    rw [hcomp, fit_no_pool _ _ _ _ _ _ hj, fit_no_pool _ _ _ _ _ _ hj]
    rfl
  | true =>
  rw [hcomp, fit_modes _ _ _ _ _ _ hj, fit_modes _ _ _ _ _ _ hj]
  have hdb : db2a 0 = 1 := by simp [db2a]
  obtain ⟨h1, h2⟩ := Sms.fit_rate spec sort hs c hc m x
  have e : Sms.timeFrames (m.rate c).params.padded (m.rate c).params.w.length (m.rate c).params.hop x =
    Sms.timeFrames m.params.padded m.params.w.length m.params.hop x := rfl
  rw [e, h1]
  cases Sms.timeFrames m.params.padded m.params.w.length m.params.hop x with
  | error e => rfl
  | ok fr =>
    cases hm : m.fit spec sort x Sms.Kwargs.none with
    | error e => rfl
    | ok m' =>
      simp only [Except.map]
      rw [Sms.tracks_rescale c 0 id hc m' (m'.rate c) rfl rfl rfl (h2 m' hm).1]
      have := modes_rescale c 0 id hc reg hreg red hred pool nJobs evs m'.params (m'.rate c).params rfl rfl rfl rfl
        rfl x.length m'.tracks
      rw [hdb] at this
      exact this

/-- A sound times `g`, analysed with both thresholds for levels raised by the gain in dB: `SAMPLE.fit` fails in
the same cases, and with the same error; the modes are the same, in the same order, with the same frequencies
and decay times, and with `|g|` times the amplitudes.  Also with a pool, for every schedule. -/
theorem C134_modes_gain (tol g : ℝ) (hg : g ≠ 0) (sort : List (Peak ℝ) → List Nat)
    (hs : Sms.LevelsShift (20 * Real.logb 10 |g|) sort)
    (reg : List ℝ → List (Option ℝ) → Except PyErr (ℝ × ℝ)) (hreg : FollowsUnits 1 (20 * Real.logb 10 |g|) reg)
    (red : List (Option ℝ) → Option ℝ)
    (pool : Bool) (nJobs : Option Int) (evs : List Training.Ev) (m : Sms.Model ℝ) (x : List ℝ)
    (h2 : 2 ≤ m.params.w.length) (hn : m.params.w.length ≤ m.params.n)
    (ht : 20 * Real.logb 10 Sms.floatEps ≤ m.params.t)
    (ht' : 20 * Real.logb 10 Sms.floatEps ≤ m.params.t + 20 * Real.logb 10 |g|)
    (hh : ∀ frames, Sms.timeFrames m.params.padded m.params.w.length m.params.hop
        (if m.params.reverse then x.reverse else x) = .ok frames →
      ∀ f ∈ frames, Sms.NeighboursHeard g m.params.t f (m.params.w.map fun a => a / m.params.w.sum) m.params.n) :
    (fit (Sms.spectrum tol) sort reg red pool nJobs evs
        { m with params := m.params.louder (20 * Real.logb 10 |g|) } (x.map (g * ·))).map (Except.map Prod.snd) =
      (fit (Sms.spectrum tol) sort reg red pool nJobs evs m x).map (Except.map fun r => inUnits 1 |g| r.2) := by
  have hcomp : (fit (Sms.spectrum tol) sort reg red pool nJobs evs m x).map (Except.map fun r => inUnits 1 |g| r.2) =
      ((fit (Sms.spectrum tol) sort reg red pool nJobs evs m x).map (Except.map Prod.snd)).map
        (Except.map (inUnits 1 |g|)) := by
    rcases fit (Sms.spectrum tol) sort reg red pool nJobs evs m x with _ | _ | _ <;> rfl
  cases hj : Training.poolOk pool nJobs with
  | false =>
    rw [hcomp, fit_no_pool _ _ _ _ _ _ hj, fit_no_pool _ _ _ _ _ _ hj]
    rfl
  | true =>
  rw [hcomp, fit_modes _ _ _ _ _ _ hj, fit_modes _ _ _ _ _ _ hj]
  have h := Sms.fit_gain tol g hg sort hs m x h2 hn ht ht' hh
  have hdb := db2a_gain g hg
  set G := 20 * Real.logb 10 |g| with hG
  have e : Sms.timeFrames (m.params.louder G).padded (m.params.louder G).w.length (m.params.louder G).hop
      (x.map (g * ·)) = (Sms.timeFrames m.params.padded m.params.w.length m.params.hop x).map
        (List.map (List.map (g * ·))) := Sms.timeFrames_gain g _ _ _ x
  simp only
  rw [e]
  cases Sms.timeFrames m.params.padded m.params.w.length m.params.hop x with
  | error e => rfl
  | ok fr =>
    simp only [Except.map] at h ⊢
    cases hm : m.fit (Sms.spectrum tol) sort x Sms.Kwargs.none with
    | error e =>
      cases hm' : ({ m with params := m.params.louder G } : Sms.Model ℝ).fit (Sms.spectrum tol) sort (x.map (g * ·))
          Sms.Kwargs.none with
      | error e' =>
        rw [hm, hm'] at h
        simp only [Except.error.injEq] at h
        simp [h, Except.map]
      | ok m1 => rw [hm, hm'] at h; simp at h
    | ok m0 =>
      cases hm' : ({ m with params := m.params.louder G } : Sms.Model ℝ).fit (Sms.spectrum tol) sort (x.map (g * ·))
          Sms.Kwargs.none with
      | error e' => rw [hm, hm'] at h; simp at h
      | ok m1 =>
        rw [hm, hm'] at h
        simp only [Except.ok.injEq, Prod.mk.injEq] at h
        obtain ⟨hp, htr⟩ := h
        simp only [List.length_map]
        have r1 := modes_rescale 1 G (fun _ => 0) one_pos reg hreg red (homogeneous_one red) pool nJobs evs m0.params
          (m0.params.louder G) (one_mul _).symm rfl rfl rfl rfl x.length m0.tracks
        have r2 := modes_rescale 1 0 (fun _ => 0) one_pos reg (followsUnits_one reg) red (homogeneous_one red) pool
          nJobs evs m1.params m1.params (one_mul _).symm rfl rfl rfl rfl x.length m1.tracks
        have hid : db2a 0 = 1 := by simp [db2a]
        have hinv : (inUnits 1 1) = id := by funext rows; exact inUnits_one rows
        rw [hdb] at r1
        rw [hid, hinv, htr, hp, r1] at r2
        rw [hp]
        have hlast : (modes reg red pool nJobs evs (m0.params.louder G) x.length m1.tracks).map
            (Except.map (id : List (List (Option ℝ)) → _)) =
            modes reg red pool nJobs evs (m0.params.louder G) x.length m1.tracks := by
          rcases modes reg red pool nJobs evs (m0.params.louder G) x.length m1.tracks with _ | _ | _ <;> rfl
        rw [hlast] at r2
        exact r2.symm

/-- The default regressor follows a gain if the search of `scipy.optimize.least_squares` does. -/
theorem hingeRegressor_follows (G : ℝ) (solve : (Hinge.Coeffs ℝ → List ℝ) → Hinge.Coeffs ℝ → Hinge.Coeffs ℝ →
      Hinge.Coeffs ℝ → Except PyErr (Hinge.Coeffs ℝ)) (hsolve : SolverShift G solve) :
    FollowsUnits 1 G (hingeRegressor solve) := by
  intro ts mag
  have h1 : ts.map (· / (1 : ℝ)) = ts := by simp
  rw [h1]
  unfold hingeRegressor
  rw [allSome_shift]
  rcases allSome mag with _ | y
  · rfl
  · simp only [Option.map_some]
    rw [hinge_fit_shift G solve hsolve ts y]
    cases Hinge.fit linearRegression Hinge.defaultCoeffsInit Hinge.defaultBounds solve ts y with
    | error e => rfl
    | ok r => simp [Except.map, raise]

/-- `C134_modes_gain` with the default regressor. -/
theorem C134_modes_gain_default (tol g : ℝ) (hg : g ≠ 0) (sort : List (Peak ℝ) → List Nat)
    (hs : Sms.LevelsShift (20 * Real.logb 10 |g|) sort)
    (solve : (Hinge.Coeffs ℝ → List ℝ) → Hinge.Coeffs ℝ → Hinge.Coeffs ℝ → Hinge.Coeffs ℝ →
      Except PyErr (Hinge.Coeffs ℝ)) (hsolve : SolverShift (20 * Real.logb 10 |g|) solve)
    (pool : Bool) (nJobs : Option Int) (evs : List Training.Ev) (m : Sms.Model ℝ) (x : List ℝ)
    (h2 : 2 ≤ m.params.w.length) (hn : m.params.w.length ≤ m.params.n)
    (ht : 20 * Real.logb 10 Sms.floatEps ≤ m.params.t)
    (ht' : 20 * Real.logb 10 Sms.floatEps ≤ m.params.t + 20 * Real.logb 10 |g|)
    (hh : ∀ frames, Sms.timeFrames m.params.padded m.params.w.length m.params.hop
        (if m.params.reverse then x.reverse else x) = .ok frames →
      ∀ f ∈ frames, Sms.NeighboursHeard g m.params.t f (m.params.w.map fun a => a / m.params.w.sum) m.params.n) :
    (fit (Sms.spectrum tol) sort (hingeRegressor solve) npMean pool nJobs evs
        { m with params := m.params.louder (20 * Real.logb 10 |g|) } (x.map (g * ·))).map (Except.map Prod.snd) =
      (fit (Sms.spectrum tol) sort (hingeRegressor solve) npMean pool nJobs evs m x).map
        (Except.map fun r => inUnits 1 |g| r.2) :=
  C134_modes_gain tol g hg sort hs (hingeRegressor solve) (hingeRegressor_follows _ solve hsolve) npMean pool nJobs
    evs m x h2 hn ht ht' hh

/-- A search that follows every gain: it stays at the starting point. -/
theorem solverShift_start (G : ℝ) : SolverShift G fun _ x0 _ _ => .ok x0 := by
  intro f f' x0 lo hi _
  rfl

/-! ### A case -/

/-- Linear regression, with the input checks of scikit-learn. -/
noncomputable def exLine (ts : List ℝ) (mag : List (Option ℝ)) : Except PyErr (ℝ × ℝ) :=
  match allSome mag with
  | none => .error .valueError
  | some [] => .error .valueError
  | some (y :: ys) =>
    if ts.length = (y :: ys).length then .ok (olsSlope ts (y :: ys), olsIntercept ts (y :: ys))
    else .error .valueError

/-- It follows every change of units. -/
theorem exLine_follows (c G : ℝ) (hc : 0 < c) : FollowsUnits c G exLine := by
  intro ts mag
  unfold exLine
  rw [allSome_shift]
  rcases allSome mag with _ | _ | ⟨y, ys⟩
  · rfl
  · rfl
  · simp only [Option.map_some, List.map_cons, List.length_cons, List.length_map]
    split
    · rename_i hl
      have hne : ts ≠ [] := by intro h0; simp [h0] at hl
      have hf : ts.map (· / c) = ts.map (fun x => (1 / c) * x + 0) := by
        apply List.map_congr_left; intro x _; ring
      have hs : olsSlope (ts.map (· / c)) ((y :: ys).map (· + G)) = c * olsSlope ts (y :: ys) := by
        rw [hf, olsSlope_affine (1 / c) 0 G (by positivity) ts (y :: ys) hne (by simp)]
        field_simp
      have hmt : Tracker.mean (ts.map (· / c)) = Tracker.mean ts / c := by
        rw [hf, mean_map_affine (1 / c) 0 ts hne]; ring
      have hi : olsIntercept (ts.map (· / c)) ((y :: ys).map (· + G)) = olsIntercept ts (y :: ys) + G := by
        unfold olsIntercept
        rw [hs, mean_add G _ (by simp), hmt]
        field_simp
        ring
      rw [List.map_cons] at hs hi
      simp only [Except.map, hs, hi]
    · rfl

/-- The sound of the example in `Sms/RescaleProps.lean`, inverted and twice as loud: modes with twice the
amplitude, for every schedule of the pool. -/
example (tol : ℝ) (evs : List Training.Ev) :
    (fit (Sms.spectrum tol) Sms.exLoudest exLine npMean true none evs
        ⟨Sms.exGainParams.louder (20 * Real.logb 10 |-2|), ⟨[], [], 0⟩, Learn.Storage.init false, none⟩
        ([2, 1, -1, -1, 2, 1, -1, -1].map ((-2) * ·))).map (Except.map Prod.snd) =
      (fit (Sms.spectrum tol) Sms.exLoudest exLine npMean true none evs
        ⟨Sms.exGainParams, ⟨[], [], 0⟩, Learn.Storage.init false, none⟩
        [2, 1, -1, -1, 2, 1, -1, -1]).map (Except.map fun r => inUnits 1 |-2| r.2) := by
  have hG : 0 ≤ Real.logb 10 |(-2 : ℝ)| := Real.logb_nonneg (by norm_num) (by norm_num)
  have h0 := Sms.floatEps_db
  exact C134_modes_gain tol (-2) (by norm_num) Sms.exLoudest (Sms.exLoudest_shift _) exLine
    (exLine_follows 1 _ one_pos) npMean true none evs
    ⟨Sms.exGainParams, ⟨[], [], 0⟩, Learn.Storage.init false, none⟩ _
    (by simp [Sms.exGainParams]) (by simp [Sms.exGainParams]) h0
    (by show _ ≤ (-90 : ℝ) + _; linarith) Sms.exGain_heard

/-- The same with the default regressor. -/
example (tol : ℝ) (evs : List Training.Ev) :
    (fit (Sms.spectrum tol) Sms.exLoudest (hingeRegressor fun _ x0 _ _ => .ok x0) npMean true none evs
        ⟨Sms.exGainParams.louder (20 * Real.logb 10 |-2|), ⟨[], [], 0⟩, Learn.Storage.init false, none⟩
        ([2, 1, -1, -1, 2, 1, -1, -1].map ((-2) * ·))).map (Except.map Prod.snd) =
      (fit (Sms.spectrum tol) Sms.exLoudest (hingeRegressor fun _ x0 _ _ => .ok x0) npMean true none evs
        ⟨Sms.exGainParams, ⟨[], [], 0⟩, Learn.Storage.init false, none⟩
        [2, 1, -1, -1, 2, 1, -1, -1]).map (Except.map fun r => inUnits 1 |-2| r.2) := by
  have hG : 0 ≤ Real.logb 10 |(-2 : ℝ)| := Real.logb_nonneg (by norm_num) (by norm_num)
  exact C134_modes_gain_default tol (-2) (by norm_num) Sms.exLoudest (Sms.exLoudest_shift _) _
    (solverShift_start _) true none evs
    ⟨Sms.exGainParams, ⟨[], [], 0⟩, Learn.Storage.init false, none⟩ _
    (by simp [Sms.exGainParams]) (by simp [Sms.exGainParams]) Sms.floatEps_db
    (by have := Sms.floatEps_db; show _ ≤ (-90 : ℝ) + _; linarith) Sms.exGain_heard

/-- The same sound at ten times the sampling frequency. -/
example (tol : ℝ) :
    (fit (Sms.spectrum tol) Sms.exLoudest exLine npMean false (some 0) []
        (Sms.Model.rate 10 ⟨Sms.exGainParams, ⟨[], [], 0⟩, Learn.Storage.init false, none⟩)
        [2, 1, -1, -1, 2, 1, -1, -1]).map (Except.map Prod.snd) =
      (fit (Sms.spectrum tol) Sms.exLoudest exLine npMean false (some 0) []
        ⟨Sms.exGainParams, ⟨[], [], 0⟩, Learn.Storage.init false, none⟩
        [2, 1, -1, -1, 2, 1, -1, -1]).map (Except.map fun r => inUnits 10 1 r.2) :=
  C134_modes_rate (Sms.spectrum tol) Sms.exLoudest (Sms.exLoudest_shift_zero (Sms.exLoudest_shift 0)) 10 (by norm_num) exLine (exLine_follows 10 0 (by norm_num))
    npMean (homogeneous_npMean 10) false (some 0) [] _ _

end Verif.Sample
