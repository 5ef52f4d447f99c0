import Verif.Sample.FitModel
import Verif.Sample.RescaleSpec
import Verif.Sample.FitLemmas
import Verif.Sms.GainLemmas

/-!
# Lemmas for C134: the modes
-/

set_option autoImplicit false
set_option linter.unusedSectionVars false
set_option linter.unusedSimpArgs false

namespace Verif.Sample

open Verif.Tracker Verif.Dsp

/-! ## Mapping over tasks -/

theorem starmapList_natural {α α' β β' : Type*} (h : α → α') (φ : β → β') (f : α → Except PyErr β)
    (f' : α' → Except PyErr β') (hf : ∀ a, f' (h a) = (f a).map φ) : ∀ tasks : List α,
    Training.starmapList f' (tasks.map h) = (Training.starmapList f tasks).map (List.map φ) := by
  intro tasks
  induction tasks with
  | nil => rfl
  | cons a as ih =>
    simp only [List.map_cons, Training.starmapList, hf, ih]
    cases f a with
    | error e => rfl
    | ok b => cases Training.starmapList f as <;> rfl

theorem collect_natural {β β' : Type*} (φ : β → β') : ∀ l : List (Option (Except PyErr β)),
    Training.collect (l.map (Option.map (Except.map φ))) =
      (Training.collect l).map (Except.map (List.map φ)) := by
  intro l
  induction l with
  | nil => rfl
  | cons a l ih =>
    match a with
    | none => rfl
    | some (.error e) => rfl
    | some (.ok b) =>
      simp only [List.map_cons, Option.map_some, Except.map, Training.collect]
      have ih' : Training.collect (l.map (Option.map (Except.map φ))) =
        (Training.collect l).map (Except.map (List.map φ)) := ih
      rw [ih']
      rcases Training.collect l with _ | _ | _ <;> rfl

theorem run_natural {α α' β β' : Type*} (h : α → α') (φ : β → β') (f : α → Except PyErr β)
    (f' : α' → Except PyErr β') (hf : ∀ a, f' (h a) = (f a).map φ) (tasks : List α) (evs : List Training.Ev) :
    (Training.PState.run f' (tasks.map h) evs).slots =
      (Training.PState.run f tasks evs).slots.map (Option.map (Except.map φ)) ∧
    (Training.PState.run f' (tasks.map h) evs).notReady = (Training.PState.run f tasks evs).notReady := by
  have key : ∀ (evs : List Training.Ev) (s : Training.PState β) (s' : Training.PState β'),
      s'.slots = s.slots.map (Option.map (Except.map φ)) → s'.notReady = s.notReady →
      (evs.foldl (Training.PState.step f' (tasks.map h)) s').slots =
        (evs.foldl (Training.PState.step f tasks) s).slots.map (Option.map (Except.map φ)) ∧
      (evs.foldl (Training.PState.step f' (tasks.map h)) s').notReady =
        (evs.foldl (Training.PState.step f tasks) s).notReady := by
    intro evs
    induction evs with
    | nil => intro s s' h1 h2; exact ⟨h1, h2⟩
    | cons e evs ih =>
      intro s s' h1 h2
      apply ih
      · cases e with
        | finish i =>
          simp only [Training.PState.step, List.getElem?_map]
          cases tasks[i]? with
          | none => exact h1
          | some a => simp only [Option.map_some, h1, hf, List.map_set]
        | poll =>
          simp only [Training.PState.step, h2]
          cases s.notReady <;> exact h1
      · cases e with
        | finish i =>
          simp only [Training.PState.step, List.getElem?_map]
          cases tasks[i]? <;> exact h2
        | poll =>
          simp only [Training.PState.step, h2]
          cases hn : s.notReady with
          | nil => simpa [hn] using h2
          | cons a l =>
            simp only
            apply List.filter_congr
            intro i _
            rw [h1, List.getElem?_map]
            rcases s.slots[i]? with _ | _ | _ <;> rfl
  exact key evs _ _ (by simp [Training.PState.start]) (by simp [Training.PState.start])

theorem contextMap_natural {α α' β β' : Type*} (h : α → α') (φ : β → β') (f : α → Except PyErr β)
    (f' : α' → Except PyErr β') (hf : ∀ a, f' (h a) = (f a).map φ) (pool : Bool) (nJobs : Option Int)
    (tasks : List α) (evs : List Training.Ev) :
    Training.contextMap pool nJobs f' (tasks.map h) evs =
      (Training.contextMap pool nJobs f tasks evs).map (Except.map (List.map φ)) := by
  unfold Training.contextMap
  cases Training.poolOk pool nJobs with
  | false => rfl
  | true =>
  simp only [if_true]
  cases Training.contextStarmap pool nJobs with
  | sequential => simp only [starmapList_natural h φ f f' hf, Option.map_some]
  | pool =>
    obtain ⟨r1, r2⟩ := run_natural h φ f f' hf tasks evs
    simp only [Training.progressStarmap, r1, r2, collect_natural]
    split <;> rfl

/-! ## The parameter matrix -/

theorem mask_natural {α β : Type*} (f : α → β) (v : List α) (m : List Bool) :
    mask (v.map f) m = (mask v m).map (List.map f) := by
  unfold mask
  rw [List.length_map]
  split
  · simp only [Except.map, Except.ok.injEq]
    rw [List.zip_map_left, List.filterMap_map, List.map_filterMap]
    congr 1
    funext e
    simp only [Function.comp, Prod.map, id]
    split <;> rfl
  · rfl

theorem filterItem_natural {α β : Type*} (f : α → β) (v : List α) (m : List Bool) :
    filterItem (v.map f) m = (filterItem v m).map (List.map f) := by
  unfold filterItem
  rw [List.length_map, mask_natural]
  split <;> rfl

theorem maskColumns_natural {α : Type*} (flags : List Bool) : ∀ (rows : List (List α)) (f : Nat → α → α),
    maskColumns flags (rows.mapIdx fun r row => row.map (f r)) =
      (maskColumns flags rows).map (fun rows => rows.mapIdx fun r row => row.map (f r)) := by
  intro rows
  induction rows with
  | nil => intro f; rfl
  | cons a rows ih =>
    intro f
    rw [List.mapIdx_cons]
    simp only [maskColumns, mask_natural]
    cases mask a flags with
    | error e => rfl
    | ok r' =>
      simp only [Except.map]
      have := ih (fun r => f (r + 1))
      rw [this]
      cases maskColumns flags rows with
      | error e => rfl
      | ok rs => simp [Except.map, List.mapIdx_cons]

theorem stack_natural {α : Type*} (n : Nat) (f : Nat → α → α) (params : List (List α)) :
    stack n (params.map fun p => p.mapIdx f) =
      (stack n params).map (fun rows => rows.mapIdx fun r row => row.map (f r)) := by
  unfold stack
  have h : (params.map fun p => p.mapIdx f).all (fun p => decide (p.length = n)) =
      params.all (fun p => decide (p.length = n)) := by
    rw [List.all_map]; congr 1; funext p; simp
  rw [h]
  split
  · simp only [Except.map, Except.ok.injEq]
    apply List.ext_getElem?
    intro r
    rw [List.getElem?_mapIdx, List.getElem?_map, List.getElem?_map]
    rcases hr : (List.range n)[r]? with _ | k
    · rfl
    · have hk : k = r := by
        have := List.getElem?_eq_some_iff.1 hr
        obtain ⟨_, e⟩ := this
        simpa using e.symm
      subst hk
      simp only [Option.map_some, Option.some.injEq]
      rw [List.filterMap_map, List.map_filterMap]
      congr 1
      funext p
      simp [List.getElem?_mapIdx]
  · rfl

theorem validParams_natural {α : Type*} (f : Nat → α → α) (rows : List (List (Option α))) :
    validParams (rows.mapIdx fun r row => row.map (Option.map (f r))) = validParams rows := by
  have hc : ncols (rows.mapIdx fun r row => row.map (Option.map (f r))) = ncols rows := by
    cases rows with
    | nil => rfl
    | cons a l => simp [ncols, List.mapIdx_cons]
  unfold validParams
  rw [hc]
  apply List.map_congr_left
  intro j hj
  clear hc hj
  induction rows generalizing f with
  | nil => rfl
  | cons a l ih =>
    rw [List.mapIdx_cons, List.all_cons, List.all_cons]
    have := ih (fun r => f (r + 1))
    rw [this]
    congr 1
    rw [List.getElem?_map]
    rcases a[j]? with _ | _ | _ <;> rfl

theorem cleanParams_natural {α : Type*} (n : Nat) (f : Nat → α → α) (params : List (List (Option α))) :
    cleanParams n (params.map fun p => p.mapIdx fun r => Option.map (f r)) =
      (cleanParams n params).map (fun rows => rows.mapIdx fun r row => row.map (Option.map (f r))) := by
  cases params with
  | nil =>
    have e : (List.replicate n ([] : List (Option α))) =
        (List.replicate n ([] : List (Option α))).mapIdx fun r row => row.map (Option.map (f r)) := by
      apply List.ext_getElem?
      intro r
      rw [List.getElem?_mapIdx]
      simp only [List.getElem?_replicate]
      split <;> rfl
    have := maskColumns_natural (validParams (List.replicate n ([] : List (Option α))))
      (List.replicate n ([] : List (Option α))) (fun r => Option.map (f r))
    rw [← e] at this
    exact this
  | cons p ps =>
    have hs := stack_natural n (fun r => Option.map (f r)) (p :: ps)
    rw [List.map_cons] at hs ⊢
    simp only [cleanParams]
    rw [hs]
    cases stack n (p :: ps) with
    | error e => rfl
    | ok m =>
      simp only [Except.map]
      rw [validParams_natural]
      exact maskColumns_natural _ _ _

/-! ## One track -/

/-- One column of the parameter matrix in other units. -/
noncomputable def colUnits (c a : ℝ) (col : List (Option ℝ)) : List (Option ℝ) :=
  col.mapIdx fun r => Option.map (unitFactor c a r * ·)

theorem frameTime_rescale (c : ℝ) (hc : 0 < c) (a a' : Analysis ℝ) (hfs : a'.fs = c * a.fs) (hh : a'.h = a.h)
    (hw : a'.wsize = a.wsize) (hp : a'.padded = a.padded) (hr : a'.reverse = a.reverse) (n start i : Nat) :
    frameTime a' n start i = frameTime a n start i / c := by
  unfold frameTime
  rw [hfs, hh, hw, hp, hr]
  have e1 : ∀ u : ℝ, u / (c * a.fs / a.h) = u / (a.fs / a.h) / c := by
    intro u
    rw [mul_div_assoc, mul_comm, ← div_div]
  have e2 : ∀ u : ℝ, u / (c * a.fs) = u / a.fs / c := by
    intro u
    rw [mul_comm, ← div_div]
  simp only [e1, e2]
  cases a.padded <;> cases a.reverse <;> simp [sub_div, add_div]

theorem preprocessTrack_rescale (c G : ℝ) (ψ : ℝ → ℝ) (hc : 0 < c) (a a' : Analysis ℝ) (hfs : a'.fs = c * a.fs)
    (hh : a'.h = a.h) (hw : a'.wsize = a.wsize) (hp : a'.padded = a.padded) (hr : a'.reverse = a.reverse)
    (hd : a'.doubleDb = a.doubleDb) (n : Nat) (t : Track ℝ) :
    preprocessTrack a' n (t.rescale c G ψ) = (preprocessTrack a n t).map (fun r =>
      ⟨r.time.map (· / c), r.freq.map (Option.map (c * ·)), r.mag.map (Option.map (· + G)),
        r.phase.map (Option.map ψ)⟩) := by
  have hm : (t.rescale c G ψ).mag.map Option.isSome = t.mag.map Option.isSome := by
    simp only [Track.rescale, List.map_map]
    apply List.map_congr_left
    intro v _
    cases v <;> rfl
  have hl : (t.rescale c G ψ).mag.length = t.mag.length := by simp [Track.rescale]
  unfold preprocessTrack
  simp only [hm, hl]
  cases mask (List.range t.mag.length) (t.mag.map Option.isSome) with
  | error e => rfl
  | ok idx =>
    simp only [Track.rescale, filterItem_natural]
    cases filterItem t.freq (t.mag.map Option.isSome) with
    | error e => rfl
    | ok fr =>
      cases filterItem t.mag (t.mag.map Option.isSome) with
      | error e => rfl
      | ok mg =>
        cases filterItem t.phase (t.mag.map Option.isSome) with
        | error e => rfl
        | ok ph =>
          simp only [Except.map, Except.ok.injEq, PreTrack.mk.injEq, List.map_map, true_and, and_true]
          constructor
          · apply List.map_congr_left
            intro i _
            exact frameTime_rescale c hc a a' hfs hh hw hp hr n t.start i
          · apply List.map_congr_left
            intro v _
            cases v with
            | none => rfl
            | some v => simp only [Function.comp, Option.map_some, hd]; congr 1; ring

theorem slopeToDecay_mul (c k : ℝ) (hc : 0 < c) : slopeToDecay (c * k) = (slopeToDecay k).map (1 / c * ·) := by
  unfold slopeToDecay
  by_cases hk : k = 0
  · simp [hk]
  · rw [if_neg (mul_ne_zero hc.ne' hk), if_neg hk]
    simp only [Option.map_some, Option.some.injEq]
    field_simp

theorem db2a_add (q G : ℝ) : db2a (q + G) = db2a G * db2a q := by
  unfold db2a
  rw [add_div, Real.rpow_add (by norm_num), mul_comm]

theorem db2a_gain (g : ℝ) (hg : g ≠ 0) : db2a (20 * Real.logb 10 |g|) = |g| := by
  unfold db2a
  rw [mul_div_cancel_left₀ _ (by norm_num : (20 : ℝ) ≠ 0)]
  exact Real.rpow_logb (by norm_num) (by norm_num) (abs_pos.2 hg)

theorem trackParams_rescale (c G : ℝ) (ψ : ℝ → ℝ) (hc : 0 < c)
    (reg : List ℝ → List (Option ℝ) → Except PyErr (ℝ × ℝ)) (hreg : FollowsUnits c G reg)
    (red : List (Option ℝ) → Option ℝ) (hred : Homogeneous c red) (p p' : Sms.Params ℝ)
    (hfs : p'.cfg.fs = c * p.cfg.fs) (hh : p'.hop = p.hop) (hw : p'.w = p.w) (hp : p'.padded = p.padded)
    (hr : p'.reverse = p.reverse) (n : Nat) (t : Track ℝ) :
    trackParams reg red p' n (t.rescale c G ψ) =
      (trackParams reg red p n t).map (List.map (colUnits c (db2a G))) := by
  have hcfg : p'.cfg.h = p.cfg.h := by simp only [Sms.Params.cfg, hh]
  unfold trackParams
  rw [preprocessTrack_rescale c G ψ hc (analysis p) (analysis p') hfs hcfg (by simp [analysis, hw]) hp hr rfl n t]
  cases preprocessTrack (analysis p) n t with
  | error e => rfl
  | ok r =>
    simp only [Except.map, fitTrack, hreg r.time r.mag]
    cases reg r.time r.mag with
    | error e => rfl
    | ok kq =>
      obtain ⟨k, q⟩ := kq
      simp only [Except.map, hred r.freq, slopeToDecay_mul c k hc, db2a_add]
      simp [colUnits, unitFactor, List.mapIdx_cons]

/-! ## The default regressor -/

theorem allSome_shift (G : ℝ) : ∀ l : List (Option ℝ),
    allSome (l.map (Option.map (· + G))) = (allSome l).map (List.map (· + G)) := by
  intro l
  induction l with
  | nil => rfl
  | cons a l ih =>
    cases a with
    | none => rfl
    | some a =>
      simp only [List.map_cons, Option.map_some, allSome, ih]
      cases allSome l <;> rfl

theorem interceptBounds_shift (G q : ℝ) (y : List ℝ) :
    Hinge.interceptBounds (y.map (· + G)) (q + G) =
      (Hinge.interceptBounds y q).map (fun b => (b.1 + G, b.2 + G)) := by
  unfold Hinge.interceptBounds
  rw [List.map_map]
  have : ((fun v => |v - (q + G)|) ∘ fun x => x + G) = fun v : ℝ => |v - q| := by
    funext v; simp [Function.comp, add_sub_add_right_eq_sub]
  rw [this]
  cases Hinge.npMax (y.map fun v => |v - q|) with
  | error e => rfl
  | ok m =>
    simp only [Except.map, Except.ok.injEq, Prod.mk.injEq]
    constructor <;> ring

theorem residuals_shift (G : ℝ) (x y : List ℝ) (p : Hinge.Coeffs ℝ) :
    Hinge.residuals x (y.map (· + G)) (raise G p) = Hinge.residuals x y p := by
  unfold Hinge.residuals
  rw [List.zipWith_map_right]
  congr 1
  funext a b
  simp only [Hinge.hingeFunction, raise]
  ring

theorem hinge_fit_shift (G : ℝ) (solve : (Hinge.Coeffs ℝ → List ℝ) → Hinge.Coeffs ℝ → Hinge.Coeffs ℝ →
      Hinge.Coeffs ℝ → Except PyErr (Hinge.Coeffs ℝ)) (hsolve : SolverShift G solve) (x y : List ℝ) :
    Hinge.fit linearRegression Hinge.defaultCoeffsInit Hinge.defaultBounds solve x (y.map (· + G)) =
      (Hinge.fit linearRegression Hinge.defaultCoeffsInit Hinge.defaultBounds solve x y).map (raise G) := by
  by_cases hy : y = []
  · subst hy
    have hb : ∀ k q : ℝ, Hinge.defaultBounds x [] k q = .error .valueError := by
      intro k q
      unfold Hinge.defaultBounds Hinge.kneeBounds
      by_cases hl : x.length ≤ 1
      · simp [hl]
      · rcases x with _ | ⟨a, x⟩
        · simp at hl
        · simp only [hl, if_false, Hinge.npMin, Hinge.npMax, Hinge.interceptBounds, List.map_nil]
          by_cases hab : x.foldl min a = x.foldl max a <;> simp [hab]
    unfold Hinge.fit
    simp only [linearRegression, List.map_nil, hb]
    cases Hinge.defaultCoeffsInit x ([] : List ℝ) (olsSlope x []) (olsIntercept x []) <;> rfl
  · have hlin : linearRegression x (y.map (· + G)) = .ok (olsSlope x y, olsIntercept x y + G) := by
      unfold linearRegression
      rw [olsSlope_add G x y hy, olsIntercept_add G x y hy]
    unfold Hinge.fit
    rw [hlin]
    simp only [linearRegression]
    set k := olsSlope x y
    set q := olsIntercept x y
    have hi : Hinge.defaultCoeffsInit x (y.map (· + G)) k (q + G) =
        (Hinge.defaultCoeffsInit x y k q).map (raise G) := by
      unfold Hinge.defaultCoeffsInit
      cases Hinge.npMin x <;> cases Hinge.npMax x <;> rfl
    have hb : Hinge.defaultBounds x (y.map (· + G)) k (q + G) =
        (Hinge.defaultBounds x y k q).map (fun b => (raise G b.1, raise G b.2)) := by
      unfold Hinge.defaultBounds
      rw [interceptBounds_shift]
      cases Hinge.kneeBounds x with
      | error e => rfl
      | ok ab => cases Hinge.interceptBounds y q <;> rfl
    rw [hi]
    cases Hinge.defaultCoeffsInit x y k q with
    | error e => rfl
    | ok x0 =>
      simp only [Except.map]
      rw [hb]
      cases Hinge.defaultBounds x y k q with
      | error e => rfl
      | ok b =>
        obtain ⟨lo, hi⟩ := b
        simp only [Except.map, Hinge.leastSquares]
        simp only [show ∀ p, (raise G p).a = p.a from fun _ => rfl, show ∀ p, (raise G p).k = p.k from fun _ => rfl,
          show ∀ p, (raise G p).q = p.q + G from fun _ => rfl, add_lt_add_iff_right, add_le_add_iff_right]
        split
        · rfl
        · split
          · rfl
          · exact hsolve (Hinge.residuals x y) _ x0 lo hi (residuals_shift G x y)

/-! ## All tracks -/

/-- `SAMPLE.fit` after the sinusoidal model. -/
noncomputable def modes (reg : List ℝ → List (Option ℝ) → Except PyErr (ℝ × ℝ))
    (red : List (Option ℝ) → Option ℝ) (pool : Bool) (nJobs : Option Int) (evs : List Training.Ev)
    (p : Sms.Params ℝ) (n : Nat) (ts : List (Track ℝ)) : Option (Except PyErr (List (List (Option ℝ)))) :=
  match Training.contextMap pool nJobs (trackParams reg red p n) ts evs with
  | none => none
  | some (.error e) => some (.error e)
  | some (.ok cols) => some (cleanParams 3 cols.flatten)

theorem modes_rescale (c G : ℝ) (ψ : ℝ → ℝ) (hc : 0 < c)
    (reg : List ℝ → List (Option ℝ) → Except PyErr (ℝ × ℝ)) (hreg : FollowsUnits c G reg)
    (red : List (Option ℝ) → Option ℝ) (hred : Homogeneous c red) (pool : Bool) (nJobs : Option Int)
    (evs : List Training.Ev) (p p' : Sms.Params ℝ)
    (hfs : p'.cfg.fs = c * p.cfg.fs) (hh : p'.hop = p.hop) (hw : p'.w = p.w) (hp : p'.padded = p.padded)
    (hr : p'.reverse = p.reverse) (n : Nat) (ts : List (Track ℝ)) :
    modes reg red pool nJobs evs p' n (ts.map (Track.rescale c G ψ)) =
      (modes reg red pool nJobs evs p n ts).map (Except.map (inUnits c (db2a G))) := by
  unfold modes
  rw [contextMap_natural (Track.rescale c G ψ) (List.map (colUnits c (db2a G))) (trackParams reg red p n)
    (trackParams reg red p' n) (trackParams_rescale c G ψ hc reg hreg red hred p p' hfs hh hw hp hr n)]
  rcases Training.contextMap pool nJobs (trackParams reg red p n) ts evs with _ | _ | cols
  · rfl
  · rfl
  · simp only [Option.map_some, Except.map]
    rw [show (cols.map (List.map (colUnits c (db2a G)))).flatten = cols.flatten.map (colUnits c (db2a G)) by
      rw [List.map_flatten]]
    have := cleanParams_natural 3 (fun r => (unitFactor c (db2a G) r * ·)) cols.flatten
    have h' : cleanParams 3 (cols.flatten.map (colUnits c (db2a G))) = _ := this
    rw [h']
    cases cleanParams 3 cols.flatten <;> rfl

/-- Without a pool nothing is fitted. -/
theorem fit_no_pool (spec : List ℝ → List ℝ × List ℝ) (sort : List (Peak ℝ) → List Nat)
    (reg : List ℝ → List (Option ℝ) → Except PyErr (ℝ × ℝ)) (red : List (Option ℝ) → Option ℝ)
    (pool : Bool) (nJobs : Option Int) (hj : Training.poolOk pool nJobs = false) (evs : List Training.Ev)
    (m : Sms.Model ℝ) (x : List ℝ) : fit spec sort reg red pool nJobs evs m x = some (.error .valueError) := by
  unfold fit
  rw [hj]
  rfl

theorem fit_modes (spec : List ℝ → List ℝ × List ℝ) (sort : List (Peak ℝ) → List Nat)
    (reg : List ℝ → List (Option ℝ) → Except PyErr (ℝ × ℝ)) (red : List (Option ℝ) → Option ℝ)
    (pool : Bool) (nJobs : Option Int) (hj : Training.poolOk pool nJobs = true) (evs : List Training.Ev)
    (m : Sms.Model ℝ) (x : List ℝ) :
    (fit spec sort reg red pool nJobs evs m x).map (Except.map Prod.snd) =
      match Sms.timeFrames m.params.padded m.params.w.length m.params.hop x with
      | .error e => some (.error e)
      | .ok _ =>
        match (m.fit spec sort x Sms.Kwargs.none).map (fun m => (m.params, m.tracks)) with
        | .error e => some (.error e)
        | .ok (p, ts) => modes reg red pool nJobs evs p x.length ts := by
  unfold fit modes
  rw [hj]
  simp only [Bool.not_true, Bool.false_eq_true, if_false]
  cases Sms.timeFrames m.params.padded m.params.w.length m.params.hop x with
  | error e => rfl
  | ok fr =>
    simp only
    cases m.fit spec sort x Sms.Kwargs.none with
    | error e => rfl
    | ok m' =>
      simp only [Except.map]
      rcases Training.contextMap pool nJobs (trackParams reg red m'.params x.length) m'.tracks evs with _ | _ | cols
      · rfl
      · rfl
      · simp only
        cases cleanParams 3 cols.flatten <;> rfl

end Verif.Sample
