import Verif.Beat.BeatProps
import Verif.Beat.StateModel

/-!
# Beat regression as an object: fits that fail, and what is predicted (C154)
-/

set_option autoImplicit false
set_option linter.unusedSectionVars false
set_option linter.unusedSimpArgs false

namespace Verif.Beat

open Verif.Out

/-! ## Specification -/

/-- The optimiser finds `x` for the data, from a feasible starting value. -/
def Solved (S : Steps) (d : Track) (x : Octet ℝ) : Prop :=
  S.makeRes d = .ok () ∧ ∃ r p b x0, (S.init d r).2 = .ok p ∧ S.bounds d p = .ok b ∧
    feasible p b.1 b.2 = some x0 ∧ S.solve d x0 b.1 b.2 = .ok x

/-- `y` is found by a fit: by the optimiser, or by the disambiguation afterwards. -/
def Found (S : Steps) (d : Track) (y : Octet ℝ) : Prop :=
  Solved S d y ∨ ∃ x g, Solved S d x ∧ S.dis = some g ∧ g d x = .ok y

/-- The starting value does not depend on what the regressor was fitted to before. -/
def Refits (S : Steps) : Prop :=
  ∀ d r r', (S.init d r).2 = (S.init d r').2 ∧
    ∀ p, (S.init d r).2 = .ok p → (S.init d r).1 = (S.init d r').1

/-! ## The states of one fit -/

/-- The different ends of a fit. -/
theorem fit_cases (S : Steps) (s : Br) (d : Track) :
    (∃ l e, S.fit s d = (s :: l, some e) ∧
      ∀ s' ∈ l, s'.params = s.params ∧ s'.beat = s.beat) ∨
    ∃ l x p b x0, S.makeRes d = .ok () ∧ (S.init d (s.reg.getD none)).2 = .ok p ∧
      S.bounds d p = .ok b ∧ feasible p b.1 b.2 = some x0 ∧ S.solve d x0 b.1 b.2 = .ok x ∧
      (∀ s' ∈ l, s'.params = s.params ∧ s'.beat = s.beat) ∧
      S.fit s d =
        (s :: l ++ [⟨some (S.init d (s.reg.getD none)).1, some d, some p, some b, some x, some x,
            s.beat⟩] ++
          [⟨some (S.init d (s.reg.getD none)).1, some d, some p, some b, some x, some x, some x⟩] ++
          (S.finish ⟨some (S.init d (s.reg.getD none)).1, some d, some p, some b, some x, some x,
            some x⟩ d x).1,
        (S.finish ⟨some (S.init d (s.reg.getD none)).1, some d, some p, some b, some x, some x,
            some x⟩ d x).2) := by
  unfold Steps.fit
  rcases h1 : S.makeRes d with e | u
  · left; exact ⟨_, e, rfl, by simp⟩
  simp only
  rcases h2 : (S.init d (s.reg.getD none)).2 with e | p
  · left; exact ⟨_, e, rfl, by simp⟩
  simp only
  rcases h3 : S.bounds d p with e | b
  · left; exact ⟨_, e, rfl, by simp⟩
  simp only
  rcases h4 : feasible p b.1 b.2 with _ | x0
  · left; exact ⟨_, _, rfl, by simp⟩
  simp only
  rcases h5 : S.solve d x0 b.1 b.2 with e | x
  · left; exact ⟨_, e, rfl, by simp⟩
  right
  exact ⟨[_, _, _, _, _, _], x, p, b, x0, trivial, rfl, h3, h4, h5, by simp, rfl⟩

theorem last_snoc (l : List Br) (a s : Br) : (l ++ [a]).getLastD s = a := by
  rw [List.getLastD_eq_getLast?, List.getLast?_append]
  rfl

/-- C154: one call of `fit` that is not interrupted, from any state.  If it returns, all attributes
belong to this call: the parameters are those of the optimiser or of the disambiguation, and the beat
is made from them.  If it raises, parameters and beat are both those of before, or both those of the
optimiser (if the disambiguation raised). -/
theorem C154_call (S : Steps) (s : Br) (d : Track) :
    let s' := Call.run s ⟨S, d, none⟩
    ((S.fit s d).2 = none → ∃ p b x0 x y, (S.init d (s.reg.getD none)).2 = .ok p ∧
      S.bounds d p = .ok b ∧ feasible p b.1 b.2 = some x0 ∧ S.solve d x0 b.1 b.2 = .ok x ∧
      (S.dis = none → y = x) ∧ (∀ g, S.dis = some g → g d x = .ok y) ∧
      s' = ⟨some (S.init d (s.reg.getD none)).1, some d, some p, some b, some x, some y, some y⟩) ∧
    (∀ e, (S.fit s d).2 = some e →
      s'.params = s.params ∧ s'.beat = s.beat ∨
      ∃ x g, Solved S d x ∧ S.dis = some g ∧ g d x = .error e ∧ s'.params = some x ∧
        s'.beat = some x) := by
  intro s'
  rcases fit_cases S s d with ⟨l, e, h, hl⟩ | ⟨l, x, p, b, x0, h1, h2, h3, h4, h5, hl, h⟩
  · refine ⟨by simp [h], fun e' he => .inl ?_⟩
    have : s' ∈ s :: l := by
      simp only [s', Call.run, h]
      rw [List.getLastD_eq_getLast?, List.getLast?_eq_some_getLast (List.cons_ne_nil _ _)]
      exact List.getLast_mem _
    rcases List.mem_cons.1 this with h | h
    · rw [h]; exact ⟨rfl, rfl⟩
    · exact hl _ h
  · cases hd : S.dis with
    | none =>
      simp only [Steps.finish, hd] at h
      simp only [h, s', Call.run, List.append_nil]
      rw [last_snoc]
      exact ⟨fun _ => ⟨p, b, x0, x, x, h2, h3, h4, h5, fun _ => rfl, by simp, rfl⟩, by simp⟩
    | some g =>
      cases hg : g d x with
      | error e =>
        simp only [Steps.finish, hd, hg] at h
        simp only [h, s', Call.run, List.append_nil]
        rw [last_snoc]
        refine ⟨by simp, fun e' he => .inr ?_⟩
        cases he
        exact ⟨x, g, ⟨h1, _, p, b, x0, h2, h3, h4, h5⟩, rfl, hg, rfl, rfl⟩
      | ok y =>
        simp only [Steps.finish, hd, hg] at h
        simp only [h, s', Call.run]
        rw [show ∀ (m : List Br) (u v : Br), m ++ [u, v] = (m ++ [u]) ++ [v] by simp, last_snoc]
        refine ⟨fun _ => ⟨p, b, x0, x, y, h2, h3, h4, h5, by simp, ?_, rfl⟩, by simp⟩
        intro g' hg'
        cases hg'
        exact hg

/-- C154: after any history of fits, whatever each of them computes or raises, the beat is the one of
the parameters. -/
theorem C154_agree (r : Option (Option (ℝ × ℝ))) (cs : List Call) (h : ∀ c ∈ cs, c.stop = none) :
    (cs.foldl Call.run (Br.new r)).beat = (cs.foldl Call.run (Br.new r)).params := by
  have key : ∀ s : Br, s.beat = s.params → (cs.foldl Call.run s).beat = (cs.foldl Call.run s).params := by
    induction cs with
    | nil => exact fun s hs => hs
    | cons c cs ih =>
      intro s hs
      refine ih (fun c' hc' => h c' (by simp [hc'])) _ ?_
      obtain ⟨S, d, stop⟩ := c
      obtain rfl : stop = none := h ⟨S, d, stop⟩ (by simp)
      obtain ⟨c1, c2⟩ := C154_call S s d
      cases he : (S.fit s d).2 with
      | none =>
        obtain ⟨p, b, x0, x, y, -, -, -, -, -, -, e⟩ := c1 he
        rw [e]
      | some e =>
        rcases c2 e he with ⟨e1, e2⟩ | ⟨x, g, -, -, -, e1, e2⟩
        · rw [e1, e2, hs]
        · rw [e1, e2]
  exact key _ rfl

/-- Every state of a fit. -/
theorem fit_states (S : Steps) (s : Br) (d : Track) :
    ∀ s' ∈ (S.fit s d).1,
      s'.params = s.params ∧ s'.beat = s.beat ∨
      (∃ y, Found S d y ∧ s'.params = some y) ∧
        (s'.beat = s.beat ∨ ∃ y, Found S d y ∧ s'.beat = some y) := by
  intro s' hs'
  rcases fit_cases S s d with ⟨l, e, h, hl⟩ | ⟨l, x, p, b, x0, h1, h2, h3, h4, h5, hl, h⟩
  · rw [h] at hs'
    rcases List.mem_cons.1 hs' with rfl | h
    · simp
    · exact .inl (hl _ h)
  · have hx : Solved S d x := ⟨h1, _, p, b, x0, h2, h3, h4, h5⟩
    rw [h] at hs'
    simp only [List.mem_append, List.mem_cons, List.not_mem_nil, or_false] at hs'
    rcases hs' with (((rfl | h) | rfl) | rfl) | h
    · simp
    · exact .inl (hl _ h)
    · exact .inr ⟨⟨x, .inl hx, rfl⟩, .inl rfl⟩
    · exact .inr ⟨⟨x, .inl hx, rfl⟩, .inr ⟨x, .inl hx, rfl⟩⟩
    · unfold Steps.finish at h
      rcases hd : S.dis with _ | g
      · simp [hd] at h
      rcases hg : g d x with e | y
      · simp [hd, hg] at h
      have hy : Found S d y := .inr ⟨x, g, hx, hd, hg⟩
      simp only [hd, hg, List.mem_cons, List.not_mem_nil, or_false] at h
      rcases h with rfl | rfl
      · exact .inr ⟨⟨y, hy, rfl⟩, .inr ⟨x, .inl hx, rfl⟩⟩
      · exact .inr ⟨⟨y, hy, rfl⟩, .inr ⟨y, hy, rfl⟩⟩

theorem run_mem (s : Br) (c : Call) : Call.run s c ∈ (c.steps.fit s c.track).1 := by
  have hne : (c.steps.fit s c.track).1 ≠ [] := by
    rcases fit_cases c.steps s c.track with ⟨l, e, h, -⟩ | ⟨l, x, p, b, x0, -, -, -, -, -, -, h⟩ <;>
      simp [h]
  have hl : ∀ l : List Br, l ≠ [] → l.getLastD s ∈ l := by
    intro l h
    rw [List.getLastD_eq_getLast?, List.getLast?_eq_some_getLast h]
    exact List.getLast_mem _
  unfold Call.run
  rcases c.stop with _ | k
  · exact hl _ hne
  · simp only
    cases h : (c.steps.fit s c.track).1[k]? with
    | none => exact hl _ hne
    | some u => exact List.mem_of_getElem? h

/-- C154: after any history of fits, each of which may also be interrupted between any two
assignments, parameters and beat were each found by one of these fits, and there is no beat without
parameters. -/
theorem C154_interrupted (r : Option (Option (ℝ × ℝ))) (cs : List Call) :
    let s := cs.foldl Call.run (Br.new r)
    (∀ q, s.params = some q → ∃ c ∈ cs, Found c.steps c.track q) ∧
    (∀ q, s.beat = some q → ∃ c ∈ cs, Found c.steps c.track q) ∧
    (s.params = none → s.beat = none) := by
  have key : ∀ (done : List Call) (s : Br),
      ((∀ q, s.params = some q → ∃ c ∈ done, Found c.steps c.track q) ∧
        (∀ q, s.beat = some q → ∃ c ∈ done, Found c.steps c.track q) ∧
        (s.params = none → s.beat = none)) →
      (∀ q, (cs.foldl Call.run s).params = some q → ∃ c ∈ done ++ cs, Found c.steps c.track q) ∧
      (∀ q, (cs.foldl Call.run s).beat = some q → ∃ c ∈ done ++ cs, Found c.steps c.track q) ∧
      ((cs.foldl Call.run s).params = none → (cs.foldl Call.run s).beat = none) := by
    induction cs with
    | nil => intro done s h; simpa using h
    | cons c cs ih =>
      intro done s h
      have := ih (done ++ [c]) (Call.run s c) ?_
      · simpa using this
      · obtain ⟨h1, h2, h3⟩ := h
        have old : ∀ q : Octet ℝ, (∃ c ∈ done, Found c.steps c.track q) →
            ∃ c' ∈ done ++ [c], Found c'.steps c'.track q := by
          rintro q ⟨c', hc, hq⟩
          exact ⟨c', by simp [hc], hq⟩
        have new : ∀ q q' : Octet ℝ, Found c.steps c.track q' → some q' = some q →
            ∃ c' ∈ done ++ [c], Found c'.steps c'.track q := by
          rintro q q' hq e
          cases e
          exact ⟨c, by simp, hq⟩
        rcases fit_states c.steps s c.track _ (run_mem s c) with ⟨e1, e2⟩ | ⟨⟨y, hy, e1⟩, e2⟩
        · rw [e1, e2]
          exact ⟨fun q hq => old q (h1 q hq), fun q hq => old q (h2 q hq), h3⟩
        · refine ⟨fun q hq => new q y hy (by rw [← e1, hq]), fun q hq => ?_, by simp [e1]⟩
          rcases e2 with e2 | ⟨y', hy', e2⟩
          · exact old q (h2 q (by rw [← e2, hq]))
          · exact new q y' hy' (by rw [← e2, hq])
  simpa using key [] (Br.new r) (by simp [Br.new])

/-- C154: what was fitted before does not matter, if it does not matter for the starting values: the
same exception, or the same attributes. -/
theorem C154_history (S : Steps) (hS : Refits S) (d : Track) (s s' : Br) :
    (S.fit s d).2 = (S.fit s' d).2 ∧
    ((S.fit s d).2 = none → Call.run s ⟨S, d, none⟩ = Call.run s' ⟨S, d, none⟩) := by
  obtain ⟨h1, h2⟩ := hS d (s.reg.getD none) (s'.reg.getD none)
  have he : (S.fit s d).2 = (S.fit s' d).2 := by
    unfold Steps.fit
    rcases S.makeRes d with e | u
    · rfl
    simp only
    rw [← h1]
    rcases (S.init d (s.reg.getD none)).2 with e | p
    · rfl
    simp only
    rcases S.bounds d p with e | b
    · rfl
    simp only
    rcases feasible p b.1 b.2 with _ | x0
    · rfl
    simp only
    rcases S.solve d x0 b.1 b.2 with e | x
    · rfl
    simp only [Steps.finish]
    rcases S.dis with _ | g
    · rfl
    simp only
    rcases g d x with e | y <;> rfl
  refine ⟨he, fun h => ?_⟩
  obtain ⟨p, b, x0, x, y, i1, i2, i3, i4, i5, i6, i7⟩ := (C154_call S s d).1 h
  obtain ⟨p', b', x0', x', y', j1, j2, j3, j4, j5, j6, j7⟩ := (C154_call S s' d).1 (he ▸ h)
  rw [← h1, i1] at j1
  cases j1
  rw [i2] at j2
  cases j2
  rw [i3] at j3
  cases j3
  rw [i4] at j4
  cases j4
  rw [i7, j7, h2 p i1]
  rcases hd : S.dis with _ | g
  · rw [i5 hd, j5 hd]
  · have := (i6 g hd).symm.trans (j6 g hd)
    cases this
    rfl

/-- C154: the regressors of the code with the default starting values do not depend on the past; their
parameters are those of `fitDual` (C78, C79), and slope and intercept those of the linear regression of
the last track. -/
theorem C154_default (reg : List ℝ → List ℝ → Except PyErr (ℝ × ℝ))
    (peaks : List ℝ → List ℝ → List ℝ) (phat : List ℝ → List ℝ → ℝ → ℝ) (fs eps : ℝ)
    (makeRes : Track → Except PyErr Unit)
    (solve : Track → Octet ℝ → Octet ℝ → Octet ℝ → Except PyErr (Octet ℝ))
    (dis : Bool) (lt : Cell → Cell → Bool) (L : Loss) :
    let S := defaultSteps reg peaks phat fs eps makeRes solve
      (if dis then some fun d p =>
        disambiguate lt L d.t (d.a.map fun x => some (Dsp.db2a x)) (d.f.map fun x => some |x|) p
      else none)
    Refits S ∧
    ∀ (s : Br) (d : Track), makeRes d = .ok () →
      let s' := Call.run s ⟨S, d, none⟩
      let r := fitDual dis lt L (defaultInit reg peaks phat fs) (defaultBounds eps) (solve d) d.t d.a d.f
      (∀ y, r = .ok y → (S.fit s d).2 = none ∧ s'.params = some y ∧ s'.beat = some y ∧
        ∃ kq, reg d.t d.a = .ok kq ∧ s'.kq = .ok kq) ∧
      (∀ e, r = .error e → (S.fit s d).2 = some e) := by
  intro S
  have hinit : ∀ (d : Track) p, defaultInit reg peaks phat fs d.t d.a d.f = .ok p →
      ∃ kq, reg d.t d.a = .ok kq := by
    intro (d : Track) p h
    rcases hr : reg d.t d.a with e | kq
    · simp [defaultInit, hr] at h
    · exact ⟨kq, rfl⟩
  refine ⟨fun d r r' => ⟨rfl, fun p hp => ?_⟩, ?_⟩
  · obtain ⟨kq, hk⟩ := hinit d p hp
    simp [S, defaultSteps, hk]
  · intro s d hm s' r
    have hd : S.dis = if dis then some fun d p => disambiguate lt L d.t
        (d.a.map fun x => some (Dsp.db2a x)) (d.f.map fun x => some |x|) p else none := rfl
    have key : (S.fit s d).2 = match r with
        | .ok _ => none
        | .error e => some e := by
      simp only [r, fitDual, fitBeat, Steps.fit, Steps.finish, hd]
      simp only [S, defaultSteps, hm]
      rcases defaultInit reg peaks phat fs d.t d.a d.f with e | p
      · rfl
      simp only
      rcases defaultBounds eps d.t d.a d.f p with e | b
      · rfl
      simp only
      rcases feasible p b.1 b.2 with _ | x0
      · rfl
      simp only
      rcases solve d x0 b.1 b.2 with e | x
      · rfl
      cases dis with
      | false => rfl
      | true =>
        simp only [if_true]
        rcases disambiguate lt L d.t (d.a.map fun x => some (Dsp.db2a x)) (d.f.map fun x => some |x|) x
          with e | y <;> rfl
    refine ⟨fun y hy => ?_, fun e he => by rw [key, he]⟩
    rw [hy] at key
    obtain ⟨p, b, x0, x, y', i1, i2, i3, i4, i5, i6, i7⟩ := (C154_call S s d).1 key
    obtain ⟨kq, hk⟩ := hinit d p i1
    have i1' : defaultInit reg peaks phat fs d.t d.a d.f = .ok p := i1
    have i2' : defaultBounds eps d.t d.a d.f p = .ok b := i2
    have i4' : solve d x0 b.1 b.2 = .ok x := i4
    have e : y' = y := by
      simp only [r, fitDual, fitBeat, i1', i2', i3, i4'] at hy
      cases dis with
      | false =>
        rw [i5 (by simp [hd])]
        simpa using hy
      | true =>
        have := i6 _ (by rw [hd]; rfl)
        simp only [if_true] at hy
        rw [this] at hy
        exact Except.ok.inj hy
    refine ⟨key, ?_, ?_, kq, hk, ?_⟩
    · simp only [s', i7, e]
    · simp only [s', i7, e]
    · simp only [s', i7]
      simp [Br.kq, S, defaultSteps, hk]

/-- Starting values inside their bounds, and an optimiser that finds `x`. -/
noncomputable def exSteps (x : Octet ℝ) : Steps where
  makeRes := fun _ => .ok ()
  init := fun _ _ => (some (-8, -6), .ok ⟨1 / 2, 1 / 2, 100, 98, some 1, some 1, 0, 0⟩)
  bounds := fun _ _ => .ok (⟨0, 0, 90, 90, 0, 0, -1, -1⟩, ⟨1, 1, 110, 110, 100, 100, 1, 1⟩)
  solve := fun _ _ _ _ => .ok x
  dis := none

theorem exSteps_feasible : feasible ⟨1 / 2, 1 / 2, 100, 98, some 1, some 1, 0, 0⟩
    ⟨0, 0, 90, 90, 0, 0, -1, -1⟩ ⟨1, 1, 110, 110, 100, 100, 1, 1⟩ =
      some ⟨1 / 2, 1 / 2, 100, 98, 1, 1, 0, 0⟩ := by
  unfold feasible
  norm_num

theorem exSteps_fit (x : Octet ℝ) (s : Br) (d : Track) :
    ((exSteps x).fit s d).2 = none ∧
    (Call.run s ⟨exSteps x, d, none⟩).beat = some x ∧
    (Call.run s ⟨exSteps x, d, some 7⟩).params = some x ∧
    (Call.run s ⟨exSteps x, d, some 7⟩).beat = s.beat := by
  simp only [Steps.fit, exSteps, exSteps_feasible, Steps.finish, Call.run]
  simp

/-- C154: a fit interrupted between its last two assignments leaves the new parameters together with
the beat of the fit before, which `predict` shows. -/
theorem C154_mixed (x y : Octet ℝ) (d d' : Track) :
    let s := [⟨exSteps x, d, none⟩, ⟨exSteps y, d', some 7⟩].foldl Call.run (Br.new none)
    s.params = some y ∧ s.beat = some x := by
  obtain ⟨-, h2, -, -⟩ := exSteps_fit x (Br.new none) d
  obtain ⟨-, -, h3, h4⟩ := exSteps_fit y (Call.run (Br.new none) ⟨exSteps x, d, none⟩) d'
  exact ⟨h3, h4.trans h2⟩

/-- C154: a fit that raises may leave starting values, bounds and residual function of the new data
together with the parameters and the beat of the old ones. -/
theorem C154_stale (x : Octet ℝ) (d d' : Track) (e : PyErr) :
    let s := [⟨exSteps x, d, none⟩,
      ⟨{ exSteps x with solve := fun _ _ _ _ => .error e }, d', none⟩].foldl Call.run (Br.new none)
    s.resFn = some d' ∧ s.result = some x ∧ s.params = some x ∧ s.beat = some x := by
  simp only [List.foldl, Steps.fit, exSteps, exSteps_feasible, Steps.finish, Call.run, Br.new]
  simp

/-! ## Predictions -/

/-- The names of the variables of a beat. -/
def Names : List String :=
  ["t", "a0", "a1", "f0", "f1", "p0", "p1", "a_oln", "a_hat", "f_oln", "f_hat", "p_oln", "p_hat",
    "da0_dt", "da1_dt", "w_hat", "w_oln", "a_oln2", "a_hat2", "alpha2", "am", "fm_from_am", "fm",
    "pm", "x"]

/-- The sum of the two partials that the parameters describe. -/
noncomputable def partials (p : Octet ℝ) : ℝ → ℂ :=
  modalSum (fun s => p.a0 * Real.exp (-2 / p.d0 * s)) (fun s => p.a1 * Real.exp (-2 / p.d1 * s))
    p.f0 p.f1 p.p0 p.p1

/-- Amplitude of a partial. -/
noncomputable def decays (a d t : ℝ) : ℝ := a * Real.exp (-2 / d * t)

/-- The phases of the sum of the partials: the first is the angle at time zero. -/
def Angles (p : Octet ℝ) (ts : List ℝ) (θ : List Cell) : Prop :=
  θ.length = ts.length ∧
    ∃ u : ℝ, θ[0]? = some (some u) ∧ partials p 0 = ‖partials p 0‖ * Complex.exp (u * Complex.I)

/-- What the variables are at the times `ts`. -/
def Shows (p : Octet ℝ) (ts : List ℝ) (n : String) (v : Val) : Prop :=
  (n = "t" → v = .ar (ts.map some)) ∧
  (n = "a0" → v = .ar (ts.map fun t => some (decays p.a0 p.d0 t))) ∧
  (n = "a1" → v = .ar (ts.map fun t => some (decays p.a1 p.d1 t))) ∧
  (n = "f0" → v = .sc (some p.f0)) ∧ (n = "f1" → v = .sc (some p.f1)) ∧
  (n = "p0" → v = .sc (some p.p0)) ∧ (n = "p1" → v = .sc (some p.p1)) ∧
  (n = "a_oln" → v = .ar (ts.map fun t => some ((decays p.a0 p.d0 t + decays p.a1 p.d1 t) / 2))) ∧
  (n = "a_hat" → v = .ar (ts.map fun t => some ((decays p.a0 p.d0 t - decays p.a1 p.d1 t) / 2))) ∧
  (n = "f_oln" → v = .sc (some ((p.f0 + p.f1) / 2))) ∧
  (n = "f_hat" → v = .sc (some ((p.f0 - p.f1) / 2))) ∧
  (n = "p_oln" → v = .sc (some ((p.p0 + p.p1) / 2))) ∧
  (n = "p_hat" → v = .sc (some ((p.p0 - p.p1) / 2))) ∧
  (n = "da0_dt" → ∃ D : ℝ → ℝ, v = .ar (ts.map fun t => some (D t)) ∧
    ∀ t, HasDerivAt (decays p.a0 p.d0) (D t) t) ∧
  (n = "da1_dt" → ∃ D : ℝ → ℝ, v = .ar (ts.map fun t => some (D t)) ∧
    ∀ t, HasDerivAt (decays p.a1 p.d1) (D t) t) ∧
  (n = "w_hat" → v = .sc (some (Real.pi * (p.f0 - p.f1)))) ∧
  (n = "w_oln" → v = .sc (some (Real.pi * (p.f0 + p.f1)))) ∧
  (n = "a_oln2" →
    v = .ar (ts.map fun t => some ((decays p.a0 p.d0 t + decays p.a1 p.d1 t) ^ 2 / 4))) ∧
  (n = "a_hat2" →
    v = .ar (ts.map fun t => some ((decays p.a0 p.d0 t - decays p.a1 p.d1 t) ^ 2 / 4))) ∧
  (n = "alpha2" → v = .ar (ts.map fun t => some (‖partials p t‖ ^ 2 / 4))) ∧
  (n = "am" → v = .ar (ts.map fun t => some ‖partials p t‖)) ∧
  (n = "fm_from_am" → ∃ F : ℝ → Cell, v = .ar (ts.map F) ∧
    ∀ t, partials p t ≠ 0 → F t = some (decays p.a0 p.d0 t * decays p.a1 p.d1 t *
      (2 / p.d1 - 2 / p.d0) * Real.sin (2 * Real.pi * (p.f0 - p.f1) * t + (p.p0 - p.p1)) /
        ‖partials p t‖ ^ 2)) ∧
  (n = "fm" → ∃ F, v = .ar F ∧ List.Forall₂ (fun t c => ∀ z', HasDerivAt (partials p) z' t →
    c = if partials p t = 0 then none else some (z' / partials p t).im) ts F) ∧
  (n = "pm" → ∃ θ, v = .ar θ ∧ Angles p ts θ) ∧
  (n = "x" → ∃ θ, Angles p ts θ ∧
    v = .ar (List.zipWith (lift2 fun r u => some (r * Real.cos u))
      (ts.map fun t => some ‖partials p t‖) θ))

theorem pm_ar (b : Beat) (p0 p1 : ℝ) (h0 : b.p0 = .num p0) (h1 : b.p1 = .num p1)
    (ts : List ℝ) (hts : ts ≠ []) (F : List Cell) (hF : b.fm (axis ts) = .ok (.ar F))
    (hl : F.length = ts.length) :
    b.pm (axis ts) = .ok (.ar ((trapezoids F (ts.map some) (some 0)).map
        (Option.map fun s => s + vPhase0 b p0 p1))) := by
  have hF0 : F ≠ [] := by
    intro h
    rw [h] at hl
    exact hts (List.length_eq_zero_iff.mp hl.symm)
  have hc : cumtrapz (.ar F) (axis ts) = .ok (.ar (trapezoids F (ts.map some) (some 0))) := by
    exact if_pos ⟨by rw [hl, List.length_map], hF0⟩
  rw [Beat.pm, hF, initialPhase_eq b p0 p1 h0 h1]
  simp only [bind, Except.bind, hc, add, bin]
  congr 2
  apply List.map_congr_left
  intro c _
  cases c <;> rfl

theorem variable_ok (p : Octet ℝ) (h0 : p.d0 ≠ 0) (h1 : p.d1 ≠ 0) (ts : List ℝ) (hts : ts ≠ []) :
    ∃ b, modalBeat p.a0 p.a1 p.f0 p.f1 p.d0 p.d1 p.p0 p.p1 = .ok b ∧
      (∀ n ∈ Names, ∃ f v, b.variable n = some f ∧ f (axis ts) = .ok v ∧ Shows p ts n v) ∧
      (∀ n, n ∉ Names → b.variable n = none) := by
  obtain ⟨b, F, hb, hF, hv⟩ := C44_modal p.a0 p.a1 p.f0 p.f1 p.d0 p.d1 p.p0 p.p1 h0 h1 ts
  have hm : modalBeat p.a0 p.a1 p.f0 p.f1 p.d0 p.d1 p.p0 p.p1 =
      mkBeat (expDecay p.a0 p.d0) (expDecay p.a1 p.d1) (.num p.f0) (.num p.f1) (.num p.p0)
        (.num p.p1) := by
    rw [modalBeat, if_neg (by tauto)]
  have hk := hm.symm.trans hb
  have hfit := modal_fit hk trivial
  have hz : b.z = partials p := modal_z hk
  obtain ⟨e1, e2, e3, e4, e5, e6, e7, e8⟩ := mkBeat_ok _ _ _ _ _ _ b hk
  have hlen := hv.length_eq
  have ea0 : b.a0 = .fn (decays p.a0 p.d0) := e1
  have ea1 : b.a1 = .fn (decays p.a1 p.d1) := e2
  have ed0 : b.da0 = .fn fun t => decays p.a0 p.d0 t * (-2 / p.d0) := (Except.ok.inj e7).symm
  have ed1 : b.da1 = .fn fun t => decays p.a1 p.d1 t * (-2 / p.d1) := (Except.ok.inj e8).symm
  have hder : ∀ a d t, HasDerivAt (decays a d) (decays a d t * (-2 / d)) t := by
    intro a d t
    obtain ⟨q, q1, q2⟩ := C44_decay a d t
    cases Except.ok.inj q1
    exact q2
  have hq : ∀ t, vAlpha2 b t = ‖partials p t‖ ^ 2 / 4 := by
    intro t
    rw [← hz, normSq_z]
    ring
  have hq0 : ∀ t, partials p t ≠ 0 → vAlpha2 b t ≠ 0 := by
    intro t ht
    rw [ne_eq, vAlpha2_zero, hz]
    exact ht
  have hpm := pm_ar b _ _ e5 e6 ts hts F hF hlen.symm
  have hang : Angles p ts ((trapezoids F (ts.map some) (some 0)).map
      (Option.map fun s => s + vPhase0 b p.p0 p.p1)) := by
    have hF0 : F ≠ [] := by
      intro h
      rw [h] at hlen
      exact hts (List.length_eq_zero_iff.mp hlen)
    refine ⟨?_, vPhase0 b p.p0 p.p1, ?_, ?_⟩
    · rw [List.length_map, trapezoids_length F (ts.map some) (some 0)
        (by rw [← hlen, List.length_map]) hF0, List.length_map]
    · obtain ⟨r, hr⟩ := trapezoids_head F (ts.map some) (some 0)
      rw [hr]
      simp
    · rw [← hz]
      exact phase0_z b p.p0 p.p1 e5 e6
  have hun : ∀ g : ℝ → ℝ, un g (axis ts) = .ar (ts.map fun t => some (g t)) := by
    intro g
    simp [un, axis]
  have haO : b.aOln (axis ts) =
      .ok (.ar (ts.map fun t => some ((decays p.a0 p.d0 t + decays p.a1 p.d1 t) / 2))) := by
    simp [Beat.aOln, semisum, semi, ea0, ea1, Par.eval, hun, add, div, bin, lift2]
  have haH : b.aHat (axis ts) =
      .ok (.ar (ts.map fun t => some ((decays p.a0 p.d0 t - decays p.a1 p.d1 t) / 2))) := by
    simp [Beat.aHat, semidiff, semi, ea0, ea1, Par.eval, hun, sub, div, bin, lift2]
  have hfO : b.fOln (axis ts) = .ok (.sc (some ((p.f0 + p.f1) / 2))) := by
    simp [Beat.fOln, semisum, semi, e3, e4, Par.eval, add, div, bin, lift2]
  have hfH : b.fHat (axis ts) = .ok (.sc (some ((p.f0 - p.f1) / 2))) := by
    simp [Beat.fHat, semidiff, semi, e3, e4, Par.eval, sub, div, bin, lift2]
  have hpO : b.pOln (axis ts) = .ok (.sc (some ((p.p0 + p.p1) / 2))) := by
    simp [Beat.pOln, semisum, semi, e5, e6, Par.eval, add, div, bin, lift2]
  have hpH : b.pHat (axis ts) = .ok (.sc (some ((p.p0 - p.p1) / 2))) := by
    simp [Beat.pHat, semidiff, semi, e5, e6, Par.eval, sub, div, bin, lift2]
  refine ⟨b, hb, ?_, ?_⟩
  · intro n hn
    simp only [Names, List.mem_cons, List.not_mem_nil, or_false] at hn
    rcases hn with rfl | rfl | rfl | rfl | rfl | rfl | rfl | rfl | rfl | rfl | rfl | rfl | rfl | rfl |
      rfl | rfl | rfl | rfl | rfl | rfl | rfl | rfl | rfl | rfl | rfl
    all_goals simp only [Beat.variable, Shows, String.reduceEq, if_true, if_false, reduceIte,
      false_imp_iff, true_imp_iff, and_true, true_and, Option.some.injEq, exists_eq_left',
      forall_true_left]
    · exact ⟨_, _, rfl, rfl, rfl⟩
    · exact ⟨_, _, rfl, rfl, by rw [ea0]; exact hun _⟩
    · exact ⟨_, _, rfl, rfl, by rw [ea1]; exact hun _⟩
    · exact ⟨_, _, rfl, rfl, by rw [e3]; rfl⟩
    · exact ⟨_, _, rfl, rfl, by rw [e4]; rfl⟩
    · exact ⟨_, _, rfl, rfl, by rw [e5]; rfl⟩
    · exact ⟨_, _, rfl, rfl, by rw [e6]; rfl⟩
    · exact ⟨_, _, rfl, haO, rfl⟩
    · exact ⟨_, _, rfl, haH, rfl⟩
    · exact ⟨_, _, rfl, hfO, rfl⟩
    · exact ⟨_, _, rfl, hfH, rfl⟩
    · exact ⟨_, _, rfl, hpO, rfl⟩
    · exact ⟨_, _, rfl, hpH, rfl⟩
    · exact ⟨_, _, rfl, rfl, _, by rw [ed0]; exact hun _, hder _ _⟩
    · exact ⟨_, _, rfl, rfl, _, by rw [ed1]; exact hun _, hder _ _⟩
    · refine ⟨_, .sc (some (Real.pi * (p.f0 - p.f1))), rfl, ?_, rfl⟩
      simp only [Beat.wHat, hfH, bind, Except.bind, mul, bin, lift2, Option.bind_some]
      congr 3
      ring
    · refine ⟨_, .sc (some (Real.pi * (p.f0 + p.f1))), rfl, ?_, rfl⟩
      simp only [Beat.wOln, hfO, bind, Except.bind, mul, bin, lift2, Option.bind_some]
      congr 3
      ring
    · refine ⟨_, .ar (ts.map fun t => some ((decays p.a0 p.d0 t + decays p.a1 p.d1 t) ^ 2 / 4)), rfl,
        ?_, rfl⟩
      simp only [haO, bind, Except.bind, un_ar, Option.map_some]
      congr 3
      funext t
      congr 1
      ring
    · refine ⟨_, .ar (ts.map fun t => some ((decays p.a0 p.d0 t - decays p.a1 p.d1 t) ^ 2 / 4)), rfl,
        ?_, rfl⟩
      simp only [haH, bind, Except.bind, un_ar, Option.map_some]
      congr 3
      funext t
      congr 1
      ring
    · exact ⟨_, _, rfl, alpha2_ar b ts hfit, by simp only [hq]⟩
    · refine ⟨_, _, rfl, am_ar b ts hfit, ?_⟩
      simp only [two_sqrt, hz]
    · obtain ⟨G, hG, hG'⟩ := fmFromAm_ar b ts hfit
      refine ⟨_, _, rfl, hG, G, rfl, fun t ht => ?_⟩
      rw [hG' t (hq0 t ht), hq]
      congr 1
      have hn : ‖partials p t‖ ^ 2 ≠ 0 := by simpa using ht
      rw [vG, ea0, ea1, ed0, ed1, vPh, e3, e4, e5, e6]
      simp only [Par.at]
      rw [show (2 * Real.pi * ((p.f0 - p.f1) / 2) * t + (p.p0 - p.p1) / 2) * 2 =
        2 * Real.pi * (p.f0 - p.f1) * t + (p.p0 - p.p1) by ring]
      field_simp
      ring
    · refine ⟨_, _, rfl, hF, F, rfl, ?_⟩
      exact hv.imp fun t c h z' hz' => h _ z' rfl hz'
    · exact ⟨_, _, rfl, hpm, _, rfl, hang⟩
    · refine ⟨_, _, rfl, x_ar b hfit _ _ e5 e6 ts hts F hF hlen.symm, _, hang, ?_⟩
      rw [hz, List.zipWith_map_right, List.zipWith_map_right]
      congr 1
      refine congrFun (congrFun (congrArg _ ?_) _) _
      funext c u
      cases c <;> cases u <;> rfl
  · intro n hn
    simp only [Names, List.mem_cons, List.not_mem_nil, or_false, not_or] at hn
    simp [Beat.variable, hn]

theorem lookup_ok (b : Beat) (p : Octet ℝ) (ts : List ℝ)
    (h : ∀ n ∈ Names, ∃ f v, b.variable n = some f ∧ f (axis ts) = .ok v ∧ Shows p ts n v)
    (names : List String) (hn : ∀ n ∈ names, n ∈ Names) :
    ∃ fs out, b.lookup names = .ok fs ∧ evalAll (axis ts) fs = .ok out ∧
      List.Forall₂ (Shows p ts) names out := by
  induction names with
  | nil => exact ⟨[], [], rfl, rfl, .nil⟩
  | cons n names ih =>
    obtain ⟨fs, out, h1, h2, h3⟩ := ih fun m hm => hn m (by simp [hm])
    obtain ⟨f, v, g1, g2, g3⟩ := h n (hn n (by simp))
    exact ⟨f :: fs, v :: out, by simp [Beat.lookup, g1, h1], by simp [evalAll, g2, h2], .cons g3 h3⟩

/-- C154: a prediction at two times or more, flat or in a column, is one output for each name, in their
order, and each shows the beat with the parameters; without names the signal. -/
theorem C154_predict (s : Br) (p : Octet ℝ) (hs : s.beat = some p) (h0 : p.d0 ≠ 0) (h1 : p.d1 ≠ 0)
    (t : TimeAxis) (ht : 2 ≤ t.times.length) (names : List String) (hn : ∀ n ∈ names, n ∈ Names) :
    ∃ out, s.predict t names = .ok out ∧
      List.Forall₂ (Shows p t.times) (if names = [] then ["x"] else names) out := by
  have hsq : t.squeeze = axis t.times := by
    unfold TimeAxis.squeeze
    split
    · rename_i v hv
      simp [hv] at ht
    · rfl
  obtain ⟨b, hb, hv, -⟩ := variable_ok p h0 h1 t.times (by rintro h; simp [h] at ht)
  obtain ⟨fs, out, e1, e2, e3⟩ := lookup_ok b p t.times hv (if names = [] then ["x"] else names) (by
    by_cases h : names = []
    · simp [h, Names]
    · simpa [h] using hn)
  exact ⟨out, by simp [Br.predict, hs, hb, Beat.compute, e1, hsq, e2], e3⟩

theorem lookup_unknown (b : Beat) (n : String) (hb : b.variable n = none) (names : List String)
    (h : n ∈ names) : b.lookup names = .error .keyError := by
  induction names with
  | nil => simp at h
  | cons m names ih =>
    by_cases hm : n = m
    · subst hm
      simp [Beat.lookup, hb]
    · have hl := ih (by simpa [hm] using h)
      rw [Beat.lookup, hl]
      cases b.variable m <;> rfl

theorem evalAll_error (t : Val) (f : Val → Except PyErr Val) (e : PyErr) (hf : f t = .error e)
    (fs : List (Val → Except PyErr Val)) (h : f ∈ fs) : ∃ e', evalAll t fs = .error e' := by
  induction fs with
  | nil => simp at h
  | cons g fs ih =>
    rcases List.mem_cons.1 h with rfl | h
    · exact ⟨e, by simp [evalAll, hf]⟩
    · obtain ⟨e', he⟩ := ih h
      rw [evalAll, he]
      rcases g t with e'' | r
      · exact ⟨e'', rfl⟩
      · exact ⟨e', rfl⟩

theorem lookup_mem (b : Beat) (n : String) (f : Val → Except PyErr Val) (hb : b.variable n = some f)
    (names : List String) (h : n ∈ names) (fs : List (Val → Except PyErr Val))
    (hl : b.lookup names = .ok fs) : f ∈ fs := by
  induction names generalizing fs with
  | nil => simp at h
  | cons m names ih =>
    rw [Beat.lookup] at hl
    rcases hm : b.variable m with _ | g
    · simp [hm] at hl
    rcases hr : b.lookup names with e | gs
    · simp [hm, hr] at hl
    simp only [hm, hr] at hl
    cases hl
    rcases List.mem_cons.1 h with rfl | h
    · rw [hb] at hm
      cases hm
      simp
    · exact List.mem_cons_of_mem _ (ih h gs hr)

/-- C154: what raises: a prediction before any fit has succeeded (`AttributeError`), a name that is not
the name of a variable, wherever it is in the list (`KeyError`), and the signal or its phase at a single
time; and so does reading slope and intercept before any fit. -/
theorem C154_errors (s : Br) (t : TimeAxis) (names : List String) :
    (s.beat = none → s.predict t names = .error .attributeError) ∧
    (∀ p, s.beat = some p → p.d0 ≠ 0 → p.d1 ≠ 0 →
      (∀ n ∈ names, n ∉ Names → s.predict t names = .error .keyError) ∧
      ((t.times.length = 1 ∧ (names = [] ∨ "x" ∈ names ∨ "pm" ∈ names)) →
        ∃ e, s.predict t names = .error e)) ∧
    (∀ r, r = none ∨ r = some none → (Br.new r).kq = .error .attributeError) := by
  refine ⟨fun h => by simp [Br.predict, h], fun p hs h0 h1 => ?_, ?_⟩
  · obtain ⟨b, hb, hv, hu⟩ := variable_ok p h0 h1 [0] (by simp)
    refine ⟨fun n hn hx => ?_, ?_⟩
    · have hne : names ≠ [] := by rintro rfl; simp at hn
      simp [Br.predict, hs, hb, Beat.compute, hne, lookup_unknown b n (hu n hx) names hn]
    · rintro ⟨ht, hn⟩
      obtain ⟨v, hv⟩ := List.length_eq_one_iff.1 ht
      have hsq : t.squeeze = .sc (some v) := by simp [TimeAxis.squeeze, hv]
      have hpm : ∃ e, b.pm (.sc (some v)) = .error e := by
        rw [Beat.pm]
        rcases b.fm (.sc (some v)) with e | f
        · exact ⟨e, rfl⟩
        · exact ⟨.valueError, by cases f <;> rfl⟩
      have hx : ∃ e, b.x (.sc (some v)) = .error e := by
        obtain ⟨e, he⟩ := hpm
        rw [Beat.x, he]
        rcases b.am (.sc (some v)) with e' | f
        · exact ⟨e', rfl⟩
        · exact ⟨e, rfl⟩
      have vx : b.variable "x" = some b.x := by simp [Beat.variable]
      have vp : b.variable "pm" = some b.pm := by simp [Beat.variable]
      simp only [Br.predict, hs, hb, Beat.compute, hsq]
      rcases hl : b.lookup (if names = [] then ["x"] else names) with e | fs
      · exact ⟨e, rfl⟩
      · simp only
        obtain ⟨ex, hx⟩ := hx
        obtain ⟨ep, hp⟩ := hpm
        by_cases hne : names = []
        · exact evalAll_error _ b.x ex hx fs (lookup_mem b "x" _ vx _ (by simp [hne]) fs hl)
        · rw [if_neg hne] at hl
          rcases hn with h | h | h
          · exact absurd h hne
          · exact evalAll_error _ b.x ex hx fs (lookup_mem b "x" _ vx _ h fs hl)
          · exact evalAll_error _ b.pm ep hp fs (lookup_mem b "pm" _ vp _ h fs hl)
  · rintro r (rfl | rfl) <;> rfl

/-- A fit and a prediction of the modulation at two times. -/
example : ∃ out, (Call.run (Br.new none) ⟨exSteps ⟨1, 1, 100, 98, 1, 1, 0, 0⟩, ⟨[], [], []⟩, none⟩).predict
    (.column [0, 1]) ["am"] = .ok out ∧ out.length = 1 := by
  obtain ⟨out, h1, h2⟩ := C154_predict _ _ (exSteps_fit ⟨1, 1, 100, 98, 1, 1, 0, 0⟩ (Br.new none)
    ⟨[], [], []⟩).2.1 one_ne_zero one_ne_zero (.column [0, 1]) (by simp [TimeAxis.times]) ["am"]
    (by simp [Names])
  exact ⟨out, h1, by simpa using h2.length_eq.symm⟩

end Verif.Beat
