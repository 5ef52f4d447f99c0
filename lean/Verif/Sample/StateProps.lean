import Verif.Sample.StateModel
import Verif.Sample.Props
import Verif.Sms.FitProps

/-!
# C159: `SAMPLE` over any history of fits, settings and assignments
-/

set_option autoImplicit false
set_option linter.unusedSectionVars false
set_option linter.unusedSimpArgs false

namespace Verif.Sample.Hist

open Verif.Tracker

variable {K : Type*} [Field K] [LinearOrder K] [IsStrictOrderedRing K] [FloorRing K]

/-! ## The loop -/

/-- The loop is that of the sinusoidal model. -/
theorem framesTrace_fitLoop (E : Env K) (p : Sms.Params K) (w : List K) :
    ∀ (xs : List (List K)) (s : State K) (st : Learn.Storage (Sms.Saved K)),
      (∀ e, (framesTrace E p w xs s).2 = .error e ↔ Sms.fitLoop E.spec E.sort p w xs (s, st) = .error e) ∧
      (∀ s', (framesTrace E p w xs s).2 = .ok s' ↔
        ∃ st', Sms.fitLoop E.spec E.sort p w xs (s, st) = .ok (s', st')) := by
  intro xs
  induction xs with
  | nil =>
    intro s st
    refine ⟨by simp [framesTrace, Sms.fitLoop], fun s' => ?_⟩
    simp only [framesTrace, Sms.fitLoop, Except.ok.injEq, Prod.mk.injEq]
    exact ⟨fun h => ⟨st, h, rfl⟩, fun ⟨_, h, _⟩ => h⟩
  | cons x xs ih =>
    intro s st
    rcases h1 : Sms.dft E.spec x w p.n with e | ⟨mx, px⟩
    · simp [framesTrace, frameStep, Sms.fitLoop, h1]
    rcases h2 : Sms.peakDetectInterp mx px (some p.t) with e | pk
    · simp [framesTrace, frameStep, Sms.fitLoop, h1, h2]
    rcases h3 : Sms.toPeaks p.cfg.fs p.n pk with e | peaks
    · simp [framesTrace, frameStep, Sms.fitLoop, h1, h2, h3]
    rcases h4 : call p.deact p.cfg.toCfg (E.sort peaks) peaks s with e | s'
    · simp [framesTrace, frameStep, Sms.fitLoop, h1, h2, h3, h4]
    simp only [framesTrace, frameStep, Sms.fitLoop, h1, h2, h3, h4]
    exact ih _ _

/-- The states of the tracker between frames are those after the first frames; the others are left in the middle of
an update. -/
theorem framesTrace_states (E : Env K) (p : Sms.Params K) (w : List K) :
    ∀ (xs : List (List K)) (s : State K) (o : Option (State K)), o ∈ (framesTrace E p w xs s).1 →
      ∃ j ≤ xs.length, ∃ st, (framesTrace E p w (xs.take j) s).2 = .ok st ∧ (o = some st ∨ o = E.lost (some st)) := by
  intro xs
  induction xs with
  | nil => intro s o h; simp [framesTrace] at h
  | cons x xs ih =>
    intro s o h
    rcases h1 : frameStep E p w x s with e | s'
    · simp only [framesTrace, h1, List.mem_singleton] at h
      exact ⟨0, Nat.zero_le _, s, rfl, Or.inr h⟩
    · simp only [framesTrace, h1, List.mem_cons] at h
      rcases h with h | h | h
      · exact ⟨0, Nat.zero_le _, s, rfl, Or.inr h⟩
      · refine ⟨1, by simp, s', ?_, Or.inl h⟩
        simp [framesTrace, h1]
      · obtain ⟨j, hj, st, g, g'⟩ := ih s' o h
        refine ⟨j + 1, by simpa using hj, st, ?_, g'⟩
        simpa [framesTrace, h1] using g

/-- Without an exception the last state of the loop is the one given. -/
theorem framesTrace_last (E : Env K) (p : Sms.Params K) (w : List K) :
    ∀ (xs : List (List K)) (s st : State K), (framesTrace E p w xs s).2 = .ok st →
      (framesTrace E p w xs s).1.getLastD (some s) = some st := by
  intro xs
  induction xs with
  | nil => intro s st h; simp only [framesTrace, Except.ok.injEq] at h; simp [framesTrace, h]
  | cons x xs ih =>
    intro s st h
    rcases h1 : frameStep E p w x s with e | s'
    · simp [framesTrace, h1] at h
    · simp only [framesTrace, h1] at h ⊢
      have := ih s' st h
      rw [List.getLastD_cons, List.getLastD_cons]
      exact this

/-! ## The matrix -/

theorem stack_ok {α : Type*} {n : Nat} {l : List (List α)} {m : List (List α)} (h : stack n l = .ok m) :
    ∀ p ∈ l, p.length = n := by
  unfold stack at h
  split at h
  · rename_i hh; simpa using hh
  · simp at h

/-- The assignments: all columns, then (all or none of them; empty if there are none), then those of `cleanParams`; or
an exception before any assignment. -/
theorem cleanTrace_cases (n : Nat) (hn : 1 ≤ n) (cols : List (List (Option K))) :
    (∃ e, cleanTrace n cols = ([], some e) ∧ cleanParams n cols = .error e) ∨
    (∃ m m' r, cleanTrace n cols = ([m, m', r], none) ∧ cleanParams n cols = .ok r) := by
  cases cols with
  | nil =>
    right
    obtain ⟨r, hr, _⟩ := C22_finite_columns n hn ([] : List (List (Option K))) (by simp)
    have hr' := hr
    simp only [cleanParams] at hr'
    exact ⟨[], List.replicate n [], r, by simp [cleanTrace, hr'], hr⟩
  | cons c cs =>
    rcases hs : stack n (c :: cs) with e | m
    · left
      exact ⟨e, by simp [cleanTrace, hs], by simp [cleanParams, hs]⟩
    · right
      obtain ⟨r, hr, _⟩ := C22_finite_columns n hn (c :: cs) (stack_ok hs)
      have hr' := hr
      simp only [cleanParams, hs] at hr'
      exact ⟨m, m, r, by simp [cleanTrace, hs, hr'], hr⟩

/-! ## One call -/

/-- The tracker after the first frames of the sound that the call analyses. -/
def After (E : Env K) (σ : Settings K) (x : List K) (st : State K) : Prop :=
  ∃ w frames j, Sms.normalizedWindow σ.params.w = .ok w ∧
    Sms.timeFrames σ.params.padded σ.params.w.length σ.params.hop
      (if σ.params.reverse then x.reverse else x) = .ok frames ∧
    ∃ st0 st1, Sms.fitLoop E.spec E.sort σ.params w (frames.take j) (⟨[], [], 0⟩, st0) = .ok (st, st1)

/-- What can be left of the tracker when a call does not come to its end. -/
def Left (E : Env K) (σ : Settings K) (x : List K) (before o : Option (State K)) : Prop :=
  o = before ∨ o = E.lost before ∨ o = some ⟨[], [], 0⟩ ∨ ∃ st, After E σ x st ∧ (o = some st ∨ o = E.lost (some st))

/-- The courses of a call: either no assignment to the matrix, or the three assignments at the end. -/
theorem fit_cases (E : Env K) (hn : 1 ≤ E.nrows) (kw : Settings K → Settings K × Option PyErr) (x : List K) (s : Obj K) :
    (∃ l e, fit E kw x s = (s :: l, some e) ∧ l ≠ [] ∧ ∀ s' ∈ l, s'.settings = (kw s.settings).1 ∧ s'.matrix = s.matrix ∧
      Left E (kw s.settings).1 x s.state s'.state) ∨
    (∃ l st cols m m' r, fit E kw x s =
        (s :: l ++ [⟨(kw s.settings).1, some st, some m⟩, ⟨(kw s.settings).1, some st, some m'⟩,
          ⟨(kw s.settings).1, some st, some r⟩], none) ∧
      (∀ s' ∈ l, s'.settings = (kw s.settings).1 ∧ s'.matrix = s.matrix ∧
        Left E (kw s.settings).1 x s.state s'.state) ∧
      (∀ M : Sms.Model K, M.params = (kw s.settings).1.params → ∃ M', M.fit E.spec E.sort x Sms.Kwargs.none = .ok M' ∧
        M'.state = st ∧ M'.params = (kw s.settings).1.params) ∧
      Training.starmapList (E.trackParams (kw s.settings).1.params x.length)
        (tracksOf (kw s.settings).1.params st) = .ok cols ∧ cleanParams E.nrows cols.flatten = .ok r) := by
  set σ := (kw s.settings).1 with hσ
  rcases h1 : (kw s.settings).2 with _ | e
  swap
  · left
    refine ⟨[{ s with settings := σ }], e, by simp [fit, h1, ← hσ], by simp, ?_⟩
    intro s' hs
    simp only [List.mem_singleton] at hs
    subst hs
    exact ⟨rfl, rfl, Or.inl rfl⟩
  rcases h2 : E.enter with e | u
  · left
    refine ⟨[{ s with settings := σ }], e, by simp [fit, h1, h2, ← hσ], by simp, ?_⟩
    intro s' hs
    simp only [List.mem_singleton] at hs
    subst hs
    exact ⟨rfl, rfl, Or.inl rfl⟩
  rcases h3 : Sms.timeFrames σ.params.padded σ.params.w.length σ.params.hop x with e | fr
  · left
    refine ⟨[{ s with settings := σ }], e, by simp [fit, h1, h2, ← hσ, h3], by simp, ?_⟩
    intro s' hs
    simp only [List.mem_singleton] at hs
    subst hs
    exact ⟨rfl, rfl, Or.inl rfl⟩
  have hpre : ∀ s' ∈ [({ s with settings := σ } : Obj K), ⟨σ, E.lost s.state, s.matrix⟩, ⟨σ, some ⟨[], [], 0⟩, s.matrix⟩],
      s'.settings = σ ∧ s'.matrix = s.matrix ∧ Left E σ x s.state s'.state := by
    intro s' hs
    simp only [List.mem_cons, List.not_mem_nil, or_false] at hs
    rcases hs with rfl | rfl | rfl
    · exact ⟨rfl, rfl, Or.inl rfl⟩
    · exact ⟨rfl, rfl, Or.inr (Or.inl rfl)⟩
    · exact ⟨rfl, rfl, Or.inr (Or.inr (Or.inl rfl))⟩
  rcases h4 : Sms.normalizedWindow σ.params.w with e | w
  · left
    exact ⟨_, e, by simp [fit, h1, h2, ← hσ, h3, h4], by simp, hpre⟩
  rcases h5 : Sms.timeFrames σ.params.padded σ.params.w.length σ.params.hop
      (if σ.params.reverse then x.reverse else x) with e | frames
  · left
    exact ⟨_, e, by simp [fit, h1, h2, ← hσ, h3, h4, h5], by simp, hpre⟩
  set r := framesTrace E σ.params w frames ⟨[], [], 0⟩ with hr
  have hloop : ∀ s' ∈ [({ s with settings := σ } : Obj K), ⟨σ, E.lost s.state, s.matrix⟩,
      ⟨σ, some ⟨[], [], 0⟩, s.matrix⟩] ++ r.1.map (fun st => (⟨σ, st, s.matrix⟩ : Obj K)),
      s'.settings = σ ∧ s'.matrix = s.matrix ∧ Left E σ x s.state s'.state := by
    intro s' hs
    rcases List.mem_append.1 hs with hs | hs
    · exact hpre s' hs
    · obtain ⟨o, ho, rfl⟩ := List.mem_map.1 hs
      refine ⟨rfl, rfl, Or.inr (Or.inr (Or.inr ?_))⟩
      obtain ⟨j, _, st, g, g'⟩ := framesTrace_states E σ.params w frames _ o ho
      obtain ⟨st1, hst⟩ := ((framesTrace_fitLoop E σ.params w (frames.take j) ⟨[], [], 0⟩ (Learn.Storage.init true)).2 st).1 g
      exact ⟨st, ⟨w, frames, j, h4, h5, _, st1, hst⟩, g'⟩
  rcases h6 : r.2 with e | st
  · left
    refine ⟨_, e, ?_, by simp, hloop⟩
    simp [fit, h1, h2, ← hσ, h3, h4, h5, ← hr, h6]
  have hfit : ∀ M : Sms.Model K, M.params = σ.params → ∃ M', M.fit E.spec E.sort x Sms.Kwargs.none = .ok M' ∧
      M'.state = st ∧ M'.params = σ.params := by
    intro M hM
    obtain ⟨st1, hst⟩ := ((framesTrace_fitLoop E σ.params w frames ⟨[], [], 0⟩ M.storage.reset).2 st).1 h6
    have e1 : ({ M.storage.reset with save := M.storage.reset.save } : Learn.Storage (Sms.Saved K)) = M.storage.reset := rfl
    refine ⟨⟨σ.params, st, st1, some w⟩, ?_, rfl, rfl⟩
    simp [Sms.Model.fit, Sms.Model.setParams, Sms.Kwargs.none, hM, h4, h5, Tracker.reset, hst]
  rcases h7 : Training.starmapList (E.trackParams σ.params x.length) (tracksOf σ.params st) with e | cols
  · left
    refine ⟨_, e, ?_, by simp, hloop⟩
    simp [fit, h1, h2, ← hσ, h3, h4, h5, ← hr, h6, h7]
  rcases cleanTrace_cases E.nrows hn cols.flatten with ⟨e, g1, g2⟩ | ⟨m, m', q, g1, g2⟩
  · left
    refine ⟨_, e, ?_, by simp, hloop⟩
    simp [fit, h1, h2, ← hσ, h3, h4, h5, ← hr, h6, h7, g1]
  · right
    refine ⟨_, st, cols, m, m', q, ?_, hloop, hfit, h7, g2⟩
    simp [fit, h1, h2, ← hσ, h3, h4, h5, ← hr, h6, h7, g1]

theorem getLastD_append_cons {α : Type*} (l : List α) (a d : α) : (l ++ [a]).getLastD d = a := by
  rw [List.getLastD_eq_getLast?, List.getLast?_append]
  rfl

/-- C159: a call that returns leaves the tracks that the sinusoidal model finds in this sound with the settings in
force, whatever it was used for before, and the finite columns computed from just these tracks. -/
theorem C159_return (E : Env K) (hn : 1 ≤ E.nrows) (kw : Settings K → Settings K × Option PyErr) (x : List K)
    (s : Obj K) (h : (fit E kw x s).2 = none) :
    (Op.run s (.fit E kw x none)).settings = (kw s.settings).1 ∧
    ∀ M : Sms.Model K, M.params = (kw s.settings).1.params → ∃ M' cols rows,
      M.fit E.spec E.sort x Sms.Kwargs.none = .ok M' ∧
      (Op.run s (.fit E kw x none)).tracks = .ok M'.tracks ∧
      Training.starmapList (E.trackParams (kw s.settings).1.params x.length) M'.tracks = .ok cols ∧
      cleanParams E.nrows cols.flatten = .ok rows ∧ (Op.run s (.fit E kw x none)).matrix = some rows := by
  rcases fit_cases E hn kw x s with ⟨l, e, hf, _⟩ | ⟨l, st, cols, m, m', r, hf, _, hM, hc, hr⟩
  · rw [hf] at h; simp at h
  have e1 : Op.run s (.fit E kw x none) = ⟨(kw s.settings).1, some st, some r⟩ := by
    simp only [Op.run, hf]
    rw [List.append_cons, List.append_cons, getLastD_append_cons]
  rw [e1]
  refine ⟨rfl, fun M h' => ?_⟩
  obtain ⟨M', g1, g2, g3⟩ := hM M h'
  have g4 : M'.tracks = tracksOf (kw s.settings).1.params st := by
    rw [Sms.Model.tracks, tracksOf, g2, g3]
  exact ⟨M', cols, r, g1, by rw [Obj.tracks, g4], by rw [g4]; exact hc, hr, rfl⟩

/-- C159: a call that raises leaves the matrix, and so the frequencies, decays and amplitudes, as before; the keyword
arguments stay in force; what is left of the tracker is what it was, or comes from a part of the new sound. -/
theorem C159_raise (E : Env K) (hn : 1 ≤ E.nrows) (kw : Settings K → Settings K × Option PyErr) (x : List K)
    (s : Obj K) (e : PyErr) (h : (fit E kw x s).2 = some e) :
    (Op.run s (.fit E kw x none)).matrix = s.matrix ∧
    (∀ r, (Op.run s (.fit E kw x none)).row r = s.row r) ∧
    (Op.run s (.fit E kw x none)).settings = (kw s.settings).1 ∧
    Left E (kw s.settings).1 x s.state (Op.run s (.fit E kw x none)).state := by
  rcases fit_cases E hn kw x s with ⟨l, e, hf, hne, hl⟩ | ⟨l, st, cols, m, m', r, hf, _, hM, hc, hr⟩
  swap
  · rw [hf] at h; simp at h
  have key : Op.run s (.fit E kw x none) ∈ l := by
    simp only [Op.run, hf]
    rcases List.eq_nil_or_concat l with rfl | ⟨l', a, rfl⟩
    · exact absurd rfl hne
    · rw [List.concat_eq_append, ← List.cons_append, getLastD_append_cons]
      simp
  obtain ⟨g1, g2, g3⟩ := hl _ key
  exact ⟨g2, fun r => by rw [Obj.row, Obj.row, g2], g1, g3⟩

/-- C159: if the analysis succeeds but the parameters of a track cannot be computed, the tracks are those of the new
sound and the matrix is still the old one. -/
theorem C159_track_failure (E : Env K) (kw : Settings K → Settings K × Option PyErr) (x : List K)
    (s : Obj K) (M M' : Sms.Model K) (e : PyErr) (h1 : (kw s.settings).2 = none) (h2 : E.enter = .ok ())
    (h3 : ∃ f, Sms.timeFrames (kw s.settings).1.params.padded (kw s.settings).1.params.w.length
      (kw s.settings).1.params.hop x = .ok f) (hM : M.params = (kw s.settings).1.params)
    (h4 : M.fit E.spec E.sort x Sms.Kwargs.none = .ok M')
    (h5 : Training.starmapList (E.trackParams (kw s.settings).1.params x.length) M'.tracks = .error e) :
    (fit E kw x s).2 = some e ∧ (Op.run s (.fit E kw x none)).tracks = .ok M'.tracks ∧
      (Op.run s (.fit E kw x none)).matrix = s.matrix := by
  set σ := (kw s.settings).1 with hσ
  obtain ⟨f, h3⟩ := h3
  have hp : M'.params = σ.params := by rw [(Sms.fit_params _ _ _ _ _ _ h4).1, ← hM]; rfl
  simp only [Sms.Model.fit, Sms.Model.setParams, Sms.Kwargs.none, id, hM, Tracker.reset, Option.getD_none] at h4
  rcases g1 : Sms.normalizedWindow σ.params.w with e' | w
  · simp [g1] at h4
  simp only [g1, Option.getD_some] at h4
  rcases g2 : Sms.timeFrames σ.params.padded σ.params.w.length σ.params.hop
      (if σ.params.reverse then x.reverse else x) with e' | frames
  · simp [g2] at h4
  simp only [g2] at h4
  split at h4
  · simp at h4
  rename_i st st1 g3
  simp only [Except.ok.injEq] at h4
  have g4 : (framesTrace E σ.params w frames ⟨[], [], 0⟩).2 = .ok st :=
    ((framesTrace_fitLoop E σ.params w frames ⟨[], [], 0⟩ _).2 st).2 ⟨st1, g3⟩
  have g5 : M'.tracks = tracksOf σ.params st := by
    rw [Sms.Model.tracks, tracksOf, hp, ← h4]
  rw [g5] at h5 ⊢
  have hf : fit E kw x s = ([s, { s with settings := σ }, ⟨σ, E.lost s.state, s.matrix⟩] ++
      ((some ⟨[], [], 0⟩ : Option (State K)) :: (framesTrace E σ.params w frames ⟨[], [], 0⟩).1).map
        (fun st => (⟨σ, st, s.matrix⟩ : Obj K)), some e) := by
    simp [fit, h1, h2, ← hσ, h3, g1, g2, g4, h5]
  have hlast : Op.run s (.fit E kw x none) = ⟨σ, some st, s.matrix⟩ := by
    have := framesTrace_last E σ.params w frames _ st g4
    simp only [Op.run, hf]
    rw [List.getLastD_eq_getLast?, List.getLast?_append, List.getLast?_map, List.getLast?_cons,
      ← List.getLastD_eq_getLast?, this]
    rfl
  rw [hf, hlast]
  exact ⟨rfl, rfl, rfl⟩

/-- C159: what a call raises, or leaves, does not depend on what was done to the object before, except for the
settings. -/
theorem C159_forget (E : Env K) (hn : 1 ≤ E.nrows) (kw : Settings K → Settings K × Option PyErr) (x : List K)
    (s s' : Obj K) (h : s.settings = s'.settings) :
    (fit E kw x s).2 = (fit E kw x s').2 ∧
    ((fit E kw x s).2 = none → Op.run s (.fit E kw x none) = Op.run s' (.fit E kw x none)) := by
  have e1 : (fit E kw x s).2 = (fit E kw x s').2 := by
    unfold fit
    simp only [h]
    split
    · rfl
    split
    · rfl
    split
    · rfl
    split
    · rfl
    split
    · rfl
    split
    · rfl
    split <;> rfl
  refine ⟨e1, fun h0 => ?_⟩
  have h0' := h0
  rw [e1] at h0'
  rcases fit_cases E hn kw x s with ⟨l, e, hf, _⟩ | ⟨l, st, cols, m, m', r, hf, _, hM, hc, hr⟩
  · rw [hf] at h0; simp at h0
  rcases fit_cases E hn kw x s' with ⟨l, e, hf', _⟩ | ⟨l', st', cols', n, n', r', hf', _, hM', hc', hr'⟩
  · rw [hf'] at h0'; simp at h0'
  rw [← h] at hf' hM' hc'
  obtain ⟨M', a1, a2, _⟩ := hM ⟨(kw s.settings).1.params, ⟨[], [], 0⟩, Learn.Storage.init true, none⟩ rfl
  obtain ⟨M'', b1, b2, _⟩ := hM' ⟨(kw s.settings).1.params, ⟨[], [], 0⟩, Learn.Storage.init true, none⟩ rfl
  rw [a1, Except.ok.injEq] at b1
  rw [← b1, a2] at b2
  subst b2
  rw [hc, Except.ok.injEq] at hc'
  subst hc'
  rw [hr, Except.ok.injEq] at hr'
  subst hr'
  simp only [Op.run, hf, hf']
  rw [List.append_cons, List.append_cons, getLastD_append_cons, List.append_cons, List.append_cons,
    getLastD_append_cons]

/-! ## Histories -/

/-- An operation that, from the state `s`, fails or is interrupted before the three assignments at the end of `fit`, or
only changes settings. -/
def Quiet (s : Obj K) : Op K → Prop
  | .set _ => True
  | .fit E kw x stop => 1 ≤ E.nrows ∧
    ((fit E kw x s).2 ≠ none ∨ ∃ k, stop = some k ∧ k + 3 < (fit E kw x s).1.length)
  | .row r v => ∃ e, s.setRow r v = .error e

theorem quiet_run (s : Obj K) (op : Op K) (h : Quiet s op) : (op.run s).matrix = s.matrix := by
  cases op with
  | set f => rfl
  | row r v => obtain ⟨e, h⟩ := h; simp [Op.run, h]
  | fit E kw x stop =>
    obtain ⟨hn, h⟩ := h
    rcases fit_cases E hn kw x s with ⟨l, e, hf, hne, hl⟩ | ⟨l, st, cols, m, m', r, hf, hl, _⟩
    · have hall : ∀ s' ∈ s :: l, s'.matrix = s.matrix := by
        intro s' hs
        rcases List.mem_cons.1 hs with rfl | hs
        · rfl
        · exact (hl s' hs).2.1
      have hlast : ((s :: l).getLastD s).matrix = s.matrix := by
        apply hall
        rw [List.getLastD_cons]
        rcases List.eq_nil_or_concat l with rfl | ⟨l', a, rfl⟩
        · simp
        · rw [List.concat_eq_append, getLastD_append_cons]; simp
      simp only [Op.run, hf]
      cases stop with
      | none => exact hlast
      | some k =>
        simp only
        cases hk : (s :: l)[k]? with
        | none => exact hlast
        | some s' => exact hall s' (List.mem_of_getElem? hk)
    · rcases h with h | ⟨k, rfl, hk⟩
      · rw [hf] at h; simp at h
      · simp only [Op.run, hf]
        rw [hf] at hk
        simp only [List.length_append, List.length_cons, List.length_nil] at hk
        rw [List.getElem?_append_left (by simp only [List.length_cons]; omega)]
        cases hk' : (s :: l)[k]? with
        | none =>
          rw [List.getElem?_eq_none_iff] at hk'
          simp only [List.length_cons] at hk'
          omega
        | some s' =>
          rcases List.mem_cons.1 (List.mem_of_getElem? hk') with rfl | hs
          · rfl
          · exact (hl s' hs).2.1

/-- Every operation of the history is quiet in its turn. -/
def AllQuiet : Obj K → List (Op K) → Prop
  | _, [] => True
  | s, op :: ops => Quiet s op ∧ AllQuiet (op.run s) ops

/-- C159: no number of failed or interrupted fits, refused assignments and changes of settings changes the frequencies,
decays and amplitudes of the last fit that came to its end. -/
theorem C159_quiet (ops : List (Op K)) : ∀ s : Obj K, AllQuiet s ops →
    (ops.foldl Op.run s).matrix = s.matrix ∧ ∀ r, (ops.foldl Op.run s).row r = s.row r := by
  have key : ∀ s : Obj K, AllQuiet s ops → (ops.foldl Op.run s).matrix = s.matrix := by
    induction ops with
    | nil => intro s _; rfl
    | cons op ops ih =>
      intro s h
      rw [List.foldl_cons, ih _ h.2, quiet_run s op h.1]
  exact fun s h => ⟨key s h, fun r => by rw [Obj.row, Obj.row, key s h]⟩

/-- An operation that is not interrupted between the assignments at the end of `fit`, with a matrix of `n` rows, and
assigns finite values. -/
def Sound (n : Nat) (s : Obj K) : Op K → Prop
  | .set _ => True
  | .fit E kw x stop => E.nrows = n ∧
    ∀ k, stop = some k → k + 3 < (fit E kw x s).1.length ∨ (fit E kw x s).1.length ≤ k + 1 ∨ (fit E kw x s).2 ≠ none
  | .row _ v => none ∉ v

/-- Every operation of the history is sound in its turn. -/
def AllSound (n : Nat) : Obj K → List (Op K) → Prop
  | _, [] => True
  | s, op :: ops => Sound n s op ∧ AllSound n (op.run s) ops

/-- A matrix of `n` rows of equal size with finite entries. -/
def Whole (n : Nat) (m : List (List (Option K))) : Prop :=
  m.length = n ∧ (∃ c, ∀ row ∈ m, row.length = c) ∧ ∀ row ∈ m, none ∉ row

theorem cleanParams_whole (n : Nat) (hn : 1 ≤ n) (cols r : List (List (Option K))) (h : cleanParams n cols = .ok r) :
    Whole n r := by
  have hl : ∀ p ∈ cols, p.length = n := by
    cases cols with
    | nil => simp
    | cons c cs =>
      rcases hs : stack n (c :: cs) with e | m
      · simp [cleanParams, hs] at h
      · exact stack_ok hs
  obtain ⟨r', h1, h2, h3, h4⟩ := C22_finite_columns n hn cols hl
  rw [h, Except.ok.injEq] at h1
  subst h1
  refine ⟨h2, ⟨(cols.filter fun p => p.all Option.isSome).length, ?_⟩, h3⟩
  intro row hrow
  obtain ⟨i, hi, rfl⟩ := List.getElem_of_mem hrow
  have := congrArg List.length (h4 i r[i] (List.getElem?_eq_getElem hi))
  simpa using this

theorem setRow_whole (n : Nat) (s s' : Obj K) (r : Nat) (v : List (Option K)) (hv : none ∉ v)
    (h : s.setRow r v = .ok s') (hs : ∀ m, s.matrix = some m → Whole n m) : ∀ m, s'.matrix = some m → Whole n m := by
  unfold Obj.setRow at h
  cases hm : s.matrix with
  | none => simp [hm] at h
  | some m =>
    obtain ⟨w1, ⟨c, w2⟩, w3⟩ := hs m hm
    simp only [hm] at h
    rcases ho : getE m r with e | old
    · simp [ho] at h
    simp only [ho] at h
    have hold : old ∈ m := by
      unfold getE at ho
      split at ho
      · rename_i a ha
        simp only [Except.ok.injEq] at ho
        exact ho ▸ List.mem_of_getElem? ha
      · simp at ho
    have key : ∀ u : List (Option K), u.length = old.length → none ∉ u → Whole n (m.set r u) := by
      intro u hu hu'
      refine ⟨by simpa using w1, ⟨c, ?_⟩, ?_⟩
      · intro row hrow
        rcases List.mem_or_eq_of_mem_set hrow with hr | hr
        · exact w2 row hr
        · rw [hr, hu]; exact w2 old hold
      · intro row hrow
        rcases List.mem_or_eq_of_mem_set hrow with hr | hr
        · exact w3 row hr
        · rw [hr]; exact hu'
    split at h
    · rename_i hlen
      simp only [Except.ok.injEq] at h
      subst h
      intro m' hm'
      simp only [Option.some.injEq] at hm'
      exact hm' ▸ key v hlen hv
    · split at h
      · rename_i a
        simp only [Except.ok.injEq] at h
        subst h
        intro m' hm'
        simp only [Option.some.injEq] at hm'
        refine hm' ▸ key _ (by simp) ?_
        intro hmem
        rw [List.mem_replicate] at hmem
        exact hv (by simp [← hmem.2])
      · simp at h

/-- C159: after any history without an interruption between the assignments at the end of `fit`, and with finite
values assigned to rows, there is no parameter matrix or it has all its rows, of the same size, with finite entries. -/
theorem C159_history (n : Nat) (hn : 1 ≤ n) (σ : Settings K) (ops : List (Op K)) (h : AllSound n (Obj.new σ) ops) :
    ∀ m, (ops.foldl Op.run (Obj.new σ)).matrix = some m → Whole n m := by
  have step : ∀ (s : Obj K) (op : Op K), Sound n s op → (∀ m, s.matrix = some m → Whole n m) →
      ∀ m, (op.run s).matrix = some m → Whole n m := by
    intro s op ho hs
    cases op with
    | set f => exact hs
    | row r v =>
      rcases hr : s.setRow r v with e | s'
      · simp only [Op.run, hr]; exact hs
      · simp only [Op.run, hr]; exact setRow_whole n s s' r v ho hr hs
    | fit E kw x stop =>
      obtain ⟨rfl, ho⟩ := ho
      by_cases hq : Quiet s (.fit E kw x stop)
      · rw [quiet_run s _ hq]; exact hs
      · have hq1 : (fit E kw x s).2 = none := by
          by_contra hc
          exact hq ⟨hn, Or.inl hc⟩
        have hq2 : ∀ k, stop = some k → (fit E kw x s).1.length ≤ k + 1 := by
          intro k hk
          rcases ho k hk with h1 | h1 | h1
          · exact absurd ⟨hn, Or.inr ⟨k, hk, h1⟩⟩ hq
          · exact h1
          · exact absurd hq1 h1
        rcases fit_cases E hn kw x s with ⟨l, e, hf, _⟩ | ⟨l, st, cols, m, m', r, hf, _, _, _, hr⟩
        · rw [hf] at hq1; simp at hq1
        have hlast : ((fit E kw x s).1.getLastD s) = ⟨(kw s.settings).1, some st, some r⟩ := by
          rw [hf]
          simp only
          rw [List.append_cons, List.append_cons, getLastD_append_cons]
        have hrun : Op.run s (.fit E kw x stop) = ⟨(kw s.settings).1, some st, some r⟩ := by
          simp only [Op.run, hlast]
          cases stop with
          | none => rfl
          | some k =>
            simp only
            have hk := hq2 k rfl
            rw [hf] at hk ⊢
            simp only [List.length_append, List.length_cons, List.length_nil] at hk
            by_cases hk' : k = l.length + 3
            · subst hk'
              rw [List.getElem?_append_right (by simp)]
              simp
            · rw [List.getElem?_eq_none_iff.2 (by simp; omega)]
              rfl
        rw [hrun]
        intro m'' hm
        simp only [Option.some.injEq] at hm
        exact hm ▸ cleanParams_whole _ hn _ _ hr
  have key : ∀ (ops : List (Op K)) (s : Obj K), AllSound n s ops → (∀ m, s.matrix = some m → Whole n m) →
      ∀ m, (ops.foldl Op.run s).matrix = some m → Whole n m := by
    intro ops
    induction ops with
    | nil => intro s _ hs; exact hs
    | cons op ops ih => intro s ho hs; exact ih _ ho.2 (step s op ho.1 hs)
  exact key ops _ h (by intro m hm; simp [Obj.new] at hm)

/-! ## Rows and settings -/

/-- C159: before any fit, tracks and parameters are an `AttributeError`.  An assignment to a row of a whole matrix
succeeds exactly if the row exists and as many values are given as there are modes, or one; it changes this row only,
and neither settings nor tracks. -/
theorem C159_rows (n : Nat) (s : Obj K) (m : List (List (Option K))) (hm : s.matrix = some m) (hw : Whole n m)
    (r : Nat) (v old : List (Option K)) (hold : m[r]? = some old) :
    (∀ σ : Settings K, (Obj.new σ).tracks = .error .attributeError ∧ ∀ i, (Obj.new σ).row i = .error .attributeError) ∧
    ((∃ s', s.setRow r v = .ok s') ↔ v.length = old.length ∨ v.length = 1) ∧
    (s.setRow r v = .error .valueError ↔ ¬ (v.length = old.length ∨ v.length = 1)) ∧
    ∀ s', s.setRow r v = .ok s' → s'.settings = s.settings ∧ s'.tracks = s.tracks ∧
      (v.length = old.length → s'.row r = .ok v) ∧
      (∀ a, v = [a] → s'.row r = .ok (List.replicate old.length a)) ∧ ∀ i, i ≠ r → s'.row i = s.row i := by
  have hr : r < m.length := by
    by_contra hc
    rw [List.getElem?_eq_none_iff.2 (by omega)] at hold
    simp at hold
  have hg : getE m r = .ok old := by simp [getE, hold]
  refine ⟨fun σ => ⟨rfl, fun _ => rfl⟩, ?_⟩
  by_cases h1 : v.length = old.length
  · have e : s.setRow r v = .ok { s with matrix := some (m.set r v) } := by simp [Obj.setRow, hm, hg, h1]
    rw [e]
    refine ⟨by simp [h1], by simp [h1], ?_⟩
    intro s' hs
    simp only [Except.ok.injEq] at hs
    subst hs
    refine ⟨rfl, rfl, fun _ => by simp [Obj.row, getE, hr], ?_, fun i hi => ?_⟩
    · rintro a rfl
      simp only [List.length_singleton] at h1
      simp [Obj.row, getE, hr, ← h1]
    · simp [Obj.row, getE, hm, List.getElem?_set_ne (Ne.symm hi)]
  · by_cases h2 : v.length = 1
    · obtain ⟨a, rfl⟩ := List.length_eq_one_iff.1 h2
      have e : s.setRow r [a] = .ok { s with matrix := some (m.set r (List.replicate old.length a)) } := by
        simp only [Obj.setRow, hm, hg, h1, if_false]
      rw [e]
      refine ⟨by simp, by simp, ?_⟩
      intro s' hs
      simp only [Except.ok.injEq] at hs
      subst hs
      refine ⟨rfl, rfl, fun h => absurd h h1, ?_, fun i hi => ?_⟩
      · intro b hb
        simp only [List.cons.injEq, and_true] at hb
        simp [Obj.row, getE, hr, hb]
      · simp [Obj.row, getE, hm, List.getElem?_set_ne (Ne.symm hi)]
    · have e : s.setRow r v = .error .valueError := by
        simp only [Obj.setRow, hm, hg, h1, if_false]
        split
        · simp at h2
        · rfl
      rw [e]
      refine ⟨by simp [h1, h2], by simp [h1, h2], by simp⟩

/-- C159: a change of settings leaves the matrix; it leaves the tracks if it does not touch the tracker. -/
theorem C159_settings (s : Obj K) (f : Settings K → Settings K × Option PyErr) :
    (Op.run s (.set f)).matrix = s.matrix ∧
    ((f s.settings).1.params.tracker = s.settings.params.tracker →
      (f s.settings).1.params.modal = s.settings.params.modal →
      (f s.settings).1.params.hop = s.settings.params.hop →
      (Op.run s (.set f)).tracks = s.tracks) := by
  refine ⟨rfl, fun h1 h2 h3 => ?_⟩
  simp only [Op.run, Obj.tracks, tracksOf, Sms.Params.cfg, h1, h2, h3]

/-! ## Concrete cases -/

/-- The stand-ins of `Sms/FitProps`; a track of three frames or more has the mode (first frequency, 1, 1), and a track
of two frames cannot be fitted. -/
def exEnv : Env ℚ :=
  ⟨Sms.exSpec, Sms.exSort, 3, .ok (), fun _ _ t =>
    if t.mag.length ≤ 2 then .error .valueError else .ok [[t.freq.getD 0 none, some 1, some 1]], id⟩

/-- A new object. -/
def exObj : Obj ℚ := Obj.new ⟨{ Sms.exParams with padded := false }, none⟩

/-- No keyword arguments. -/
def exNo : Settings ℚ → Settings ℚ × Option PyErr := fun σ => (σ, none)

/-- `set_params(sinusoidal__tracker__min_sine_dur=d)`. -/
def exDur (d : ℚ) : Settings ℚ → Settings ℚ × Option PyErr := fun σ =>
  ({ σ with params := { σ.params with tracker := { σ.params.tracker with minSineDur := d } } }, none)

/-- A fit that returns: one track and one mode. -/
example : (fit exEnv exNo [1, 8, 1, 8, 1, 8, 1, 8] exObj).2 = none ∧
    (exObj.tracks.toOption = none) ∧
    let s := Op.run exObj (.fit exEnv exNo [1, 8, 1, 8, 1, 8, 1, 8] none)
    s.tracks.toOption.map (·.map (·.freq)) = some [[some (29/24), some (29/24), some (29/24)]] ∧
    s.matrix = some [[some (29/24)], [some 1], [some 1]] := by
  decide +kernel

/-- C159 (finding): the tracks and the parameters that a model reports need not belong together: after a fit that
raises, the tracks are those of the new sound, the parameters those of the old one; and a setting of the tracker that is
changed after a fit changes the tracks at once, but not the parameters. -/
theorem C159_stale :
    (let s := Op.run exObj (.fit exEnv exNo [1, 8, 1, 8, 1, 8, 1, 8] none)
    (fit exEnv exNo [1, 8, 1, 8, 1, 8] s).2 = some .valueError ∧
    (let s' := Op.run s (.fit exEnv exNo [1, 8, 1, 8, 1, 8] none)
    s'.tracks.toOption.map (·.map (·.freq)) = some [[some (29/24), some (29/24)]] ∧
      s'.matrix = some [[some (29/24)], [some 1], [some 1]]) ∧
    let s'' := Op.run s (.set (exDur 10))
    s''.tracks.toOption.map (·.map (·.freq)) = some [] ∧ s''.matrix = s.matrix) := by
  decide +kernel

/-- Setting the amplitudes. -/
example : let s := Op.run exObj (.fit exEnv exNo [1, 8, 1, 8, 1, 8, 1, 8] none)
    ((s.setRow 2 [some 7]).toOption.map (·.matrix)) = some (some [[some (29/24)], [some 1], [some 7]]) ∧
    (s.setRow 2 [some 7, some 8]).toOption.map (·.matrix) = none := by
  decide +kernel

end Verif.Sample.Hist
