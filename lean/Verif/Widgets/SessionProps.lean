import Verif.Widgets.SessionModel
import Verif.Widgets.TrimProps
import Mathlib.Algebra.Order.Ring.Rat
import Mathlib.Tactic.Linarith

/-!
# C97: what is heard and exported in the GUI
-/

set_option autoImplicit false
set_option linter.unusedSectionVars false
set_option linter.unusedSimpArgs false

namespace Verif.Widgets

open Verif

variable {K M J : Type} [Field K] [LinearOrder K] [IsStrictOrderedRing K] [FloorRing K]

theorem clip_bounds (x : List K) : ∀ v ∈ clip x, -1 ≤ v ∧ v ≤ 1 := by
  intro v hv
  obtain ⟨w, -, rfl⟩ := List.mem_map.1 hv
  refine ⟨le_min (le_max_right _ _) ?_, min_le_right _ _⟩
  linarith [zero_lt_one (α := K)]

theorem synthesize_ok {env : SEnv K M J} {model : Option M} {r : List K × Int} {y : List K}
    (h : synthesize env model r = .ok y) :
    ∃ m p, model = some m ∧ env.predict m (times r.1.length r.2) = .ok p ∧ y = clip p := by
  unfold synthesize at h
  split at h
  · cases h
  · rename_i m
    split at h
    · cases h
    · rename_i p hp
      cases h
      exact ⟨m, p, rfl, hp, rfl⟩

/-- What a redrawn session has. -/
theorem redraw_cases (env : SEnv K M J) (s : Session K M) (drawn : Bool) :
    (∃ e, redraw env s drawn = ({ s with resynth := none }, some e)) ∨
      ∃ r m p, drawn = true ∧ region s.tab = some r ∧ s.model = some m ∧
        env.predict m (times r.1.length r.2) = .ok p ∧
        redraw env s drawn = ({ s with resynth := some (clip p) }, none) := by
  cases drawn with
  | false => exact Or.inl ⟨_, rfl⟩
  | true =>
    cases hr : region s.tab with
    | none => exact Or.inl ⟨.typeError, by simp [redraw, hr]⟩
    | some r =>
      cases hs : synthesize env s.model r with
      | error e => exact Or.inl ⟨e, by simp [redraw, hr, hs]⟩
      | ok y =>
        obtain ⟨m, p, h1, h2, rfl⟩ := synthesize_ok hs
        exact Or.inr ⟨r, m, p, rfl, rfl, h1, h2, by simp [redraw, hr, hs]⟩

/-- What `getResynth` does. -/
theorem getResynth_cases (env : SEnv K M J) (s : Session K M) :
    (∃ o, getResynth env s = (s, .error o) ∧ (o = .message .noAudio ∨ o = .message .notAnalyzed ∨ ∃ e, o = .raised e)) ∨
    (∃ y r, s.resynth = some y ∧ region s.tab = some r ∧ getResynth env s = (s, .ok (y, r.2))) ∨
      ∃ r m p, s.resynth = none ∧ region s.tab = some r ∧ s.model = some m ∧
        env.predict m (times r.1.length r.2) = .ok p ∧
        getResynth env s = ({ s with resynth := some (clip p) }, .ok (clip p, r.2)) := by
  cases hr : region s.tab with
  | none => exact Or.inl ⟨.message .noAudio, by simp [getResynth, hr], Or.inl rfl⟩
  | some r =>
    cases hy : s.resynth with
    | some y => exact Or.inr (Or.inl ⟨y, r, rfl, rfl, by simp [getResynth, hr, hy]⟩)
    | none =>
      cases hs : synthesize env s.model r with
      | error e =>
        refine Or.inl ?_
        by_cases he : e = .attributeError
        · subst he
          exact ⟨.message .notAnalyzed, by simp [getResynth, hr, hy, hs], Or.inr (Or.inl rfl)⟩
        · refine ⟨.raised e, ?_, Or.inr (Or.inr ⟨e, rfl⟩)⟩
          cases e <;> first | exact absurd rfl he | simp [getResynth, hr, hy, hs]
      | ok y =>
        obtain ⟨m, p, h1, h2, rfl⟩ := synthesize_ok hs
        exact Or.inr (Or.inr ⟨r, m, p, rfl, rfl, h1, h2, by simp [getResynth, hr, hy, hs]⟩)

/-- Invariant: the cached resynthesis is a clipped prediction; unless an analysis is in progress, a prediction of
the current model. -/
def SInv (env : SEnv K M J) (s : Session K M) : Prop :=
  ∀ y, s.resynth = some y → ∃ m t p, env.predict m t = .ok p ∧ y = clip p ∧
    (s.busy = false → s.model = some m)

theorem SInv.redraw {env : SEnv K M J} {s : Session K M} (drawn : Bool) :
    ∀ y, (redraw env s drawn).1.resynth = some y → ∃ m t p, env.predict m t = .ok p ∧ y = clip p ∧
      s.model = some m := by
  intro y hy
  rcases redraw_cases env s drawn with ⟨e, h⟩ | ⟨r, m, p, -, -, h1, h2, h⟩ <;> rw [h] at hy
  · cases hy
  · cases hy
    exact ⟨m, _, p, h2, rfl, h1⟩

theorem redraw_model (env : SEnv K M J) (s : Session K M) (drawn : Bool) :
    (redraw env s drawn).1.model = s.model ∧ (redraw env s drawn).1.tab = s.tab ∧
      (redraw env s drawn).1.busy = s.busy := by
  rcases redraw_cases env s drawn with ⟨e, h⟩ | ⟨r, m, p, -, -, -, -, h⟩ <;> rw [h] <;> exact ⟨rfl, rfl, rfl⟩

theorem SInv.getResynth {env : SEnv K M J} {s : Session K M} (hs : SInv env s) :
    SInv env (getResynth env s).1 := by
  rcases getResynth_cases env s with ⟨o, h, -⟩ | ⟨y, r, -, -, h⟩ | ⟨r, m, p, -, -, h1, h2, h⟩ <;> rw [h]
  · exact hs
  · exact hs
  · intro y hy
    cases hy
    exact ⟨m, _, p, h2, rfl, fun _ => h1⟩

theorem SInv.step {env : SEnv K M J} {s : Session K M} (hs : SInv env s) (op : SOp K M) :
    SInv env (op.run env s).1 := by
  cases op with
  | tab op => exact hs
  | analyse made drawn =>
    simp only [SOp.run]
    split
    · exact hs
    · split
      · exact hs
      · split
        · intro y hy
          obtain ⟨m, t, p, h1, h2, h3⟩ := SInv.redraw drawn y hy
          exact ⟨m, t, p, h1, h2, fun _ => by rw [(redraw_model env s drawn).1]; exact h3⟩
        · intro y hy
          obtain ⟨m, t, p, h1, h2, -⟩ := hs y hy
          exact ⟨m, t, p, h1, h2, fun h => by cases h⟩
  | work m =>
    simp only [SOp.run]
    split
    · rename_i hb
      intro y hy
      obtain ⟨m, t, p, h1, h2, -⟩ := hs y hy
      exact ⟨m, t, p, h1, h2, fun h => by rw [show s.busy = false from h] at hb; cases hb⟩
    · exact hs
  | finish failed drawn =>
    simp only [SOp.run]
    split
    · intro y hy
      obtain ⟨m, t, p, h1, h2, h3⟩ := SInv.redraw drawn y hy
      exact ⟨m, t, p, h1, h2, fun _ => by
        show (Widgets.redraw env s drawn).1.model = _
        rw [(redraw_model env s drawn).1]; exact h3⟩
    · exact hs
  | playOriginal =>
    simp only [SOp.run]
    split <;> exact hs
  | playResynth =>
    simp only [SOp.run]
    have := hs.getResynth
    split <;> rename_i heq <;> rw [heq] at this <;> exact this
  | exportWav chosen =>
    simp only [SOp.run]
    have := hs.getResynth
    split <;> rename_i heq <;> rw [heq] at this <;> exact this
  | exportJson chosen =>
    simp only [SOp.run]
    split
    · exact hs
    · split <;> exact hs

theorem SInv.run {env : SEnv K M J} (ops : List (SOp K M)) {s : Session K M} (hs : SInv env s) :
    SInv env (runSession env s ops) := by
  induction ops generalizing s with
  | nil => exact hs
  | cons op ops ih => exact ih (hs.step op)

theorem SInv.init (env : SEnv K M J) : SInv env ({} : Session K M) := by
  intro y hy
  cases hy

/-- The sound or file with a resynthesis that an event gives, if any. -/
def heard : SOp K M → Output K J → Option (List K × Int)
  | .playResynth, .sound x sr => some (x, sr)
  | .exportWav _, .wav x sr => some (x, sr)
  | _, _ => none

theorem heard_spec {env : SEnv K M J} {s : Session K M} {op : SOp K M} {x : List K} {sr : Int}
    (h : heard op (op.run env s).2 = some (x, sr)) :
    (op = .playResynth ∨ op = .exportWav true) ∧ ∃ s', getResynth env s = (s', .ok (x, sr)) := by
  have key : ∀ o, getResynth env s = (s, .error o) →
      (o = .message .noAudio ∨ o = .message .notAnalyzed ∨ ∃ e, o = .raised e) → ∀ op', heard (K := K) (M := M) op' o = none := by
    intro o _ ho op'
    rcases ho with rfl | rfl | ⟨e, rfl⟩ <;> cases op' <;> rfl
  cases op with
  | playResynth =>
    refine ⟨Or.inl rfl, ?_⟩
    simp only [SOp.run] at h
    rcases getResynth_cases env s with ⟨o, h1, ho⟩ | ⟨y, r, -, -, h1⟩ | ⟨r, m, p, -, -, -, -, h1⟩
    · rw [h1] at h
      rw [key o h1 ho] at h
      cases h
    · rw [h1] at h ⊢
      cases h
      exact ⟨_, rfl⟩
    · rw [h1] at h ⊢
      cases h
      exact ⟨_, rfl⟩
  | exportWav chosen =>
    simp only [SOp.run] at h
    rcases getResynth_cases env s with ⟨o, h1, ho⟩ | ⟨y, r, -, -, h1⟩ | ⟨r, m, p, -, -, -, -, h1⟩
    · rw [h1] at h
      rw [key o h1 ho] at h
      cases h
    all_goals
      rw [h1] at h ⊢
      cases chosen with
      | false => cases h
      | true =>
        cases h
        exact ⟨Or.inr rfl, _, rfl⟩
  | _ => simp [heard] at h

/-- In every session, no resynthesis that is played or exported exceeds 1 in absolute value. -/
theorem C97_range (env : SEnv K M J) (ops : List (SOp K M)) (op : SOp K M) {x : List K} {sr : Int}
    (h : heard op (op.run env (runSession env {} ops)).2 = some (x, sr)) :
    ∀ v ∈ x, -1 ≤ v ∧ v ≤ 1 := by
  set s := runSession env {} ops with hs
  have hinv : SInv env s := (SInv.init env).run ops
  obtain ⟨-, s', h1⟩ := heard_spec h
  rcases getResynth_cases env s with ⟨o, h2, -⟩ | ⟨y, r, hy, -, h2⟩ | ⟨r, m, p, -, -, -, -, h2⟩ <;>
    rw [h2] at h1 <;> cases h1
  · obtain ⟨m, t, p, -, rfl, -⟩ := hinv _ hy
    exact clip_bounds p
  · exact clip_bounds p

/-- In every session, what is played or exported as resynthesis while no analysis is in progress is a prediction of
the current model, which is the one the parameters are exported of; the sample rate is the current one. -/
theorem C97_model (env : SEnv K M J) (ops : List (SOp K M)) (op : SOp K M) {x : List K} {sr : Int}
    (hbusy : (runSession env {} ops).busy = false)
    (h : heard op (op.run env (runSession env {} ops)).2 = some (x, sr)) :
    (runSession env {} ops).tab.sr = some sr ∧
      ∃ m t p, (runSession env {} ops).model = some m ∧ env.predict m t = .ok p ∧ x = clip p ∧
        ∀ j, env.params m = .ok j →
          (SOp.run env ((op.run env (runSession env {} ops)).1) (.exportJson true)).2 = .json j := by
  set s := runSession env {} ops with hs
  have hinv : SInv env s := (SInv.init env).run ops
  obtain ⟨hop, s', h1⟩ := heard_spec h
  have hsr : ∀ r, region s.tab = some r → s.tab.sr = some r.2 := by
    intro r hr
    unfold region at hr
    split at hr
    · rename_i h2 _ _
      cases hr
      exact h2
    · cases hr
  have hstate : (op.run env s).1 = s' := by
    rcases hop with rfl | rfl <;> simp only [SOp.run, h1]
  have hjson : ∀ m, s'.model = some m → ∀ j, env.params m = .ok j →
      (SOp.run env s' (.exportJson true)).2 = .json j := by
    intro m hm j hj
    simp [SOp.run, hm, hj]
  rw [hstate]
  rcases getResynth_cases env s with ⟨o, h2, -⟩ | ⟨y, r, hy, hr, h2⟩ | ⟨r, m, p, -, hr, hm, hp, h2⟩ <;>
    rw [h2] at h1 <;> cases h1
  · obtain ⟨m, t, p, hp, rfl, hm⟩ := hinv _ hy
    exact ⟨hsr r hr, m, t, p, hm hbusy, hp, rfl, hjson m (hm hbusy)⟩
  · exact ⟨hsr r hr, m, _, p, hm, hp, rfl, hjson m hm⟩

/-- Events that replace the resynthesis: the end of an analysis, and a model that cannot be made. -/
def replaces : SOp K M → Bool
  | .finish _ _ => true
  | .analyse none _ => true
  | _ => false

theorem kept_step {env : SEnv K M J} {s : Session K M} {y : List K} (hy : s.resynth = some y)
    (op : SOp K M) (hop : replaces op = false) : (op.run env s).1.resynth = some y := by
  have hg : (getResynth env s).1.resynth = some y := by
    rcases getResynth_cases env s with ⟨o, h, -⟩ | ⟨y, r, -, -, h⟩ | ⟨r, m, p, h0, -, -, -, -⟩
    · rw [h]; exact hy
    · rw [h]; assumption
    · rw [hy] at h0; cases h0
  cases op with
  | tab op => exact hy
  | analyse made drawn =>
    cases made with
    | none => cases hop
    | some m =>
      simp only [SOp.run]
      split
      · exact hy
      · split <;> exact hy
  | work m =>
    simp only [SOp.run]
    split <;> exact hy
  | finish failed drawn => cases hop
  | playOriginal =>
    simp only [SOp.run]
    split <;> exact hy
  | playResynth =>
    simp only [SOp.run]
    split <;> rename_i heq <;> rw [heq] at hg <;> exact hg
  | exportWav chosen =>
    simp only [SOp.run]
    split <;> rename_i heq <;> rw [heq] at hg <;> exact hg
  | exportJson chosen =>
    simp only [SOp.run]
    split
    · exact hy
    · split <;> exact hy

theorem kept {env : SEnv K M J} (ops : List (SOp K M)) {s : Session K M} {y : List K}
    (hy : s.resynth = some y) (hops : ∀ op ∈ ops, replaces op = false) :
    (runSession env s ops).resynth = some y := by
  induction ops generalizing s with
  | nil => exact hy
  | cons op ops ih =>
    exact ih (kept_step hy op (hops op List.mem_cons_self)) fun o ho => hops o (List.mem_cons_of_mem _ ho)

theorem play_cached {env : SEnv K M J} {s : Session K M} {y x : List K} {sr : Int}
    (hy : s.resynth = some y) (hr : region s.tab = some (x, sr)) :
    (SOp.run env s .playResynth).2 = .sound y sr ∧ (SOp.run env s (.exportWav true)).2 = .wav y sr := by
  simp [SOp.run, getResynth, hr, hy]

/-- After an analysis that has been plotted, what is played and exported as resynthesis is the clipped prediction of
its model for the region selected at that time, until the next analysis ends (or fails at once), whatever is
loaded, trimmed or begun in between.  If region and sample rate are the same as then, it is the prediction for the
present region, with as many samples. -/
theorem C97_last (env : SEnv K M J)
    (hlen : ∀ m t p, env.predict m t = .ok p → p.length = t.length) {s : Session K M} (hs : s.busy = true)
    {x : List K} {sr : Int} (hr : region s.tab = some (x, sr)) {m : M} (hm : s.model = some m) {p : List K}
    (hp : env.predict m (times x.length sr) = .ok p) (failed : Bool) (ops : List (SOp K M))
    (hops : ∀ op ∈ ops, replaces op = false) {x' : List K} {sr' : Int}
    (hr' : region (runSession env s (.finish failed true :: ops)).tab = some (x', sr')) :
    (SOp.run env (runSession env s (.finish failed true :: ops)) .playResynth).2 = .sound (clip p) sr' ∧
    (SOp.run env (runSession env s (.finish failed true :: ops)) (.exportWav true)).2 = .wav (clip p) sr' ∧
    (x'.length = x.length → sr' = sr →
      (clip p).length = x'.length ∧ env.predict m (times x'.length sr') = .ok p) := by
  have hfin : (SOp.run env s (.finish failed true)).1.resynth = some (clip p) := by
    simp [SOp.run, hs, redraw, hr, synthesize, hm, hp]
  have hk := kept (env := env) ops hfin hops
  obtain ⟨h1, h2⟩ := play_cached (env := env) hk hr'
  refine ⟨h1, h2, fun h3 h4 => ?_⟩
  subst h4
  rw [h3]
  refine ⟨?_, hp⟩
  simp [clip, hlen _ _ _ hp, times]

/-- If the last plot failed before the resynthesis, the first request computes it for the present region, and later
ones give the same. -/
theorem C97_lazy (env : SEnv K M J) {s : Session K M} (h0 : s.resynth = none) {x : List K} {sr : Int}
    (hr : region s.tab = some (x, sr)) {m : M} (hm : s.model = some m) :
    (∀ p, env.predict m (times x.length sr) = .ok p →
      (SOp.run env s .playResynth).2 = .sound (clip p) sr ∧
      (SOp.run env (SOp.run env s .playResynth).1 (.exportWav true)).2 = .wav (clip p) sr) ∧
    (env.predict m (times x.length sr) = .error .attributeError →
      SOp.run env s .playResynth = (s, .message .notAnalyzed)) ∧
    (∀ e, e ≠ .attributeError → env.predict m (times x.length sr) = .error e →
      SOp.run env s .playResynth = (s, .raised e)) := by
  refine ⟨fun p hp => ?_, fun h => ?_, fun e he h => ?_⟩
  · have h1 : SOp.run env s .playResynth = ({ s with resynth := some (clip p) }, .sound (clip p) sr) := by
      simp [SOp.run, getResynth, hr, h0, synthesize, hm, hp]
    rw [h1]
    exact ⟨rfl, (play_cached (s := { s with resynth := some (clip p) }) rfl hr).2⟩
  · simp [SOp.run, getResynth, hr, h0, synthesize, hm, h]
  · cases e <;> first | exact absurd rfl he | simp [SOp.run, getResynth, hr, h0, synthesize, hm, h]

/-- Without audio every button but the export of parameters gives the message for it and changes nothing; without
an analysis since the start, resynthesis and export of parameters give a message or the exception. -/
theorem C97_messages (env : SEnv K M J) {s : Session K M} :
    (region s.tab = none → ∀ made drawn chosen,
      SOp.run env s (.analyse made drawn) = (s, .message .noAudio) ∧
      SOp.run env s .playOriginal = (s, .message .noAudio) ∧
      SOp.run env s .playResynth = (s, .message .noAudio) ∧
      SOp.run env s (.exportWav chosen) = (s, .message .noAudio)) ∧
    (s.model = none → s.resynth = none → ∀ chosen,
      SOp.run env s (.exportJson chosen) = (s, .message .notAnalyzed) ∧
      ∀ r, region s.tab = some r → SOp.run env s .playResynth = (s, .message .notAnalyzed) ∧
        SOp.run env s (.exportWav chosen) = (s, .message .notAnalyzed)) := by
  refine ⟨fun h made drawn chosen => ?_, fun h h0 chosen => ?_⟩
  · simp [SOp.run, getResynth, h]
  · refine ⟨by simp [SOp.run, h], fun r hr => ?_⟩
    simp [SOp.run, getResynth, hr, h0, synthesize, h]

/-- The events of the load tab in a session. -/
def tabOps : List (SOp K M) → List (TrimOp K K)
  | [] => []
  | .tab op :: ops => op :: tabOps ops
  | _ :: ops => tabOps ops

theorem getResynth_tab (env : SEnv K M J) (s : Session K M) : (getResynth env s).1.tab = s.tab := by
  rcases getResynth_cases env s with ⟨o, h, -⟩ | ⟨y, r, -, -, h⟩ | ⟨r, m, p, -, -, -, -, h⟩ <;> rw [h]

theorem tab_run (env : SEnv K M J) (ops : List (SOp K M)) (s : Session K M) :
    (runSession env s ops).tab = runTrims env.detect env.retype s.tab (tabOps ops) := by
  induction ops generalizing s with
  | nil => rfl
  | cons op ops ih =>
    rw [runSession, ih]
    cases op with
    | tab op => rfl
    | analyse made drawn =>
      simp only [tabOps, SOp.run]
      split
      · rfl
      · split
        · rfl
        · split
          · rw [(redraw_model env s drawn).2.1]
          · rfl
    | work m => simp only [tabOps, SOp.run]; split <;> rfl
    | finish failed drawn =>
      simp only [tabOps, SOp.run]
      split
      · rw [(redraw_model env s drawn).2.1]
      · rfl
    | playOriginal => simp only [tabOps, SOp.run]; split <;> rfl
    | playResynth =>
      simp only [tabOps, SOp.run]
      have := getResynth_tab env s
      split <;> rename_i heq <;> rw [heq] at this <;> rw [← this]
    | exportWav chosen =>
      simp only [tabOps, SOp.run]
      have := getResynth_tab env s
      split <;> rename_i heq <;> rw [heq] at this <;> rw [← this]
    | exportJson chosen =>
      simp only [tabOps, SOp.run]
      split
      · rfl
      · split <;> rfl

/-- The original that is played is the selected region of the audio, in every session; if an onset is found in
each loaded file it has at least one sample, those between the bounds. -/
theorem C97_original (env : SEnv K M J)
    (hdet : ∀ x m, env.detect x = .ok m → m.length = x.length) (ops : List (SOp K M))
    (hops : ∀ sr x, SOp.tab (.load (some (sr, x))) ∈ ops → Detects env.detect x) {y : List K} {sr : Int}
    (h : (SOp.run env (runSession env {} ops) .playOriginal).2 = .sound y sr) :
    ∃ (x : List K) (a b : Nat), (runSession env {} ops).tab.audio = some x ∧
      (runSession env {} ops).tab.start = some (a : Int) ∧ (runSession env {} ops).tab.stop = some (b : Int) ∧
      (runSession env {} ops).tab.sr = some sr ∧ a < b ∧ b ≤ x.length ∧ y.length = b - a ∧
      ∀ i, i < b - a → y[i]? = x[a + i]? := by
  have hvalid : Valid (runSession env {} ops).tab := by
    rw [tab_run]
    refine C58_history env.detect env.retype hdet _ fun sr x hm => hops sr x ?_
    clear h hops
    induction ops with
    | nil => cases hm
    | cons op ops ih =>
      cases op with
      | tab op =>
        simp only [tabOps, List.mem_cons] at hm
        rcases hm with rfl | hm
        · exact List.mem_cons_self
        · exact List.mem_cons_of_mem _ (ih hm)
      | _ => exact List.mem_cons_of_mem _ (ih hm)
  set s := runSession env {} ops with hs
  simp only [SOp.run] at h
  split at h
  · cases h
  · rename_i r hr
    cases h
    unfold region at hr
    split at hr
    · rename_i x sr a b h1 h2 h3 h4
      cases hr
      obtain ⟨g1, g2, g3⟩ := hvalid.with x a b h1 h3 h4
      obtain ⟨f1, -, f3⟩ := C58_region s.tab hvalid x a b h1 h3 h4
      obtain ⟨a', rfl⟩ := Int.eq_ofNat_of_zero_le g1
      obtain ⟨b', rfl⟩ := Int.eq_ofNat_of_zero_le (show 0 ≤ b by omega)
      refine ⟨x, a', b', h1, h3, h4, h2, by omega, by omega,
        by show (Np.slice x _ _).length = _; omega, fun i hi => ?_⟩
      rw [f3 i (by omega)]
      simp
    · cases hr

/-! ## Cases -/

/-- Models are numbers; the prediction multiplies the times. -/
def demoSession : SEnv ℚ ℚ ℚ where
  predict m t := if m = 0 then .error .attributeError else .ok (t.map (m * ·))
  params m := if m = 0 then .error .attributeError else .ok m
  detect x := .ok (x.map fun v => decide (0 < v))
  retype := exactTime

/-- Load, analyse. -/
def demoStart : List (SOp ℚ ℚ) :=
  [.tab (.load (some (2, [0, 1, 0, 0, 0]))), .analyse (some 0) true, .work 3, .finish false true]

/-- The region has four samples, and the resynthesis is clipped. -/
example : (runSession demoSession {} demoStart).resynth = some [0, 1, 1, 1] ∧
    region (runSession demoSession {} demoStart).tab = some ([1, 0, 0, 0], 2) := by
  decide +kernel

/-- While the analysis runs, the resynthesis gives the message. -/
example : (runSession demoSession {} (demoStart.take 2)).busy = true ∧
    (runSession demoSession {} (demoStart.take 3)).model = some 3 := by
  decide +kernel

/-- If another file with another sample rate is loaded after the analysis, the resynthesis of the old file is still
played and exported, at the sample rate of the new one: the length is not that of the region, and the result is not
what the model gives for any region of the new file. -/
theorem C97_stale :
    ∃ (s : Session ℚ ℚ) (y : List ℚ), s = runSession demoSession {}
        (demoStart ++ [.tab (.load (some (1, [1, 0])))]) ∧ s.busy = false ∧
      region s.tab = some ([1, 0], 1) ∧
      (SOp.run demoSession s .playResynth).2 = .sound y 1 ∧
      (SOp.run demoSession s (.exportWav true)).2 = .wav y 1 ∧ y.length ≠ 2 ∧
      ∀ m p n, n ≤ 2 → s.model = some m → demoSession.predict m (times n 1) = .ok p → y ≠ clip p := by
  have hr : region (runSession demoSession {} (demoStart ++ [.tab (.load (some (1, [1, 0])))])).tab =
      some ([1, 0], 1) := by decide +kernel
  have hy : (runSession demoSession {} (demoStart ++ [.tab (.load (some (1, [1, 0])))])).resynth =
      some [0, 1, 1, 1] := by decide +kernel
  have hb : (runSession demoSession {} (demoStart ++ [.tab (.load (some (1, [1, 0])))])).busy = false := by
    decide +kernel
  have hm' : (runSession demoSession {} (demoStart ++ [.tab (.load (some (1, [1, 0])))])).model = some 3 := by
    decide +kernel
  obtain ⟨h1, h2⟩ := play_cached (env := demoSession) hy hr
  refine ⟨_, [0, 1, 1, 1], rfl, hb, hr, h1, h2, by decide, fun m p n hn hm hp heq => ?_⟩
  rw [hm'] at hm
  cases hm
  have hp' : (times n 1).map ((3 : ℚ) * ·) = p := by
    simpa [demoSession] using hp
  have hl := congrArg List.length heq
  subst hp'
  simp [clip, times] at hl
  omega

end Verif.Widgets
