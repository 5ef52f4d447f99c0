import Verif.Widgets.PlayerModel
import Mathlib.Data.List.Basic
import Mathlib.Tactic.Common

/-!
# C109: audio playback
-/

set_option autoImplicit false
set_option linter.unusedSectionVars false
set_option linter.unusedSimpArgs false

namespace Verif.Player

variable {R : Type} (rate : Nat → R)

/-! ## Specification -/

/-- A mixer: the rate it was opened with, what is loaded, and what is being played. -/
structure Mixer (R : Type) where
  rate : Option R
  loaded : Option Nat
  playing : Option (Nat × R)
  deriving DecidableEq

/-- What pygame does. -/
def Mixer.act (m : Mixer R) : Op R → Mixer R
  | .quit => ⟨none, none, none⟩
  | .init r => ⟨some r, none, none⟩
  | .load b => ⟨m.rate, some b, none⟩
  | .start =>
    ⟨m.rate, m.loaded, match m.loaded, m.rate with
      | some b, some r => some (b, r)
      | _, _ => none⟩

/-- What is heard after calls to pygame: the buffer and the rate it is played with. -/
def heard (log : List (Op R)) : Option (Nat × R) := (log.foldl Mixer.act ⟨none, none, none⟩).playing

/-- The calls to pygame of a whole call of `play`. -/
def whole (b : Nat) : List (Op R) := [.quit, .init (rate b), .load b, .start]

/-- Calls of `play` one after the other, each of them whole or broken off. -/
def Serial (log : List (Op R)) : Prop :=
  ∃ gs : List (List (Op R)), log = gs.flatten ∧ ∀ g ∈ gs, ∃ b, g <+: whole rate b

/-! ## Invariant -/

variable {rate}

theorem Serial.nil : Serial rate [] := ⟨[], rfl, by simp⟩

theorem Serial.append {log : List (Op R)} (h : Serial rate log) {g : List (Op R)} {b : Nat} (hg : g <+: whole rate b) :
    Serial rate (log ++ g) := by
  obtain ⟨gs, rfl, hgs⟩ := h
  refine ⟨gs ++ [g], by simp, ?_⟩
  intro g' hg'
  rcases List.mem_append.1 hg' with h | h
  · exact hgs g' h
  · rw [List.mem_singleton] at h
    exact ⟨b, h ▸ hg⟩

/-- What holds when the owner of the lock is at a place. -/
def Ok (rate : Nat → R) (s : St R) : Frame → Prop
  | ⟨.play _, .check⟩ => Serial rate s.log
  | ⟨.play b, .quit⟩ => Serial rate s.log ∧ s.closed b = false
  | ⟨.play b, .init⟩ => (∃ p, Serial rate p ∧ s.log = p ++ [.quit]) ∧ s.closed b = false
  | ⟨.play b, .load⟩ => (∃ p, Serial rate p ∧ s.log = p ++ [.quit, .init (rate b)]) ∧ s.closed b = false
  | ⟨.play b, .start⟩ => (∃ p, Serial rate p ∧ s.log = p ++ [.quit, .init (rate b), .load b]) ∧ s.closed b = false
  | ⟨.play _, .release⟩ => Serial rate s.log
  | ⟨.del _, .check⟩ => Serial rate s.log
  | ⟨.del b, .close⟩ => Serial rate s.log ∧ s.closed b = false
  | ⟨.del b, .release⟩ => Serial rate s.log ∧ s.closed b = true
  | _ => False

theorem Ok.serial {s : St R} {f : Frame} (h : Ok rate s f) : Serial rate s.log := by
  obtain ⟨j, pc⟩ := f
  have e : ∀ b, [Op.quit] <+: whole rate b ∧ [Op.quit, .init (rate b)] <+: whole rate b ∧
      [Op.quit, .init (rate b), .load b] <+: whole rate b := fun b =>
    ⟨⟨[.init (rate b), .load b, .start], rfl⟩, ⟨[.load b, .start], rfl⟩, ⟨[.start], rfl⟩⟩
  cases j with
  | play b =>
    cases pc <;> simp only [Ok] at h
    · exact h
    · exact h.1
    · obtain ⟨⟨p, hp, hl⟩, -⟩ := h; rw [hl]; exact hp.append (e b).1
    · obtain ⟨⟨p, hp, hl⟩, -⟩ := h; rw [hl]; exact hp.append (e b).2.1
    · obtain ⟨⟨p, hp, hl⟩, -⟩ := h; rw [hl]; exact hp.append (e b).2.2
    · exact h
  | del b =>
    cases pc <;> simp only [Ok] at h
    · exact h
    · exact h.1
    · exact h.1

/-- The invariant. -/
structure Inv (rate : Nat → R) (s : St R) : Prop where
  owner : ∀ t, ∀ f ∈ s.stack t, f.pc ≠ .wait → s.lock = some t
  held : ∀ t, s.lock = some t → ∃ ws f rest, s.stack t = ws ++ f :: rest ∧ (∀ w ∈ ws, w.pc = .wait) ∧
    (∀ w ∈ rest, w.pc = .wait) ∧ f.pc ≠ .wait ∧ Ok rate s f
  free : s.lock = none → Serial rate s.log

theorem Inv.serial {s : St R} (h : Inv rate s) : Serial rate s.log := by
  cases hl : s.lock with
  | none => exact h.free hl
  | some t =>
    obtain ⟨_, _, _, -, -, -, -, hok⟩ := h.held t hl
    exact hok.serial

theorem Inv.top {s : St R} (h : Inv rate s) {t : Nat} {f : Frame} {rest : List Frame} (hs : s.stack t = f :: rest)
    (hf : f.pc ≠ .wait) : s.lock = some t ∧ (∀ w ∈ rest, w.pc = .wait) ∧ Ok rate s f := by
  have hl := h.owner t f (by rw [hs]; simp) hf
  obtain ⟨ws, g, r, hst, hws, hr, -, hok⟩ := h.held t hl
  cases ws with
  | nil =>
    rw [hs] at hst
    simp only [List.nil_append, List.cons.injEq] at hst
    obtain ⟨rfl, rfl⟩ := hst
    exact ⟨hl, hr, hok⟩
  | cons w ws =>
    rw [hs] at hst
    simp only [List.cons_append, List.cons.injEq] at hst
    exact absurd (hst.1 ▸ hws w (by simp)) hf

/-- The owner of the lock makes a step. -/
theorem Inv.move {s s' : St R} (h : Inv rate s) {t : Nat} {f f' : Frame} {rest : List Frame}
    (hs : s.stack t = f :: rest) (hf : f.pc ≠ .wait) (hlock : s'.lock = s.lock)
    (hstack : s'.stack = Function.update s.stack t (f' :: rest)) (hf' : f'.pc ≠ .wait) (hok : Ok rate s' f') :
    Inv rate s' := by
  obtain ⟨hl, hr, -⟩ := h.top hs hf
  refine ⟨?_, ?_, ?_⟩
  · intro u g hg hgw
    rw [hlock]
    by_cases hu : u = t
    · subst hu; exact hl
    · rw [hstack, Function.update_of_ne hu] at hg
      exact h.owner u g hg hgw
  · intro u hu
    rw [hlock, hl, Option.some.injEq] at hu
    subst hu
    exact ⟨[], f', rest, by rw [hstack, Function.update_self]; rfl, by simp, hr, hf', hok⟩
  · intro hn
    rw [hlock, hl] at hn
    simp at hn

theorem Ok.congr {s s' : St R} {f : Frame} (h : Ok rate s f) (hl : s'.log = s.log) (hc : s'.closed = s.closed) :
    Ok rate s' f := by
  obtain ⟨j, pc⟩ := f
  cases j <;> cases pc <;> simp only [Ok, hl, hc] at h ⊢ <;> exact h

/-- A call begins. -/
theorem Inv.push {s : St R} (h : Inv rate s) (t : Nat) (j : Job) :
    Inv rate (s.put t ⟨j, .wait⟩ (s.stack t)) := by
  refine ⟨?_, ?_, h.free⟩
  · intro u g hg hgw
    by_cases hu : u = t
    · subst hu
      simp only [St.put, Function.update_self, List.mem_cons] at hg
      rcases hg with rfl | hg
      · exact absurd rfl hgw
      · exact h.owner u g hg hgw
    · simp only [St.put, Function.update_of_ne hu] at hg
      exact h.owner u g hg hgw
  · intro u hu
    obtain ⟨ws, f, r, hst, hws, hr, hf, hok⟩ := h.held u hu
    by_cases hut : u = t
    · subst hut
      refine ⟨⟨j, .wait⟩ :: ws, f, r, by simp [St.put, hst], ?_, hr, hf, hok.congr rfl rfl⟩
      intro w hw
      rcases List.mem_cons.1 hw with rfl | hw
      · rfl
      · exact hws w hw
    · exact ⟨ws, f, r, by simp [St.put, Function.update_of_ne hut, hst], hws, hr, hf, hok.congr rfl rfl⟩

theorem Inv.acquire {s : St R} (h : Inv rate s) {t : Nat} {j : Job} {rest : List Frame}
    (hs : s.stack t = ⟨j, .wait⟩ :: rest) (hl : s.lock = none) :
    Inv rate ({ s with lock := some t }.put t ⟨j, .check⟩ rest) := by
  have hno : ∀ u, ∀ f ∈ s.stack u, f.pc = .wait := by
    intro u f hf
    by_contra hc
    have := h.owner u f hf hc
    rw [hl] at this
    simp at this
  refine ⟨?_, ?_, by simp [St.put]⟩
  · intro u g hg hgw
    by_cases hu : u = t
    · subst hu; rfl
    · simp only [St.put, Function.update_of_ne hu] at hg
      exact absurd (hno u g hg) hgw
  · intro u hu
    simp only [St.put, Option.some.injEq] at hu
    subst hu
    refine ⟨[], ⟨j, .check⟩, rest, by simp [St.put], by simp, ?_, by simp, ?_⟩
    · intro w hw
      exact hno t w (by rw [hs]; exact List.mem_cons_of_mem _ hw)
    · have := h.free hl
      cases j <;> simpa [Ok, St.put] using this

theorem Inv.released {s : St R} (h : Inv rate s) {t : Nat} {f : Frame} {rest : List Frame}
    (hs : s.stack t = f :: rest) (hf : f.pc ≠ .wait) :
    Inv rate { s with lock := none, stack := Function.update s.stack t rest } := by
  obtain ⟨hl, hr, hok⟩ := h.top hs hf
  refine ⟨?_, by simp, fun _ => hok.serial⟩
  intro u g hg hgw
  by_cases hu : u = t
  · subst hu
    simp only [Function.update_self] at hg
    exact absurd (hr g hg) hgw
  · simp only [Function.update_of_ne hu] at hg
    have := h.owner u g hg hgw
    rw [hl, Option.some.injEq] at this
    exact absurd this.symm hu

theorem Inv.next {s s' : St R} (h : Inv rate s) {e : Ev} (hn : next rate s e = some s') : Inv rate s' := by
  cases e with
  | call t b =>
    simp only [Player.next] at hn
    split at hn
    · rename_i hs
      obtain rfl := Option.some.inj hn
      have := h.push t (.play b)
      rwa [hs] at this
    · simp at hn
  | collect t b =>
    simp only [Player.next, Option.some.injEq] at hn
    obtain rfl := hn
    exact h.push t (.del b)
  | step t =>
    simp only [Player.next] at hn
    unfold advance at hn
    cases hs : s.stack t with
    | nil => rw [hs] at hn; simp at hn
    | cons f rest =>
      obtain ⟨j, pc⟩ := f
      rw [hs] at hn
      cases pc with
      | wait =>
        simp only at hn
        split at hn
        · rename_i hl
          obtain rfl := Option.some.inj hn
          exact h.acquire hs hl
        · simp at hn
      | check =>
        obtain ⟨hl, hr, hok⟩ := h.top hs (by simp)
        cases j with
        | play b =>
          simp only [Option.some.injEq] at hn
          obtain rfl := hn
          refine h.move hs (by simp) rfl rfl (by simp only; split <;> simp) ?_
          simp only [Ok] at hok
          cases hc : s.closed b <;> simp [Ok, St.put, hok, hc]
        | del b =>
          simp only [Option.some.injEq] at hn
          obtain rfl := hn
          refine h.move hs (by simp) rfl rfl (by simp only; split <;> simp) ?_
          simp only [Ok] at hok
          cases hc : s.closed b <;> simp [Ok, St.put, hok, hc]
      | quit =>
        obtain ⟨hl, hr, hok⟩ := h.top hs (by simp)
        cases j with
        | play b =>
          simp only [Option.some.injEq] at hn
          obtain rfl := hn
          exact h.move hs (by simp) rfl rfl (by simp) ⟨⟨_, hok.1, rfl⟩, hok.2⟩
        | del b => simp [Ok] at hok
      | init =>
        obtain ⟨hl, hr, hok⟩ := h.top hs (by simp)
        cases j with
        | play b =>
          simp only [Option.some.injEq] at hn
          obtain rfl := hn
          obtain ⟨⟨p, hp, hlog⟩, hc⟩ := hok
          exact h.move hs (by simp) rfl rfl (by simp) ⟨⟨p, hp, by simp [St.put, hlog]⟩, hc⟩
        | del b => simp [Ok] at hok
      | load =>
        obtain ⟨hl, hr, hok⟩ := h.top hs (by simp)
        cases j with
        | play b =>
          simp only [Option.some.injEq] at hn
          obtain rfl := hn
          obtain ⟨⟨p, hp, hlog⟩, hc⟩ := hok
          exact h.move hs (by simp) rfl rfl (by simp) ⟨⟨p, hp, by simp [St.put, hlog]⟩, hc⟩
        | del b => simp [Ok] at hok
      | start =>
        obtain ⟨hl, hr, hok⟩ := h.top hs (by simp)
        cases j with
        | play b =>
          simp only [Option.some.injEq] at hn
          obtain rfl := hn
          obtain ⟨⟨p, hp, hlog⟩, hc⟩ := hok
          refine h.move hs (by simp) rfl rfl (by simp) ?_
          have := hp.append (g := whole rate b) (b := b) (List.prefix_refl _)
          simpa [Ok, St.put, hlog, whole] using this
        | del b => simp [Ok] at hok
      | close =>
        obtain ⟨hl, hr, hok⟩ := h.top hs (by simp)
        cases j with
        | play b => simp [Ok] at hok
        | del b =>
          simp only [Option.some.injEq] at hn
          obtain rfl := hn
          exact h.move hs (by simp) rfl rfl (by simp) ⟨hok.1, by simp [St.put]⟩
      | release =>
        cases j <;>
        · simp only [Option.some.injEq] at hn
          obtain rfl := hn
          exact h.released hs (by simp)
  | fail t =>
    simp only [Player.next] at hn
    unfold Player.fail at hn
    cases hs : s.stack t with
    | nil => rw [hs] at hn; simp at hn
    | cons f rest =>
      obtain ⟨j, pc⟩ := f
      rw [hs] at hn
      cases j <;> cases pc <;> simp only [Option.some.injEq, reduceCtorEq] at hn
      all_goals
        obtain rfl := hn
        exact h.move hs (by simp) rfl rfl (by simp) (h.top hs (by simp)).2.2.serial

theorem Inv.start : Inv rate (start : St R) :=
  ⟨by simp [Player.start], by simp [Player.start], fun _ => Serial.nil⟩

theorem run_append (s : St R) (es es' : List Ev) :
    run rate s (es ++ es') = (run rate s es).bind fun s' => run rate s' es' := by
  induction es generalizing s with
  | nil => rfl
  | cons e es ih =>
    simp only [List.cons_append, run]
    cases next rate s e with
    | none => rfl
    | some s' => exact ih s'

theorem Inv.run {s s' : St R} (h : Inv rate s) {es : List Ev} (hr : run rate s es = some s') : Inv rate s' := by
  induction es generalizing s with
  | nil => simp only [Player.run, Option.some.injEq] at hr; exact hr ▸ h
  | cons e es ih =>
    simp only [Player.run] at hr
    cases hn : Player.next rate s e with
    | none => rw [hn] at hr; simp at hr
    | some s1 =>
      rw [hn] at hr
      exact ih (h.next hn) hr

variable (rate)

/-! ## C109 -/

/-- **C109.** In every schedule of any number of threads, with exceptions and with objects deleted at any moment, the
calls to pygame are those of calls of `play` one after the other: none begins before the last one has come to its
end or was broken off by an exception. -/
theorem C109_serial (es : List Ev) (s : St R) (h : run rate start es = some s) : Serial rate s.log :=
  (Inv.start.run h).serial

/-- The mixer after whole or broken calls. -/
theorem act_serial (gs : List (List (Op R))) (hgs : ∀ g ∈ gs, ∃ b, g <+: whole rate b) (m : Mixer R)
    (hm : ∀ b r, m.playing = some (b, r) → r = rate b) :
    ∀ b r, (gs.flatten.foldl Mixer.act m).playing = some (b, r) → r = rate b := by
  induction gs generalizing m with
  | nil => simpa using hm
  | cons g gs ih =>
    rw [List.flatten_cons, List.foldl_append]
    refine ih (fun g' h => hgs g' (List.mem_cons_of_mem _ h)) _ ?_
    obtain ⟨b, t, ht⟩ := hgs g (by simp)
    unfold whole at ht
    match g, ht with
    | [], _ => simpa using hm
    | [x], ht =>
      simp only [List.cons_append, List.cons.injEq] at ht
      obtain ⟨rfl, -⟩ := ht
      simp [Mixer.act]
    | [x, y], ht =>
      simp only [List.cons_append, List.cons.injEq] at ht
      obtain ⟨rfl, rfl, -⟩ := ht
      simp [Mixer.act]
    | [x, y, z], ht =>
      simp only [List.cons_append, List.cons.injEq] at ht
      obtain ⟨rfl, rfl, rfl, -⟩ := ht
      simp [Mixer.act]
    | [x, y, z, w], ht =>
      simp only [List.cons_append, List.cons.injEq] at ht
      obtain ⟨rfl, rfl, rfl, rfl, -⟩ := ht
      simp only [List.foldl_cons, List.foldl_nil, Mixer.act, Option.some.injEq, Prod.mk.injEq]
      rintro b' r ⟨rfl, rfl⟩
      rfl
    | x :: y :: z :: w :: v :: g, ht =>
      have := congrArg List.length ht
      simp at this

/-- **C109.** Whatever is heard is played with its own sample rate. -/
theorem C109_rate (es : List Ev) (s : St R) (h : run rate start es = some s) (b : Nat) (r : R)
    (hb : heard s.log = some (b, r)) : r = rate b := by
  obtain ⟨gs, hl, hgs⟩ := C109_serial rate es s h
  unfold heard at hb
  rw [hl] at hb
  exact act_serial rate gs hgs _ (by simp) b r hb

/-- **C109.** When a call of `play` has reached its end, its buffer is what is heard; this changes only when another
call to pygame is made, and a call to pygame is made only by a step. -/
theorem C109_heard (es : List Ev) (s s' : St R) (h : run rate start es = some s) (t b : Nat) (rest : List Frame)
    (hs : s.stack t = ⟨.play b, .start⟩ :: rest) (hn : next rate s (.step t) = some s') :
    heard s'.log = some (b, rate b) := by
  obtain ⟨-, -, ⟨p, -, hlog⟩, -⟩ := (Inv.start.run h).top hs (by simp)
  simp only [next, advance, hs, Option.some.injEq] at hn
  subst hn
  simp [St.put, heard, hlog, Mixer.act]

/-- **C109.** No closed buffer is loaded, and none is started. -/
theorem C109_open (es : List Ev) (s s' : St R) (h : run rate start es = some s) (e : Ev)
    (hn : next rate s e = some s') :
    (∀ b, s'.log = s.log ++ [.load b] → s.closed b = false) ∧
    (s'.log = s.log ++ [.start] → ∃ b r, heard s'.log = some (b, r) ∧ s.closed b = false) := by
  have hinv := Inv.start.run h
  have hne : ∀ x : Op R, s.log ≠ s.log ++ [x] := fun x hx => by
    have := congrArg List.length hx
    simp at this
  have hcase : s'.log = s.log ∨ ∃ t f rest, e = .step t ∧ s.stack t = f :: rest := by
    cases e with
    | call t b =>
      simp only [next] at hn
      split at hn
      · exact .inl (by obtain rfl := Option.some.inj hn; rfl)
      · simp at hn
    | collect t b =>
      simp only [next, Option.some.injEq] at hn
      exact .inl (by obtain rfl := hn; rfl)
    | step t =>
      cases hs : s.stack t with
      | nil => simp [next, advance, hs] at hn
      | cons f rest => exact .inr ⟨t, f, rest, rfl, hs⟩
    | fail t =>
      left
      cases hs : s.stack t with
      | nil => simp [next, fail, hs] at hn
      | cons f rest =>
        obtain ⟨j, pc⟩ := f
        cases j <;> cases pc <;> simp only [next, fail, hs, Option.some.injEq, reduceCtorEq] at hn
        all_goals
          obtain rfl := hn
          rfl
  rcases hcase with hl | ⟨t, f, rest, rfl, hs⟩
  · exact ⟨fun b hb => absurd (hl ▸ hb) (by rw [hl] at hb; exact absurd hb (hne _)),
      fun hb => absurd hb (by rw [hl]; exact hne _)⟩
  · obtain ⟨j, pc⟩ := f
    by_cases hw : pc = .wait
    · subst hw
      simp only [next, advance, hs] at hn
      split at hn
      · obtain rfl := Option.some.inj hn
        exact ⟨fun b hb => absurd hb (hne _), fun hb => absurd hb (hne _)⟩
      · simp at hn
    · obtain ⟨-, -, hok⟩ := hinv.top hs hw
      cases j with
      | play b =>
        cases pc with
        | wait => exact absurd rfl hw
        | load =>
          simp only [next, advance, hs, Option.some.injEq] at hn
          subst hn
          refine ⟨fun b' hb => ?_, fun hb => by simp [St.put] at hb⟩
          simp only [St.put, List.append_cancel_left_eq, List.cons.injEq, Op.load.injEq, and_true] at hb
          exact hb ▸ hok.2
        | start =>
          have := C109_heard rate es s s' h t b rest hs hn
          simp only [next, advance, hs, Option.some.injEq] at hn
          subst hn
          exact ⟨fun b' hb => by simp [St.put] at hb, fun _ => ⟨b, _, this, hok.2⟩⟩
        | check =>
          simp only [next, advance, hs, Option.some.injEq] at hn
          subst hn
          exact ⟨fun b hb => absurd hb (hne _), fun hb => absurd hb (hne _)⟩
        | quit =>
          simp only [next, advance, hs, Option.some.injEq] at hn
          subst hn
          exact ⟨fun b' hb => by simp [St.put] at hb, fun hb => by simp [St.put] at hb⟩
        | init =>
          simp only [next, advance, hs, Option.some.injEq] at hn
          subst hn
          exact ⟨fun b' hb => by simp [St.put] at hb, fun hb => by simp [St.put] at hb⟩
        | close => exact absurd hok (by simp [Ok])
        | release =>
          simp only [next, advance, hs, Option.some.injEq] at hn
          subst hn
          exact ⟨fun b hb => absurd hb (hne _), fun hb => absurd hb (hne _)⟩
      | del b =>
        cases pc <;> simp only [next, advance, hs, Option.some.injEq, reduceCtorEq] at hn
        · exact absurd rfl hw
        all_goals
          subst hn
          exact ⟨fun b hb => absurd hb (hne _), fun hb => absurd hb (hne _)⟩

/-- **C109.** When a `__del__` returns, the buffer is closed, and it stays closed. -/
theorem C109_closes (es : List Ev) (s s' : St R) (h : run rate start es = some s) :
    (∀ t b rest, s.stack t = ⟨.del b, .release⟩ :: rest → s.closed b = true) ∧
    ∀ e b, next rate s e = some s' → s.closed b = true → s'.closed b = true := by
  refine ⟨fun t b rest hs => ((Inv.start.run h).top hs (by simp)).2.2.2, ?_⟩
  intro e b hn hc
  cases e with
  | call t b' =>
    simp only [next] at hn
    split at hn
    · obtain rfl := Option.some.inj hn; exact hc
    · simp at hn
  | collect t b' =>
    simp only [next, Option.some.injEq] at hn
    subst hn
    exact hc
  | fail t =>
    cases hs : s.stack t with
    | nil => simp [next, fail, hs] at hn
    | cons f rest =>
      obtain ⟨j, pc⟩ := f
      cases j <;> cases pc <;> simp only [next, fail, hs, Option.some.injEq, reduceCtorEq] at hn
      all_goals
        subst hn
        exact hc
  | step t =>
    cases hs : s.stack t with
    | nil => simp [next, advance, hs] at hn
    | cons f rest =>
      obtain ⟨j, pc⟩ := f
      cases pc with
      | wait =>
        simp only [next, advance, hs] at hn
        split at hn
        · obtain rfl := Option.some.inj hn; exact hc
        · simp at hn
      | close =>
        cases j with
        | play b' => simp [next, advance, hs] at hn
        | del b' =>
          simp only [next, advance, hs, Option.some.injEq] at hn
          subst hn
          by_cases hb : b = b'
          · subst hb; simp [St.put]
          · simp [St.put, Function.update_of_ne hb, hc]
      | check | quit | init | load | start | release =>
        cases j <;> simp only [next, advance, hs, Option.some.injEq, reduceCtorEq] at hn
        all_goals
          subst hn
          exact hc

/-- **C109.** Two threads are never both within the lock. -/
theorem C109_exclusive (es : List Ev) (s : St R) (h : run rate start es = some s) (t u : Nat)
    (ht : ∃ f ∈ s.stack t, f.pc ≠ .wait) (hu : ∃ f ∈ s.stack u, f.pc ≠ .wait) : t = u := by
  have hinv := Inv.start.run h
  obtain ⟨f, hf, hfw⟩ := ht
  obtain ⟨g, hg, hgw⟩ := hu
  have h1 := hinv.owner t f hf hfw
  have h2 := hinv.owner u g hg hgw
  rw [h1, Option.some.injEq] at h2
  exact h2

/-- A thread has begun a `__del__` while it had the lock. -/
def Within (s : St R) : Prop := ∃ t f rest, s.lock = some t ∧ s.stack t = f :: rest ∧ f.pc = .wait

/-- **C109.** Unless a thread begins a `__del__` while it has the lock itself, no state is a deadlock: when there
are calls, one of them can go on. -/
theorem C109_progress (es : List Ev) (s : St R) (h : run rate start es = some s) (hw : ¬ Within s)
    (hc : ∃ t, s.stack t ≠ []) : ∃ t s', next rate s (.step t) = some s' := by
  have hinv := Inv.start.run h
  cases hl : s.lock with
  | none =>
    obtain ⟨t, ht⟩ := hc
    cases hs : s.stack t with
    | nil => exact absurd hs ht
    | cons f rest =>
      obtain ⟨j, pc⟩ := f
      have hpc : pc = .wait := by
        by_contra hc
        have := hinv.owner t ⟨j, pc⟩ (by rw [hs]; simp) hc
        rw [hl] at this
        simp at this
      subst hpc
      exact ⟨t, _, by simp only [next, advance, hs, hl, if_true]; rfl⟩
  | some t =>
    obtain ⟨ws, f, rest, hst, hws, hr, hf, hok⟩ := hinv.held t hl
    cases ws with
    | cons w ws => exact absurd ⟨t, w, ws ++ f :: rest, hl, by rw [hst]; rfl, hws w (by simp)⟩ hw
    | nil =>
      obtain ⟨j, pc⟩ := f
      refine ⟨t, ?_⟩
      simp only [next, advance, hst, List.nil_append]
      cases j <;> cases pc <;> simp [Ok] at hok hf ⊢

/-- **C109.** Only a `__del__` that begins in the thread that has the lock leads there. -/
theorem C109_within (es : List Ev) (s s' : St R) (h : run rate start es = some s) (e : Ev)
    (hn : next rate s e = some s') (hw : ¬ Within s) (hw' : Within s') :
    ∃ t b, e = .collect t b ∧ s.lock = some t := by
  have hinv := Inv.start.run h
  obtain ⟨t, f, rest, hl, hs, hf⟩ := hw'
  have keep : ∀ u g, s'.lock = s.lock → s'.stack = Function.update s.stack u g → (u = t → ∃ x r, g = x :: r ∧ x.pc ≠ .wait) →
      False := by
    intro u g h1 h2 h3
    by_cases hu : u = t
    · obtain ⟨x, r, rfl, hx⟩ := h3 hu
      subst hu
      rw [h2, Function.update_self] at hs
      simp only [List.cons.injEq] at hs
      exact hx (hs.1 ▸ hf)
    · rw [h2, Function.update_of_ne (Ne.symm hu)] at hs
      exact hw ⟨t, f, rest, h1 ▸ hl, hs, hf⟩
  cases e with
  | collect u b =>
    simp only [next, Option.some.injEq] at hn
    subst hn
    by_cases hu : u = t
    · exact ⟨u, b, rfl, hu ▸ hl⟩
    · exact (keep u _ rfl rfl fun h => absurd h hu).elim
  | call u b =>
    simp only [next] at hn
    split at hn
    · rename_i hst
      obtain rfl := Option.some.inj hn
      refine (keep u _ rfl rfl fun hu => ?_).elim
      subst hu
      obtain ⟨ws, g, r, hst', -⟩ := hinv.held u hl
      rw [hst] at hst'
      simp at hst'
    · simp at hn
  | fail u =>
    cases hst : s.stack u with
    | nil => simp [next, fail, hst] at hn
    | cons g r =>
      obtain ⟨j, pc⟩ := g
      cases j <;> cases pc <;> simp only [next, fail, hst, Option.some.injEq, reduceCtorEq] at hn
      all_goals
        subst hn
        exact (keep u _ rfl rfl fun _ => ⟨_, _, rfl, by simp⟩).elim
  | step u =>
    cases hst : s.stack u with
    | nil => simp [next, advance, hst] at hn
    | cons g r =>
      obtain ⟨j, pc⟩ := g
      cases pc with
      | wait =>
        simp only [next, advance, hst] at hn
        split at hn
        · obtain rfl := Option.some.inj hn
          simp only [St.put, Option.some.injEq] at hl
          subst hl
          simp only [St.put, Function.update_self, List.cons.injEq] at hs
          rw [← hs.1] at hf
          simp at hf
        · simp at hn
      | release =>
        cases j <;>
        · simp only [next, advance, hst, Option.some.injEq] at hn
          subst hn
          simp at hl
      | check =>
        cases j <;>
        · simp only [next, advance, hst, Option.some.injEq] at hn
          subst hn
          exact (keep u _ rfl rfl fun _ => ⟨_, _, rfl, by simp only; split <;> simp⟩).elim
      | quit | init | load | start | close =>
        cases j <;> simp only [next, advance, hst, Option.some.injEq, reduceCtorEq] at hn
        all_goals
          subst hn
          exact (keep u _ rfl rfl fun _ => ⟨_, _, rfl, by simp⟩).elim

/-- **C109.** When it does happen, the lock is never released again: nothing is played and nothing is closed any
more, and no running call returns. -/
theorem C109_deadlock (es es' : List Ev) (s s' : St R) (h : run rate start es = some s) (hw : Within s)
    (h' : run rate s es' = some s') :
    s'.lock = s.lock ∧ s'.log = s.log ∧ s'.closed = s.closed ∧ (∀ u, s.stack u <:+ s'.stack u) ∧
      ∀ u, next rate s' (.step u) = none := by
  have key : ∀ (es' : List Ev) (s s' : St R), Inv rate s → Within s → run rate s es' = some s' →
      Inv rate s' ∧ Within s' ∧ s'.lock = s.lock ∧ s'.log = s.log ∧ s'.closed = s.closed ∧
        ∀ u, s.stack u <:+ s'.stack u := by
    intro es'
    induction es' with
    | nil =>
      intro s s' hi hw h
      simp only [run, Option.some.injEq] at h
      subst h
      exact ⟨hi, hw, rfl, rfl, rfl, fun u => List.suffix_refl _⟩
    | cons e es' ih =>
      intro s s' hi hw h
      simp only [run] at h
      cases hn : next rate s e with
      | none => rw [hn] at h; simp at h
      | some s1 =>
        rw [hn] at h
        have hstep : Within s1 ∧ s1.lock = s.lock ∧ s1.log = s.log ∧ s1.closed = s.closed ∧
            ∀ u, s.stack u <:+ s1.stack u := by
          obtain ⟨t, f, rest, hl, hs, hf⟩ := hw
          have pushed : ∀ u j, Within (s.put u ⟨j, .wait⟩ (s.stack u)) ∧
              ∀ v, s.stack v <:+ (s.put u ⟨j, .wait⟩ (s.stack u)).stack v := by
            intro u j
            refine ⟨?_, ?_⟩
            · by_cases hu : u = t
              · subst hu
                exact ⟨u, ⟨j, .wait⟩, s.stack u, hl, by simp [St.put], rfl⟩
              · exact ⟨t, f, rest, hl, by simp only [St.put, Function.update_of_ne (Ne.symm hu)]; exact hs, hf⟩
            · intro v
              by_cases hv : v = u
              · subst hv
                simp only [St.put, Function.update_self]
                exact List.suffix_cons _ _
              · simp only [St.put, Function.update_of_ne hv]
                exact List.suffix_refl _
          have top : ∀ u g r, s.stack u = g :: r → g.pc = .wait := by
            intro u g r hg
            by_contra hc
            have hu := hi.owner u g (by rw [hg]; simp) hc
            rw [hl, Option.some.injEq] at hu
            subst hu
            rw [hs] at hg
            simp only [List.cons.injEq] at hg
            exact hc (hg.1 ▸ hf)
          cases e with
          | collect u b =>
            simp only [next, Option.some.injEq] at hn
            subst hn
            exact ⟨(pushed u _).1, rfl, rfl, rfl, (pushed u _).2⟩
          | call u b =>
            simp only [next] at hn
            split at hn
            · rename_i hst
              obtain rfl := Option.some.inj hn
              have := pushed u (.play b)
              rw [hst] at this
              exact ⟨this.1, rfl, rfl, rfl, this.2⟩
            · simp at hn
          | step u =>
            cases hst : s.stack u with
            | nil => simp [next, advance, hst] at hn
            | cons g r =>
              obtain ⟨j, pc⟩ := g
              have : pc = .wait := top u _ r hst
              subst this
              simp [next, advance, hst, hl] at hn
          | fail u =>
            cases hst : s.stack u with
            | nil => simp [next, fail, hst] at hn
            | cons g r =>
              obtain ⟨j, pc⟩ := g
              have : pc = .wait := top u _ r hst
              subst this
              cases j <;> simp [next, fail, hst] at hn
        obtain ⟨a1, a2, a3, a4, a5⟩ := hstep
        obtain ⟨b1, b2, b3, b4, b5, b6⟩ := ih s1 s' (hi.next hn) a1 h
        exact ⟨b1, b2, b3.trans a2, b4.trans a3, b5.trans a4, fun u => (a5 u).trans (b6 u)⟩
  obtain ⟨hi, ⟨t, f, rest, hl, hs, hf⟩, c1, c2, c3, c4⟩ := key es' s s' (Inv.start.run h) hw h'
  refine ⟨c1, c2, c3, c4, ?_⟩
  intro u
  cases hst : s'.stack u with
  | nil => simp [next, advance, hst]
  | cons g r =>
    obtain ⟨j, pc⟩ := g
    have : pc = .wait := by
      by_contra hc
      have hu := hi.owner u ⟨j, pc⟩ (by rw [hst]; simp) hc
      rw [hl, Option.some.injEq] at hu
      subst hu
      rw [hs] at hst
      simp only [List.cons.injEq] at hst
      rw [hst.1] at hf
      exact hc hf
    subst this
    simp [next, advance, hst, hl]

/-- How many steps a call has still to make, at most. -/
def left : Pc → Nat
  | .wait => 7
  | .check => 6
  | .quit => 5
  | .init => 4
  | .load => 3
  | .start => 2
  | .close => 2
  | .release => 1

/-- The steps that are left for the threads below `n`. -/
def todo (s : St R) (n : Nat) : Nat := ((List.range n).map fun t => ((s.stack t).map fun f => left f.pc).sum).sum

theorem sum_update (n t : Nat) (f : Nat → Nat) (v : Nat) (ht : t < n) :
    ((List.range n).map (Function.update f t v)).sum + f t = ((List.range n).map f).sum + v := by
  induction n with
  | zero => omega
  | succ n ih =>
    rw [List.range_succ, List.map_append, List.map_append, List.sum_append, List.sum_append]
    simp only [List.map_cons, List.map_nil, List.sum_cons, List.sum_nil, Nat.add_zero]
    by_cases h : t = n
    · subst h
      rw [Function.update_self]
      have : (List.range t).map (Function.update f t v) = (List.range t).map f := by
        refine List.map_congr_left fun x hx => ?_
        rw [Function.update_of_ne (by have := List.mem_range.1 hx; omega)]
      rw [this]
      omega
    · rw [Function.update_of_ne (Ne.symm h)]
      have := ih (by omega)
      omega

theorem todo_update (s s' : St R) (n t : Nat) (l : List Frame) (ht : t < n)
    (h : s'.stack = Function.update s.stack t l) :
    todo s' n + ((s.stack t).map fun f => left f.pc).sum = todo s n + (l.map fun f => left f.pc).sum := by
  have e : (fun u => ((s'.stack u).map fun f => left f.pc).sum) =
      Function.update (fun u => ((s.stack u).map fun f => left f.pc).sum) t (l.map fun f => left f.pc).sum := by
    funext u
    rw [h]
    by_cases hu : u = t
    · subst hu; simp
    · simp [Function.update_of_ne hu]
  unfold todo
  rw [e]
  exact sum_update n t _ _ ht

/-- The thread of an event. -/
def Ev.thread : Ev → Nat
  | .call t _ | .collect t _ | .step t | .fail t => t

/-- Whether a call begins. -/
def Ev.begins : Ev → Bool
  | .call _ _ | .collect _ _ => true
  | _ => false

theorem todo_next (s s' : St R) (n : Nat) (e : Ev) (ht : e.thread < n) (hn : next rate s e = some s') :
    (e.begins = true → todo s' n = todo s n + 7) ∧ (e.begins = false → todo s' n + 1 ≤ todo s n) := by
  cases e with
  | call t b =>
    refine ⟨fun _ => ?_, by simp [Ev.begins]⟩
    simp only [next] at hn
    split at hn
    · rename_i hs
      obtain rfl := Option.some.inj hn
      have := todo_update s (s.put t ⟨.play b, .wait⟩ []) n t [⟨.play b, .wait⟩] ht rfl
      simp only [hs, List.map_nil, List.sum_nil, List.map_cons, List.sum_cons, left] at this
      exact this
    · simp at hn
  | collect t b =>
    refine ⟨fun _ => ?_, by simp [Ev.begins]⟩
    simp only [next, Option.some.injEq] at hn
    subst hn
    have := todo_update s (s.put t ⟨.del b, .wait⟩ (s.stack t)) n t (⟨.del b, .wait⟩ :: s.stack t) ht rfl
    simp only [List.map_cons, List.sum_cons, left] at this
    omega
  | step t =>
    refine ⟨by simp [Ev.begins], fun _ => ?_⟩
    simp only [next] at hn
    cases hs : s.stack t with
    | nil => simp [advance, hs] at hn
    | cons f rest =>
      obtain ⟨j, pc⟩ := f
      have key : ∀ l, s'.stack = Function.update s.stack t l →
          (l.map fun f => left f.pc).sum + 1 ≤ ((⟨j, pc⟩ :: rest).map fun f : Frame => left f.pc).sum →
          todo s' n + 1 ≤ todo s n := by
        intro l hl hle
        have := todo_update s s' n t l ht hl
        rw [hs] at this
        omega
      cases pc with
      | wait =>
        simp only [advance, hs] at hn
        split at hn
        · obtain rfl := Option.some.inj hn
          exact key _ rfl (by simp [left]; omega)
        · simp at hn
      | check =>
        cases j <;>
        · simp only [advance, hs, Option.some.injEq] at hn
          subst hn
          refine key _ rfl ?_
          split <;> simp [left] <;> omega
      | release =>
        cases j <;>
        · simp only [advance, hs, Option.some.injEq] at hn
          subst hn
          exact key _ rfl (by simp [left]; omega)
      | quit | init | load | start | close =>
        cases j <;> simp only [advance, hs, Option.some.injEq, reduceCtorEq] at hn
        all_goals
          subst hn
          exact key _ rfl (by simp [left]; omega)
  | fail t =>
    refine ⟨by simp [Ev.begins], fun _ => ?_⟩
    simp only [next] at hn
    cases hs : s.stack t with
    | nil => simp [fail, hs] at hn
    | cons f rest =>
      obtain ⟨j, pc⟩ := f
      cases j <;> cases pc <;> simp only [fail, hs, Option.some.injEq, reduceCtorEq] at hn
      all_goals
        subst hn
        rename_i b
        have := todo_update s (s.put t ⟨.play b, .release⟩ rest) n t (⟨.play b, .release⟩ :: rest) ht rfl
        rw [hs] at this
        simp only [List.map_cons, List.sum_cons, left] at this
        omega

/-- **C109.** All calls come to an end: there are never more than seven steps for each call that has begun.  (With
`C109_progress`: if no more calls begin and no `__del__` has begun in the thread that had the lock, all calls
return.) -/
theorem C109_ends (es : List Ev) (s : St R) (h : run rate start es = some s) :
    (es.filter fun e => !e.begins).length ≤ 7 * (es.filter Ev.begins).length := by
  have key : ∀ (n : Nat) (es : List Ev) (s s' : St R), (∀ e ∈ es, e.thread < n) → run rate s es = some s' →
      todo s' n + (es.filter fun e => !e.begins).length ≤ todo s n + 7 * (es.filter Ev.begins).length := by
    intro n es
    induction es with
    | nil =>
      intro s s' _ h
      simp only [run, Option.some.injEq] at h
      subst h
      simp
    | cons e es ih =>
      intro s s' hes h
      simp only [run] at h
      cases hn : next rate s e with
      | none => rw [hn] at h; simp at h
      | some s1 =>
        rw [hn] at h
        have h1 := ih s1 s' (fun e he => hes e (List.mem_cons_of_mem _ he)) h
        obtain ⟨h2, h3⟩ := todo_next rate s s1 n e (hes e (by simp)) hn
        cases hb : e.begins with
        | true =>
          have := h2 hb
          simp only [List.filter_cons, hb, Bool.not_true, Bool.false_eq_true, if_false, if_true, List.length_cons]
          omega
        | false =>
          have := h3 hb
          simp only [List.filter_cons, hb, Bool.not_false, Bool.false_eq_true, if_false, if_true, List.length_cons]
          omega
  have hb : ∃ n, ∀ e ∈ es, e.thread < n := by
    clear h
    induction es with
    | nil => exact ⟨0, by simp⟩
    | cons e es ih =>
      obtain ⟨n, hn⟩ := ih
      refine ⟨max n (e.thread + 1), ?_⟩
      intro e' he'
      rcases List.mem_cons.1 he' with rfl | he'
      · omega
      · have := hn e' he'
        omega
  obtain ⟨n, hn⟩ := hb
  have := key n es start s hn h
  have h0 : todo (start : St R) n = 0 := by
    unfold todo start
    simp
  omega

/-! ## Cases -/

/-- Buffer 1 is played, and buffer 2 while another thread deletes buffer 1. -/
example : ((run (fun b => 100 * b) start [.call 0 1, .step 0, .step 0, .collect 7 1, .step 0, .step 0, .step 0, .step 0,
      .step 0, .call 0 2, .step 7, .step 7, .step 7, .step 7, .step 0, .step 0, .step 0, .step 0, .step 0, .step 0,
      .step 0]).map fun s => (heard s.log, s.closed 1, s.lock, s.stack 0)) = some (some (2, 200), true, none, []) := by
  decide +kernel

/-- The buffer that is heard can be closed by then: the lock is free while it is played. -/
theorem closed_while_heard : ((run (fun b => 100 * b) start [.call 0 1, .step 0, .step 0, .step 0, .step 0, .step 0, .step 0,
      .step 0, .collect 0 1, .step 0, .step 0, .step 0, .step 0]).map fun s => (heard s.log, s.closed 1)) =
    some (some (1, 100), true) := by
  decide +kernel

/-- The garbage collector finds an object during `play` in the same thread: a deadlock. -/
theorem collected_within : ∃ s : St Nat, run (fun b => b) start [.call 0 1, .step 0, .step 0, .collect 0 2] = some s ∧
    Within s :=
  ⟨_, rfl, 0, _, _, rfl, rfl, rfl⟩

end Verif.Player
