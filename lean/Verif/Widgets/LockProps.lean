import Mathlib.Tactic.ByContra
import Verif.Widgets.LockModel

/-!
# C59: one analysis at a time
-/

set_option autoImplicit false
set_option linter.unusedSectionVars false
set_option linter.unusedSimpArgs false

namespace Verif.Widgets

/-- The callback is past the lock: from its acquisition to its release. -/
def Inside : Pc → Prop
  | .making => True
  | .fitting => True
  | .drawing _ _ => True
  | .leaving owned _ => owned = true
  | _ => False

/-- Upper bound of the steps a callback still needs. -/
def rank : Pc → Nat
  | .start => 6
  | .loaded => 5
  | .making => 4
  | .fitting => 3
  | .drawing _ _ => 2
  | .leaving _ _ => 1
  | .done _ => 0

theorem setAt_self {β : Type} (f : Nat → β) (i : Nat) (v : β) : setAt f i v i = v := by
  simp [setAt]

theorem setAt_ne {β : Type} (f : Nat → β) (i j : Nat) (v : β) (h : j ≠ i) : setAt f i v j = f j := by
  simp [setAt, h]

/-- A step does not move other callbacks. -/
theorem stepCbk_other (s : LState) (i j : Nat) (o : Outcome) (h : j ≠ i) :
    (stepCbk s i o).pc j = s.pc j ∧ (stepCbk s i o).shown j = s.shown j := by
  unfold stepCbk
  split
  · split <;> simp [setAt_ne _ _ _ _ h]
  · split <;> simp [setAt_ne _ _ _ _ h]
  · split <;> simp [setAt_ne _ _ _ _ h]
  · split <;> simp [setAt_ne _ _ _ _ h]
  · simp [setAt_ne _ _ _ _ h]
  · simp [setAt_ne _ _ _ _ h]
  · simp

/-- The invariant: the lock is taken exactly when a callback is inside, which is then the only one; the
object that a callback has made is the current one until it has drawn it. -/
structure LInv (s : LState) : Prop where
  locked : s.locked = true ↔ ∃ i, Inside (s.pc i)
  unique : ∀ i j, Inside (s.pc i) → Inside (s.pc j) → i = j
  obj : ∀ i, (s.pc i = .fitting ∨ ∃ b, s.pc i = .drawing true b) → s.obj = some i

theorem linv_init : LInv initL := by
  refine ⟨?_, ?_, ?_⟩ <;> simp [initL, Inside]

/-- A step that keeps the callback inside, or outside, and leaves the lock and the object. -/
theorem linv_keep (s : LState) (h : LInv s) (i : Nat) (p : Pc) (t : LState)
    (h1 : t.locked = s.locked) (h3 : t.pc = setAt s.pc i p) (hin : Inside p ↔ Inside (s.pc i))
    (hobj : ∀ j, (t.pc j = .fitting ∨ ∃ b, t.pc j = .drawing true b) → t.obj = some j) : LInv t := by
  have hI : ∀ j, Inside (t.pc j) ↔ Inside (s.pc j) := by
    intro j
    rw [h3]
    by_cases hj : j = i
    · subst hj; rw [setAt_self, hin]
    · rw [setAt_ne _ _ _ _ hj]
  refine ⟨?_, fun a b ha hb => h.unique a b ((hI a).1 ha) ((hI b).1 hb), hobj⟩
  rw [h1, h.locked]
  exact ⟨fun ⟨j, hj⟩ => ⟨j, (hI j).2 hj⟩, fun ⟨j, hj⟩ => ⟨j, (hI j).1 hj⟩⟩

theorem linv_step (s : LState) (h : LInv s) (i : Nat) (o : Outcome) : LInv (stepCbk s i o) := by
  have inside_of : ∀ j, (s.pc j = .fitting ∨ ∃ b, s.pc j = .drawing true b) → Inside (s.pc j) := by
    rintro j (h | ⟨b, h⟩) <;> rw [h] <;> trivial
  unfold stepCbk
  split
  · rename_i hp
    have hout : ¬Inside (s.pc i) := by rw [hp]; exact id
    split
    · refine linv_keep s h i .loaded _ rfl rfl (by simp [hp, Inside]) fun j hj => ?_
      by_cases hji : j = i
      · subst hji; simp [setAt_self] at hj
      · simp only [setAt_ne _ _ _ _ hji] at hj; exact h.obj j hj
    · refine linv_keep s h i (.done .noAudio) _ rfl rfl (by simp [hp, Inside]) fun j hj => ?_
      by_cases hji : j = i
      · subst hji; simp [setAt_self] at hj
      · simp only [setAt_ne _ _ _ _ hji] at hj; exact h.obj j hj
  · rename_i hp
    split
    · refine linv_keep s h i (.leaving false false) _ rfl rfl (by simp [hp, Inside]) fun j hj => ?_
      by_cases hji : j = i
      · subst hji; simp [setAt_self] at hj
      · simp only [setAt_ne _ _ _ _ hji] at hj; exact h.obj j hj
    · rename_i hl
      have hno : ∀ j, ¬Inside (s.pc j) := fun j hj => hl (h.locked.2 ⟨j, hj⟩)
      have hI : ∀ j, Inside (setAt s.pc i .making j) → j = i := by
        intro j hj
        refine Classical.byContradiction fun hji => ?_
        rw [setAt_ne _ _ _ _ hji] at hj
        exact hno j hj
      refine ⟨⟨fun _ => ⟨i, by simp [setAt_self, Inside]⟩, fun _ => rfl⟩, fun a b ha hb => ?_, fun j hj => ?_⟩
      · rw [hI a ha, hI b hb]
      · by_cases hji : j = i
        · subst hji; simp [setAt_self] at hj
        · simp only [setAt_ne _ _ _ _ hji] at hj; exact h.obj j hj
  · rename_i hp
    have hin : Inside (s.pc i) := by rw [hp]; trivial
    split
    · refine linv_keep s h i .fitting _ rfl rfl (by simp [hp, Inside]) fun j hj => ?_
      by_cases hji : j = i
      · subst hji; rfl
      · simp only [setAt_ne _ _ _ _ hji] at hj
        exact absurd (h.unique j i (inside_of j hj) hin) hji
    all_goals
      first
      | refine linv_keep s h i (.drawing false false) _ rfl rfl (by simp [hp, Inside]) fun j hj => ?_
      | refine linv_keep s h i (.drawing false true) _ rfl rfl (by simp [hp, Inside]) fun j hj => ?_
      by_cases hji : j = i
      · subst hji; simp [setAt_self] at hj
      · simp only [setAt_ne _ _ _ _ hji] at hj; exact h.obj j hj
  · rename_i hp
    have hobj := h.obj i (Or.inl hp)
    have hin : Inside (s.pc i) := by rw [hp]; trivial
    split
    all_goals
      first
      | refine linv_keep s h i (.drawing true true) _ rfl rfl (by simp [hp, Inside]) fun j hj => ?_
      | refine linv_keep s h i (.drawing true false) _ rfl rfl (by simp [hp, Inside]) fun j hj => ?_
      by_cases hji : j = i
      · subst hji; exact hobj
      · simp only [setAt_ne _ _ _ _ hji] at hj; exact h.obj j hj
  · rename_i made base hp
    refine linv_keep s h i (.leaving true (base || decide (o ≠ .ok))) _ rfl rfl (by simp [hp, Inside])
      fun j hj => ?_
    by_cases hji : j = i
    · subst hji; simp [setAt_self] at hj
    · simp only [setAt_ne _ _ _ _ hji] at hj; exact h.obj j hj
  · rename_i owned raised hp
    cases owned
    · refine linv_keep s h i (.done (if raised then .raised else .ignored)) _ (by simp) (by simp)
        (by simp [hp, Inside]) fun j hj => ?_
      by_cases hji : j = i
      · subst hji; simp [setAt_self] at hj
      · simp only [setAt_ne _ _ _ _ hji] at hj; exact h.obj j hj
    · have hin : Inside (s.pc i) := by rw [hp]; rfl
      have hno : ∀ j, ¬Inside (setAt s.pc i
          (.done (if raised = true then .raised else if true = true then .finished else .ignored)) j) := by
        intro j hj
        by_cases hji : j = i
        · subst hji; rw [setAt_self] at hj; exact hj
        · rw [setAt_ne _ _ _ _ hji] at hj
          exact hji (h.unique j i hj hin)
      refine ⟨⟨fun hf => by simp at hf, fun ⟨j, hj⟩ => absurd hj (hno j)⟩,
        fun a b ha => absurd ha (hno a), fun j hj => ?_⟩
      by_cases hji : j = i
      · subst hji; simp [setAt_self] at hj
      · simp only [setAt_ne _ _ _ _ hji] at hj; exact h.obj j hj
  · exact h

theorem linv_exec : ∀ (es : List LEvent) (s : LState), LInv s → LInv (exec s es)
  | [], _, h => h
  | .step i o :: es, s, h => linv_exec es _ (linv_step s h i o)
  | .audio b :: es, s, h => linv_exec es _ ⟨h.locked, h.unique, h.obj⟩

/-- **C59** (exclusion): after any history of any number of overlapping callbacks, at most one is between
acquisition and release of the lock, and the lock is taken exactly if there is one. -/
theorem C59_exclusion (es : List LEvent) :
    (∀ i j, Inside ((exec initL es).pc i) → Inside ((exec initL es).pc j) → i = j) ∧
    ((exec initL es).locked = true ↔ ∃ i, Inside ((exec initL es).pc i)) :=
  ⟨(linv_exec es _ linv_init).unique, (linv_exec es _ linv_init).locked⟩

/-- Two callbacks overlap: the first one is fitting when the second one is refused. -/
def demoEvents : List LEvent :=
  [.audio true, .step 0 .ok, .step 1 .ok, .step 0 .ok, .step 0 .ok, .step 1 .ok, .step 1 .ok]

example : (exec initL demoEvents).pc 0 = .fitting ∧ (exec initL demoEvents).pc 1 = .done .ignored ∧
    (exec initL demoEvents).locked = true := by decide +kernel

/-- **C59** (release): when every callback is at its end or has not begun, the lock is free, whatever
exceptions have occurred on the way. -/
theorem C59_release (es : List LEvent)
    (h : ∀ i, (exec initL es).pc i = .start ∨ ∃ e, (exec initL es).pc i = .done e) :
    (exec initL es).locked = false := by
  cases hl : (exec initL es).locked with
  | false => rfl
  | true =>
    obtain ⟨i, hi⟩ := (C59_exclusion es).2.1 hl
    rcases h i with h | ⟨e, h⟩ <;> rw [h] at hi <;> exact hi.elim

/-- A callback in which fitting and drawing raise. -/
example : (exec initL [.audio true, .step 0 .ok, .step 0 .ok, .step 0 .ok, .step 0 .base, .step 0 .exc,
      .step 0 .ok]).pc 0 = .done .raised ∧
    (exec initL [.audio true, .step 0 .ok, .step 0 .ok, .step 0 .ok, .step 0 .base, .step 0 .exc,
      .step 0 .ok]).locked = false := by decide +kernel

/-- Number of steps of a callback in a history. -/
def stepsOf (i : Nat) : List LEvent → Nat
  | [] => 0
  | .step j _ :: es => (if j = i then 1 else 0) + stepsOf i es
  | .audio _ :: es => stepsOf i es

theorem rank_step (s : LState) (i : Nat) (o : Outcome) :
    rank ((stepCbk s i o).pc i) + 1 ≤ rank (s.pc i) ∨
      (rank (s.pc i) = 0 ∧ stepCbk s i o = s) := by
  unfold stepCbk
  split
  · rename_i hp; left; split <;> simp [setAt_self, rank, hp]
  · rename_i hp; left; split <;> simp [setAt_self, rank, hp]
  · rename_i hp; left; split <;> simp [setAt_self, rank, hp]
  · rename_i hp; left; split <;> simp [setAt_self, rank, hp]
  · rename_i hp; left; simp [setAt_self, rank, hp]
  · rename_i hp; left; simp [setAt_self, rank, hp]
  · rename_i hp; right; simp [rank, hp]

theorem rank_exec (i : Nat) : ∀ (es : List LEvent) (s : LState),
    rank ((exec s es).pc i) + stepsOf i es ≤ rank (s.pc i) ∨ rank ((exec s es).pc i) = 0
  | [], s => by simp [exec, stepsOf]
  | .audio b :: es, s => by
    have := rank_exec i es { s with audio := b }
    simpa [exec, stepsOf, LEvent.run] using this
  | .step j o :: es, s => by
    have ih := rank_exec i es (stepCbk s j o)
    simp only [exec, stepsOf, LEvent.run]
    by_cases hji : j = i
    · subst hji
      simp only [if_true]
      rcases rank_step s j o with h | ⟨h1, h2⟩
      · rcases ih with ih | ih
        · left; omega
        · right; exact ih
      · rw [h2] at ih ⊢
        right
        rcases ih with ih | ih <;> omega
    · simp only [hji, if_false, Nat.zero_add]
      rw [(stepCbk_other s j i o (Ne.symm hji)).1] at ih
      exact ih

/-- **C59** (no waiting): whatever the other callbacks do, also if one of them keeps the lock forever, a
callback is at its end after six steps of its own. -/
theorem C59_no_waiting (es es' : List LEvent) (i : Nat) (h : 6 ≤ stepsOf i es') :
    ∃ e, (exec (exec initL es) es').pc i = .done e := by
  have h6 : ∀ p, rank p ≤ 6 := by intro p; cases p <;> simp [rank]
  have h0 : rank ((exec (exec initL es) es').pc i) = 0 := by
    have := h6 ((exec initL es).pc i)
    rcases rank_exec i es' (exec initL es) with h' | h'
    · omega
    · exact h'
  cases hp : (exec (exec initL es) es').pc i <;> simp [hp, rank] at h0 ⊢

example : stepsOf 1 (demoEvents ++ [.step 1 .ok, .step 1 .ok, .step 1 .ok]) = 6 := by decide +kernel

/-- **C59** (refusal): at the lock, a callback goes on exactly if the lock is free; if it is refused, the
next step is its end, and neither of the steps changes the lock, the object or what is shown. -/
theorem C59_refusal (s : LState) (i : Nat) (h : s.pc i = .loaded) (o o' : Outcome) :
    (s.locked = false → (stepCbk s i o).pc i = .making ∧ (stepCbk s i o).locked = true) ∧
    (s.locked = true → (stepCbk (stepCbk s i o) i o').pc i = .done .ignored ∧
      (stepCbk (stepCbk s i o) i o').locked = true ∧ (stepCbk (stepCbk s i o) i o').obj = s.obj ∧
      (stepCbk (stepCbk s i o) i o').shown = s.shown ∧ (stepCbk s i o).locked = true) := by
  constructor
  · intro hl
    simp [stepCbk, h, hl, setAt_self]
  · intro hl
    have : stepCbk s i o = { s with pc := setAt s.pc i (.leaving false false) } := by
      simp [stepCbk, h, hl]
    rw [this]
    simp [stepCbk, setAt_self, hl]

/-- **C59** (only the owner releases): a step of a callback that is not inside never frees the lock. -/
theorem C59_owner (s : LState) (i : Nat) (o : Outcome) (h : ¬Inside (s.pc i)) (hl : s.locked = true) :
    (stepCbk s i o).locked = true := by
  unfold stepCbk
  split
  · split <;> exact hl
  · simp [hl]
  · split <;> exact hl
  · split <;> exact hl
  · exact hl
  · rename_i owned raised hp
    rw [hp] at h
    simp only [Inside, Bool.not_eq_true] at h
    simp [h, hl]
  · exact hl

example : ¬Inside ((exec initL (demoEvents.take 6)).pc 1) ∧ (exec initL (demoEvents.take 6)).locked = true :=
  ⟨by
    have : (exec initL (demoEvents.take 6)).pc 1 = .leaving false false := by decide +kernel
    rw [this]
    simp [Inside], by decide +kernel⟩

/-- **C59** (own result): a callback that has made an object draws that object, whatever other callbacks
have done meanwhile. -/
theorem C59_shown (es : List LEvent) (i : Nat) (b : Bool) (o : Outcome)
    (h : (exec initL es).pc i = .drawing true b) :
    (stepCbk (exec initL es) i o).shown i = some i := by
  have := (linv_exec es _ linv_init).obj i (Or.inr ⟨b, h⟩)
  simp [stepCbk, h, setAt_self, this]

example : (exec initL (demoEvents ++ [.step 0 .exc])).pc 0 = .drawing true false := by decide +kernel

end Verif.Widgets
