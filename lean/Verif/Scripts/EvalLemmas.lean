import Verif.Scripts.EvalModel
import Mathlib.Data.List.Basic
import Mathlib.Data.List.Perm.Basic

/-!
# Lemmas on the checkpoints of the evaluation script
-/

set_option autoImplicit false
set_option linter.unusedSectionVars false
set_option linter.unusedSimpArgs false

namespace Verif.Scripts

variable {R : Type}

/-- Every result is the value of the test of its seed. -/
def SoundRes (test : Nat → Outcome R) (results : List (Option R)) : Prop :=
  ∀ (i : Nat) (r : R), results[i]? = some (some r) → test i = .value r

theorem mem_list2df (i : Nat) (results : List (Option R)) (s : Nat) (r : R) :
    (s, r) ∈ list2df i results ↔ i ≤ s ∧ results[s - i]? = some (some r) := by
  induction results generalizing i with
  | nil => simp [list2df]
  | cons a l ih =>
    rcases Nat.lt_trichotomy s i with h | h | h
    · have h1 : ¬ i ≤ s := by omega
      have h2 : ¬ i + 1 ≤ s := by omega
      have h3 : s ≠ i := by omega
      cases a <;> simp [list2df, ih, h1, h2, h3]
    · subst h
      have h2 : ¬ s + 1 ≤ s := by omega
      cases a with
      | none => simp [list2df, ih, h2]
      | some x => simp [list2df, ih, h2, eq_comm]
    · have e : s - i = (s - (i + 1)) + 1 := by omega
      have h1 : i ≤ s := by omega
      have h2 : i + 1 ≤ s := by omega
      have h3 : s ≠ i := by omega
      rw [e]
      cases a <;> simp [list2df, ih, h1, h2, h3]

theorem loadRows_length (results : List (Option R)) (t : Table R) :
    (loadRows results t).length = results.length := by
  induction t generalizing results with
  | nil => rfl
  | cons a t ih =>
    obtain ⟨s, r⟩ := a
    simp only [loadRows, ih]
    split <;> simp

theorem loadRows_sound {test : Nat → Outcome R} {results : List (Option R)} {t : Table R}
    (h : SoundRes test results) (ht : ∀ s r, (s, r) ∈ t → test s = .value r) :
    SoundRes test (loadRows results t) := by
  induction t generalizing results with
  | nil => exact h
  | cons a t ih =>
    obtain ⟨s, r⟩ := a
    refine ih ?_ (fun s' r' hm => ht s' r' (List.mem_cons_of_mem _ hm))
    split
    · intro i r' hi
      rw [List.getElem?_set] at hi
      split at hi
      · rename_i hlt e
        subst e
        simp only [hlt, if_true, Option.some.injEq] at hi
        subst hi
        exact ht _ _ List.mem_cons_self
      · exact h i r' hi
    · exact h

/-- Seeds with a row have a result after loading. -/
theorem loadRows_mem {results : List (Option R)} {t : Table R} {i : Nat}
    (hi : i < results.length)
    (h : (∃ r, results[i]? = some (some r)) ∨ ∃ r, (i, r) ∈ t) :
    ∃ r, (loadRows results t)[i]? = some (some r) := by
  induction t generalizing results with
  | nil => simpa [loadRows] using h
  | cons a t ih =>
    obtain ⟨s, r⟩ := a
    simp only [loadRows]
    by_cases hs : s < results.length
    · simp only [hs, if_true]
      refine ih (by simpa using hi) ?_
      by_cases e : s = i
      · subst e
        exact .inl ⟨r, by simp [hs]⟩
      · rcases h with ⟨r', h⟩ | ⟨r', h⟩
        · exact .inl ⟨r', by simpa [List.getElem?_set, e] using h⟩
        · rcases List.mem_cons.1 h with h | h
          · exact absurd (Prod.mk.inj h).1.symm e
          · exact .inr ⟨r', h⟩
    · simp only [hs, if_false]
      refine ih hi ?_
      rcases h with h | ⟨r', h⟩
      · exact .inl h
      · rcases List.mem_cons.1 h with h | h
        · exact absurd ((Prod.mk.inj h).1 ▸ hi) hs
        · exact .inr ⟨r', h⟩

/-- Seeds with no row have the result they had before. -/
theorem loadRows_not_mem {results : List (Option R)} {t : Table R} {i : Nat}
    (h : ∀ r, (i, r) ∉ t) : (loadRows results t)[i]? = results[i]? := by
  induction t generalizing results with
  | nil => rfl
  | cons a t ih =>
    obtain ⟨s, r⟩ := a
    simp only [loadRows]
    rw [ih fun r' hm => h r' (List.mem_cons_of_mem _ hm)]
    have e : s ≠ i := fun e => h r (by simp [e])
    split
    · simp [List.getElem?_set, e]
    · rfl

/-- The results after the tests of the given seeds. -/
def addResults (test : Nat → Outcome R) : List (Option R) → List Nat → List (Option R)
  | results, [] => results
  | results, seed :: order =>
    addResults test
      (match (test seed).get? with
        | some r => results.set seed (some r)
        | none => results) order

theorem addResults_length (test : Nat → Outcome R) (results : List (Option R)) (order : List Nat) :
    (addResults test results order).length = results.length := by
  induction order generalizing results with
  | nil => rfl
  | cons a l ih =>
    simp only [addResults, ih]
    split <;> simp

theorem Outcome.get?_eq_some {o : Outcome R} {r : R} : o.get? = some r ↔ o = .value r := by
  cases o <;> simp [Outcome.get?]

theorem addResults_sound {test : Nat → Outcome R} {results : List (Option R)} (order : List Nat)
    (h : SoundRes test results) : SoundRes test (addResults test results order) := by
  induction order generalizing results with
  | nil => exact h
  | cons a l ih =>
    simp only [addResults]
    refine ih ?_
    split
    · rename_i r hr
      intro i r' hi
      rw [List.getElem?_set] at hi
      split at hi
      · rename_i e
        subst e
        split at hi
        · simp only [Option.some.injEq] at hi
          subst hi
          exact Outcome.get?_eq_some.1 hr
        · cases hi
      · exact h i r' hi
    · exact h

theorem addResults_get {test : Nat → Outcome R} {results : List (Option R)} {order : List Nat}
    {i : Nat} {r : R} (hi : i < results.length) (hs : SoundRes test results)
    (ht : test i = .value r)
    (h : i ∈ order ∨ ∃ r, results[i]? = some (some r)) :
    (addResults test results order)[i]? = some (some r) := by
  induction order generalizing results with
  | nil =>
    obtain ⟨r', h⟩ := h.resolve_left (by simp)
    have := hs i r' h
    rw [ht] at this
    cases this
    exact h
  | cons a l ih =>
    have hs' := addResults_sound [a] hs
    simp only [addResults] at hs' ⊢
    refine ih (by split <;> simpa using hi) hs' ?_
    by_cases e : a = i
    · subst e
      right
      refine ⟨r, ?_⟩
      rw [show (test a).get? = some r from Outcome.get?_eq_some.2 ht]
      simp [hi]
    · rcases h with h | ⟨r', h⟩
      · left
        exact (List.mem_cons.1 h).resolve_left (fun h => e h.symm)
      · right
        refine ⟨r', ?_⟩
        split
        · simpa [List.getElem?_set, e] using h
        · exact h

/-- A list of sound results with all the values is the list of the values of the tests. -/
theorem results_eq {test : Nat → Outcome R} {results : List (Option R)} (hs : SoundRes test results)
    (hc : ∀ i r, i < results.length → test i = .value r → results[i]? = some (some r)) :
    results = (List.range results.length).map fun i => (test i).get? := by
  apply List.ext_getElem?
  intro i
  by_cases hi : i < results.length
  · rw [List.getElem?_map, List.getElem?_range hi]
    rw [List.getElem?_eq_getElem hi]
    simp only [Option.map_some, Option.some.injEq]
    cases hr : results[i] with
    | some r =>
      have := hs i r (by rw [List.getElem?_eq_getElem hi, hr])
      exact (Outcome.get?_eq_some.2 this).symm
    | none =>
      cases ho : (test i).get? with
      | none => rfl
      | some r =>
        have := hc i r hi (Outcome.get?_eq_some.1 ho)
        rw [List.getElem?_eq_getElem hi, hr] at this
        cases this
  · rw [List.getElem?_eq_none (by omega), List.getElem?_eq_none (by simp; omega)]

theorem list2df_map_range' (f : Nat → Option R) (i n : Nat) :
    list2df i ((List.range' i n).map f) =
      (List.range' i n).filterMap fun s => (f s).map fun r => (s, r) := by
  induction n generalizing i with
  | zero => rfl
  | succ n ih =>
    rw [List.range'_succ, List.map_cons, List.filterMap_cons]
    cases h : f i with
    | none => simp [list2df, ih]
    | some r => simp [list2df, ih]

theorem list2df_map_range (f : Nat → Option R) (n : Nat) :
    list2df 0 ((List.range n).map f) =
      (List.range n).filterMap fun s => (f s).map fun r => (s, r) := by
  rw [List.range_eq_range', list2df_map_range']

/-! ## The test loop -/

/-- Tests that do not raise, and a checkpoint period that is not zero. -/
theorem testLoop_ok {test : Nat → Outcome R} {period : Option Nat} {order : List Nat}
    (hr : ∀ s ∈ order, ∀ e, test s ≠ .raises e) (hp : period ≠ some 0) (i : Nat) (s : EvalState R) :
    ∃ s', (testLoop test period i order s).2 = .ok s' ∧
      s'.results = addResults test s.results order := by
  induction order generalizing i s with
  | nil => exact ⟨s, rfl, rfl⟩
  | cons a l ih =>
    have hl := fun s hs => hr s (List.mem_cons_of_mem a hs)
    have ha := hr a List.mem_cons_self
    cases hta : test a with
    | raises e => exact absurd hta (ha e)
    | value r =>
      simp only [testLoop, hta, addResults, Outcome.get?]
      cases period with
      | none =>
        exact ih hl _ _
      | some p =>
        have hp' : p ≠ 0 := fun h => hp (by rw [h])
        simp only [hp', if_false]
        split
        · exact ih hl _ _
        · exact ih hl _ _
    | logged =>
      simp only [testLoop, hta, addResults, Outcome.get?]
      cases period with
      | none => exact ih hl _ _
      | some p =>
        have hp' : p ≠ 0 := fun h => hp (by rw [h])
        simp only [hp', if_false]
        split
        · exact ih hl _ _
        · exact ih hl _ _

/-- If the loop ends, its results are those of the seeds. -/
theorem testLoop_results {test : Nat → Outcome R} {period : Option Nat} {order : List Nat}
    {i : Nat} {s s' : EvalState R} (h : (testLoop test period i order s).2 = .ok s') :
    s'.results = addResults test s.results order := by
  induction order generalizing i s with
  | nil =>
    simp only [testLoop, Except.ok.injEq] at h
    rw [← h, addResults]
  | cons a l ih =>
    cases hta : test a with
    | raises e => simp [testLoop, hta] at h
    | value r =>
      simp only [testLoop, hta, addResults, Outcome.get?] at h ⊢
      cases period with
      | none => exact ih h
      | some p =>
        simp only at h
        split at h
        · cases h
        · split at h
          · exact ih (s := ⟨_, some _, _ + 1⟩) h
          · exact ih h
    | logged =>
      simp only [testLoop, hta, addResults, Outcome.get?] at h ⊢
      cases period with
      | none => exact ih h
      | some p =>
        simp only at h
        split at h
        · cases h
        · split at h
          · exact ih (s := ⟨_, some _, _ + 1⟩) h
          · exact ih h

/-- Every change made in the loop writes sound results in a checkpoint. -/
theorem testLoop_ops_sound {test : Nat → Outcome R} {period : Option Nat} {order : List Nat}
    {i : Nat} {s : EvalState R} (hs : SoundRes test s.results) :
    ∀ op ∈ (testLoop test period i order s).1, ∃ k results,
      op = .write (.ckpt k) (some (list2df 0 results)) ∧ SoundRes test results := by
  induction order generalizing i s with
  | nil => simp [testLoop]
  | cons a l ih =>
    have hs' := addResults_sound [a] hs
    cases hta : test a with
    | raises e => simp [testLoop, hta]
    | value r =>
      simp only [testLoop, hta, addResults, Outcome.get?] at hs' ⊢
      cases period with
      | none => exact ih hs'
      | some p =>
        simp only
        split
        · simp
        · split
          · intro op hop
            rcases List.mem_cons.1 hop with h | h
            · exact ⟨_, _, h, hs'⟩
            · exact ih (s := ⟨_, some _, _ + 1⟩) hs' op h
          · exact ih hs'
    | logged =>
      simp only [testLoop, hta, addResults, Outcome.get?] at hs' ⊢
      cases period with
      | none => exact ih hs'
      | some p =>
        simp only
        split
        · simp
        · split
          · intro op hop
            rcases List.mem_cons.1 hop with h | h
            · exact ⟨_, _, h, hs'⟩
            · exact ih (s := ⟨_, some _, _ + 1⟩) hs' op h
          · exact ih hs'

/-- The last file after the loop is that before the loop, or a checkpoint. -/
theorem testLoop_lastFile {test : Nat → Outcome R} {period : Option Nat} {order : List Nat}
    {i : Nat} {s s' : EvalState R} (h : (testLoop test period i order s).2 = .ok s') :
    s'.lastFile = s.lastFile ∧ (testLoop test period i order s).1 = [] ∨
      ∃ k, s'.lastFile = some (.ckpt k) := by
  induction order generalizing i s with
  | nil =>
    simp only [testLoop, Except.ok.injEq] at h
    subst h
    exact .inl ⟨rfl, rfl⟩
  | cons a l ih =>
    cases hta : test a with
    | raises e => simp [testLoop, hta] at h
    | value r =>
      simp only [testLoop, hta, Outcome.get?] at h ⊢
      cases period with
      | none => exact ih h
      | some p =>
        simp only at h ⊢
        split at h
        · cases h
        · rename_i h0
          simp only [h0, if_false]
          split at h
          · rename_i h1
            simp only [h1, if_true]
            right
            rcases ih h with h2 | h2
            · exact ⟨_, h2.1⟩
            · exact h2
          · rename_i h1
            simp only [h1, if_false]
            exact ih h
    | logged =>
      simp only [testLoop, hta, Outcome.get?] at h ⊢
      cases period with
      | none => exact ih h
      | some p =>
        simp only at h ⊢
        split at h
        · cases h
        · rename_i h0
          simp only [h0, if_false]
          split at h
          · rename_i h1
            simp only [h1, if_true]
            right
            rcases ih h with h2 | h2
            · exact ⟨_, h2.1⟩
            · exact h2
          · rename_i h1
            simp only [h1, if_false]
            exact ih h

/-! ## Checkpoints -/

theorem lastReadable_spec {l : List (Nat × Content R)} {k : Nat} (h : lastReadable l = some k) :
    (∃ t, (k, some t) ∈ l) ∧ ∀ j t, (j, some t) ∈ l → j ≤ k := by
  induction l generalizing k with
  | nil => cases h
  | cons a l ih =>
    obtain ⟨j, c⟩ := a
    cases c with
    | none =>
      obtain ⟨⟨t, ht⟩, h2⟩ := ih h
      exact ⟨⟨t, List.mem_cons_of_mem _ ht⟩, fun j' t' hm => h2 j' t' (by simpa using hm)⟩
    | some t =>
      simp only [lastReadable] at h
      cases hl : lastReadable l with
      | none =>
        rw [hl] at h
        simp only [Option.some.injEq] at h
        subst h
        refine ⟨⟨t, by simp⟩, fun j' t' hm => ?_⟩
        rcases List.mem_cons.1 hm with hm | hm
        · exact Nat.le_of_eq (Prod.mk.inj hm).1
        · exfalso
          clear ih
          induction l with
          | nil => cases hm
          | cons b l ih2 =>
            obtain ⟨jb, cb⟩ := b
            cases cb with
            | none => exact ih2 hl (by simp at hm; simp [hm]) (by simpa using hm)
            | some tb =>
              simp only [lastReadable] at hl
              split at hl <;> cases hl
      | some m =>
        rw [hl] at h
        simp only [Option.some.injEq] at h
        obtain ⟨⟨t2, ht2⟩, h2⟩ := ih hl
        subst h
        refine ⟨?_, fun j' t' hm => ?_⟩
        · rcases Nat.le_total j m with hjm | hjm
          · exact ⟨t2, by rw [Nat.max_eq_right hjm]; exact List.mem_cons_of_mem _ ht2⟩
          · exact ⟨t, by rw [Nat.max_eq_left hjm]; simp⟩
        · rcases List.mem_cons.1 hm with hm | hm
          · rw [(Prod.mk.inj hm).1]; exact Nat.le_max_left _ _
          · exact Nat.le_trans (h2 j' t' hm) (Nat.le_max_right _ _)

theorem lastReadable_none {l : List (Nat × Content R)} (h : lastReadable l = none) :
    ∀ j t, (j, some t) ∉ l := by
  induction l with
  | nil => simp
  | cons b l ih =>
    obtain ⟨jb, cb⟩ := b
    cases cb with
    | none =>
      intro j t hm
      exact ih h j t (by simpa using hm)
    | some tb =>
      simp only [lastReadable] at h
      split at h <;> cases h

/-- The number of the last checkpoint is the greatest number of a readable one. -/
theorem lastReadable_eq {l : List (Nat × Content R)} {k : Nat} {t : Table R} (h : (k, some t) ∈ l)
    (h2 : ∀ j t, (j, some t) ∈ l → j ≤ k) : lastReadable l = some k := by
  cases hl : lastReadable l with
  | none => exact absurd h (lastReadable_none hl _ _)
  | some m =>
    obtain ⟨⟨t', ht'⟩, h3⟩ := lastReadable_spec hl
    exact congrArg some (Nat.le_antisymm (h2 _ _ ht') (h3 _ _ h))

theorem readCkpt_mem {l : List (Nat × Content R)} {k : Nat} {c : Content R}
    (h : readCkpt k l = some c) : (k, c) ∈ l := by
  induction l with
  | nil => cases h
  | cons a l ih =>
    obtain ⟨j, c'⟩ := a
    simp only [readCkpt] at h
    split at h
    · rename_i e
      subst e
      simp only [Option.some.injEq] at h
      subst h
      exact List.mem_cons_self
    · exact List.mem_cons_of_mem _ (ih h)

theorem readCkpt_eq {l : List (Nat × Content R)} {k : Nat} {c : Content R}
    (hn : (l.map Prod.fst).Nodup) (h : (k, c) ∈ l) : readCkpt k l = some c := by
  induction l with
  | nil => cases h
  | cons a l ih =>
    obtain ⟨j, c'⟩ := a
    rw [List.map_cons, List.nodup_cons] at hn
    simp only [readCkpt]
    rcases List.mem_cons.1 h with h | h
    · obtain ⟨rfl, rfl⟩ := Prod.mk.inj h
      simp
    · have : j ≠ k := by
        rintro rfl
        exact hn.1 (List.mem_map.2 ⟨_, h, rfl⟩)
      simp only [this, if_false]
      exact ih hn.2 h

end Verif.Scripts
