import Mathlib.Tactic.Common
import Verif.Training.Model
import Verif.Learn.Props

/-!
# Properties of parallel training (C56, C57, C64)
-/

set_option autoImplicit false
set_option linter.unusedSectionVars false
set_option linter.unusedSimpArgs false
universe u v

namespace Verif.Training

open Verif.Learn

/-! ## C56 -/

variable {α : Type u} {β : Type v}

/-- Invariant of the main loop: slots hold nothing or the outcome of their own task, and every
task that the loop does not wait for any more is finished. -/
structure Inv (f : α → Except PyErr β) (tasks : List α) (s : PState β) : Prop where
  len : s.slots.length = tasks.length
  slot : ∀ (i : Nat) (a : α) (r : Except PyErr β), tasks[i]? = some a →
    s.slots[i]? = some (some r) → r = f a
  done : ∀ i : Nat, i < tasks.length → i ∉ s.notReady → ∃ r, s.slots[i]? = some (some r)

theorem inv_start (f : α → Except PyErr β) (tasks : List α) :
    Inv f tasks (PState.start tasks.length) := by
  refine ⟨by simp [PState.start], ?_, ?_⟩
  · intro i a r _ h
    simp [PState.start, List.getElem?_replicate] at h
  · intro i hi h
    simp [PState.start] at h
    omega

theorem inv_step (f : α → Except PyErr β) (tasks : List α) (s : PState β) (h : Inv f tasks s)
    (e : Ev) : Inv f tasks (s.step f tasks e) := by
  cases e with
  | finish i =>
    simp only [PState.step]
    cases hi : tasks[i]? with
    | none => exact h
    | some a =>
      have hlt : i < tasks.length := (List.getElem?_eq_some_iff.1 hi).1
      refine ⟨by simp [h.len], ?_, ?_⟩
      · intro j b r hj hr
        simp only [List.getElem?_set, h.len, hlt, if_true] at hr
        by_cases hij : i = j
        · subst hij
          simp at hr
          rw [hi] at hj
          cases hj
          exact hr.symm
        · simp [hij] at hr
          exact h.slot j b r hj hr
      · intro j hj hn
        simp only [List.getElem?_set, h.len, hlt, if_true]
        by_cases hij : i = j
        · exact ⟨f a, by simp [hij]⟩
        · simp only [hij, if_false]
          exact h.done j hj hn
  | poll =>
    simp only [PState.step]
    split
    · exact h
    · refine ⟨h.len, h.slot, ?_⟩
      intro j hj hn
      simp only [List.mem_filter, not_and] at hn
      by_cases hm : j ∈ s.notReady
      · have := hn hm
        have hl : j < s.slots.length := by rw [h.len]; exact hj
        rw [List.getElem?_eq_getElem hl] at this ⊢
        cases hs : s.slots[j] with
        | none => simp [hs] at this
        | some r => exact ⟨r, rfl⟩
      · exact h.done j hj hm

theorem inv_run (f : α → Except PyErr β) (tasks : List α) (evs : List Ev) :
    Inv f tasks (PState.run f tasks evs) := by
  have : ∀ (evs : List Ev) (s : PState β), Inv f tasks s →
      Inv f tasks (evs.foldl (PState.step f tasks) s) := by
    intro evs
    induction evs with
    | nil => intro s h; exact h
    | cons e evs ih => intro s h; exact ih _ (inv_step f tasks s h e)
  exact this evs _ (inv_start f tasks)

theorem collect_map (f : α → Except PyErr β) : ∀ tasks : List α,
    collect (tasks.map fun a => some (f a)) = some (starmapList f tasks) := by
  intro tasks
  induction tasks with
  | nil => rfl
  | cons a as ih =>
    simp only [List.map_cons, starmapList]
    cases h : f a with
    | error e => rfl
    | ok b =>
      simp only [collect, ih]
      cases starmapList f as <;> rfl

/-- What a list of tasks gives one after the other: all results in order if all tasks succeed,
otherwise the exception of the first task that fails. -/
def Outcome (f : α → Except PyErr β) (tasks : List α) : Except PyErr (List β) → Prop
  | .ok bs => tasks.map f = bs.map Except.ok
  | .error e => ∃ (pre : List α) (a : α) (post : List α) (bs : List β), tasks = pre ++ a :: post ∧
      pre.map f = bs.map Except.ok ∧ f a = .error e

theorem starmapList_outcome (f : α → Except PyErr β) : ∀ tasks : List α,
    Outcome f tasks (starmapList f tasks) := by
  intro tasks
  induction tasks with
  | nil => rfl
  | cons a as ih =>
    unfold starmapList
    cases h : f a with
    | error e => exact ⟨[], a, as, [], rfl, rfl, h⟩
    | ok b =>
      cases h2 : starmapList f as with
      | error e =>
        rw [h2] at ih
        obtain ⟨pre, c, post, bs, h3, h4, h5⟩ := ih
        exact ⟨a :: pre, c, post, b :: bs, by simp [h3], by simp [h, h4], h5⟩
      | ok bs =>
        rw [h2] at ih
        simp only [Outcome] at ih ⊢
        simp [h, ih]

/-- C56: whatever the order in which workers finish and the main loop polls, the outcome of the
parallel run, once there is one, is that of the sequential run: the same results in the order of the
tasks, or the exception of the first failing task. -/
theorem C56_schedule (f : α → Except PyErr β) (tasks : List α) (evs : List Ev)
    (r : Except PyErr (List β)) (h : progressStarmap f tasks evs = some r) :
    r = starmapList f tasks ∧ Outcome f tasks r := by
  have hr : r = starmapList f tasks := by
    have hinv := inv_run f tasks evs
    simp only [progressStarmap] at h
    split at h
    · rename_i hnr
      have hslots : (PState.run f tasks evs).slots = tasks.map fun a => some (f a) := by
        apply List.ext_getElem?
        intro i
        by_cases hi : i < tasks.length
        · obtain ⟨r', hr'⟩ := hinv.done i hi (by simp [hnr])
          rw [hr', List.getElem?_map, List.getElem?_eq_getElem hi]
          simp only [Option.map_some]
          rw [hinv.slot i _ r' (List.getElem?_eq_getElem hi) hr']
        · rw [List.getElem?_eq_none (by rw [hinv.len]; omega), List.getElem?_eq_none (by simp; omega)]
      rw [hslots, collect_map] at h
      exact (Option.some.inj h).symm
    · simp at h
  exact ⟨hr, hr ▸ starmapList_outcome f tasks⟩

/-- Finished slots stay finished. -/
theorem slot_stays (f : α → Except PyErr β) (tasks : List α) (i : Nat) (evs : List Ev) :
    ∀ s : PState β, (∃ r, s.slots[i]? = some (some r)) →
      ∃ r, (evs.foldl (PState.step f tasks) s).slots[i]? = some (some r) := by
  induction evs with
  | nil => intro s h; exact h
  | cons e evs ih =>
    intro s h
    apply ih
    obtain ⟨r, hr⟩ := h
    cases e with
    | finish j =>
      simp only [PState.step]
      cases hj : tasks[j]? with
      | none => exact ⟨r, hr⟩
      | some a =>
        have hlt : i < s.slots.length := (List.getElem?_eq_some_iff.1 hr).1
        simp only [List.getElem?_set]
        by_cases hij : j = i
        · subst hij; exact ⟨f a, by simp [hlt]⟩
        · exact ⟨r, by simp [hij, hr]⟩
    | poll =>
      simp only [PState.step]
      split <;> exact ⟨r, hr⟩

theorem notReady_lt (f : α → Except PyErr β) (tasks : List α) (evs : List Ev) :
    ∀ s : PState β, (∀ i ∈ s.notReady, i < tasks.length) →
      ∀ i ∈ (evs.foldl (PState.step f tasks) s).notReady, i < tasks.length := by
  induction evs with
  | nil => intro s h; exact h
  | cons e evs ih =>
    intro s h
    apply ih
    cases e with
    | finish j =>
      simp only [PState.step]
      cases tasks[j]? <;> exact h
    | poll =>
      simp only [PState.step]
      split
      · exact h
      · intro i hi
        exact h i (List.mem_of_mem_filter hi)

/-- C56: once every task has finished (in any order, with polls anywhere), the next poll ends the
loop and the outcome is there. -/
theorem C56_ends (f : α → Except PyErr β) (tasks : List α) (evs : List Ev)
    (hall : ∀ i : Nat, i < tasks.length → Ev.finish i ∈ evs) :
    ∃ r, progressStarmap f tasks (evs ++ [.poll]) = some r := by
  have hrun : PState.run f tasks (evs ++ [.poll]) =
      (PState.run f tasks evs).step f tasks .poll := by
    simp [PState.run, List.foldl_append]
  have hfin : ∀ i : Nat, i < tasks.length →
      ∃ r, (PState.run f tasks evs).slots[i]? = some (some r) := by
    intro i hi
    obtain ⟨pre, post, he⟩ := List.append_of_mem (hall i hi)
    simp only [PState.run, he, List.foldl_append, List.foldl_cons]
    apply slot_stays
    have hinv := inv_run f tasks pre
    refine ⟨f tasks[i], ?_⟩
    have : (pre.foldl (PState.step f tasks) (PState.start tasks.length)) = PState.run f tasks pre :=
      rfl
    rw [this]
    simp only [PState.step, List.getElem?_eq_getElem hi, List.getElem?_set, hinv.len, hi, if_true]
  have hnr : (PState.run f tasks (evs ++ [.poll])).notReady = [] := by
    rw [hrun]
    simp only [PState.step]
    split
    · assumption
    · simp only [List.filter_eq_nil_iff]
      intro i hi
      have hlt := notReady_lt f tasks evs (PState.start tasks.length)
        (by intro i hi; simpa [PState.start] using hi) i hi
      obtain ⟨r, hr⟩ := hfin i hlt
      simp [hr]
  have hinv := inv_run f tasks (evs ++ [.poll])
  have hslots : (PState.run f tasks (evs ++ [.poll])).slots = tasks.map fun a => some (f a) := by
    apply List.ext_getElem?
    intro i
    by_cases hi : i < tasks.length
    · obtain ⟨r', hr'⟩ := hinv.done i hi (by simp [hnr])
      rw [hr', List.getElem?_map, List.getElem?_eq_getElem hi]
      simp only [Option.map_some]
      rw [hinv.slot i _ r' (List.getElem?_eq_getElem hi) hr']
    · rw [List.getElem?_eq_none (by rw [hinv.len]; omega), List.getElem?_eq_none (by simp; omega)]
  exact ⟨starmapList f tasks, by simp [progressStarmap, hnr, hslots, collect_map]⟩

/-- State of the progress reports: never decreasing, at least the number of tasks the loop does not
wait for, always less than the number of tasks. -/
theorem reports_inv (f : α → Except PyErr β) (tasks : List α) (evs : List Ev) :
    let s := PState.run f tasks evs
    s.notReady.length ≤ tasks.length ∧ s.reports.Pairwise (· ≤ ·) ∧
      (∀ p ∈ s.reports, p < tasks.length ∧ p + s.notReady.length ≤ tasks.length) := by
  have gen : ∀ (evs : List Ev) (s : PState β), (s.notReady.length ≤ tasks.length ∧
      s.reports.Pairwise (· ≤ ·) ∧
      (∀ p ∈ s.reports, p < tasks.length ∧ p + s.notReady.length ≤ tasks.length)) →
      ((evs.foldl (PState.step f tasks) s).notReady.length ≤ tasks.length ∧
      (evs.foldl (PState.step f tasks) s).reports.Pairwise (· ≤ ·) ∧
      (∀ p ∈ (evs.foldl (PState.step f tasks) s).reports, p < tasks.length ∧
        p + (evs.foldl (PState.step f tasks) s).notReady.length ≤ tasks.length)) := by
    intro evs
    induction evs with
    | nil => intro s h; exact h
    | cons e evs ih =>
      intro s h
      apply ih
      obtain ⟨h1, h2, h3⟩ := h
      cases e with
      | finish j =>
        simp only [PState.step]
        cases tasks[j]? <;> exact ⟨h1, h2, h3⟩
      | poll =>
        simp only [PState.step]
        split
        · exact ⟨h1, h2, h3⟩
        · set nr := s.notReady.filter fun i => ((s.slots[i]?).getD none).isNone with hnr
          have hle : nr.length ≤ s.notReady.length := List.length_filter_le _ _
          refine ⟨by simp only; omega, ?_, ?_⟩
          · simp only
            split
            · exact h2
            · rw [List.pairwise_append]
              refine ⟨h2, by simp, ?_⟩
              intro a ha b hb
              simp only [List.mem_singleton] at hb
              have := (h3 a ha).2
              omega
          · simp only
            intro p hp
            split at hp
            · have := h3 p hp
              omega
            · rename_i hne
              have hpos : 0 < nr.length := List.length_pos_iff.2 hne
              rcases List.mem_append.1 hp with hp | hp
              · have := h3 p hp
                omega
              · simp only [List.mem_singleton] at hp
                omega
  apply gen
  refine ⟨by simp [PState.start], ?_, ?_⟩
  · simp only [PState.start]; split <;> simp
  · simp only [PState.start]
    intro p hp
    split at hp
    · simp at hp
    · simp only [List.mem_singleton] at hp
      subst hp
      simp
      omega

theorem poolOk_iff (poolGiven : Bool) (nJobs : Option Int) :
    poolOk poolGiven nJobs = true ↔ (poolGiven = true ∨ ∀ n, nJobs = some n → 0 ≤ n) := by
  unfold poolOk
  cases nJobs <;> simp

/-- C56: whatever the number of jobs and the pool given, and for every schedule that ends, the
results are those of the sequential mapping (`n_jobs=0`, no pool), which itself never waits; only a negative
number of jobs without a pool is a `ValueError`. -/
theorem C56_context (f : α → Except PyErr β) (tasks : List α) (poolGiven : Bool)
    (nJobs : Option Int) (evs : List Ev) (r : Except PyErr (List β))
    (h : contextMap poolGiven nJobs f tasks evs = some r) :
    ((poolGiven = true ∨ ∀ n, nJobs = some n → 0 ≤ n) →
      contextMap false (some 0) f tasks [] = some r ∧ Outcome f tasks r) ∧
    (poolGiven = false → ∀ n, nJobs = some n → n < 0 → r = .error .valueError) := by
  refine ⟨fun hj => ?_, ?_⟩
  rotate_left
  · rintro rfl n rfl hn
    have : ¬ 0 ≤ n := by omega
    simp only [contextMap, poolOk, Bool.false_or, this, decide_false, Bool.false_eq_true, if_false, Option.some.injEq]
      at h
    exact h.symm
  have hj := (poolOk_iff poolGiven nJobs).2 hj
  have h0 : contextMap false (some 0) f tasks [] = some (starmapList f tasks) := by
    simp [contextMap, contextStarmap, poolOk]
  have hs : r = starmapList f tasks := by
    simp only [contextMap, hj, if_true] at h
    split at h
    · simpa using h.symm
    · exact (C56_schedule f tasks evs r h).1
  refine ⟨by rw [h0, hs], ?_⟩
  obtain ⟨r', hr'⟩ := C56_ends f tasks ((List.range tasks.length).map .finish)
    (fun i hi => List.mem_map.2 ⟨i, List.mem_range.2 hi, rfl⟩)
  have := C56_schedule f tasks _ r' hr'
  rw [hs, ← this.1]
  exact this.2

/-- C56: the progress reported while waiting never goes back and stays below the number of tasks. -/
theorem C56_progress (f : α → Except PyErr β) (tasks : List α) (evs : List Ev) :
    (PState.run f tasks evs).reports.Pairwise (· ≤ ·) ∧
      ∀ p ∈ (PState.run f tasks evs).reports, p < tasks.length :=
  ⟨(reports_inv f tasks evs).2.1, fun p hp => ((reports_inv f tasks evs).2.2 p hp).1⟩

/-- Three tasks finish in the order 2, 0, 1. -/
example : (progressStarmap (fun n : Nat => if n = 7 then .error .valueError else .ok (n * n)) [3, 4, 5]
      [.poll, .finish 2, .poll, .finish 0, .finish 1, .poll]).map Except.toOption =
        some (some [9, 16, 25]) ∧
    (PState.run (fun n : Nat => (.ok (n * n) : Except PyErr Nat)) [3, 4, 5]
      [.poll, .finish 2, .poll, .finish 0, .finish 1, .poll]).reports = [0, 0, 1] := by
  decide

/-- The failing task finishes first, but another one fails earlier in the order of the tasks. -/
example : (progressStarmap (fun n : Nat => if n = 7 then .error .valueError
      else if n = 8 then .error .keyError else .ok (n * n)) [3, 8, 7]
      [.finish 2, .finish 1, .finish 0, .poll]).map (fun r => match r with
        | .error .keyError => true | _ => false) = some true := by
  decide

/-! ## C57 -/

theorem wrapOne_params {V : Type u} {ρ : Type v} (known : Bool) (key : String)
    (body : World V → World V × Except PyErr ρ) (w : World V) (o : Nat)
    (h : w.params.get? key = some o) :
    (wrapOne known key body w).1.params.get? key = some o := by
  simp only [wrapOne, h]
  cases known with
  | false => simpa using h
  | true =>
    simp only [Bool.not_true, Bool.false_eq_true, if_false]
    cases hw : w.heap[o]? with
    | none => simpa using h
    | some so => simp only [Dict.get?_set_self]

/-- C57: whatever the body does, also to the model's parameters, and whether it raises or not,
afterwards each wrapped parameter is the original object again. -/
theorem C57_restored {V : Type u} {ρ : Type v} (known : Bool) (keys : List String)
    (hn : keys.Nodup) (body : World V → World V × Except PyErr ρ) (w : World V) (key : String)
    (hk : key ∈ keys) (o : Nat) (h : w.params.get? key = some o) :
    (wrapAll known keys body w).1.params.get? key = some o := by
  induction keys generalizing w with
  | nil => simp at hk
  | cons k ks ih =>
    rcases List.mem_cons.1 hk with rfl | hk'
    · exact wrapOne_params known key _ w o h
    · clear hk
      have hne : key ≠ k := by
        rintro rfl
        exact (List.nodup_cons.1 hn).1 hk'
      simp only [wrapAll, wrapOne]
      cases hw : w.params.get? k with
      | none => exact ih (List.nodup_cons.1 hn).2 w hk' h
      | some o' =>
        cases known with
        | false => simpa using h
        | true =>
          simp only [Bool.not_true, Bool.false_eq_true, if_false]
          cases hh : w.heap[o']? with
          | none => simpa using h
          | some so =>
            simp only [Dict.get?_set_ne _ _ _ _ hne]
            have hi := ih (List.nodup_cons.1 hn).2
              ⟨w.params.set k w.heap.length, w.heap ++ [Storage.init so.save]⟩ hk'
              (by simp only [Dict.get?_set_ne _ _ _ _ hne]; exact h)
            cases hr : (wrapAll true ks body
              ⟨w.params.set k w.heap.length, w.heap ++ [Storage.init so.save]⟩).2 with
            | error e => simpa [hr] using hi
            | ok v =>
              simp only [hr]
              split <;> simpa using hi

/-- C57 for one storage: the body sees a new, empty storage with the same parameter `save` under the
same name; the original is not reachable for it, so assume the body leaves it alone.  If the body
succeeds, the original then has exactly the contents that the new storage has at the end; if it
raises, the original is unchanged and the exception is the body's. -/
theorem C57_contents {V : Type u} {ρ : Type v} (key : String)
    (body : World V → World V × Except PyErr ρ) (w : World V) (o : Nat) (so : Storage V)
    (h : w.params.get? key = some o) (ho : w.heap[o]? = some so) :
    let w1 : World V := ⟨w.params.set key w.heap.length, w.heap ++ [⟨so.save, none⟩]⟩
    ∀ (w2 : World V) (r : Except PyErr ρ) (sm : Storage V), body w1 = (w2, r) →
      w2.heap[o]? = some so → w2.heap[w.heap.length]? = some sm →
      (wrapAll true [key] body w).2 = r ∧
      (∀ e, r = .error e → (wrapAll true [key] body w).1.heap[o]? = some so) ∧
      (∀ v, r = .ok v → ∃ so', (wrapAll true [key] body w).1.heap[o]? = some so' ∧
        so'.save = so.save ∧ ∀ k, so'.getitem k = sm.getitem k) := by
  intro w1 w2 r sm hb h2 h3
  have hb' : body ⟨w.params.set key w.heap.length, w.heap ++ [Storage.init so.save]⟩ = (w2, r) := hb
  have e : wrapAll true [key] body w = wrapOne true key body w := rfl
  rw [e]
  simp only [wrapOne, h, ho, Bool.not_true, Bool.false_eq_true, if_false, hb']
  refine ⟨trivial, ?_, ?_⟩
  · rintro e rfl
    simpa using h2
  · rintro v rfl
    simp only [h2, h3]
    have hlt : o < w2.heap.length := (List.getElem?_eq_some_iff.1 h2).1
    refine ⟨⟨so.save, some sm.getState⟩, by simp [List.getElem?_set, hlt], rfl, ?_⟩
    intro k
    simp only [Storage.getitem, Option.getD_some, Storage.getState]
    cases sm.cache <;> rfl

/-- C57: a model without such a parameter is left alone, and a manager that cannot create the
storage's class gives an `AttributeError` before anything is changed. -/
theorem C57_other {V : Type u} {ρ : Type v} (known : Bool) (key : String)
    (body : World V → World V × Except PyErr ρ) (w : World V) :
    (w.params.get? key = none → wrapAll known [key] body w = body w) ∧
    (∀ o, w.params.get? key = some o → wrapAll false [key] body w = (w, .error .attributeError)) := by
  refine ⟨?_, ?_⟩
  · intro h
    simp [wrapAll, wrapOne, h]
  · intro o h
    simp [wrapAll, wrapOne, h]

/-- A world with two storages; the first holds something from before. -/
def exWorld : World Nat :=
  ⟨[("beat_decisor__intermediate", 0), ("sinusoidal__intermediate", 1)],
    [⟨true, some [("decision", [some 9])]⟩, ⟨false, none⟩]⟩

/-- A body that saves a decision in the storage it is given and then may fail. -/
def exBody (fail : Bool) (w : World Nat) : World Nat × Except PyErr Nat :=
  match w.params.get? "beat_decisor__intermediate" with
  | none => (w, .ok 0)
  | some i => ({ w with heap := w.heap.modify i fun s => (s.append "decision" 5 (some 1)).1 },
      if fail then .error .valueError else .ok 7)

example :
    ((wrapAll true ["beat_decisor__intermediate", "sinusoidal__intermediate"] (exBody false)
      exWorld).1.heap.take 2).map (fun s => s.getState) = [[("decision", [none, some 5])], []] ∧
    ((wrapAll true ["beat_decisor__intermediate", "sinusoidal__intermediate"] (exBody true)
      exWorld).1.heap.take 2).map (fun s => s.getState) = [[("decision", [some 9])], []] ∧
    (wrapAll true ["beat_decisor__intermediate", "sinusoidal__intermediate"] (exBody true)
      exWorld).1.params = exWorld.params := by
  decide

/-! ## C64 -/

theorem get?_update {V : Type u} : ∀ (d e : Dict V) (k : String), e.Ok →
    (d.update e).get? k = match e.get? k with
      | some v => some v
      | none => d.get? k := by
  intro d e
  induction e generalizing d with
  | nil => intro k _; rfl
  | cons kv e ih =>
    intro k hok
    obtain ⟨k', v⟩ := kv
    have hok' : k' ∉ e.map Prod.fst ∧ (e.map Prod.fst).Nodup := by
      simpa [Dict.Ok] using hok
    have h1 := ih (d.set k' v) k hok'.2
    have e1 : d.update ((k', v) :: e) = (d.set k' v).update e := rfl
    rw [e1, h1]
    by_cases hk : k' = k
    · subst hk
      have : Dict.get? e k' = none := by
        have hn := hok'.1
        clear ih h1 hok hok' e1
        induction e with
        | nil => rfl
        | cons a e ihe =>
          simp only [List.map_cons, List.mem_cons, not_or] at hn
          simp only [Dict.get?, if_neg (Ne.symm hn.1)]
          exact ihe hn.2
      simp [this, Dict.get?, Dict.get?_set_self]
    · simp only [Dict.get?, if_neg hk]
      rw [Dict.get?_set_ne _ _ _ _ (Ne.symm hk)]

theorem get?_filter {V : Type u} (p : String → Bool) : ∀ (d : Dict V) (k : String),
    Dict.get? (d.filter fun kv => p kv.1) k = if p k then d.get? k else none := by
  intro d k
  induction d with
  | nil => simp [Dict.get?]
  | cons kv d ih =>
    obtain ⟨k', v⟩ := kv
    by_cases hp : p k'
    · simp only [List.filter_cons, hp, if_true, Dict.get?, ih]
      by_cases hk : k' = k
      · subst hk; simp [hp]
      · simp [hk]
    · simp only [List.filter_cons, hp]
      by_cases hk : k' = k
      · subst hk; simp [ih, hp, Dict.get?]
      · simp [ih, Dict.get?, hk]

/-- C64: the keyword arguments of `fit` that name a current parameter replace it and no other
parameter changes; every other keyword argument has no effect on the parameters, whatever its name,
and, unless it is one of the four of the training context, no effect at all: leaving it out gives
the same parameters and the same context. -/
theorem C64_fit_kwargs {V : Type u} (params kwargs : Dict V) (hk : kwargs.Ok) :
    (∀ k, ((fitKwargs params kwargs).1).get? k =
      if params.has k then (kwargs.get? k).or (params.get? k) else none) ∧
    (∀ k, params.has k = false → k ∉ ["n_jobs", "mp_manager", "pool", "_fit_args"] →
      let rest := kwargs.filter fun kv => !decide (kv.1 = k)
      (∀ j, ((fitKwargs params kwargs).1).get? j = ((fitKwargs params rest).1).get? j) ∧
      contextArgs kwargs = contextArgs rest) := by
  have hok : ∀ p : String → Bool, Dict.Ok (kwargs.filter fun kv => p kv.1) := by
    intro p
    exact List.Nodup.sublist (List.Sublist.map _ List.filter_sublist) hk
  have main : ∀ (d : Dict V), d.Ok → (∀ p : String → Bool, Dict.Ok (d.filter fun kv => p kv.1)) →
      ∀ k, ((fitKwargs params d).1).get? k =
      if params.has k then (d.get? k).or (params.get? k) else none := by
    intro d _ hd k
    simp only [fitKwargs]
    rw [get?_update _ _ _ (hd fun k => params.has k), get?_filter (fun k => params.has k)]
    by_cases h : params.has k
    · simp only [h, if_true]
      cases d.get? k <;> simp
    · simp only [h]
      simp only [Dict.has, Bool.not_eq_true, Option.isSome_eq_false_iff, Option.isNone_iff_eq_none] at h
      simp [h]
  refine ⟨main kwargs hk hok, ?_⟩
  intro k hp hc rest
  have hrest : ∀ p : String → Bool, Dict.Ok (rest.filter fun kv => p kv.1) := by
    intro p
    exact List.Nodup.sublist (List.Sublist.map _ List.filter_sublist)
      (hok fun j => !decide (j = k))
  refine ⟨?_, ?_⟩
  · intro j
    rw [main kwargs hk hok, main rest (hok fun j => !decide (j = k)) hrest]
    by_cases h : params.has j
    · have hjk : j ≠ k := by rintro rfl; rw [hp] at h; simp at h
      simp only [h, if_true]
      rw [get?_filter (fun j => !decide (j = k))]
      simp [hjk]
    · simp [h]
  · simp only [List.mem_cons, not_or, List.not_mem_nil, not_false_eq_true, and_true] at hc
    obtain ⟨h1, h2, h3, h4⟩ := hc
    simp only [contextArgs, rest]
    rw [get?_filter (fun j => !decide (j = k)), get?_filter (fun j => !decide (j = k)),
      get?_filter (fun j => !decide (j = k)), get?_filter (fun j => !decide (j = k))]
    simp [Ne.symm h1, Ne.symm h2, Ne.symm h3, Ne.symm h4]

/-- A misspelt parameter, or an old name that the constructor still accepts, is silently ignored. -/
theorem C64_misspelt_ignored :
    (fitKwargs [("sinusoidal__n", 2048), ("max_n_modes", 64)]
      [("sinusoidal__n", 1024), ("sinusoidal_model__n", 4096), ("max_n_mode", 8)]).1 =
        [("sinusoidal__n", 1024), ("max_n_modes", 64)] := by
  decide

end Verif.Training
