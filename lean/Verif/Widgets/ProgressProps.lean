import Verif.Widgets.ProgressModel
import Verif.Training.Props
import Mathlib.Data.List.Basic
import Mathlib.Tactic.Common

/-!
# C98: progress
-/

set_option autoImplicit false
set_option linter.unusedSectionVars false
set_option linter.unusedSimpArgs false

namespace Verif.Widgets

open Verif Verif.Training

/-! ## Threads -/

theorem upd_same {β : Type} (f : Nat → β) (i : Nat) (v : β) : upd f i v i = v := by simp [upd]

theorem upd_other {β : Type} (f : Nat → β) {i j : Nat} (v : β) (h : j ≠ i) : upd f i v j = f j := by
  simp [upd, h]

/-- The calls in their order. -/
def calls (o : List (Nat × PCall)) : List PCall := o.map (·.2)

/-- What holds at all times, with the initial progress `p0`. -/
inductive PInv (p0 : Prog) (s : PMachine) : Prop where
  | free (h1 : s.lock = none) (h2 : ∀ i, s.pc i = .idle) (h3 : s.prog = runCalls p0 (calls s.order))
  | owned (i : Nat) (c : PCall) (o : List (Nat × PCall)) (h1 : s.lock = some i)
      (h2 : ∀ j, j ≠ i → s.pc j = .idle) (h3 : s.order = o ++ [(i, c)])
      (h4 : (s.pc i = .entered c ∧ s.prog = runCalls p0 (calls o)) ∨
        (s.pc i = .have c (c.value (runCalls p0 (calls o)).cur) ∧ s.prog = runCalls p0 (calls o)) ∨
        (s.pc i = .assigned c (c.value (runCalls p0 (calls o)).cur) ∧
          s.prog = { runCalls p0 (calls o) with cur := c.value (runCalls p0 (calls o)).cur }) ∨
        (s.pc i = .leaving ∧ s.prog = runCalls p0 (calls s.order)))

theorem runCalls_snoc (p : Prog) (cs : List PCall) (c : PCall) :
    runCalls p (cs ++ [c]) = c.apply (runCalls p cs) := by
  simp [runCalls, PCall.apply]

theorem runCalls_append (p : Prog) (cs ds : List PCall) :
    runCalls p (cs ++ ds) = runCalls (runCalls p cs) ds := by
  simp [runCalls]

theorem PInv.step {p0 : Prog} {s : PMachine} (h : PInv p0 s) (k : Nat) : PInv p0 (s.step k) := by
  cases h with
  | free h1 h2 h3 =>
    have hk := h2 k
    cases ht : s.todo k with
    | nil =>
      have : s.step k = s := by simp [PMachine.step, hk, ht]
      rw [this]
      exact .free h1 h2 h3
    | cons c cs =>
      have : s.step k = { s with lock := some k, pc := upd s.pc k (.entered c), todo := upd s.todo k cs,
                                 order := s.order ++ [(k, c)] } := by
        simp [PMachine.step, hk, ht, h1]
      rw [this]
      exact .owned k c s.order rfl (fun j hj => by simp [upd, hj, h2]) rfl
        (Or.inl ⟨upd_same _ _ _, h3⟩)
  | owned i c o h1 h2 h3 h4 =>
    by_cases hki : k = i
    · subst hki
      have hoth : ∀ (x : PPc) (j : Nat), j ≠ k → upd s.pc k x j = .idle := fun x j hj => by
        rw [upd_other _ _ hj]; exact h2 j hj
      rcases h4 with ⟨h4, h5⟩ | ⟨h4, h5⟩ | ⟨h4, h5⟩ | ⟨h4, h5⟩ <;>
        simp only [PMachine.step, h4]
      · refine .owned k c o h1 (hoth _) h3 (Or.inr (Or.inl ⟨?_, h5⟩))
        show upd s.pc k _ k = _
        rw [upd_same, h5]
      · refine .owned k c o h1 (hoth _) h3 (Or.inr (Or.inr (Or.inl ⟨upd_same _ _ _, ?_⟩)))
        rw [h5]
      · refine .owned k c o h1 (hoth _) h3 (Or.inr (Or.inr (Or.inr ⟨upd_same _ _ _, ?_⟩)))
        show _ = runCalls p0 (calls s.order)
        have e : calls s.order = calls o ++ [c] := by rw [h3]; simp [calls]
        rw [e, runCalls_snoc, h5]
        rfl
      · refine .free rfl (fun j => ?_) h5
        by_cases hj : j = k
        · rw [hj]; exact upd_same _ _ _
        · exact hoth _ j hj
    · have : s.step k = s := by
        simp only [PMachine.step, h2 k hki, h1]
        split <;> simp_all
      rw [this]
      exact .owned i c o h1 h2 h3 h4

theorem PInv.run {p0 : Prog} (is : List Nat) {s : PMachine} (h : PInv p0 s) : PInv p0 (s.run is) := by
  induction is generalizing s with
  | nil => exact h
  | cons i is ih => exact ih (h.step i)

/-- The calls of one thread, in the order in which it acquired the lock. -/
def callsOf (i : Nat) (o : List (Nat × PCall)) : List PCall :=
  (o.filter fun e => e.1 == i).map (·.2)

theorem callsOf_step (s : PMachine) (k i : Nat) :
    callsOf i (s.step k).order ++ (s.step k).todo i = callsOf i s.order ++ s.todo i := by
  unfold PMachine.step
  split
  · split
    · rename_i c cs h1 h2
      by_cases hk : i = k
      · subst hk
        simp [callsOf, upd_same, h1]
      · simp [callsOf, upd_other _ _ hk, hk, Ne.symm hk]
    · rfl
  all_goals rfl

/-- Whatever the schedule of any number of threads, when no thread is in one of the methods, the progress and the bar
are as if the calls had been made one after the other, in the order in which the threads got the lock; the calls of
each thread are in its order, and none is lost. -/
theorem C98_linear (p0 : Prog) (todo : Nat → List PCall) (schedule : List Nat) :
    let s := (PMachine.init p0 todo).run schedule
    ((∀ i, s.pc i = .idle) → s.prog = runCalls p0 (calls s.order)) ∧
      ∀ i, callsOf i s.order ++ s.todo i = todo i := by
  intro s
  constructor
  · intro hidle
    have hinv : PInv p0 s := PInv.run schedule (.free rfl (fun _ => rfl) rfl)
    cases hinv with
    | free h1 h2 h3 => exact h3
    | owned i c o h1 h2 h3 h4 =>
      rw [hidle i] at h4
      rcases h4 with ⟨h, -⟩ | ⟨h, -⟩ | ⟨h, -⟩ | ⟨h, -⟩ <;> cases h
  · intro i
    have gen : ∀ (sch : List Nat) (s : PMachine),
        callsOf i (s.run sch).order ++ (s.run sch).todo i = callsOf i s.order ++ s.todo i := by
      intro sch
      induction sch with
      | nil => exact fun _ => rfl
      | cons k sch ih => exact fun s => (ih _).trans (callsOf_step s k i)
    exact gen schedule (PMachine.init p0 todo)

theorem runCalls_updates {cs : List PCall} (h : ∀ c ∈ cs, ∃ b, c = .update none b) (p : Prog) :
    (runCalls p cs).cur = p.cur + cs.length := by
  induction cs generalizing p with
  | nil => simp [runCalls]
  | cons c cs ih =>
    obtain ⟨b, rfl⟩ := h c List.mem_cons_self
    have := ih (fun c hc => h c (List.mem_cons_of_mem _ hc)) (PCall.apply p (.update none b))
    simp only [runCalls, List.foldl_cons, List.length_cons] at this ⊢
    rw [this]
    simp only [PCall.apply, PCall.value]
    omega

/-- No update is lost: after any schedule in which all threads finish calls of `progress_update()`, the progress has
grown by the number of calls, which is the number the lock was acquired; and two threads never have the
lock. -/
theorem C98_count (p0 : Prog) (todo : Nat → List PCall) (schedule : List Nat)
    (h : ∀ i, ∀ c ∈ todo i, ∃ b, c = .update none b) :
    let s := (PMachine.init p0 todo).run schedule
    (∀ i j, s.pc i ≠ .idle → s.pc j ≠ .idle → i = j) ∧
      ((∀ i, s.pc i = .idle) → s.prog.cur = p0.cur + s.order.length) := by
  intro s
  have hinv : PInv p0 s := PInv.run schedule (.free rfl (fun _ => rfl) rfl)
  refine ⟨fun i j hi hj => ?_, fun hidle => ?_⟩
  · cases hinv with
    | free h1 h2 h3 => exact absurd (h2 i) hi
    | owned k c o h1 h2 h3 h4 =>
      have ei : i = k := Classical.byContradiction fun e => hi (h2 i e)
      have ej : j = k := Classical.byContradiction fun e => hj (h2 j e)
      rw [ei, ej]
  · obtain ⟨h1, h2⟩ := C98_linear p0 todo schedule
    rw [h1 hidle, runCalls_updates]
    · simp [calls, s]
    · intro c hc
      obtain ⟨⟨i, c'⟩, he, rfl⟩ := List.mem_map.1 hc
      apply h i
      rw [← h2 i]
      apply List.mem_append_left
      exact List.mem_map.2 ⟨(i, c'), List.mem_filter.2 ⟨he, by simp⟩, rfl⟩

/-- Threads never wait forever: if some thread is in one of the methods or has calls left, then some thread can do a
step, which takes it nearer to its end. -/
theorem C98_live (p0 : Prog) (todo : Nat → List PCall) (schedule : List Nat) :
    let s := (PMachine.init p0 todo).run schedule
    (∃ i, s.pc i ≠ .idle ∨ s.todo i ≠ []) → ∃ k, (s.step k).pc k ≠ s.pc k := by
  intro s hwork
  have hinv : PInv p0 s := PInv.run schedule (.free rfl (fun _ => rfl) rfl)
  cases hinv with
  | free h1 h2 h3 =>
    obtain ⟨i, hi⟩ := hwork
    have ht : s.todo i ≠ [] := by
      rcases hi with h | h
      · exact absurd (h2 i) h
      · exact h
    obtain ⟨c, cs, hc⟩ := List.exists_cons_of_ne_nil ht
    refine ⟨i, ?_⟩
    simp only [PMachine.step, h2 i, hc, h1, upd_same]
    intro h; cases h
  | owned i c o h1 h2 h3 h4 =>
    refine ⟨i, ?_⟩
    rcases h4 with ⟨h4, -⟩ | ⟨h4, -⟩ | ⟨h4, -⟩ | ⟨h4, -⟩ <;> simp only [PMachine.step, h4, upd_same] <;>
      (intro h; cases h)

/-! ## One analysis -/

/-- The bar is filled from zero to its maximum. -/
def InRange (p : Prog) : Prop := ∀ b, p.bar = some b → 0 ≤ b.value ∧ b.value ≤ b.maximum

/-- After a start and updates. -/
theorem updates_spec (sh : Nat → Bool) (p : Prog) {m v : Int} (n : Nat)
    (hp : p.cur = v) (hb : ∀ b, p.bar = some b → 0 ≤ b.value ∧ b.value ≤ v ∧ b.maximum = m) (hv : 0 ≤ v) :
    (runCalls p (updates n sh)).cur = v + n ∧
      ∀ b, (runCalls p (updates n sh)).bar = some b → 0 ≤ b.value ∧ b.value ≤ v + n ∧ b.maximum = m := by
  induction n with
  | zero => simpa [updates, runCalls] using ⟨hp, hb⟩
  | succ n ih =>
    have e : updates (n + 1) sh = updates n sh ++ [.update none (sh n)] := by
      simp [updates, List.range_succ]
    rw [e, runCalls_snoc]
    obtain ⟨h1, h2⟩ := ih
    generalize runCalls p (updates n sh) = q at h1 h2
    refine ⟨by simp only [PCall.apply, PCall.value]; push_cast; omega, fun b hb' => ?_⟩
    simp only [PCall.apply, PCall.value] at hb'
    cases hs : sh n with
    | false =>
      rw [hs] at hb'
      obtain ⟨g1, g2, g3⟩ := h2 b hb'
      exact ⟨g1, by push_cast; omega, g3⟩
    | true =>
      rw [hs] at hb'
      simp only [PCall.newBar] at hb'
      cases hq : q.bar with
      | none => rw [hq] at hb'; cases hb'
      | some b0 =>
        rw [hq] at hb'
        cases hb'
        obtain ⟨g1, g2, g3⟩ := h2 b0 hq
        exact ⟨by show 0 ≤ q.cur + 1; omega, by show q.cur + 1 ≤ _; push_cast; omega, g3⟩

theorem start_spec (p : Prog) (m v : Int) :
    (PCall.apply p (.start m v)).cur = v ∧
      ∀ b, (PCall.apply p (.start m v)).bar = some b → b = ⟨v, m⟩ := by
  refine ⟨rfl, fun b hb => ?_⟩
  simp only [PCall.apply, PCall.newBar, PCall.value] at hb
  cases hp : p.bar with
  | none => rw [hp] at hb; cases hb
  | some b0 => rw [hp] at hb; cases hb; rfl

/-- One phase: start, and the first updates. -/
theorem phase_range (p : Prog) (sh : Nat → Bool) {n k : Nat} (hk : k ≤ n) :
    InRange (runCalls p (.start n 0 :: updates k sh)) ∧
      (runCalls p (.start n 0 :: updates k sh)).cur = k ∧
      ∀ b, (runCalls p (.start n 0 :: updates k sh)).bar = some b → b.maximum = n := by
  obtain ⟨h1, h2⟩ := start_spec p n 0
  obtain ⟨g1, g2⟩ := updates_spec sh (PCall.apply p (.start n 0)) (m := n) (v := 0) k h1
    (fun b hb => by rw [h2 b hb]; simp) le_rfl
  have e : runCalls p (.start n 0 :: updates k sh) = runCalls (PCall.apply p (.start n 0)) (updates k sh) := rfl
  rw [e]
  refine ⟨fun b hb => ?_, by rw [g1]; omega, fun b hb => (g2 b hb).2.2⟩
  obtain ⟨f1, f2, f3⟩ := g2 b hb
  exact ⟨f1, by rw [f3]; omega⟩

theorem take_updates (n k : Nat) (sh : Nat → Bool) : (updates n sh).take k = updates (min k n) sh := by
  simp [updates, ← List.map_take, List.take_range]

/-- Without a pool, after each call in an analysis (whatever calls are skipped) the bar is between zero and its
maximum, from which on it is full at the end of each phase and of the analysis. -/
theorem C98_sequential (p : Prog) (hp : InRange p) (frames tracks : Nat) (s1 s2 s3 : Nat → Bool) (k : Nat) :
    InRange (runCalls p ((fitCalls frames tracks [] s1 s2 s3).take k)) ∧
      ∀ b, (runCalls p (fitCalls frames tracks [] s1 s2 s3)).bar = some b → b.value = b.maximum := by
  have hfull : ∀ q : Prog, InRange (PCall.apply q (.start 1 1)) := by
    intro q b hb
    rw [(start_spec q 1 1).2 b hb]
    exact ⟨by decide, le_rfl⟩
  have e : fitCalls frames tracks [] s1 s2 s3 =
      (.start (frames : Int) 0 :: updates frames s1) ++ (PCall.start 1 1 ::
        ((.start (tracks : Int) 0 :: updates tracks s3) ++ [.start 1 1])) := by
    simp [fitCalls, reportCalls]
  have hphase : ∀ (q : Prog) (n j : Nat) (sh : Nat → Bool), InRange q →
      InRange (runCalls q ((PCall.start (n : Int) 0 :: updates n sh).take j)) := by
    intro q n j sh hq
    cases j with
    | zero => exact hq
    | succ j =>
      rw [List.take_succ_cons, take_updates]
      exact (phase_range q sh (Nat.min_le_right _ _)).1
  constructor
  · rw [e, List.take_append, runCalls_append]
    set A : List PCall := .start (frames : Int) 0 :: updates frames s1 with hA
    set q := runCalls p (A.take k) with hq
    have hqr : InRange q := hphase p frames k s1 hp
    cases hj : k - A.length with
    | zero => exact hqr
    | succ j =>
      rw [List.take_succ_cons]
      show InRange (runCalls (PCall.apply q (.start 1 1)) _)
      rw [List.take_append, runCalls_append]
      set B : List PCall := .start (tracks : Int) 0 :: updates tracks s3 with hB
      set q' := runCalls (PCall.apply q (.start 1 1)) (B.take j) with hq'
      have hqr' : InRange q' := hphase _ tracks j s3 (hfull q)
      cases hl : j - B.length with
      | zero => exact hqr'
      | succ l =>
        have : ([PCall.start 1 1].take (l + 1)) = [.start 1 1] := by simp
        rw [this]
        exact hfull q'
  · intro b hb
    have e2 : fitCalls frames tracks [] s1 s2 s3 =
        ((.start (frames : Int) 0 :: updates frames s1) ++ (PCall.start 1 1 ::
          (.start (tracks : Int) 0 :: updates tracks s3))) ++ [.start 1 1] := by
      rw [e]; simp
    rw [e2, runCalls_snoc] at hb
    rw [(start_spec _ 1 1).2 b hb]

/-- The reports of a pool: the value is the last report. -/
theorem reports_last (p : Prog) (rs : List Nat) (r : Nat) (sh : Nat → Bool) :
    (runCalls p (reportCalls (rs ++ [r]) sh)).cur = r := by
  have e : reportCalls (rs ++ [r]) sh = reportCalls rs sh ++ [.update (some (r : Int)) (sh rs.length)] := by
    simp [reportCalls, List.zipIdx_append]
  rw [e, runCalls_snoc]
  rfl

/-- With a pool the updates for the tracks are counted on top of the last report: after the last of them the progress
exceeds the maximum by that report, and so does the bar if this update is not skipped. -/
theorem C98_pool_exceeds (p : Prog) (b0 : PBar) (hp : p.bar = some b0) (frames tracks : Nat) (rs : List Nat)
    (r : Nat) (s1 s2 s3 : Nat → Bool) (hr : 0 < r) (ht : 0 < tracks) (hs : s3 (tracks - 1) = true) :
    ∃ k b, (runCalls p ((fitCalls frames tracks (rs ++ [r]) s1 s2 s3).take k)).bar = some b ∧
      b.maximum = tracks ∧ b.value = r + tracks ∧ b.maximum < b.value := by
  have hbar : ∀ (cs : List PCall) (q : Prog) (b : PBar), q.bar = some b → ∃ b', (runCalls q cs).bar = some b' := by
    intro cs
    induction cs with
    | nil => exact fun q b h => ⟨b, h⟩
    | cons c cs ih =>
      intro q b h
      cases c with
      | start m v => exact ih (PCall.apply q (.start m v)) ⟨v, m⟩ (by simp [PCall.apply, PCall.newBar, PCall.value, h])
      | update v sh =>
        cases sh with
        | false => exact ih (PCall.apply q (.update v false)) b (by simp [PCall.apply, PCall.newBar, h])
        | true =>
          exact ih (PCall.apply q (.update v true)) { b with value := PCall.value q.cur (.update v true) }
            (by simp only [PCall.apply, PCall.newBar, h, Option.map_some])
  have hmax : ∀ (cs : List PCall) (q : Prog) (b b' : PBar), (∀ c ∈ cs, ∃ v sh, c = .update v sh) →
      q.bar = some b → (runCalls q cs).bar = some b' → b'.maximum = b.maximum := by
    intro cs
    induction cs with
    | nil => intro q b b' _ h1 h2; rw [show (runCalls q []).bar = q.bar from rfl, h1] at h2; cases h2; rfl
    | cons c cs ih =>
      intro q b b' hc h1 h2
      obtain ⟨v, sh, rfl⟩ := hc c List.mem_cons_self
      cases sh with
      | false =>
        exact ih (PCall.apply q (.update v false)) b b' (fun c h => hc c (List.mem_cons_of_mem _ h))
          (by simp [PCall.apply, PCall.newBar, h1]) h2
      | true =>
        refine (ih (PCall.apply q (.update v true)) { b with value := PCall.value q.cur (.update v true) } b'
          (fun c h => hc c (List.mem_cons_of_mem _ h)) (by simp [PCall.apply, PCall.newBar, h1]) h2)
  set A : List PCall := .start (frames : Int) 0 :: updates frames s1 ++ [.start 1 1] with hA
  set C : List PCall := reportCalls (rs ++ [r]) s2 ++ updates (tracks - 1) s3 with hC
  have e : fitCalls frames tracks (rs ++ [r]) s1 s2 s3 =
      (A ++ .start (tracks : Int) 0 :: (C ++ [.update none true])) ++ [.start 1 1] := by
    have : updates tracks s3 = updates (tracks - 1) s3 ++ [.update none true] := by
      obtain ⟨n, rfl⟩ : ∃ n, tracks = n + 1 := ⟨tracks - 1, by omega⟩
      rw [← hs]
      simp [updates, List.range_succ]
    simp [fitCalls, this, hA, hC]
  obtain ⟨b1, hb1⟩ := hbar A p b0 hp
  have hstart : (PCall.apply (runCalls p A) (.start (tracks : Int) 0)).bar = some ⟨0, tracks⟩ := by
    simp [PCall.apply, PCall.newBar, PCall.value, hb1]
  set q := PCall.apply (runCalls p A) (.start (tracks : Int) 0) with hq
  obtain ⟨b2, hb2⟩ := hbar C q _ hstart
  have hC' : ∀ c ∈ C, ∃ v sh, c = PCall.update v sh := by
    intro c hc
    rcases List.mem_append.1 hc with h | h
    · obtain ⟨x, -, rfl⟩ := List.mem_map.1 h
      exact ⟨_, _, rfl⟩
    · obtain ⟨x, -, rfl⟩ := List.mem_map.1 h
      exact ⟨_, _, rfl⟩
  have hm2 := hmax C q _ b2 hC' hstart hb2
  have hcur : (runCalls q C).cur = r + (tracks - 1 : Nat) := by
    rw [hC, runCalls_append, runCalls_updates, reports_last]
    · simp [updates]
    · intro c hc
      obtain ⟨x, -, rfl⟩ := List.mem_map.1 hc
      exact ⟨_, rfl⟩
  refine ⟨(A ++ PCall.start (tracks : Int) 0 :: (C ++ [PCall.update none true])).length,
    { b2 with value := r + tracks }, ?_, hm2, rfl, ?_⟩
  · rw [e, List.take_left, runCalls_append]
    show (runCalls q (C ++ [.update none true])).bar = _
    rw [runCalls_snoc]
    simp only [PCall.apply, PCall.newBar, PCall.value, hb2, Option.map_some, hcur]
    congr 2
    omega
  · show b2.maximum < _
    rw [hm2]
    show (tracks : Int) < r + tracks
    omega

/-! ## Cases -/

/-- Two threads with two updates each, steps in turns: all four count. -/
example : ((PMachine.init ⟨0, some ⟨0, 9⟩⟩
      (fun i => if i < 2 then [.update none true, .update none false] else [])).run
      ((List.range 40).map (· % 2))).prog = ⟨4, some ⟨2, 9⟩⟩ := by
  decide +kernel

/-- The pool of the model of the training context reports 1 of 2 tasks, and then the bar shows 3 of 2. -/
example : (PState.run (fun n : Nat => (.ok n : Except PyErr Nat)) [7, 8]
      [.finish 1, .poll, .finish 0, .poll]).reports = [0, 1] ∧
    (runCalls ⟨0, some ⟨0, 1⟩⟩ ((fitCalls 3 2 [0, 1] (fun _ => true) (fun _ => true) (fun _ => true)).take 10)).bar =
      some ⟨3, 2⟩ := by
  decide +kernel

end Verif.Widgets
