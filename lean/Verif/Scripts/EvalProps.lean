import Verif.Scripts.EvalLemmas

/-!
# C86, C87: the evaluation script can be interrupted and resumed
-/

set_option autoImplicit false
set_option linter.unusedSectionVars false
set_option linter.unusedSimpArgs false

namespace Verif.Scripts

variable {R : Type}

/-! ## Specification -/

/-- The table of the values of the tests with seeds `0, …, n-1`, in the order of the seeds. -/
def expectedTable (test : Nat → Outcome R) (n : Nat) : Table R :=
  (List.range n).filterMap fun s =>
    match test s with
    | .value r => some (s, r)
    | _ => none

/-- What an interrupted writing of a table can leave: an unreadable file, or the first rows. -/
def Torn (t : Table R) (c : Content R) : Prop :=
  c = none ∨ ∃ t', c = some t' ∧ t' <+: t

/-- `done` are the changes made by a program with changes `ops` that is interrupted at any time, possibly
while it writes a file, or that is not interrupted. -/
def Interrupted (ops done : List (FileOp R)) : Prop :=
  done <+: ops ∨
    ∃ d f t c, d ++ [.write f (some t)] <+: ops ∧ Torn t c ∧ done = d ++ [.write f c]

/-- The files that a history of runs, each one with its arguments, its schedule, and its interruption, can
leave. -/
inductive Reach (test : Nat → Outcome R) : Files R → Prop
  | start : Reach test ⟨none, []⟩
  | run {F : Files R} (h : Reach test F) (args : EvalArgs) (order glob : List Nat)
      (done : List (FileOp R)) (hd : Interrupted (evalRun test args order glob F).1 done) :
      Reach test (applyOps F done)

/-- The rows of the files are values of the tests. -/
def SoundTable (test : Nat → Outcome R) (t : Table R) : Prop :=
  ∀ s r, (s, r) ∈ t → test s = .value r

/-! ## Files -/

theorem applyOps_append (F : Files R) (a b : List (FileOp R)) :
    applyOps F (a ++ b) = applyOps (applyOps F a) b := by
  induction a generalizing F with
  | nil => rfl
  | cons x a ih => exact ih _

/-- A change that writes nothing but values of the tests. -/
def OpSound (test : Nat → Outcome R) : FileOp R → Prop
  | .write _ (some t) => SoundTable test t
  | _ => True

/-- The files have only values of the tests, and no two checkpoints have the same name. -/
structure FilesOk (test : Nat → Outcome R) (F : Files R) : Prop where
  csv : ∀ t, F.csv = some (some t) → SoundTable test t
  ckpts : ∀ k t, (k, some t) ∈ F.ckpts → SoundTable test t
  nodup : (F.ckpts.map Prod.fst).Nodup

theorem nodup_write {l : List (Nat × Content R)} (h : (l.map Prod.fst).Nodup) (k : Nat)
    (c : Content R) :
    ((l.filter (fun e => decide (e.1 ≠ k)) ++ [(k, c)]).map Prod.fst).Nodup := by
  rw [List.map_append, List.nodup_append]
  refine ⟨h.sublist (List.filter_sublist.map _), by simp, ?_⟩
  intro a ha b hb
  simp only [List.map_cons, List.map_nil, List.mem_singleton] at hb
  subst hb
  obtain ⟨e, he, rfl⟩ := List.mem_map.1 ha
  simpa using (List.mem_filter.1 he).2

theorem FilesOk.apply {test : Nat → Outcome R} {F : Files R} (h : FilesOk test F) {op : FileOp R}
    (ho : OpSound test op) : FilesOk test (op.apply F) := by
  obtain ⟨h1, h2, h3⟩ := h
  cases op with
  | delete k =>
    exact ⟨h1, fun j t hm => h2 j t (List.mem_filter.1 hm).1, h3.sublist (List.filter_sublist.map _)⟩
  | write f c =>
    cases f with
    | csv =>
      refine ⟨fun t ht => ?_, h2, h3⟩
      simp only [FileOp.apply, Option.some.injEq] at ht
      subst ht
      exact ho
    | ckpt k =>
      refine ⟨h1, fun j t hm => ?_, nodup_write h3 k c⟩
      rcases List.mem_append.1 hm with hm | hm
      · exact h2 j t (List.mem_filter.1 hm).1
      · simp only [List.mem_singleton, Prod.mk.injEq] at hm
        obtain ⟨rfl, rfl⟩ := hm
        exact ho

theorem FilesOk.applyOps {test : Nat → Outcome R} {F : Files R} (h : FilesOk test F)
    {ops : List (FileOp R)} (ho : ∀ op ∈ ops, OpSound test op) : FilesOk test (applyOps F ops) := by
  induction ops generalizing F with
  | nil => exact h
  | cons op ops ih =>
    exact ih (h.apply (ho op List.mem_cons_self)) fun o hm => ho o (List.mem_cons_of_mem _ hm)

theorem soundTable_list2df {test : Nat → Outcome R} {results : List (Option R)}
    (h : SoundRes test results) : SoundTable test (list2df 0 results) := by
  intro s r hm
  exact h s r (by simpa using ((mem_list2df 0 results s r).1 hm).2)

theorem soundRes_empty (test : Nat → Outcome R) (n : Nat) :
    SoundRes test (List.replicate n none) := by
  intro i r h
  rw [List.getElem?_replicate] at h
  split at h <;> simp at h

theorem loadResults_sound {test : Nat → Outcome R} {args : EvalArgs} {F : Files R} {s : EvalState R}
    (hF : FilesOk test F) (h : loadResults args F = .ok s) :
    SoundRes test s.results ∧ s.results.length = args.n := by
  have he := soundRes_empty test args.n
  unfold loadResults at h
  simp only at h
  split at h
  · split at h
    · split at h
      · rename_i hr
        cases h
        exact ⟨loadRows_sound he (hF.ckpts _ _ (readCkpt_mem hr)), by simp [loadRows_length]⟩
      · cases h
    · split at h
      · cases h; exact ⟨he, by simp⟩
      · cases h
      · rename_i hr
        cases h
        exact ⟨loadRows_sound he (hF.csv _ hr), by simp [loadRows_length]⟩
  · cases h; exact ⟨he, by simp⟩

theorem evalRun_ops_sound {test : Nat → Outcome R} {args : EvalArgs} {F : Files R}
    {order glob : List Nat} (hF : FilesOk test F) :
    ∀ op ∈ (evalRun test args order glob F).1, OpSound test op := by
  unfold evalRun
  cases hl : loadResults args F with
  | error e => simp
  | ok s =>
    obtain ⟨hs, -⟩ := loadResults_sound hF hl
    have ho : ∀ op ∈ (testLoop test args.period 0 order s).1, OpSound test op := by
      intro op hm
      obtain ⟨k, res, rfl, h⟩ := testLoop_ops_sound hs op hm
      exact soundTable_list2df h
    simp only
    cases ht : testLoop test args.period 0 order s with
    | mk ops o =>
      rw [ht] at ho
      cases o with
      | error e => exact ho
      | ok s' =>
        have hr : s'.results = addResults test s.results order :=
          testLoop_results (by rw [ht])
        intro op hm
        rcases List.mem_append.1 hm with hm | hm
        · exact ho op hm
        · unfold saveOps at hm
          rcases List.mem_append.1 hm with hm | hm
          · split at hm
            · rw [List.mem_singleton] at hm
              subst hm
              rw [hr]
              exact soundTable_list2df (addResults_sound order hs)
            · cases hm
          · obtain ⟨k, -, rfl⟩ := List.mem_map.1 hm
            trivial

theorem reach_ok {test : Nat → Outcome R} {F : Files R} (h : Reach test F) : FilesOk test F := by
  induction h with
  | start => exact ⟨by simp, by simp, by simp⟩
  | @run F h args order glob done hd ih =>
    have ho := evalRun_ops_sound (args := args) (order := order) (glob := glob) ih
    refine ih.applyOps ?_
    rcases hd with hd | ⟨d, f, t, c, hd, hc, rfl⟩
    · exact fun op hm => ho op (hd.subset hm)
    · intro op hm
      rcases List.mem_append.1 hm with hm | hm
      · exact ho op (hd.subset (List.mem_append_left _ hm))
      · rw [List.mem_singleton] at hm
        subst hm
        have h2 := ho _ (hd.subset (List.mem_append_right _ (List.mem_singleton.2 rfl)))
        rcases hc with rfl | ⟨t', rfl, ht'⟩
        · trivial
        · exact fun s r hm => h2 s r (ht'.subset hm)

/-! ## C86: the results -/

/-- Whatever runs have been made and interrupted, every row of a readable file is the value of the test of
its seed. -/
theorem C86_files_sound {test : Nat → Outcome R} {F : Files R} (h : Reach test F) :
    (∀ t, F.csv = some (some t) → ∀ s r, (s, r) ∈ t → test s = .value r) ∧
      ∀ k t, (k, some t) ∈ F.ckpts → ∀ s r, (s, r) ∈ t → test s = .value r :=
  ⟨(reach_ok h).csv, (reach_ok h).ckpts⟩

theorem expectedTable_eq (test : Nat → Outcome R) (n : Nat) :
    expectedTable test n = list2df 0 ((List.range n).map fun i => (test i).get?) := by
  rw [list2df_map_range, expectedTable]
  congr 1
  funext s
  cases test s <;> rfl

theorem mem_seedsToTest {w : Nat → Bool} {s : EvalState R} {i : Nat} (hi : i < s.results.length)
    (h : s.results[i]?.join = none) : i ∈ seedsToTest w s := by
  unfold seedsToTest
  split
  · exact List.mem_range.2 hi
  · exact List.mem_filter.2 ⟨List.mem_range.2 hi, by simp [h]⟩

theorem results_final {test : Nat → Outcome R} {w : Nat → Bool} {s : EvalState R} {order : List Nat}
    (hs : SoundRes test s.results) (ho : order.Perm (seedsToTest w s)) :
    list2df 0 (addResults test s.results order) = expectedTable test s.results.length := by
  rw [expectedTable_eq, results_eq (addResults_sound order hs) ?_, addResults_length]
  · rw [addResults_length]
    intro i r hi ht
    refine addResults_get hi hs ht ?_
    cases hj : s.results[i]?.join with
    | none => exact .inl (ho.symm.subset (mem_seedsToTest hi hj))
    | some r' =>
      right
      exact ⟨r', by rwa [Option.join_eq_some_iff] at hj⟩

/-- After any history of interrupted runs, with any order in which the pool returns the results, a run that
comes to the end reports one row for each seed for which the test returns a value, in the order of the
seeds. -/
theorem C86_report {test : Nat → Outcome R} {F : Files R} (h : Reach test F) {args : EvalArgs}
    {w : Nat → Bool} {s : EvalState R} (hl : loadResults args F = .ok s) {order glob : List Nat}
    (ho : order.Perm (seedsToTest w s)) {df : Table R}
    (hr : (evalRun test args order glob F).2 = .ok df) : df = expectedTable test args.n := by
  obtain ⟨hs, hn⟩ := loadResults_sound (reach_ok h) hl
  unfold evalRun at hr
  rw [hl] at hr
  simp only at hr
  cases ht : testLoop test args.period 0 order s with
  | mk ops o =>
    rw [ht] at hr
    cases o with
    | error e => cases hr
    | ok s' =>
      have hr' : s'.results = addResults test s.results order := testLoop_results (by rw [ht])
      simp only [Except.ok.injEq] at hr
      rw [← hr, hr', results_final hs ho, hn]

theorem loadResults_ok {test : Nat → Outcome R} {F : Files R} (h : FilesOk test F) {args : EvalArgs}
    (hl : args.resume = false ∨ F.csv ≠ some none ∨ ∃ k t, (k, some t) ∈ F.ckpts) :
    ∃ s, loadResults args F = .ok s := by
  unfold loadResults
  simp only
  split
  · rename_i hres
    cases hk : lastReadable F.ckpts with
    | some k =>
      obtain ⟨⟨t, ht⟩, -⟩ := lastReadable_spec hk
      simp only [readCkpt_eq h.nodup ht]
      exact ⟨_, rfl⟩
    | none =>
      simp only
      rcases hl with hl | hl | ⟨k, t, hkt⟩
      · rw [hl] at hres; cases hres
      · split
        · exact ⟨_, rfl⟩
        · rename_i hc; exact absurd hc hl
        · exact ⟨_, rfl⟩
      · exact absurd hkt (lastReadable_none hk _ _)
  · exact ⟨_, rfl⟩

/-- A run comes to the end, unless a test raises, the period of the checkpoints is zero, or the table has
been left unreadable and there is no readable checkpoint to resume from. -/
theorem C86_ends {test : Nat → Outcome R} {F : Files R} (h : Reach test F) {args : EvalArgs}
    (hl : args.resume = false ∨ F.csv ≠ some none ∨ ∃ k t, (k, some t) ∈ F.ckpts)
    (hp : args.period ≠ some 0) :
    ∃ s, loadResults args F = .ok s ∧ ∀ (order glob : List Nat),
      (∀ i ∈ order, ∀ e, test i ≠ .raises e) →
      ∃ df, (evalRun test args order glob F).2 = .ok df := by
  obtain ⟨s, hs⟩ := loadResults_ok (reach_ok h) hl
  refine ⟨s, hs, fun order glob hr => ?_⟩
  obtain ⟨s', hs', -⟩ := testLoop_ok hr hp 0 s
  unfold evalRun
  rw [hs]
  simp only
  cases ht : testLoop test args.period 0 order s with
  | mk ops o =>
    rw [ht] at hs'
    simp only at hs'
    subst hs'
    exact ⟨_, rfl⟩

theorem applyOps_delete (F : Files R) (glob : List Nat) :
    (applyOps F (glob.map .delete)).csv = F.csv ∧
      (applyOps F (glob.map .delete)).ckpts = F.ckpts.filter fun e => decide (e.1 ∉ glob) := by
  induction glob generalizing F with
  | nil => simp [applyOps]
  | cons k glob ih =>
    obtain ⟨h1, h2⟩ := ih (FileOp.apply F (.delete k))
    refine ⟨h1, ?_⟩
    simp only [List.map_cons, applyOps, h2]
    simp only [FileOp.apply, List.filter_filter]
    apply List.filter_congr
    intro e _
    by_cases h : e.1 = k <;> simp [h]

theorem applyOps_loop_csv {test : Nat → Outcome R} {period : Option Nat} {order : List Nat} {i : Nat}
    {s : EvalState R} (hs : SoundRes test s.results) (F : Files R) :
    (applyOps F (testLoop test period i order s).1).csv = F.csv := by
  have h := testLoop_ops_sound (period := period) (order := order) (i := i) hs
  generalize (testLoop test period i order s).1 = ops at h
  induction ops generalizing F with
  | nil => rfl
  | cons op ops ih =>
    obtain ⟨k, res, rfl, -⟩ := h op List.mem_cons_self
    rw [applyOps, ih _ fun o hm => h o (List.mem_cons_of_mem _ hm)]
    rfl

/-- If the run did not resume from the table (`.csv`), or it wrote a checkpoint, then at the end the table
has the reported rows, and there are no checkpoints. -/
theorem C86_saved {test : Nat → Outcome R} {F : Files R} (h : Reach test F) {args : EvalArgs}
    {w : Nat → Bool} {s : EvalState R} (hl : loadResults args F = .ok s) {order glob : List Nat}
    (ho : order.Perm (seedsToTest w s)) {df : Table R}
    (hr : (evalRun test args order glob F).2 = .ok df)
    (hw : args.resume = false ∨ s.lastFile ≠ some .csv ∨
      (testLoop test args.period 0 order s).1 ≠ [])
    (hg : ∀ e ∈ (applyOps F (testLoop test args.period 0 order s).1).ckpts, e.1 ∈ glob) :
    applyOps F (evalRun test args order glob F).1 =
      ⟨some (some (expectedTable test args.n)), []⟩ := by
  have hdf := C86_report h hl ho hr
  obtain ⟨hs, hn⟩ := loadResults_sound (reach_ok h) hl
  unfold evalRun at hr ⊢
  rw [hl] at hr ⊢
  simp only at hr ⊢
  cases ht : testLoop test args.period 0 order s with
  | mk ops o =>
    rw [ht] at hr hg hw
    cases o with
    | error e => cases hr
    | ok s' =>
      have hlast := testLoop_lastFile (test := test) (period := args.period) (i := 0)
        (order := order) (s := s) (s' := s') (by rw [ht])
      rw [ht] at hlast
      simp only [Except.ok.injEq] at hr hg hlast hw ⊢
      have hsave : s'.lastFile ≠ some .csv ∨ args.resume = false := by
        rcases hw with hw | hw | hw
        · exact .inr hw
        · left
          rcases hlast with ⟨h1, -⟩ | ⟨k, h1⟩
          · rw [h1]; exact hw
          · rw [h1]; simp
        · left
          rcases hlast with ⟨-, h1⟩ | ⟨k, h1⟩
          · exact absurd h1 hw
          · rw [h1]; simp
      rw [applyOps_append, saveOps, if_pos hsave, applyOps_append]
      simp only [applyOps]
      obtain ⟨h1, h2⟩ := applyOps_delete
        (FileOp.apply (applyOps F ops) (.write .csv (some (list2df 0 s'.results)))) glob
      have e : ∀ G : Files R, G = ⟨G.csv, G.ckpts⟩ := fun G => rfl
      rw [e (applyOps _ (glob.map _)), h1, h2, hr, hdf]
      simp only [FileOp.apply, Files.mk.injEq, true_and]
      rw [List.filter_eq_nil_iff]
      intro a ha
      simpa using hg a ha

/-- A run that resumes from the table and does not write a checkpoint (no period, or fewer tests than the
period) does not write its results to any file: they are only in the report. -/
theorem C86_not_saved {test : Nat → Outcome R} {F : Files R} (h : Reach test F) {args : EvalArgs}
    {t : Table R} (hc : F.csv = some (some t)) (hk : ∀ k t, (k, some t) ∉ F.ckpts)
    (hres : args.resume = true) {order glob : List Nat}
    (hp : ∀ p, args.period = some p → order.length < p) :
    (applyOps F (evalRun test args order glob F).1).csv = some (some t) ∧
      ∀ k t, (k, some t) ∉ (applyOps F (evalRun test args order glob F).1).ckpts := by
  have hl : loadResults args F =
      .ok ⟨loadRows (List.replicate args.n none) t, some .csv, -1⟩ := by
    have hn : lastReadable F.ckpts = none := by
      cases hn : lastReadable F.ckpts with
      | none => rfl
      | some k =>
        obtain ⟨⟨t', ht'⟩, -⟩ := lastReadable_spec hn
        exact absurd ht' (hk _ _)
    simp [loadResults, hres, hn, hc]
  generalize hs0 : (⟨loadRows (List.replicate args.n none) t, some .csv, -1⟩ : EvalState R) = s at hl
  have hnil : ∀ (order : List Nat) (i : Nat) (s : EvalState R),
      (∀ p, args.period = some p → i + order.length < p) →
        (testLoop test args.period i order s).1 = [] ∧
        ∀ s', (testLoop test args.period i order s).2 = .ok s' → s'.lastFile = s.lastFile := by
    intro order
    induction order with
    | nil =>
      intro i s _
      refine ⟨rfl, fun s' h => ?_⟩
      simp only [testLoop, Except.ok.injEq] at h
      rw [h]
    | cons a l ih =>
      intro i s hp
      simp only [List.length_cons] at hp
      have hp' : ∀ p, args.period = some p → i + 1 + l.length < p := fun p h => by
        have := hp p h; omega
      have key : ∀ s : EvalState R, (testLoop test args.period (i + 1) l s).1 = [] ∧
          ∀ s', (testLoop test args.period (i + 1) l s).2 = .ok s' → s'.lastFile = s.lastFile :=
        fun s => ih (i + 1) s hp'
      cases hta : test a with
      | raises e => simp [testLoop, hta]
      | value r =>
        simp only [testLoop, hta, Outcome.get?]
        cases hper : args.period with
        | none => simpa [hper] using key _
        | some p =>
          have hlt := hp p hper
          have h0 : p ≠ 0 := by omega
          have h1 : (i + 1) % p ≠ 0 := by rw [Nat.mod_eq_of_lt (by omega)]; omega
          simp only [h0, h1, if_false]
          simpa [hper] using key _
      | logged =>
        simp only [testLoop, hta, Outcome.get?]
        cases hper : args.period with
        | none => simpa [hper] using key _
        | some p =>
          have hlt := hp p hper
          have h0 : p ≠ 0 := by omega
          have h1 : (i + 1) % p ≠ 0 := by rw [Nat.mod_eq_of_lt (by omega)]; omega
          simp only [h0, h1, if_false]
          simpa [hper] using key _
  obtain ⟨h1, h2⟩ := hnil order 0 s (by simpa using hp)
  unfold evalRun
  rw [hl]
  simp only
  cases ht : testLoop test args.period 0 order s with
  | mk ops o =>
    rw [ht] at h1 h2
    simp only at h1 h2
    subst h1
    cases o with
    | error e => exact ⟨hc, hk⟩
    | ok s' =>
      have h3 := h2 s' rfl
      have h4 : s'.lastFile = some .csv := by rw [h3, ← hs0]
      simp only [List.nil_append, saveOps, h4, hres, ne_eq, not_true_eq_false, Bool.true_eq_false,
        or_self, if_false]
      obtain ⟨h5, h6⟩ := applyOps_delete F glob
      refine ⟨by rw [h5, hc], fun k t' hm => ?_⟩
      rw [h6] at hm
      exact hk _ _ (List.mem_filter.1 hm).1

/-! ## C87: no work is lost -/

theorem testLoop_append {test : Nat → Outcome R} {p : Nat} (hp : p ≠ 0) {a : List Nat}
    (hr : ∀ i ∈ a, ∀ e, test i ≠ .raises e) (b : List Nat) (i : Nat) (s : EvalState R) :
    ∃ sa, (testLoop test (some p) i a s).2 = .ok sa ∧
      testLoop test (some p) i (a ++ b) s =
        ((testLoop test (some p) i a s).1 ++ (testLoop test (some p) (i + a.length) b sa).1,
          (testLoop test (some p) (i + a.length) b sa).2) := by
  induction a generalizing i s with
  | nil => exact ⟨s, rfl, by simp [testLoop]⟩
  | cons x a ih =>
    have hx := hr x List.mem_cons_self
    have key := fun s => ih (fun j hj => hr j (List.mem_cons_of_mem _ hj)) (i + 1) s
    have e : i + (x :: a).length = i + 1 + a.length := by simp; omega
    cases htx : test x with
    | raises e => exact absurd htx (hx e)
    | value r =>
      simp only [List.cons_append, testLoop, htx, Outcome.get?, hp, if_false, e]
      split
      · obtain ⟨sa, h1, h2⟩ := key ⟨s.results.set x (some r),
          some (.ckpt (s.last + 1).toNat), s.last + 1⟩
        exact ⟨sa, h1, by rw [h2]; rfl⟩
      · exact key _
    | logged =>
      simp only [List.cons_append, testLoop, htx, Outcome.get?, hp, if_false, e]
      split
      · obtain ⟨sa, h1, h2⟩ := key ⟨s.results, some (.ckpt (s.last + 1).toNat), s.last + 1⟩
        exact ⟨sa, h1, by rw [h2]; rfl⟩
      · exact key _

/-- The readable checkpoints have numbers up to the last one. -/
structure Below (F : Files R) (last : Int) : Prop where
  nodup : (F.ckpts.map Prod.fst).Nodup
  le : ∀ k t, (k, some t) ∈ F.ckpts → (k : Int) ≤ last
  ge : -1 ≤ last

theorem Below.write {F : Files R} {last : Int} (h : Below F last) (t : Table R) :
    Below (FileOp.apply F (.write (.ckpt (last + 1).toNat) (some t))) (last + 1) := by
  have := h.ge
  refine ⟨nodup_write h.nodup _ _, fun k t' hm => ?_, by omega⟩
  rcases List.mem_append.1 hm with hm | hm
  · have := h.le k t' (List.mem_filter.1 hm).1
    omega
  · simp only [List.mem_singleton, Prod.mk.injEq] at hm
    omega

/-- One step of the loop. -/
theorem testLoop_step {test : Nat → Outcome R} {p : Nat} (hp : p ≠ 0) {x : Nat}
    (hx : ∀ e, test x ≠ .raises e) (l : List Nat) (i : Nat) (s : EvalState R) :
    testLoop test (some p) i (x :: l) s =
      if (i + 1) % p = 0 then
        (.write (.ckpt (s.last + 1).toNat) (some (list2df 0 (addResults test s.results [x]))) ::
          (testLoop test (some p) (i + 1) l ⟨addResults test s.results [x],
            some (.ckpt (s.last + 1).toNat), s.last + 1⟩).1,
          (testLoop test (some p) (i + 1) l ⟨addResults test s.results [x],
            some (.ckpt (s.last + 1).toNat), s.last + 1⟩).2)
      else testLoop test (some p) (i + 1) l ⟨addResults test s.results [x], s.lastFile, s.last⟩ := by
  cases htx : test x with
  | raises e => exact absurd htx (hx e)
  | value r => simp only [testLoop, htx, Outcome.get?, hp, if_false, addResults]
  | logged => simp only [testLoop, htx, Outcome.get?, hp, if_false, addResults]

/-- The last readable checkpoint has rows for the given seeds. -/
def HasRows (F : Files R) (base : List Nat) : Prop :=
  ∃ k t, lastReadable F.ckpts = some k ∧ readCkpt k F.ckpts = some (some t) ∧
    ∀ i ∈ base, ∃ r, (i, r) ∈ t

theorem hasRows_of {F : Files R} {last : Int} {t : Table R} {base : List Nat} (hb : Below F last)
    (h0 : 0 ≤ last) (hm : (last.toNat, some t) ∈ F.ckpts) (ht : ∀ i ∈ base, ∃ r, (i, r) ∈ t) :
    HasRows F base := by
  refine ⟨last.toNat, t, lastReadable_eq hm fun j t' hj => ?_, readCkpt_eq hb.nodup hm, ht⟩
  have := hb.le j t' hj
  omega

/-- After the seeds `a` have been tested, with a checkpoint after the last one. -/
theorem loop_first {test : Nat → Outcome R} {p : Nat} (hp : p ≠ 0) {a : List Nat}
    (hr : ∀ i ∈ a, ∀ e, test i ≠ .raises e) (ha : a ≠ []) (i : Nat) (hi : (i + a.length) % p = 0)
    (s sa : EvalState R) (h : (testLoop test (some p) i a s).2 = .ok sa) (F : Files R)
    (hb : Below F s.last) :
    Below (applyOps F (testLoop test (some p) i a s).1) sa.last ∧ 0 ≤ sa.last ∧
      (sa.last.toNat, some (list2df 0 (addResults test s.results a))) ∈
        (applyOps F (testLoop test (some p) i a s).1).ckpts := by
  induction a generalizing i s F with
  | nil => exact absurd rfl ha
  | cons x a ih =>
    have hx := hr x List.mem_cons_self
    have ha' := fun j hj => hr j (List.mem_cons_of_mem x hj)
    have hge := hb.ge
    have e : i + 1 + a.length = i + (x :: a).length := by simp; omega
    rw [testLoop_step hp hx] at h ⊢
    have er : addResults test s.results (x :: a) =
        addResults test (addResults test s.results [x]) a := by simp [addResults]
    rw [er]
    by_cases h1 : (i + 1) % p = 0
    · simp only [h1, if_true] at h ⊢
      rw [applyOps]
      have hb' := hb.write (list2df 0 (addResults test s.results [x]))
      rcases eq_or_ne a [] with rfl | hne
      · simp only [testLoop, Except.ok.injEq] at h ⊢
        subst h
        refine ⟨hb', by simp only; omega, ?_⟩
        simp [applyOps, FileOp.apply, addResults]
      · exact ih ha' hne (i + 1) (by rw [e]; exact hi) ⟨_, _, _⟩ h _ hb'
    · simp only [h1, if_false] at h ⊢
      rcases eq_or_ne a [] with rfl | hne
      · simp at hi
        exact absurd hi h1
      · exact ih ha' hne (i + 1) (by rw [e]; exact hi) ⟨_, _, _⟩ h F hb

theorem addResults_keep {test : Nat → Outcome R} {results : List (Option R)} {l : List Nat} {i : Nat}
    (h : ∃ r, results[i]? = some (some r)) : ∃ r, (addResults test results l)[i]? = some (some r) := by
  induction l generalizing results with
  | nil => exact h
  | cons x l ih =>
    obtain ⟨r, h⟩ := h
    simp only [addResults]
    apply ih
    split
    · rename_i r' _
      by_cases e : x = i
      · subst e
        have hlt : x < results.length := by
          refine Classical.byContradiction fun hn => ?_
          rw [List.getElem?_eq_none (by omega)] at h
          cases h
        exact ⟨r', by simp [hlt]⟩
      · exact ⟨r, by simpa [List.getElem?_set, e] using h⟩
    · exact ⟨r, h⟩

/-- The changes made before a crash, where the file being written is left unreadable. -/
def CrashUnreadable (ops done : List (FileOp R)) : Prop :=
  done <+: ops ∨ ∃ d f c, d ++ [.write f c] <+: ops ∧ done = d ++ [.write f none]

theorem hasRows_csv {F : Files R} {base : List Nat} (h : HasRows F base) (c : Content R) :
    HasRows (FileOp.apply F (.write .csv c)) base := h

/-- An unreadable checkpoint does not hide the last readable one. -/
theorem hasRows_unreadable {F : Files R} {last : Int} {base : List Nat} (hb : Below F last)
    (h : HasRows F base) :
    HasRows (FileOp.apply F (.write (.ckpt (last + 1).toNat) none)) base := by
  obtain ⟨k, t, h1, h2, h3⟩ := h
  have hm := readCkpt_mem h2
  have hle := hb.le k t hm
  have hge := hb.ge
  obtain ⟨-, h5⟩ := lastReadable_spec h1
  have hm' : (k, some t) ∈ (FileOp.apply F (.write (.ckpt (last + 1).toNat) none)).ckpts := by
    refine List.mem_append_left _ (List.mem_filter.2 ⟨hm, ?_⟩)
    simp only [decide_eq_true_eq]
    omega
  refine ⟨k, t, lastReadable_eq hm' fun j t' hj => ?_, readCkpt_eq (nodup_write hb.nodup _ _) hm', h3⟩
  rcases List.mem_append.1 hj with hj | hj
  · exact h5 j t' (List.mem_filter.1 hj).1
  · simp at hj

/-- Checkpoints written later do not lose rows. -/
theorem loop_rest {test : Nat → Outcome R} {p : Nat} (hp : p ≠ 0) {b : List Nat}
    (hr : ∀ i ∈ b, ∀ e, test i ≠ .raises e) {base : List Nat} {c : Content R} (i : Nat)
    (s : EvalState R)
    (hres : ∀ j ∈ base, ∃ r, s.results[j]? = some (some r)) (F : Files R)
    (hb : Below F s.last) (hF : HasRows F base) {done : List (FileOp R)}
    (hd : CrashUnreadable ((testLoop test (some p) i b s).1 ++ [.write .csv c]) done) :
    HasRows (applyOps F done) base := by
  induction b generalizing i s F done with
  | nil =>
    simp only [testLoop, List.nil_append] at hd
    rcases hd with hd | ⟨d, f, c', hd, rfl⟩
    · rcases List.prefix_cons_iff.1 hd with rfl | ⟨d', rfl, hd'⟩
      · exact hF
      · rw [List.prefix_nil] at hd'
        subst hd'
        exact hF
    · have hlen := hd.length_le
      cases d with
      | cons x d => simp at hlen
      | nil =>
        have := hd.eq_of_length (by simp)
        simp only [List.nil_append, List.cons.injEq, FileOp.write.injEq, and_true] at this
        obtain ⟨rfl, rfl⟩ := this
        exact hF
  | cons x b ih =>
    have hx := hr x List.mem_cons_self
    have hr' := fun j hj => hr j (List.mem_cons_of_mem x hj)
    have hres' : ∀ j ∈ base, ∃ r, (addResults test s.results [x])[j]? = some (some r) :=
      fun j hj => addResults_keep (hres j hj)
    rw [testLoop_step hp hx] at hd
    by_cases h1 : (i + 1) % p = 0
    · simp only [h1, if_true, List.cons_append] at hd
      have hb' := hb.write (list2df 0 (addResults test s.results [x]))
      have hF' : HasRows (FileOp.apply F (.write (.ckpt (s.last + 1).toNat)
          (some (list2df 0 (addResults test s.results [x]))))) base := by
        have hge := hb.ge
        refine hasRows_of hb' (by omega) (t := list2df 0 (addResults test s.results [x])) ?_ ?_
        · simp [FileOp.apply]
        · intro j hj
          obtain ⟨r, hjr⟩ := hres' j hj
          exact ⟨r, (mem_list2df 0 _ j r).2 ⟨Nat.zero_le _, by simpa using hjr⟩⟩
      rcases hd with hd | ⟨d, f, c', hd, rfl⟩
      · rcases List.prefix_cons_iff.1 hd with rfl | ⟨d', rfl, hd'⟩
        · exact hF
        · exact ih hr' (i + 1) ⟨_, _, _⟩ hres' _ hb' hF' (.inl hd')
      · cases d with
        | nil =>
          simp only [List.nil_append, List.cons_prefix_cons, FileOp.write.injEq] at hd
          obtain ⟨⟨rfl, -⟩, -⟩ := hd
          exact hasRows_unreadable hb hF
        | cons o d =>
          simp only [List.cons_append, List.cons_prefix_cons] at hd
          obtain ⟨rfl, hd⟩ := hd
          exact ih hr' (i + 1) ⟨_, _, _⟩ hres' _ hb' hF' (.inr ⟨d, f, c', hd, rfl⟩)
    · simp only [h1, if_false] at hd
      exact ih hr' (i + 1) ⟨_, _, _⟩ hres' F hb hF hd

theorem prefix_append_cases {α : Type} {x a b : List α} (h : x <+: a ++ b) :
    x <+: a ∨ ∃ y, x = a ++ y ∧ y <+: b := by
  rcases List.prefix_or_prefix_of_prefix h (List.prefix_append a b) with h1 | ⟨y, rfl⟩
  · exact .inl h1
  · exact .inr ⟨y, rfl, (List.prefix_append_right_inj _).1 h⟩

/-- The changes of the run up to the deletion of the checkpoints. -/
theorem evalRun_ops {test : Nat → Outcome R} {args : EvalArgs} {F : Files R} {s : EvalState R}
    (hl : loadResults args F = .ok s) {order glob : List Nat} :
    ∃ rest, (evalRun test args order glob F).1 = (testLoop test args.period 0 order s).1 ++ rest ∧
      ∃ (c : Content R) (w : List (FileOp R)) (l : List Nat), rest = w ++ l.map .delete ∧
        w <+: [.write .csv c] := by
  unfold evalRun
  rw [hl]
  simp only
  cases ht : testLoop test args.period 0 order s with
  | mk ops o =>
    cases o with
    | error e => exact ⟨[], by simp, none, [], [], by simp, by simp⟩
    | ok s' =>
      refine ⟨_, rfl, some (list2df 0 s'.results), _, glob, rfl, ?_⟩
      split
      · exact List.prefix_rfl
      · simp

theorem loadResults_below {test : Nat → Outcome R} {args : EvalArgs} {F : Files R} {s : EvalState R}
    (hF : FilesOk test F) (hres : args.resume = true) (hl : loadResults args F = .ok s) :
    Below F s.last := by
  unfold loadResults at hl
  simp only [hres, if_true] at hl
  cases hk : lastReadable F.ckpts with
  | some k =>
    obtain ⟨⟨t, ht⟩, h2⟩ := lastReadable_spec hk
    simp only [hk, readCkpt_eq hF.nodup ht, Except.ok.injEq] at hl
    subst hl
    exact ⟨hF.nodup, fun j t' hj => by have := h2 j t' hj; simp only; omega, by simp only; omega⟩
  | none =>
    simp only [hk] at hl
    have hn := lastReadable_none hk
    split at hl
    · cases hl; exact ⟨hF.nodup, fun j t' hj => absurd hj (hn _ _), by simp⟩
    · cases hl
    · cases hl; exact ⟨hF.nodup, fun j t' hj => absurd hj (hn _ _), by simp⟩

/-- **No lost work.**  A run that resumes (`args.resume`) is interrupted after the results of the seeds `a`,
a whole number of periods, have been collected and the checkpoint has been written, before it begins to
delete the checkpoints; the file that is being written, if there is one, is left unreadable.  Then the next
run that resumes has the results of the seeds `a` and those that the interrupted run had resumed, and does
not test these seeds again. -/
theorem C87_resume {test : Nat → Outcome R} {F : Files R} (h : Reach test F) {args : EvalArgs}
    {p : Nat} (hp : p ≠ 0) (hper : args.period = some p) (hres : args.resume = true)
    {s : EvalState R} (hl : loadResults args F = .ok s) {a b glob : List Nat}
    (hr : ∀ i ∈ a ++ b, ∀ e, test i ≠ .raises e) (ha : a ≠ []) (hap : a.length % p = 0)
    {done : List (FileOp R)}
    (hd : CrashUnreadable (evalRun test args (a ++ b) glob F).1 done)
    (hdone : (testLoop test (some p) 0 a s).1 <+: done)
    (hdel : ∀ k, FileOp.delete k ∉ done)
    {args' : EvalArgs} (hres' : args'.resume = true) :
    ∃ s', loadResults args' (applyOps F done) = .ok s' ∧
      ∀ i r, i < args.n → i < args'.n → test i = .value r →
        i ∈ a ∨ (∃ r', s.results[i]? = some (some r')) →
        s'.results[i]? = some (some r) ∧ i ∉ seedsToTest (fun _ => false) s' := by
  have hok := reach_ok h
  obtain ⟨hs, hn⟩ := loadResults_sound hok hl
  have hra : ∀ i ∈ a, ∀ e, test i ≠ .raises e := fun i hi => hr i (List.mem_append_left _ hi)
  have hrb : ∀ i ∈ b, ∀ e, test i ≠ .raises e := fun i hi => hr i (List.mem_append_right _ hi)
  obtain ⟨sa, hsa, happ⟩ := testLoop_append hp hra b 0 s
  have hb0 := loadResults_below hok hres hl
  obtain ⟨hb1, h01, hm1⟩ := loop_first hp hra ha 0 (by simpa using hap) s sa hsa F hb0
  have hsar : sa.results = addResults test s.results a := testLoop_results hsa
  -- the seeds with a result
  let base := (List.range args.n).filter fun i => (sa.results[i]?.join).isSome
  have hbase : ∀ j ∈ base, ∃ r, sa.results[j]? = some (some r) := by
    intro j hj
    have := (List.mem_filter.1 hj).2
    obtain ⟨r, hr⟩ := Option.isSome_iff_exists.1 this
    exact ⟨r, by rwa [Option.join_eq_some_iff] at hr⟩
  have hF1 : HasRows (applyOps F (testLoop test (some p) 0 a s).1) base := by
    refine hasRows_of hb1 h01 hm1 fun j hj => ?_
    obtain ⟨r, hjr⟩ := hbase j hj
    rw [hsar] at hjr
    exact ⟨r, (mem_list2df 0 _ j r).2 ⟨Nat.zero_le _, by simpa using hjr⟩⟩
  -- the changes after the first part
  obtain ⟨d2, rfl⟩ := hdone
  obtain ⟨rest, hops, c, w, l, rfl, hw⟩ :=
    evalRun_ops (test := test) (order := a ++ b) (glob := glob) hl
  rw [hper, happ] at hops
  simp only [Nat.zero_add] at hops
  rw [hops] at hd
  have hpre : ∀ x : List (FileOp R), (∀ k, FileOp.delete k ∉ x) →
      x <+: (testLoop test (some p) a.length b sa).1 ++ (w ++ l.map .delete) →
      x <+: (testLoop test (some p) a.length b sa).1 ++ [.write .csv c] := by
    intro x hx hxp
    rw [← List.append_assoc] at hxp
    have hle : x <+: (testLoop test (some p) a.length b sa).1 ++ w := by
      rcases prefix_append_cases hxp with h | ⟨y, rfl, hy⟩
      · exact h
      · cases y with
        | nil => simp
        | cons o y =>
          have : o ∈ l.map FileOp.delete := hy.subset List.mem_cons_self
          obtain ⟨k, -, rfl⟩ := List.mem_map.1 this
          exact absurd (List.mem_append_right _ List.mem_cons_self) (hx k)
    exact hle.trans ((List.prefix_append_right_inj _).2 hw)
  have hd2 : CrashUnreadable ((testLoop test (some p) a.length b sa).1 ++ [.write .csv c]) d2 := by
    have hdel2 : ∀ k, FileOp.delete k ∉ d2 := fun k hk => hdel k (List.mem_append_right _ hk)
    rcases hd with hd | ⟨d, f, c', hd, he⟩
    · rw [List.append_assoc, List.prefix_append_right_inj] at hd
      exact .inl (hpre _ hdel2 hd)
    · rcases List.eq_nil_or_concat d2 with rfl | ⟨d3, o, rfl⟩
      · left; simp
      · rw [List.concat_eq_append, ← List.append_assoc] at he
        obtain ⟨h1, h2⟩ := List.append_inj' he rfl
        simp only [List.cons.injEq, and_true] at h2
        subst h1
        subst h2
        rw [List.append_assoc, List.append_assoc, List.prefix_append_right_inj] at hd
        right
        refine ⟨d3, f, c', hpre _ ?_ hd, by simp⟩
        intro k hk
        rcases List.mem_append.1 hk with hk | hk
        · exact hdel2 k (by simp [hk])
        · simp at hk
  have hrows : HasRows (applyOps F ((testLoop test (some p) 0 a s).1 ++ d2)) base := by
    rw [applyOps_append]
    exact loop_rest hp hrb a.length sa hbase _ hb1 hF1 hd2
  obtain ⟨k, t, h1, h2, h3⟩ := hrows
  refine ⟨⟨loadRows (List.replicate args'.n none) t, some (.ckpt k), k⟩, ?_, ?_⟩
  · simp [loadResults, hres', h1, h2]
  · intro i r hi hi' hti hia
    have hib : i ∈ base := by
      refine List.mem_filter.2 ⟨List.mem_range.2 hi, ?_⟩
      rw [hsar, addResults_get (by rw [hn]; exact hi) hs hti hia]
      rfl
    obtain ⟨r', hr'⟩ := loadRows_mem (results := List.replicate args'.n none) (t := t) (i := i)
      (by simpa using hi') (.inr (h3 i hib))
    -- the rows are values of the tests
    have hops' : ∀ op ∈ (testLoop test (some p) 0 a s).1 ++ d2, OpSound test op := by
      have hall := evalRun_ops_sound (args := args) (order := a ++ b) (glob := glob) hok
      rw [hops] at hall
      intro op hop
      rcases hd with hd | ⟨d, f, c', hd, he⟩
      · exact hall op (hd.subset hop)
      · rw [he] at hop
        rcases List.mem_append.1 hop with hop | hop
        · exact hall op (hd.subset (List.mem_append_left _ hop))
        · rw [List.mem_singleton] at hop
          subst hop
          trivial
    have hok' := hok.applyOps hops'
    have hsnd : SoundRes test (loadRows (List.replicate args'.n none) t) :=
      loadRows_sound (soundRes_empty test args'.n) (hok'.ckpts _ _ (readCkpt_mem h2))
    have hv := hsnd i r' hr'
    rw [hti] at hv
    cases hv
    refine ⟨hr', ?_⟩
    simp only [seedsToTest, Bool.or_false]
    intro hmem
    have := (List.mem_filter.1 hmem).2
    rw [hr'] at this
    simp at this

/-! ## Cases -/

namespace EvalEx

/-- Seed 1 fails (it is logged), the others have a value. -/
def test (i : Nat) : Outcome Nat := if i = 1 then .logged else .value (10 * i)

/-- Four cases, a checkpoint every two tests. -/
def args : EvalArgs := ⟨4, true, some 2⟩

/-- The files after a first run, with the results in the order 2, 1, 0, 3, that is interrupted while it
writes the second checkpoint. -/
def crashed : Files Nat :=
  applyOps ⟨none, []⟩ [.write (.ckpt 0) (some [(2, 20)]), .write (.ckpt 1) none]

theorem crashed_reach : Reach test crashed := by
  refine Reach.run .start args [2, 1, 0, 3] [0, 1] _ (.inr ⟨[.write (.ckpt 0) (some [(2, 20)])],
    .ckpt 1, [(0, 0), (2, 20), (3, 30)], none, ?_, .inl rfl, rfl⟩)
  exact ⟨[.write .csv (some [(0, 0), (2, 20), (3, 30)]), .delete 0, .delete 1], rfl⟩

theorem crashed_load :
    loadResults args crashed = .ok ⟨[none, none, some 20, none], some (.ckpt 0), 0⟩ := rfl

example : seedsToTest (fun _ => false) (⟨[none, none, some 20, none], some (.ckpt 0), 0⟩ : EvalState Nat) =
    [0, 1, 3] := by decide

/-- Non-trivial case of `C86_report`, `C86_ends` and `C86_saved`: the run after the crash. -/
example : (evalRun test args [3, 0, 1] [1, 0] crashed).2 = .ok [(0, 0), (2, 20), (3, 30)] := rfl

example : expectedTable test 4 = [(0, 0), (2, 20), (3, 30)] := by decide

example : applyOps crashed (evalRun test args [3, 0, 1] [1, 0] crashed).1 =
    ⟨some (some [(0, 0), (2, 20), (3, 30)]), []⟩ := by
  refine C86_saved crashed_reach crashed_load (w := fun _ => false) ?_
    (df := [(0, 0), (2, 20), (3, 30)]) rfl (.inr (.inl (by simp))) (by decide)
  decide

/-- Non-trivial case of `C87_resume`: the seeds 3 and 0 have been collected, the run is interrupted while it
writes the table. -/
example : ∃ s', loadResults args (applyOps crashed
      [.write (.ckpt 1) (some [(0, 0), (2, 20), (3, 30)]), .write .csv none]) = .ok s' ∧
    ∀ i r, i < args.n → i < args.n → test i = .value r →
      i ∈ [3, 0] ∨ (∃ r', ([none, none, some 20, none] : List (Option Nat))[i]? = some (some r')) →
      s'.results[i]? = some (some r) ∧ i ∉ seedsToTest (fun _ => false) s' := by
  refine C87_resume crashed_reach (p := 2) (by decide) rfl rfl crashed_load (a := [3, 0]) (b := [1])
    (glob := [1, 0]) ?_ (by decide) (by decide) (.inr ⟨[.write (.ckpt 1)
      (some [(0, 0), (2, 20), (3, 30)])], .csv, some [(0, 0), (2, 20), (3, 30)], ?_, rfl⟩) ?_ (by simp)
    rfl
  · intro i hi e
    simp only [List.cons_append, List.nil_append, List.mem_cons, List.not_mem_nil, or_false] at hi
    rcases hi with rfl | rfl | rfl <;> simp [test]
  · exact ⟨[.delete 1, .delete 0], rfl⟩
  · exact ⟨[.write .csv none], rfl⟩

/-- Non-trivial case of `C86_not_saved`: the table has three rows of four cases; the run with six cases
reports five rows, the table is the same. -/
def complete : Files Nat := ⟨some (some [(0, 0), (2, 20), (3, 30)]), []⟩

theorem complete_reach : Reach test complete :=
  Reach.run .start ⟨4, true, none⟩ [0, 1, 2, 3] [] [.write .csv (some [(0, 0), (2, 20), (3, 30)])]
    (.inl List.prefix_rfl)

example : (evalRun test ⟨6, true, some 10⟩ [1, 4, 5] [] complete).2 =
    .ok [(0, 0), (2, 20), (3, 30), (4, 40), (5, 50)] := rfl

example : (applyOps complete (evalRun test ⟨6, true, some 10⟩ [1, 4, 5] [] complete).1).csv =
    some (some [(0, 0), (2, 20), (3, 30)]) :=
  (C86_not_saved complete_reach rfl (by simp [complete]) rfl
    (by rintro p ⟨⟩; simp)).1

end EvalEx

/-! ## Histories that lose work -/

/-- The table is written in place: a run interrupted while it writes the table, with no checkpoints, makes
the following runs raise, until the table is deleted by hand or `--no-resume` is given. -/
theorem C86_unreadable_table : ∃ (test : Nat → Outcome Nat) (F : Files Nat), Reach test F ∧
    ∀ (n : Nat) (period : Option Nat) (order glob : List Nat),
      evalRun test ⟨n, true, period⟩ order glob F = ([], .error .valueError) := by
  refine ⟨EvalEx.test, applyOps ⟨none, []⟩ [.write .csv none],
    Reach.run .start ⟨4, true, none⟩ [0, 1, 2, 3] [] _
      (.inr ⟨[], .csv, [(0, 0), (2, 20), (3, 30)], none, List.prefix_rfl, .inl rfl, rfl⟩), ?_⟩
  intro n period order glob
  rfl

/-- `--no-resume` numbers its checkpoints from zero and leaves the old ones: if it is interrupted, the next
run resumes from an old checkpoint, and the results of the interrupted run are lost.  Here two checkpoints
are left with seeds 0 and 2; the run with `--no-resume` collects seed 3 and writes its checkpoint; the next
run has no result for seed 3. -/
theorem C87_no_resume_loses : ∃ (F F' : Files Nat) (s : EvalState Nat), Reach EvalEx.test F ∧
    Interrupted (evalRun EvalEx.test ⟨4, false, some 1⟩ [3, 0, 1, 2] [] F).1
      [.write (.ckpt 0) (some [(3, 30)])] ∧
    F' = applyOps F [.write (.ckpt 0) (some [(3, 30)])] ∧
    loadResults ⟨4, true, some 1⟩ F' = .ok s ∧ 3 ∈ seedsToTest (fun _ => false) s := by
  refine ⟨applyOps ⟨none, []⟩ [.write (.ckpt 0) (some [(0, 0)]),
    .write (.ckpt 1) (some [(0, 0), (2, 20)])], _, ⟨[some 0, none, some 20, none], some (.ckpt 1), 1⟩,
    Reach.run .start ⟨4, true, some 1⟩ [0, 2, 1, 3] [] _ (.inl ⟨[
      .write (.ckpt 2) (some [(0, 0), (2, 20)]), .write (.ckpt 3) (some [(0, 0), (2, 20), (3, 30)]),
      .write .csv (some [(0, 0), (2, 20), (3, 30)])], rfl⟩),
    .inl ⟨[.write (.ckpt 1) (some [(0, 0), (3, 30)]), .write (.ckpt 2) (some [(0, 0), (3, 30)]),
      .write (.ckpt 3) (some [(0, 0), (2, 20), (3, 30)]),
      .write .csv (some [(0, 0), (2, 20), (3, 30)])], rfl⟩, rfl, rfl, by decide⟩

/-- Checkpoints are deleted in any order: a run interrupted after it wrote the whole table and deleted the
last checkpoint, but not an old one, makes the next run resume from the old checkpoint and not from the
table. -/
theorem C87_cleanup_loses : ∃ (F : Files Nat) (s : EvalState Nat), Reach EvalEx.test F ∧
    F.csv = some (some (expectedTable EvalEx.test 4)) ∧
    loadResults ⟨4, true, some 2⟩ F = .ok s ∧ 3 ∈ seedsToTest (fun _ => false) s := by
  refine ⟨applyOps ⟨none, []⟩ [.write (.ckpt 0) (some [(2, 20)]),
    .write (.ckpt 1) (some [(0, 0), (2, 20), (3, 30)]),
    .write .csv (some [(0, 0), (2, 20), (3, 30)]), .delete 1],
    ⟨[none, none, some 20, none], some (.ckpt 0), 0⟩,
    Reach.run .start ⟨4, true, some 2⟩ [2, 1, 0, 3] [1, 0] _ (.inl ⟨[.delete 0], rfl⟩), ?_, rfl,
    by decide⟩
  decide

/-- A checkpoint that is cut between two rows is readable and comes before the whole one with a smaller
number: the next run does not have the result of seed 2, which the older checkpoint has. -/
theorem C87_cut_loses : ∃ (F : Files Nat) (s : EvalState Nat), Reach EvalEx.test F ∧
    (0, some [(2, 20)]) ∈ F.ckpts ∧
    loadResults ⟨4, true, some 2⟩ F = .ok s ∧ 2 ∈ seedsToTest (fun _ => false) s := by
  refine ⟨applyOps ⟨none, []⟩ ([.write (.ckpt 0) (some [(2, 20)])] ++ [.write (.ckpt 1) (some [(0, 0)])]),
    ⟨[some 0, none, none, none], some (.ckpt 1), 1⟩,
    Reach.run .start ⟨4, true, some 2⟩ [2, 1, 0, 3] [] _ (.inr ⟨[.write (.ckpt 0) (some [(2, 20)])],
      .ckpt 1, [(0, 0), (2, 20), (3, 30)], some [(0, 0)], ?_, .inr ⟨_, rfl, ⟨[(2, 20), (3, 30)], rfl⟩⟩,
      rfl⟩), by decide, rfl, by decide⟩
  exact ⟨[.write .csv (some [(0, 0), (2, 20), (3, 30)])], rfl⟩

end Verif.Scripts
