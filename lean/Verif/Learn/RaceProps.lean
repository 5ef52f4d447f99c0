import Mathlib.Tactic.Common
import Mathlib.Data.List.Basic
import Verif.Learn.RaceModel
import Verif.Learn.Props

/-!
# Concurrent appends to a storage (C68)
-/

set_option autoImplicit false
set_option linter.unusedSectionVars false
set_option linter.unusedSimpArgs false
universe u

namespace Verif.Learn.Race

variable {V : Type u}

/-- The storage is initialised for a key: `cache_` exists and has the key. -/
def Shared.Has (s : Shared V) (key : String) : Prop := ∃ l, s.look key = .ok l

/-- References of the current dictionary are valid and lists are not shared between keys. -/
def Shared.WF (s : Shared V) : Prop :=
  (∀ d, s.cache = some d → d < s.dicts.length) ∧
  (∀ k l, s.look k = .ok l → l < s.lists.length) ∧
  ∀ k k' l, s.look k = .ok l → s.look k' = .ok l → k = k'

/-- The state of one call, given the reference `l` of its list and the list `L` itself. -/
def PcInv (t : Task V) (l : Nat) (L : List (Option V)) : PC → Prop
  | .p282 | .p284 | .p289 | .p290a => True
  | .p290b l' => l' = l
  | .p290c l' n => l' = l ∧ t.index + 1 ≤ L.length + n
  | .p292a => t.index < L.length
  | .p292b l' => l' = l ∧ t.index < L.length
  | .done => L[t.index]? = some (some t.value)
  | .p283 | .p285 | .err _ => False

/-- Invariant of the system. -/
structure Inv (tasks : List (Task V)) (s0 : Shared V) (S : Sys V) : Prop where
  len : S.pcs.length = tasks.length
  cache : S.shared.cache = s0.cache
  dicts : S.shared.dicts = s0.dicts
  nlists : S.shared.lists.length = s0.lists.length
  pc : ∀ (i : Nat) (t : Task V) (pc : PC) (l : Nat), tasks[i]? = some t → S.pcs[i]? = some pc →
    s0.look t.key = .ok l → PcInv t l (S.shared.list l) pc
  old : ∀ (k : String) (l : Nat), s0.look k = .ok l → ∀ j : Nat,
    (∀ t ∈ tasks, ¬ (t.key = k ∧ t.index = j)) →
    (j < (s0.list l).length → (S.shared.list l)[j]? = (s0.list l)[j]?) ∧
    ((s0.list l).length ≤ j → (S.shared.list l)[j]? = none ∨ (S.shared.list l)[j]? = some none)
  grow : ∀ l : Nat, (s0.list l).length ≤ (S.shared.list l).length

theorem look_congr (s s0 : Shared V) (h1 : s.cache = s0.cache) (h2 : s.dicts = s0.dicts)
    (k : String) : s.look k = s0.look k := by
  simp [Shared.look, Shared.dict, h1, h2]

theorem list_modify (s : Shared V) (l l' : Nat) (f : List (Option V) → List (Option V))
    (h : l < s.lists.length) :
    ({ s with lists := s.lists.modify l f } : Shared V).list l' =
      if l = l' then f (s.list l') else s.list l' := by
  simp only [Shared.list, List.getD_eq_getElem?_getD, List.getElem?_modify]
  by_cases he : l = l'
  · subst he
    simp [List.getElem?_eq_getElem h]
  · simp [he]

/-- The invariant of a call survives a change of the list that keeps its entries and lets it grow,
provided that the call is not done or its entry is kept. -/
theorem pcInv_mono (t : Task V) (l : Nat) (L L' : List (Option V)) (pc : PC)
    (hlen : L.length ≤ L'.length)
    (hkeep : L[t.index]? = some (some t.value) → L'[t.index]? = some (some t.value))
    (h : PcInv t l L pc) : PcInv t l L' pc := by
  cases pc <;> simp only [PcInv] at h ⊢ <;> first | trivial | exact h | skip
  · exact ⟨h.1, by omega⟩
  · omega
  · exact ⟨h.1, by omega⟩
  · exact hkeep h

theorem inv_start (tasks : List (Task V)) (s0 : Shared V) :
    Inv tasks s0 ⟨s0, List.replicate tasks.length .p282⟩ := by
  refine ⟨by simp, rfl, rfl, rfl, ?_, ?_, fun _ => le_rfl⟩
  · intro i t pc l _ hpc _
    simp only [List.getElem?_replicate] at hpc
    split at hpc
    · cases hpc; trivial
    · simp at hpc
  · intro k l _ j _
    exact ⟨fun _ => rfl, fun h => Or.inl (List.getElem?_eq_none h)⟩

theorem inv_set_pc (tasks : List (Task V)) (s0 : Shared V) (S : Sys V) (h : Inv tasks s0 S)
    (i : Nat) (t : Task V) (l : Nat) (ht : tasks[i]? = some t) (hl : s0.look t.key = .ok l) (pc : PC)
    (hpc : PcInv t l (S.shared.list l) pc) : Inv tasks s0 ⟨S.shared, S.pcs.set i pc⟩ := by
  refine ⟨by simp [h.len], h.cache, h.dicts, h.nlists, ?_, h.old, h.grow⟩
  intro j u pc' l' hj hpc' hl'
  simp only [List.getElem?_set] at hpc'
  by_cases hij : i = j
  · subst hij
    rw [ht] at hj
    cases hj
    rw [hl] at hl'
    cases hl'
    split at hpc'
    · simp at hpc'
      obtain ⟨_, rfl⟩ := hpc'
      exact hpc
    · rename_i hne; exact absurd rfl hne
  · simp only [hij, if_false] at hpc'
    exact h.pc j u pc' l' hj hpc' hl'

theorem inv_step (tasks : List (Task V)) (s0 : Shared V) (hwf : s0.WF)
    (hhas : ∀ t ∈ tasks, s0.Has t.key)
    (hdist : ∀ (i j : Nat) (t u : Task V), tasks[i]? = some t → tasks[j]? = some u →
      t.key = u.key → t.index = u.index → i = j)
    (S : Sys V) (h : Inv tasks s0 S) (i : Nat) : Inv tasks s0 (S.step tasks i) := by
  unfold Sys.step
  cases ht : tasks[i]? with
  | none => exact h
  | some t =>
    cases hpc : S.pcs[i]? with
    | none => exact h
    | some pc =>
      simp only
      obtain ⟨l, hl⟩ := hhas t (List.mem_of_getElem? ht)
      have hl' : S.shared.look t.key = .ok l := by rw [look_congr _ _ h.cache h.dicts, hl]
      have hll : l < S.shared.lists.length := by rw [h.nlists]; exact hwf.2.1 _ _ hl
      have hc : ∃ d, s0.cache = some d ∧ (s0.dict d).get? t.key = some l := by
        simp only [Shared.look] at hl
        cases hc : s0.cache with
        | none => simp [hc] at hl
        | some d =>
          cases hg : (s0.dict d).get? t.key with
          | none => simp [hc, hg] at hl
          | some l' => simp [hc, hg] at hl; exact ⟨d, rfl, by simp [hg, hl]⟩
      obtain ⟨d, hd, hg⟩ := hc
      have hinv := h.pc i t pc l ht hpc hl
      -- a step that changes only the program counter
      have pure : ∀ pc' : PC, PcInv t l (S.shared.list l) pc' →
          Inv tasks s0 ⟨S.shared, S.pcs.set i pc'⟩ :=
        fun pc' hp => inv_set_pc tasks s0 S h i t l ht hl pc' hp
      -- a step that changes the list
      have change : ∀ (f : List (Option V) → List (Option V)) (pc' : PC),
          (S.shared.list l).length ≤ (f (S.shared.list l)).length →
          (∀ j : Nat, j ≠ t.index → j < (S.shared.list l).length →
            (f (S.shared.list l))[j]? = (S.shared.list l)[j]?) →
          (∀ j : Nat, j ≠ t.index → (S.shared.list l).length ≤ j →
            (f (S.shared.list l))[j]? = none ∨ (f (S.shared.list l))[j]? = some none) →
          ((S.shared.list l)[t.index]? = some (some t.value) →
            (f (S.shared.list l))[t.index]? = some (some t.value)) →
          PcInv t l (f (S.shared.list l)) pc' →
          Inv tasks s0 ⟨{ S.shared with lists := S.shared.lists.modify l f }, S.pcs.set i pc'⟩ := by
        intro f pc' hf1 hf2 hf3 hf4 hp
        refine ⟨by simp [h.len], h.cache, h.dicts, by simp [h.nlists], ?_, ?_, ?_⟩
        · intro j u pc'' l'' hj hpc'' hl''
          simp only [list_modify _ _ _ _ hll]
          simp only [List.getElem?_set] at hpc''
          by_cases hij : i = j
          · subst hij
            rw [ht] at hj
            cases hj
            rw [hl] at hl''
            cases hl''
            simp only [if_true] at hpc'' ⊢
            split at hpc''
            · cases hpc''; exact hp
            · simp at hpc''
          · simp only [hij, if_false] at hpc''
            have hu := h.pc j u pc'' l'' hj hpc'' hl''
            split
            · rename_i hee
              subst hee
              have hkey : u.key = t.key := hwf.2.2 _ _ _ hl'' hl
              have hidx : u.index ≠ t.index :=
                fun hx => hij (hdist i j t u ht hj hkey.symm hx.symm)
              refine pcInv_mono u l _ _ pc'' hf1 ?_ hu
              intro hk
              rw [hf2 u.index hidx (List.getElem?_eq_some_iff.1 hk).1, hk]
            · exact hu
        · intro k l'' hl'' j hj
          simp only [list_modify _ _ _ _ hll]
          obtain ⟨o1, o2⟩ := h.old k l'' hl'' j hj
          split
          · rename_i hee
            subst hee
            have hkey : t.key = k := hwf.2.2 _ _ _ hl hl''
            have hidx : j ≠ t.index := by
              rintro rfl
              exact hj t (List.mem_of_getElem? ht) ⟨hkey, rfl⟩
            constructor
            · intro hlt
              rw [hf2 j hidx (lt_of_lt_of_le hlt (h.grow l)), o1 hlt]
            · intro hge
              by_cases hlt : j < (S.shared.list l).length
              · rw [hf2 j hidx hlt]; exact o2 hge
              · exact hf3 j hidx (by omega)
          · exact ⟨o1, o2⟩
        · intro l''
          simp only [list_modify _ _ _ _ hll]
          split
          · rename_i hee
            subst hee
            exact (h.grow l).trans hf1
          · exact h.grow l''
      cases pc with
      | p282 =>
        simp only [step]
        rw [h.cache, hd]
        exact pure _ trivial
      | p283 => exact hinv.elim
      | p284 =>
        simp only [step, h.cache, hd]
        have : (S.shared.dict d).has t.key = true := by
          have : S.shared.dict d = s0.dict d := by simp [Shared.dict, h.dicts]
          rw [this]; simp [Dict.has, hg]
        simp only [this, if_true]
        exact pure _ trivial
      | p285 => exact hinv.elim
      | p289 =>
        simp only [step, hl']
        split
        · exact pure _ trivial
        · rename_i hlt
          exact pure _ (by simp only [PcInv]; omega)
      | p290a =>
        simp only [step, hl']
        exact pure _ rfl
      | p290b l' =>
        simp only [step, hl']
        exact pure _ ⟨hinv, by omega⟩
      | p290c l' n =>
        obtain ⟨rfl, hn⟩ := hinv
        simp only [step]
        refine change _ _ (by simp) ?_ ?_ ?_ ?_
        · intro j _ hj
          rw [List.getElem?_append_left hj]
        · intro j _ hj
          rw [List.getElem?_append_right hj, List.getElem?_replicate]
          split <;> simp
        · intro hk
          rw [List.getElem?_append_left (List.getElem?_eq_some_iff.1 hk).1, hk]
        · simp only [PcInv, List.length_append, List.length_replicate]; omega
      | p292a =>
        simp only [step, hl']
        exact pure _ ⟨rfl, hinv⟩
      | p292b l' =>
        obtain ⟨rfl, hn⟩ := hinv
        simp only [step, hn, if_true]
        refine change _ _ (by simp) ?_ ?_ ?_ ?_
        · intro j hj _
          rw [List.getElem?_set_ne (Ne.symm hj)]
        · intro j hj hge
          rw [List.getElem?_set_ne (Ne.symm hj)]
          exact Or.inl (List.getElem?_eq_none hge)
        · intro hk
          simp [List.getElem?_set, hn]
        · simp [PcInv, List.getElem?_set, hn]
      | done =>
        simp only [step]
        exact pure _ hinv
      | err e => exact hinv.elim

theorem inv_fold (tasks : List (Task V)) (s0 : Shared V) (hwf : s0.WF)
    (hhas : ∀ t ∈ tasks, s0.Has t.key)
    (hdist : ∀ (i j : Nat) (t u : Task V), tasks[i]? = some t → tasks[j]? = some u →
      t.key = u.key → t.index = u.index → i = j) (sched : List Nat) : ∀ (S : Sys V), Inv tasks s0 S →
      Inv tasks s0 (sched.foldl (Sys.step tasks) S) := by
  induction sched with
  | nil => intro S h; exact h
  | cons i sched ih => intro S h; exact ih _ (inv_step tasks s0 hwf hhas hdist S h i)

theorem inv_run (tasks : List (Task V)) (s0 : Shared V) (hwf : s0.WF)
    (hhas : ∀ t ∈ tasks, s0.Has t.key)
    (hdist : ∀ (i j : Nat) (t u : Task V), tasks[i]? = some t → tasks[j]? = some u →
      t.key = u.key → t.index = u.index → i = j) (sched : List Nat) :
    Inv tasks s0 (Sys.run tasks s0 sched) := by
  exact inv_fold tasks s0 hwf hhas hdist sched _ (inv_start tasks s0)

/-- Steps still to be made. -/
def rank : PC → Nat
  | .p282 => 10 | .p283 => 9 | .p284 => 8 | .p285 => 7 | .p289 => 6 | .p290a => 5 | .p290b _ => 4
  | .p290c _ _ => 3 | .p292a => 2 | .p292b _ => 1 | .done => 0 | .err _ => 0

theorem rank_step (t : Task V) (s : Shared V) (pc : PC) : rank (step t s pc).2 ≤ rank pc - 1 := by
  cases pc with
  | p282 => simp only [step]; split <;> simp [rank]
  | p283 => simp [step, rank]
  | p284 => simp only [step]; split <;> [skip; split] <;> simp [rank]
  | p285 => simp only [step]; split <;> simp [rank]
  | p289 => simp only [step]; split <;> [skip; split] <;> simp [rank]
  | p290a => simp only [step]; split <;> simp [rank]
  | p290b l => simp only [step]; split <;> simp [rank]
  | p290c l n => simp [step, rank]
  | p292a => simp only [step]; split <;> simp [rank]
  | p292b l => simp only [step]; split <;> simp [rank]
  | done => simp [step, rank]
  | err e => simp [step, rank]

theorem rank_run (tasks : List (Task V)) (i : Nat) (t : Task V) (ht : tasks[i]? = some t) :
    ∀ (sched : List Nat) (S : Sys V) (pc : PC), S.pcs[i]? = some pc →
      ∃ pc', (sched.foldl (Sys.step tasks) S).pcs[i]? = some pc' ∧
        rank pc' ≤ rank pc - sched.count i := by
  intro sched
  induction sched with
  | nil => intro S pc h; exact ⟨pc, h, by simp⟩
  | cons j sched ih =>
    intro S pc h
    by_cases hij : j = i
    · subst hij
      have h' : (S.step tasks j).pcs[j]? = some (step t S.shared pc).2 := by
        have hlt : j < S.pcs.length := (List.getElem?_eq_some_iff.1 h).1
        have e : S.pcs[j] = pc := by
          rw [List.getElem?_eq_getElem hlt] at h; exact Option.some.inj h
        simp [Sys.step, ht, h, List.getElem?_set, hlt, e]
      obtain ⟨pc', h1, h2⟩ := ih _ _ h'
      refine ⟨pc', h1, ?_⟩
      have := rank_step t S.shared pc
      rw [List.count_cons_self]
      omega
    · have h' : (S.step tasks j).pcs[i]? = some pc := by
        unfold Sys.step
        split
        · simp [List.getElem?_set, hij, h]
        · exact h
      obtain ⟨pc', h1, h2⟩ := ih _ _ h'
      refine ⟨pc', h1, ?_⟩
      rw [List.count_cons_of_ne hij]
      exact h2

/-- C68: once the storage has been initialised for the keys in use, any number of concurrent appends
at distinct places may be interleaved in any way: no call raises, every call that has returned has
stored its value at its place, all other places keep their value or are filled with `None`, and
every call returns after at most ten steps of its own. -/
theorem C68_concurrent (tasks : List (Task V)) (s0 : Shared V) (hwf : s0.WF)
    (hhas : ∀ t ∈ tasks, s0.Has t.key)
    (hdist : ∀ (i j : Nat) (t u : Task V), tasks[i]? = some t → tasks[j]? = some u →
      t.key = u.key → t.index = u.index → i = j) (sched : List Nat) :
    (∀ (i : Nat) (e : PyErr), (Sys.run tasks s0 sched).pcs[i]? ≠ some (.err e)) ∧
    (∀ (i : Nat) (t : Task V), tasks[i]? = some t → (Sys.run tasks s0 sched).pcs[i]? = some .done →
      ∃ L, (Sys.run tasks s0 sched).shared.getitem t.key = .ok L ∧
        L[t.index]? = some (some t.value)) ∧
    (∀ (k : String) (L0 : List (Option V)), s0.getitem k = .ok L0 →
      ∃ L, (Sys.run tasks s0 sched).shared.getitem k = .ok L ∧ L0.length ≤ L.length ∧
        ∀ j : Nat, (∀ t ∈ tasks, ¬ (t.key = k ∧ t.index = j)) →
          (j < L0.length → L[j]? = L0[j]?) ∧ ∀ v, L0.length ≤ j → L[j]? ≠ some (some v)) ∧
    (∀ (i : Nat), i < tasks.length → 10 ≤ sched.count i →
      (Sys.run tasks s0 sched).pcs[i]? = some .done) := by
  have h := inv_run tasks s0 hwf hhas hdist sched
  have hlook : ∀ k, (Sys.run tasks s0 sched).shared.look k = s0.look k :=
    look_congr _ _ h.cache h.dicts
  have noerr : ∀ (i : Nat) (e : PyErr), (Sys.run tasks s0 sched).pcs[i]? ≠ some (.err e) := by
    intro i e he
    have hlt : i < tasks.length := by rw [← h.len]; exact (List.getElem?_eq_some_iff.1 he).1
    obtain ⟨l, hl⟩ := hhas _ (List.getElem_mem hlt)
    exact h.pc i _ _ l (List.getElem?_eq_getElem hlt) he hl
  refine ⟨noerr, ?_, ?_, ?_⟩
  · intro i t ht hd
    obtain ⟨l, hl⟩ := hhas t (List.mem_of_getElem? ht)
    refine ⟨_, by simp only [Shared.getitem, hlook, hl], h.pc i t _ l ht hd hl⟩
  · intro k L0 hk
    simp only [Shared.getitem] at hk ⊢
    rw [hlook]
    cases hl : s0.look k with
    | error e => simp [hl] at hk
    | ok l =>
      simp only [hl, Except.ok.injEq] at hk
      subst hk
      refine ⟨_, rfl, h.grow l, ?_⟩
      intro j hj
      obtain ⟨o1, o2⟩ := h.old k l hl j hj
      refine ⟨o1, ?_⟩
      intro v hge hv
      rcases o2 hge with h' | h' <;> rw [h'] at hv <;> simp at hv
  · intro i hi hc
    obtain ⟨pc', h1, h2⟩ := rank_run tasks i _ (List.getElem?_eq_getElem hi) sched
      ⟨s0, List.replicate tasks.length .p282⟩ .p282 (by simp [List.getElem?_replicate, hi])
    have h3 : rank pc' = 0 := by
      have : rank PC.p282 = 10 := rfl
      omega
    cases pc' <;> simp only [rank] at h3 <;> try omega
    · exact h1
    · exact absurd h1 (noerr i _)

/-! ### Appends one after the other -/

/-- A call alone, from line 289 on, in an initialised storage. -/
theorem solo_from_289 (t : Task V) (s1 : Shared V) (hwf : s1.WF) (hhas : s1.Has t.key) (n : Nat)
    (hn : 6 ≤ n) (pc : PC) (hpc : pc = .p289 ∨ pc = .p284) (hn' : pc = .p284 → 8 ≤ n) :
    let S := (List.replicate n 0).foldl (Sys.step [t]) ⟨s1, [pc]⟩
    S.pcs = [.done] ∧ Inv [t] s1 S := by
  intro S
  have hinit : Inv [t] s1 ⟨s1, [pc]⟩ := by
    refine ⟨rfl, rfl, rfl, rfl, ?_, ?_, fun _ => le_rfl⟩
    · intro i u pc' l hu hp _
      cases i with
      | zero =>
        simp only [List.getElem?_cons_zero, Option.some.injEq] at hp
        subst hp
        rcases hpc with rfl | rfl <;> trivial
      | succ i => simp at hp
    · intro k l _ j _
      exact ⟨fun _ => rfl, fun h => Or.inl (List.getElem?_eq_none h)⟩
  have hinv := inv_fold [t] s1 hwf (by simpa using hhas)
    (by
      intro i j u v hi hj _ _
      have h1 := (List.getElem?_eq_some_iff.1 hi).1
      have h2 := (List.getElem?_eq_some_iff.1 hj).1
      simp at h1 h2
      omega) (List.replicate n 0) _ hinit
  refine ⟨?_, hinv⟩
  obtain ⟨pc', h1, h2⟩ := rank_run [t] 0 t rfl (List.replicate n 0) ⟨s1, [pc]⟩ pc rfl
  rw [List.count_replicate_self] at h2
  have h3 : rank pc' = 0 := by
    rcases hpc with rfl | rfl
    · have : rank PC.p289 = 6 := rfl
      omega
    · have : rank PC.p284 = 8 := rfl
      have := hn' rfl
      omega
  have hlen : S.pcs.length = 1 := hinv.len
  have hd : pc' = .done := by
    cases pc' <;> simp only [rank] at h3 <;> try omega
    · rfl
    · obtain ⟨l, hl⟩ := hhas
      exact (hinv.pc 0 t _ l rfl h1 hl).elim
  subst hd
  have hS : S.pcs[0]? = some PC.done := h1
  match hp : S.pcs with
  | [] => rw [hp] at hlen; simp at hlen
  | [a] => rw [hp] at hS; simpa using hS
  | a :: b :: l => rw [hp] at hlen; simp at hlen

/-- Effect of line 285. -/
theorem look_new (s : Shared V) (d : Nat) (hc : s.cache = some d) (hd : d < s.dicts.length)
    (key k : String) :
    ({ s with dicts := s.dicts.modify d fun x => Dict.set x key s.lists.length,
              lists := s.lists ++ [[]] } : Shared V).look k =
      if k = key then .ok s.lists.length else s.look k := by
  have e : (s.dicts.modify d fun x => Dict.set x key s.lists.length).getD d [] =
      Dict.set (s.dicts.getD d []) key s.lists.length := by
    simp [List.getD_eq_getElem?_getD, List.getElem?_modify, List.getElem?_eq_getElem hd]
  simp only [Shared.look, hc, Shared.dict, e, Dict.get?_set]
  by_cases h : k = key <;> simp [h]

/-- A new list for a key that has none. -/
theorem wf_new (s : Shared V) (hwf : s.WF) (d : Nat) (hc : s.cache = some d)
    (key : String) (hk : ¬ s.Has key) :
    let s1 : Shared V := { s with dicts := s.dicts.modify d fun x => Dict.set x key s.lists.length,
                                  lists := s.lists ++ [[]] }
    s1.WF ∧ s1.Has key ∧ s1.getitem key = .ok [] ∧ ∀ k, k ≠ key → s1.getitem k = s.getitem k := by
  intro s1
  have hd := hwf.1 d hc
  have hl := look_new s d hc hd key
  refine ⟨⟨?_, ?_, ?_⟩, ⟨_, by rw [hl, if_pos rfl]⟩, ?_, ?_⟩
  · intro d' hd'
    have : s.cache = some d' := hd'
    rw [hc] at this
    cases this
    simpa [s1] using hd
  · intro k l h
    rw [hl] at h
    split at h
    · cases h; simp [s1]
    · have := hwf.2.1 k l h
      simp only [s1, List.length_append, List.length_singleton]; omega
  · intro k k' l h h'
    rw [hl] at h h'
    split at h <;> split at h'
    · rw [‹k = key›, ‹k' = key›]
    · cases h
      have := hwf.2.1 _ _ h'
      omega
    · cases h'
      have := hwf.2.1 _ _ h
      omega
    · exact hwf.2.2 _ _ _ h h'
  · simp only [Shared.getitem, s1, hl, if_true]
    simp [Shared.list]
  · intro k hne
    simp only [Shared.getitem, s1, hl, if_neg hne]
    cases h : s.look k with
    | error e => rfl
    | ok l =>
      have := hwf.2.1 _ _ h
      simp [Shared.list, List.getD_eq_getElem?_getD, List.getElem?_append_left this]

/-- C68: an append that runs alone, on any storage that is new or was used by appends before,
returns, stores its value, keeps all other keys, and leaves the storage initialised for its key (so
that `C68_concurrent` applies afterwards). -/
theorem C68_solo (t : Task V) (s : Shared V) (hwf : s.WF) :
    let S := Sys.run [t] s (List.replicate 11 0)
    S.pcs = [.done] ∧ S.shared.WF ∧ S.shared.Has t.key ∧ (∀ k, s.Has k → S.shared.Has k) ∧
      (∃ L, S.shared.getitem t.key = .ok L ∧ L[t.index]? = some (some t.value)) ∧
      ∀ k, k ≠ t.key → (S.shared.getitem k).toOption = (s.getitem k).toOption := by
  intro S
  -- what follows from a good state in which the call has reached line 289 or 284
  have finish : ∀ (s1 : Shared V) (n : Nat) (pc : PC), s1.WF → s1.Has t.key →
      (∀ k, s.Has k → s1.Has k) → (∀ k, k ≠ t.key → (s1.getitem k).toOption = (s.getitem k).toOption) →
      6 ≤ n → (pc = .p289 ∨ pc = .p284) → (pc = .p284 → 8 ≤ n) →
      let S := (List.replicate n 0).foldl (Sys.step [t]) ⟨s1, [pc]⟩
      S.pcs = [.done] ∧ S.shared.WF ∧ S.shared.Has t.key ∧ (∀ k, s.Has k → S.shared.Has k) ∧
        (∃ L, S.shared.getitem t.key = .ok L ∧ L[t.index]? = some (some t.value)) ∧
        ∀ k, k ≠ t.key → (S.shared.getitem k).toOption = (s.getitem k).toOption := by
    intro s1 n pc hwf1 hhas hmore hsame hn hpc hn' S
    obtain ⟨h1, h2⟩ := solo_from_289 t s1 hwf1 hhas n hn pc hpc hn'
    have hlook : ∀ k, S.shared.look k = s1.look k := look_congr _ _ h2.cache h2.dicts
    refine ⟨h1, ⟨?_, ?_, ?_⟩, ?_, ?_, ?_, ?_⟩
    · intro d hd
      have e1 : S.shared.dicts = s1.dicts := h2.dicts
      have e2 : S.shared.cache = s1.cache := h2.cache
      rw [e1]
      exact hwf1.1 d (by rw [← e2]; exact hd)
    · intro k l h
      have e1 : S.shared.lists.length = s1.lists.length := h2.nlists
      rw [e1]
      exact hwf1.2.1 k l (by rw [← hlook]; exact h)
    · intro k k' l h h'
      exact hwf1.2.2 k k' l (by rw [← hlook]; exact h) (by rw [← hlook]; exact h')
    · obtain ⟨l, hl⟩ := hhas
      exact ⟨l, by rw [hlook, hl]⟩
    · intro k hk
      obtain ⟨l, hl⟩ := hmore k hk
      exact ⟨l, by rw [hlook, hl]⟩
    · obtain ⟨l, hl⟩ := hhas
      refine ⟨S.shared.list l, by simp only [Shared.getitem, hlook, hl], ?_⟩
      exact h2.pc 0 t .done l rfl (by show S.pcs[0]? = _; rw [h1]; rfl) hl
    · intro k hk
      rw [← hsame k hk]
      simp only [Shared.getitem, hlook]
      cases hl : s1.look k with
      | error e => rfl
      | ok l =>
        simp only [Except.toOption, Option.some.injEq]
        apply List.ext_getElem?
        intro j
        have hno : ∀ u ∈ [t], ¬ (u.key = k ∧ u.index = j) := by
          intro u hu h
          rw [List.mem_singleton.1 hu] at h
          exact hk h.1.symm
        obtain ⟨o1, _⟩ := h2.old k l hl j hno
        by_cases hj : j < (s1.list l).length
        · exact o1 hj
        · rw [List.getElem?_eq_none (not_lt.1 hj)]
          -- the list of another key does not grow
          have hgrow : (S.shared.list l).length = (s1.list l).length := by
            have hne : ∀ l', s1.look t.key = .ok l' → l' ≠ l := by
              rintro l' hl' rfl
              exact hk (hwf1.2.2 _ _ _ hl hl')
            have gen : ∀ (n : Nat) (S' : Sys V), Inv [t] s1 S' →
                ((List.replicate n 0).foldl (Sys.step [t]) S').shared.list l = S'.shared.list l := by
              intro n
              induction n with
              | zero => intro S' _; rfl
              | succ n ih =>
                intro S' hS'
                rw [List.replicate_succ, List.foldl_cons, ih _ (inv_step [t] s1 hwf1
                  (by simpa using hhas) (by
                    intro i j u v hi hj _ _
                    have h1 := (List.getElem?_eq_some_iff.1 hi).1
                    have h2 := (List.getElem?_eq_some_iff.1 hj).1
                    simp at h1 h2
                    omega) S' hS' 0)]
                obtain ⟨lt, hlt⟩ := hhas
                have hne' := hne lt hlt
                unfold Sys.step
                cases hp : S'.pcs[0]? with
                | none => simp
                | some pc =>
                  simp only [List.getElem?_cons_zero]
                  have hi := hS'.pc 0 t pc lt rfl hp hlt
                  have hltl : lt < S'.shared.lists.length := by
                    rw [hS'.nlists]; exact hwf1.2.1 _ _ hlt
                  cases pc with
                  | p290c l' m =>
                    simp only [PcInv] at hi
                    simp only [step, hi.1, list_modify _ _ _ _ hltl, hne', if_false]
                  | p292b l' =>
                    simp only [PcInv] at hi
                    simp only [step, hi.1, hi.2, if_true, list_modify _ _ _ _ hltl, hne', if_false]
                  | p283 => exact hi.elim
                  | p285 => exact hi.elim
                  | err e => exact hi.elim
                  | p284 => simp only [step]; split <;> rfl
                  | p289 => simp only [step]; split <;> rfl
                  | p290a => simp only [step]; split <;> rfl
                  | p290b l' => simp only [step]; split <;> rfl
                  | p292a => simp only [step]; split <;> rfl
                  | p282 => rfl
                  | done => rfl
            have hinit : Inv [t] s1 ⟨s1, [pc]⟩ := by
              refine ⟨rfl, rfl, rfl, rfl, ?_, ?_, fun _ => le_rfl⟩
              · intro i u pc' l hu hp _
                cases i with
                | zero =>
                  simp only [List.getElem?_cons_zero, Option.some.injEq] at hp
                  subst hp
                  rcases hpc with rfl | rfl <;> trivial
                | succ i => simp at hp
              · intro k l _ j _
                exact ⟨fun _ => rfl, fun h => Or.inl (List.getElem?_eq_none h)⟩
            rw [gen n _ hinit]
          exact List.getElem?_eq_none (by rw [hgrow]; omega)
  cases hc : s.cache with
  | some d =>
    by_cases hk : s.Has t.key
    · have e : S = (List.replicate 10 0).foldl (Sys.step [t]) ⟨s, [.p284]⟩ := by
        simp [S, Sys.run, List.replicate_succ, Sys.step, step, hc]
      rw [e]
      exact finish s 10 .p284 hwf hk (fun _ h => h) (fun _ _ => rfl) (by omega) (Or.inr rfl)
        (fun _ => by omega)
    · have hno : (s.dict d).has t.key = false := by
        cases hg : (s.dict d).get? t.key with
        | none => simp [Dict.has, hg]
        | some l => exact absurd ⟨l, by simp [Shared.look, hc, hg]⟩ hk
      have e : S = (List.replicate 8 0).foldl (Sys.step [t])
          ⟨{ s with dicts := s.dicts.modify d fun x => Dict.set x t.key s.lists.length,
                    lists := s.lists ++ [[]] }, [.p289]⟩ := by
        simp [S, Sys.run, List.replicate_succ, Sys.step, step, hc, hno]
      rw [e]
      obtain ⟨w1, w2, w3, w4⟩ := wf_new s hwf d hc t.key hk
      refine finish _ 8 .p289 w1 w2 ?_ (fun k h => by rw [w4 k h]) (by omega) (Or.inl rfl)
        (fun h => by simp at h)
      intro k hkk
      by_cases hkt : k = t.key
      · rw [hkt]; exact w2
      · obtain ⟨l, hl⟩ := hkk
        exact ⟨l, by rw [look_new s d hc (hwf.1 d hc), if_neg hkt, hl]⟩
  | none =>
    have hnol : ∀ k, ¬ s.Has k := by
      rintro k ⟨l, hl⟩
      simp [Shared.look, hc] at hl
    set s' : Shared V := { s with cache := some s.dicts.length, dicts := s.dicts ++ [[]] } with hs'
    have hl' : ∀ k, s'.look k = .error .keyError := by
      intro k
      simp [hs', Shared.look, Shared.dict, Dict.get?]
    have hwf' : s'.WF := by
      refine ⟨?_, ?_, ?_⟩
      · intro d hd
        simp only [hs', Option.some.injEq] at hd ⊢
        simp [← hd]
      · intro k l h; rw [hl'] at h; simp at h
      · intro k k' l h; rw [hl'] at h; simp at h
    have hc' : s'.cache = some s.dicts.length := rfl
    have hno' : (s'.dict s.dicts.length).has t.key = false := by
      simp [hs', Shared.dict, Dict.has, Dict.get?]
    have hk' : ¬ s'.Has t.key := by
      rintro ⟨l, hl⟩; rw [hl'] at hl; simp at hl
    obtain ⟨w1, w2, w3, w4⟩ := wf_new s' hwf' _ hc' t.key hk'
    have e : S = (List.replicate 7 0).foldl (Sys.step [t])
          ⟨{ s' with dicts := s'.dicts.modify s.dicts.length fun x => Dict.set x t.key s'.lists.length,
                     lists := s'.lists ++ [[]] }, [.p289]⟩ := by
      have e1 : S = (List.replicate 9 0).foldl (Sys.step [t]) ⟨s', [.p284]⟩ := by
        simp [S, Sys.run, List.replicate_succ, Sys.step, step, hc, hs']
      rw [e1]
      simp [List.replicate_succ, Sys.step, step, hc', hno']
    rw [e]
    refine finish _ 7 .p289 w1 w2 (fun k h => absurd h (hnol k)) ?_ (by omega) (Or.inl rfl)
      (fun h => by simp at h)
    intro k hkk
    rw [w4 k hkk]
    have h0 : s.look k = .error .attributeError := by simp [Shared.look, hc]
    simp only [Shared.getitem, hl', h0]

/-- A new storage is in order. -/
theorem C68_empty : (Shared.empty : Shared V).WF ∧ ∀ k, ¬ (Shared.empty : Shared V).Has k := by
  refine ⟨⟨?_, ?_, ?_⟩, ?_⟩
  · intro d hd; simp [Shared.empty] at hd
  · intro k l h; simp [Shared.empty, Shared.look] at h
  · intro k k' l h; simp [Shared.empty, Shared.look] at h
  · rintro k ⟨l, hl⟩; simp [Shared.empty, Shared.look] at hl

/-- Two appends after an initial one, fully interleaved. -/
example : let s0 := (Sys.run [⟨"decision", true, 0⟩] Shared.empty (List.replicate 11 0)).shared
    let S := Sys.run [⟨"decision", false, 2⟩, ⟨"decision", true, 1⟩] s0
      [0, 1, 0, 1, 0, 1, 0, 1, 0, 1, 0, 1, 0, 1, 0, 1, 0, 1, 0, 1, 0, 1]
    (S.shared.getitem "decision").toOption = some [some true, some true, some false, none] ∧
      S.pcs = [.done, .done] := by
  decide +kernel

/-! ### What goes wrong without initialisation -/

/-- Finding: on a new storage two concurrent appends can lose a value although both return. -/
theorem C68_race_lost :
    let S := Sys.run [⟨"decision", true, 0⟩, ⟨"decision", false, 1⟩] Shared.empty
      (0 :: List.replicate 11 1 ++ List.replicate 11 0)
    S.pcs = [.done, .done] ∧ (S.shared.getitem "decision").toOption = some [some true] := by
  decide +kernel

/-- Finding: or one of them raises a `KeyError`, which makes the whole fit fail. -/
theorem C68_race_raises :
    let S := Sys.run [⟨"decision", true, 0⟩, ⟨"decision", false, 1⟩] Shared.empty
      [0, 1, 0, 0, 0, 1, 0]
    S.pcs[0]? = some (.err .keyError) := by
  decide +kernel

/-- Finding: even on an initialised storage the list can become longer than needed. -/
theorem C68_race_surplus :
    let s0 := (Sys.run [⟨"decision", true, 0⟩] Shared.empty (List.replicate 11 0)).shared
    let S := Sys.run [⟨"decision", false, 2⟩, ⟨"decision", true, 1⟩] s0
      ([0, 1, 0, 1, 0, 1, 0, 1, 0, 1] ++ List.replicate 6 0 ++ List.replicate 6 1)
    (S.shared.getitem "decision").toOption.map List.length = some 4 := by
  decide +kernel

end Verif.Learn.Race
