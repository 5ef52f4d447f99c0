import Verif.Widgets.TkModel
import Mathlib.Data.List.Basic
import Mathlib.Tactic.Common
import Mathlib.Order.Basic

/-!
# C111-C114, C116: widget trees, patching, wrapped classes, grids and shared attributes
-/

set_option autoImplicit false
set_option linter.unusedSectionVars false
set_option linter.unusedSimpArgs false

namespace Verif.Tk

/-! ## C111: `widget_children` -/

section Children

variable {W : Type}

/-- Spec: the widget reached from `t` by taking child number `i` for each number `i` of the path. -/
def Tree.sub : Tree W → List Nat → Option (Tree W)
  | t, [] => some t
  | t, i :: p =>
    match t.children[i]? with
    | none => none
    | some c => c.sub p

mutual
/-- The paths in the order of `widgetChildren`. -/
def paths (inc : Bool) : Tree W → List (List Nat)
  | .node _ l => (if inc then [[]] else []) ++ pathsOf 0 l

/-- The paths that begin with child `i` or a later one. -/
def pathsOf (i : Nat) : List (Tree W) → List (List Nat)
  | [] => []
  | t :: l => (paths true t).map (i :: ·) ++ pathsOf (i + 1) l
end

mutual
theorem paths_mem (t : Tree W) (inc : Bool) (p : List Nat) :
    p ∈ paths inc t ↔ (t.sub p).isSome ∧ (p = [] → inc = true) := by
  match t with
  | .node w l =>
    have h := pathsOf_mem l 0 p
    rw [paths, List.mem_append, h]
    cases p with
    | nil => cases inc <;> simp [Tree.sub]
    | cons j q =>
      have h0 : ∀ inc : Bool, (j :: q) ∉ (if inc = true then [([] : List Nat)] else []) := by
        intro inc; cases inc <;> simp
      rw [Tree.sub]
      simp only [h0, false_or, Tree.children, reduceCtorEq, false_implies, and_true, Nat.zero_le, true_and, Nat.sub_zero]
      constructor
      · rintro ⟨j', q', hp, t', ht, hs⟩
        simp only [List.cons.injEq] at hp
        obtain ⟨h1, h2⟩ := hp
        rw [h1, h2, ht]
        exact hs
      · intro hs
        cases ht : l[j]? with
        | none => rw [ht] at hs; simp at hs
        | some t' => rw [ht] at hs; exact ⟨j, q, rfl, t', ht, hs⟩

theorem pathsOf_mem (l : List (Tree W)) (i : Nat) (p : List Nat) :
    p ∈ pathsOf i l ↔ ∃ j q, p = j :: q ∧ i ≤ j ∧ ∃ t, l[j - i]? = some t ∧ (t.sub q).isSome := by
  match l with
  | [] => simp [pathsOf]
  | t :: l =>
    have h1 := fun q => paths_mem t true q
    have h2 := pathsOf_mem l (i + 1) p
    rw [pathsOf, List.mem_append, h2, List.mem_map]
    constructor
    · rintro (⟨q, hq, rfl⟩ | ⟨j, q, rfl, hj, t', ht, hs⟩)
      · exact ⟨i, q, rfl, Nat.le_refl _, t, by simp, ((h1 q).1 hq).1⟩
      · refine ⟨j, q, rfl, by omega, t', ?_, hs⟩
        have : j - i = (j - (i + 1)) + 1 := by omega
        rw [this, List.getElem?_cons_succ]; exact ht
    · rintro ⟨j, q, rfl, hj, t', ht, hs⟩
      by_cases h : j = i
      · subst h
        simp only [Nat.sub_self, List.getElem?_cons_zero, Option.some.injEq] at ht
        subst ht
        exact .inl ⟨q, (h1 q).2 ⟨hs, fun _ => rfl⟩, rfl⟩
      · refine .inr ⟨j, q, rfl, by omega, t', ?_, hs⟩
        have : j - i = (j - (i + 1)) + 1 := by omega
        rw [this, List.getElem?_cons_succ] at ht; exact ht
end

mutual
theorem paths_sorted (t : Tree W) (inc : Bool) : (paths inc t).Pairwise (· < ·) := by
  match t with
  | .node w l =>
    have h := pathsOf_sorted l 0
    rw [paths, List.pairwise_append]
    refine ⟨by cases inc <;> simp, h, ?_⟩
    intro a ha b hb
    obtain ⟨j, q, rfl, -⟩ := (pathsOf_mem l 0 b).1 hb
    have : a = [] := by cases inc <;> simp at ha; exact ha
    subst this
    exact List.nil_lt_cons j q

theorem pathsOf_sorted (l : List (Tree W)) (i : Nat) : (pathsOf i l).Pairwise (· < ·) := by
  match l with
  | [] => simp [pathsOf]
  | t :: l =>
    have h1 := paths_sorted t true
    have h2 := pathsOf_sorted l (i + 1)
    rw [pathsOf, List.pairwise_append]
    refine ⟨?_, h2, ?_⟩
    · rw [List.pairwise_map]
      exact h1.imp fun {a b} hab => List.cons_lt_cons_iff.2 (.inr ⟨rfl, hab⟩)
    · intro a ha b hb
      obtain ⟨q, -, rfl⟩ := List.mem_map.1 ha
      obtain ⟨j, q', rfl, hj, -⟩ := (pathsOf_mem l (i + 1) b).1 hb
      exact List.cons_lt_cons_iff.2 (.inl (by omega))
end

mutual
theorem paths_val (t : Tree W) (inc : Bool) :
    (widgetChildren inc t).map some = (paths inc t).map fun p => (t.sub p).map Tree.widget := by
  match t with
  | .node w l =>
    have h := pathsOf_val l 0 w l (by simp)
    rw [paths, widgetChildren, List.map_append, List.map_append, h]
    cases inc <;> simp [Tree.sub, Tree.widget]

theorem pathsOf_val (l : List (Tree W)) (i : Nat) (w : W) (all : List (Tree W)) (hall : ∀ j, all[i + j]? = l[j]?) :
    (childrenOf l).map some = (pathsOf i l).map fun p => ((Tree.node w all).sub p).map Tree.widget := by
  match l with
  | [] => simp [childrenOf, pathsOf]
  | t :: l =>
    have h1 := paths_val t true
    have h2 := pathsOf_val l (i + 1) w all (fun j => by
      have := hall (j + 1)
      rw [List.getElem?_cons_succ] at this
      rw [← this]; congr 1; omega)
    have h0 : all[i]? = some t := by simpa using hall 0
    rw [childrenOf, pathsOf, List.map_append, List.map_append, h1, h2, List.map_map]
    congr 1
    apply List.map_congr_left
    intro p _
    simp [Function.comp, Tree.sub, Tree.children, h0]
end

/-- **C111.** `widget_children` gives the widgets below the given one (at the non-empty paths), and the widget itself
(at the empty path) if asked to; each position once; a widget before those below it, and the widgets below
an earlier child before those below a later one. -/
theorem C111_children (t : Tree W) (inc : Bool) :
    ∃ ps : List (List Nat), (∀ p, p ∈ ps ↔ (t.sub p).isSome ∧ (p = [] → inc = true)) ∧
      ps.Pairwise (fun p q => List.Lex (· < ·) p q) ∧
      (widgetChildren inc t).map some = ps.map fun p => (t.sub p).map Tree.widget :=
  ⟨paths inc t, paths_mem t inc, paths_sorted t inc, paths_val t inc⟩

/-- Two levels. -/
example : widgetChildren false (.node 0 [.node 1 [.node 2 [], .node 3 []], .node 4 [.node 5 []]]) = [1, 2, 3, 4, 5] := by
  simp [widgetChildren, childrenOf]

end Children

/-! ## C113: the classes of the module `responsive` -/

/-- A step of a program: a lookup in the module `responsive`, or a change of a name of `tkinter` (none: it is
deleted). -/
inductive Step : World → World → Prop
  | get (s : World) (name : String) : Step s (s.get name).2
  | set (s : World) (k : String) (v : Option Obj) : Step s (s.setTk k v)

/-- Any number of steps. -/
inductive Steps : World → World → Prop
  | refl (s : World) : Steps s s
  | tail {s t u : World} : Steps s t → Step t u → Steps s u

/-- Invariant of the cache: the classes made are of the given base, with numbers already used, and different
bases have different classes. -/
def Inv (s : World) : Prop :=
  (∀ e ∈ s.cache, ∃ n id, e = (.cls n, .resp id n) ∧ id < s.made) ∧
  (∀ e ∈ s.cache, ∀ e' ∈ s.cache, e.2 = e'.2 → e.1 = e'.1)

theorem lookup_mem {A B : Type} [BEq A] [LawfulBEq A] (l : List (A × B)) (a : A) (b : B) (h : l.lookup a = some b) :
    (a, b) ∈ l := by
  induction l with
  | nil => simp at h
  | cons e l ih =>
    obtain ⟨x, y⟩ := e
    rw [List.lookup_cons] at h
    by_cases hx : a == x
    · rw [hx] at h
      simp only [Option.some.injEq] at h
      rw [eq_of_beq hx, h]; simp
    · simp only [Bool.not_eq_true] at hx
      rw [hx] at h
      exact List.mem_cons_of_mem _ (ih h)

/-- The outcomes of a lookup. -/
theorem get_cases (s : World) (name : String) :
    ((∃ o, s.own name = some o ∧ s.get name = (.ok o, s)) ∨
    (s.own name = none ∧ s.find name = none ∧ s.get name = (.error .attributeError, s)) ∨
    (s.own name = none ∧ ∃ n, s.find name = some (.other n) ∧ s.get name = (.ok (.other n), s)) ∨
    (s.own name = none ∧ ∃ c r, s.find name = some c ∧ s.cache.lookup c = some r ∧ (∀ n, c ≠ .other n) ∧ s.get name = (.ok r, s)) ∨
    (s.own name = none ∧ ∃ n, s.find name = some (.cls n) ∧ s.cache.lookup (.cls n) = none ∧
      s.get name = (.ok (.resp s.made n), { s with made := s.made + 1, cache := (.cls n, .resp s.made n) :: s.cache })) ∨
    (s.own name = none ∧ ∃ i n, s.find name = some (.resp i n) ∧ s.cache.lookup (.resp i n) = none ∧
      s.get name = (.error .typeError, s))) := by
  cases ho : s.own name with
  | some o => left; exact ⟨o, rfl, by simp [World.get, ho]⟩
  | none =>
    right
    cases hf : s.find name with
    | none => left; exact ⟨rfl, rfl, by simp [World.get, ho, hf]⟩
    | some c =>
      right
      cases c with
      | other n => left; exact ⟨rfl, n, rfl, by simp [World.get, ho, hf]⟩
      | cls n =>
        right
        cases hc : s.cache.lookup (.cls n) with
        | some r => left; exact ⟨rfl, _, r, rfl, hc, by simp, by simp [World.get, ho, hf, hc]⟩
        | none => right; left; exact ⟨rfl, n, rfl, hc, by simp [World.get, ho, hf, hc, World.mix]⟩
      | resp i n =>
        right
        cases hc : s.cache.lookup (.resp i n) with
        | some r => left; exact ⟨rfl, _, r, rfl, hc, by simp, by simp [World.get, ho, hf, hc]⟩
        | none => right; right; exact ⟨rfl, i, n, rfl, hc, by simp [World.get, ho, hf, hc, World.mix]⟩

theorem Inv.add {s : World} (h : Inv s) (n : Nat) :
    Inv { s with made := s.made + 1, cache := (.cls n, .resp s.made n) :: s.cache } := by
  obtain ⟨h1, h2⟩ := h
  constructor
  · intro e he
    rcases List.mem_cons.1 he with rfl | he
    · exact ⟨n, s.made, rfl, by simp⟩
    · obtain ⟨m, i, rfl, hi⟩ := h1 e he
      exact ⟨m, i, rfl, by simp; omega⟩
  · intro e he e' he' heq
    rcases List.mem_cons.1 he with rfl | he <;> rcases List.mem_cons.1 he' with rfl | he'
    · rfl
    · obtain ⟨m, i, rfl, hi⟩ := h1 e' he'
      simp only [Obj.resp.injEq] at heq
      omega
    · obtain ⟨m, i, rfl, hi⟩ := h1 e he
      simp only [Obj.resp.injEq] at heq
      omega
    · exact h2 e he e' he' heq

theorem get_state (s : World) (name : String) : (s.get name).2 = s ∨ ∃ n, s.find name = some (.cls n) ∧
    s.cache.lookup (.cls n) = none ∧
    (s.get name).2 = { s with made := s.made + 1, cache := (.cls n, .resp s.made n) :: s.cache } := by
  rcases get_cases s name with ⟨o, -, h⟩ | ⟨-, -, h⟩ | ⟨-, n, -, h⟩ | ⟨-, c, r, -, -, -, h⟩ | ⟨-, n, hf, hc, h⟩ | ⟨-, i, n, -, -, h⟩
  · left; rw [h]
  · left; rw [h]
  · left; rw [h]
  · left; rw [h]
  · right; exact ⟨n, hf, hc, by rw [h]⟩
  · left; rw [h]

theorem Inv.get {s : World} (h : Inv s) (name : String) : Inv (s.get name).2 := by
  rcases get_state s name with h' | ⟨n, -, -, h'⟩
  · rw [h']; exact h
  · rw [h']; exact h.add n

theorem Inv.steps {s t : World} (h : Inv s) (hs : Steps s t) : Inv t := by
  induction hs with
  | refl => exact h
  | tail _ st ih =>
    cases st with
    | get name => exact ih.get name
    | set k v => exact ih

theorem cache_get (s : World) (name : String) (c r : Obj) (hr : s.cache.lookup c = some r) :
    (s.get name).2.cache.lookup c = some r := by
  rcases get_state s name with h' | ⟨n, -, hc, h'⟩
  · rw [h']; exact hr
  · rw [h', List.lookup_cons]
    by_cases hb : c = .cls n
    · subst hb; rw [hc] at hr; simp at hr
    · have : (c == .cls n) = false := by simpa using hb
      rw [this]; exact hr

theorem cache_steps {s t : World} (hs : Steps s t) (c r : Obj) (hr : s.cache.lookup c = some r) :
    t.cache.lookup c = some r := by
  induction hs with
  | refl => exact hr
  | tail _ st ih =>
    cases st with
    | get name => exact cache_get _ name c r ih
    | set k v => exact ih

/-- **C113.** What a name of the module `responsive` is, after any lookups and changes of `tkinter`: its own
name; else what the first of `ttkthemes`, `ttk` and `tkinter` that has the name gives, unchanged if it is no
class, and a class made by mixing if it is a class of `tkinter`; an `AttributeError` if none has it. -/
theorem C113_value (s t : World) (h0 : s.cache = []) (hs : Steps s t) (name : String) :
    (∀ o, t.own name = some o → (t.get name).1 = .ok o) ∧
    (t.own name = none →
      (∀ n, t.find name = some (.other n) → (t.get name).1 = .ok (.other n)) ∧
      (∀ n, t.find name = some (.cls n) → ∃ id, (t.get name).1 = .ok (.resp id n)) ∧
      (∀ i n, t.find name = some (.resp i n) → (t.get name).1 = .error .typeError) ∧
      (t.find name = none → (t.get name).1 = .error .attributeError)) := by
  have hI : Inv t := Inv.steps ⟨by simp [h0], by simp [h0]⟩ hs
  rcases get_cases t name with ⟨o, ho, h⟩ | ⟨ho, hf, h⟩ | ⟨ho, n, hf, h⟩ | ⟨ho, c, r, hf, hc, hne, h⟩ | ⟨ho, n, hf, hc, h⟩ |
    ⟨ho, i, n, hf, hc, h⟩
  · simp [ho, h]
  · simp [ho, hf, h]
  · simp [ho, hf, h]
  · obtain ⟨n, id, he, -⟩ := hI.1 _ (lookup_mem _ _ _ hc)
    simp only [Prod.mk.injEq] at he
    obtain ⟨rfl, rfl⟩ := he
    simp [ho, hf, h]
  · simp [ho, hf, h]
  · simp [ho, hf, h]

/-- After a lookup of a class, it is in the cache. -/
theorem get_cached (s : World) (name : String) (n : Nat) (r : Obj) (ho : s.own name = none) (hf : s.find name = some (.cls n))
    (hr : (s.get name).1 = .ok r) : (s.get name).2.cache.lookup (.cls n) = some r := by
  rcases get_cases s name with ⟨o, ho', h⟩ | ⟨-, hf', h⟩ | ⟨-, m, hf', h⟩ | ⟨-, c, r', hf', hc, -, h⟩ | ⟨-, m, hf', hc, h⟩ |
    ⟨-, i, m, hf', -, h⟩
  · rw [ho] at ho'; simp at ho'
  · rw [hf] at hf'; simp at hf'
  · rw [hf] at hf'; simp at hf'
  · rw [hf] at hf'
    simp only [Option.some.injEq] at hf'
    subst hf'
    rw [h] at hr ⊢
    simp only [Except.ok.injEq] at hr
    subst hr
    exact hc
  · rw [hf] at hf'
    simp only [Option.some.injEq, Obj.cls.injEq] at hf'
    subst hf'
    rw [h] at hr ⊢
    simp only [Except.ok.injEq] at hr
    subst hr
    simp
  · rw [hf] at hf'; simp at hf'

/-- **C113.** Two lookups, with any others and any changes of `tkinter` before and in between, give the same class
if and only if they find the same class of `tkinter`: `isinstance` checks and class attributes work across the
program. -/
theorem C113_same (s s1 s2 : World) (h0 : s.cache = []) (a b : String) (hs1 : Steps s s1) (hs2 : Steps (s1.get a).2 s2)
    (n m : Nat) (hoa : s1.own a = none) (hob : s2.own b = none) (ha : s1.find a = some (.cls n))
    (hb : s2.find b = some (.cls m)) :
    (s1.get a).1 = (s2.get b).1 ↔ n = m := by
  have hI1 : Inv s1 := Inv.steps ⟨by simp [h0], by simp [h0]⟩ hs1
  have hI2 : Inv s2 := Inv.steps (hI1.get a) hs2
  obtain ⟨r1, hr1⟩ : ∃ r, (s1.get a).1 = .ok r := by
    obtain ⟨id, h⟩ := ((C113_value s s1 h0 hs1 a).2 hoa).2.1 n ha
    exact ⟨_, h⟩
  have hc1 := cache_steps hs2 _ _ (get_cached s1 a n r1 hoa ha hr1)
  have hI3 := hI2.get b
  obtain ⟨r2, hr2⟩ : ∃ r, (s2.get b).1 = .ok r := by
    rcases get_cases s2 b with ⟨o, ho', h⟩ | ⟨-, hf', h⟩ | ⟨-, k, hf', h⟩ | ⟨-, c, r', hf', hc, -, h⟩ | ⟨-, k, hf', hc, h⟩ |
      ⟨-, i, k, hf', -, h⟩
    · rw [hob] at ho'; simp at ho'
    · rw [hb] at hf'; simp at hf'
    · rw [hb] at hf'; simp at hf'
    · exact ⟨r', by rw [h]⟩
    · exact ⟨_, by rw [h]⟩
    · rw [hb] at hf'; simp at hf'
  have hc2 := get_cached s2 b m r2 hob hb hr2
  have hc1' := cache_get s2 b _ _ hc1
  rw [hr1, hr2]
  simp only [Except.ok.injEq]
  constructor
  · rintro rfl
    have := hI3.2 _ (lookup_mem _ _ _ hc1') _ (lookup_mem _ _ _ hc2) rfl
    simpa using this
  · rintro rfl
    rw [hc1'] at hc2
    simpa using hc2

/-- Two classes, one of them found by two names. -/
def exWorld : World where
  own := fun k => if k = "tk" then some (.other 7) else none
  ttkthemes := fun _ => none
  ttk := fun k => if k = "Frame" ∨ k = "Frame2" then some (.cls 1) else none
  tk := fun k => if k = "Frame" then some (.cls 2) else if k = "Canvas" then some (.cls 3) else if k = "NSEW" then some (.other 4) else none
  cache := []
  made := 0

example : (exWorld.get "Frame").1.toOption = some (.resp 0 1) ∧ ((exWorld.get "Frame").2.get "Canvas").1.toOption = some (.resp 1 3) ∧
    (((exWorld.get "Frame").2.get "Canvas").2.get "Frame2").1.toOption = some (.resp 0 1) ∧
    (exWorld.get "NSEW").1.toOption = some (.other 4) ∧ (exWorld.get "none").1.toOption = none := by
  decide +kernel

/-! ## C112: `mock_tk2ttk` -/

theorem get_tk (s : World) (name : String) : (s.get name).2.tk = s.tk ∧ (s.get name).2.own = s.own ∧
    (s.get name).2.ttk = s.ttk ∧ (s.get name).2.ttkthemes = s.ttkthemes := by
  rcases get_state s name with h | ⟨n, -, -, h⟩ <;> rw [h] <;> simp

theorem patch_self (k : String) (body : Block) (s : World) : ((patch k body) s).1.tk k = s.tk k := by
  unfold patch
  have h := (get_tk s k).1
  cases hg : s.get k with
  | mk v s' =>
    rw [hg] at h
    simp only at h
    cases v with
    | error e => simp [h]
    | ok v =>
      simp only
      cases ho : s'.tk k with
      | none => simp [← h, ho]
      | some old => simp [World.setTk, ← h, ho]

theorem patch_keep (k j : String) (body : Block) (hb : ∀ s, (body s).1.tk j = s.tk j) (s : World) :
    ((patch k body) s).1.tk j = s.tk j := by
  by_cases hjk : j = k
  · subst hjk; exact patch_self j body s
  unfold patch
  have h := (get_tk s k).1
  cases hg : s.get k with
  | mk v s' =>
    rw [hg] at h
    simp only at h
    cases v with
    | error e => simp [h]
    | ok v =>
      simp only
      cases ho : s'.tk k with
      | none => simp [← h]
      | some old =>
        have := hb (s'.setTk k (some v))
        simp only [World.setTk, hjk, if_false] at this ⊢
        rw [this, h]

theorem mock_keep (ks : List String) (j : String) (body : Block) (hb : ∀ s, (body s).1.tk j = s.tk j) (s : World) :
    ((mockTk ks body) s).1.tk j = s.tk j := by
  induction ks generalizing body with
  | nil => exact hb s
  | cons k ks ih => exact ih _ (patch_keep k j body hb)

/-- **C112.** After the block, however it ended and whatever it did, each of the given names of `tkinter` has the
value it had before. -/
theorem C112_restored (ks : List String) (body : Block) (s : World) (k : String) (hk : k ∈ ks) :
    ((mockTk ks body) s).1.tk k = s.tk k := by
  induction ks generalizing body with
  | nil => simp at hk
  | cons j ks ih =>
    rw [mockTk]
    rcases List.mem_cons.1 hk with rfl | hk
    · exact mock_keep ks k _ (patch_self k body) s
    · exact ih _ hk

/-- How a patch goes. -/
theorem patch_cases (k : String) (s : World) :
    (∃ v old, (s.get k).1 = .ok v ∧ s.tk k = some old ∧ ∀ body,
      patch k body s = ((body ((s.get k).2.setTk k (some v))).1.setTk k (some old), (body ((s.get k).2.setTk k (some v))).2)) ∨
    (∃ e s', s'.tk = s.tk ∧ (∀ body, patch k body s = (s', some e))) := by
  have h := (get_tk s k).1
  unfold patch
  cases hg : s.get k with
  | mk v s' =>
    rw [hg] at h
    simp only at h
    cases v with
    | error e => right; exact ⟨e, s', h, fun _ => rfl⟩
    | ok v =>
      cases ho : s'.tk k with
      | none => right; exact ⟨.attributeError, s', h, fun body => by simp only [ho]⟩
      | some old => left; exact ⟨v, old, rfl, by rw [← h, ho], fun body => by simp only [ho]⟩

/-- The state after the block: the given names as before, the rest as the block left it. -/
def leave (ks : List String) (s : World) (r : World × Option PyErr) : World × Option PyErr :=
  ({ r.1 with tk := fun k => if k ∈ ks then s.tk k else r.1.tk k }, r.2)

theorem leave_cons (k : String) (ks : List String) (s s1 : World) (old : Obj) (hk : k ∉ ks → s1.tk k = s.tk k)
    (ho : s1.tk k = some old) (r : World × Option PyErr) :
    leave ks s (r.1.setTk k (some old), r.2) = leave (k :: ks) s r := by
  unfold leave World.setTk
  simp only [Prod.mk.injEq, and_true]
  congr 1
  funext j
  by_cases hj : j ∈ ks
  · simp [hj]
  · by_cases hjk : j = k
    · subst hjk; simp [hj, ← ho, hk hj]
    · simp [hj, hjk]

theorem mock_cases (ks : List String) (s : World) :
    (∃ e s', s'.tk = s.tk ∧ ∀ body, mockTk ks body s = (s', some e)) ∨
    (∃ s1 : World, (∀ k, k ∉ ks → s1.tk k = s.tk k) ∧ ∀ body, mockTk ks body s = leave ks s (body s1)) := by
  induction ks with
  | nil => right; exact ⟨s, by simp, fun body => by simp [mockTk, leave]⟩
  | cons k ks ih =>
    rcases ih with ⟨e, s', h1, h2⟩ | ⟨s1, h1, h2⟩
    · left; exact ⟨e, s', h1, fun body' => h2 _⟩
    · rcases patch_cases k s1 with ⟨v, old, hv, ho, hp⟩ | ⟨e, s', ht, hp⟩
      · right
        refine ⟨(s1.get k).2.setTk k (some v), ?_, ?_⟩
        · intro j hj
          simp only [List.mem_cons, not_or] at hj
          simp only [World.setTk, hj.1, if_false, (get_tk s1 k).1]
          exact h1 j hj.2
        · intro body
          rw [mockTk, h2, hp]
          exact leave_cons k ks s s1 old (h1 k) ho _
      · left
        refine ⟨e, (leave ks s (s', some e)).1, ?_, fun body => by rw [mockTk, h2, hp]; rfl⟩
        funext j
        simp only [leave, ht]
        by_cases hj : j ∈ ks
        · simp [hj]
        · simp [hj, h1 j hj]

/-- **C112.** Either the block is not run at all, and nothing of `tkinter` changes; or it is run once, in a state
where only the given names differ; the exception is that of the block, if any; and the other names are
afterwards what the block made of them. -/
theorem C112_block (ks : List String) (s : World) :
    (∃ e s', s'.tk = s.tk ∧ ∀ body, mockTk ks body s = (s', some e)) ∨
    (∃ s1 : World, (∀ k, k ∉ ks → s1.tk k = s.tk k) ∧ ∀ body, (mockTk ks body s).2 = (body s1).2 ∧
      ∀ k, k ∉ ks → (mockTk ks body s).1.tk k = (body s1).1.tk k) := by
  rcases mock_cases ks s with h | ⟨s1, h1, h2⟩
  · exact .inl h
  · refine .inr ⟨s1, h1, fun body => ?_⟩
    rw [h2]
    exact ⟨rfl, fun k hk => by simp [leave, hk]⟩

/-- Spec: what `tkinter.k` is inside the block: the attribute `k` of the module `responsive`. -/
def Wraps (s : World) (k : String) (v : Obj) : Prop :=
  s.own k = some v ∨ s.own k = none ∧
    ((∃ n, s.find k = some (.other n) ∧ v = .other n) ∨ ∃ id n, s.find k = some (.cls n) ∧ v = .resp id n)

/-- The name is not that of a class made by mixing. -/
def Plain (s : World) (k : String) : Prop := ∀ i n, s.find k ≠ some (.resp i n)

theorem find_congr (s s1 : World) (k : String) (h1 : s1.ttk = s.ttk) (h2 : s1.ttkthemes = s.ttkthemes) (h3 : s1.tk k = s.tk k) :
    s1.find k = s.find k := by
  simp [World.find, h1, h2, h3]

theorem find_some (s : World) (k : String) (h : (s.tk k).isSome) : (s.find k).isSome := by
  unfold World.find
  cases s.ttkthemes k with
  | some o => rfl
  | none => cases s.ttk k with
    | some o => rfl
    | none => exact h

theorem get_wraps (s : World) (hI : Inv s) (k : String) (hp : Plain s k) :
    ((s.find k).isSome → ∃ v, (s.get k).1 = .ok v ∧ Wraps s k v) ∧
    (∀ e, (s.get k).1 = .error e → e = .attributeError) := by
  rcases get_cases s k with ⟨o, ho, h⟩ | ⟨ho, hf, h⟩ | ⟨ho, n, hf, h⟩ | ⟨ho, c, r, hf, hc, hne, h⟩ | ⟨ho, n, hf, hc, h⟩ |
    ⟨ho, i, n, hf, hc, h⟩
  · rw [h]; exact ⟨fun _ => ⟨o, rfl, .inl ho⟩, by simp⟩
  · rw [h]; exact ⟨by simp [hf], by simp⟩
  · rw [h]; exact ⟨fun _ => ⟨_, rfl, .inr ⟨ho, .inl ⟨n, hf, rfl⟩⟩⟩, by simp⟩
  · obtain ⟨n, id, he, -⟩ := hI.1 _ (lookup_mem _ _ _ hc)
    simp only [Prod.mk.injEq] at he
    obtain ⟨rfl, rfl⟩ := he
    rw [h]; exact ⟨fun _ => ⟨_, rfl, .inr ⟨ho, .inr ⟨id, n, hf, rfl⟩⟩⟩, by simp⟩
  · rw [h]; exact ⟨fun _ => ⟨_, rfl, .inr ⟨ho, .inr ⟨_, n, hf, rfl⟩⟩⟩, by simp⟩
  · exact absurd hf (hp i n)

theorem enter_good (ks : List String) (s : World) (hI : Inv s) (hn : ks.Nodup) (hg : ∀ k ∈ ks, (s.tk k).isSome ∧ Plain s k) :
    ∃ s1 : World, Inv s1 ∧ s1.own = s.own ∧ s1.ttk = s.ttk ∧ s1.ttkthemes = s.ttkthemes ∧
      (∀ k, k ∉ ks → s1.tk k = s.tk k) ∧ (∀ k ∈ ks, ∃ v, s1.tk k = some v ∧ Wraps s k v) ∧
      ∀ body, mockTk ks body s = leave ks s (body s1) := by
  induction ks with
  | nil => exact ⟨s, hI, rfl, rfl, rfl, by simp, by simp, fun body => by simp [mockTk, leave]⟩
  | cons k ks ih =>
    obtain ⟨hk, hn⟩ := List.nodup_cons.1 hn
    obtain ⟨s1, i1, i2, i3, i4, h1, h2, h3⟩ := ih hn fun j hj => hg j (List.mem_cons_of_mem _ hj)
    obtain ⟨g1, g2⟩ := hg k (by simp)
    have hf := find_congr s s1 k i3 i4 (h1 k hk)
    have hp : Plain s1 k := fun i n => by rw [hf]; exact g2 i n
    obtain ⟨v, hv, hw⟩ := (get_wraps s1 i1 k hp).1 (find_some s1 k (by rw [h1 k hk]; exact g1))
    obtain ⟨t1, t2, t3, t4⟩ := get_tk s1 k
    rcases patch_cases k s1 with ⟨v', old, hv', ho, hpc⟩ | ⟨e, s', ht, hpc⟩
    · rw [hv] at hv'
      simp only [Except.ok.injEq] at hv'
      subst hv'
      refine ⟨(s1.get k).2.setTk k (some v), i1.get k, by simp [World.setTk, t2, i2], by simp [World.setTk, t3, i3],
        by simp [World.setTk, t4, i4], ?_, ?_, ?_⟩
      · intro j hj
        simp only [List.mem_cons, not_or] at hj
        simp only [World.setTk, hj.1, if_false, t1]
        exact h1 j hj.2
      · intro j hj
        by_cases hjk : j = k
        · subst hjk
          refine ⟨v, by simp [World.setTk], ?_⟩
          simpa [Wraps, i2, hf] using hw
        · have hj' : j ∈ ks := by simpa [hjk] using hj
          obtain ⟨w, hw1, hw2⟩ := h2 j hj'
          exact ⟨w, by simp [World.setTk, hjk, t1, hw1], hw2⟩
      · intro body
        rw [mockTk, h3, hpc]
        exact leave_cons k ks s s1 old (h1 k) ho _
    · exfalso
      obtain ⟨old, ho⟩ := Option.isSome_iff_exists.1 (by rw [h1 k hk]; exact g1 : (s1.tk k).isSome)
      have hb := hpc (fun t => (t, none))
      unfold patch at hb
      cases hgk : s1.get k with
      | mk x s2 =>
        rw [hgk] at hv t1 hb
        simp only at hv t1 hb
        subst hv
        simp only [t1, ho] at hb
        simp at hb

/-- **C112.** If the given names are different, all in `tkinter`, and none of a class that is mixed already, the
block is run, and inside it each name of `tkinter` is the attribute of the module `responsive`. -/
theorem C112_inside (s0 s : World) (h0 : s0.cache = []) (hs : Steps s0 s) (ks : List String) (hn : ks.Nodup)
    (hg : ∀ k ∈ ks, (s.tk k).isSome ∧ Plain s k) :
    ∃ s1 : World, (∀ k ∈ ks, ∃ v, s1.tk k = some v ∧ Wraps s k v) ∧ (∀ k, k ∉ ks → s1.tk k = s.tk k) ∧
      ∀ body, (mockTk ks body s).2 = (body s1).2 ∧ ∀ k, k ∉ ks → (mockTk ks body s).1.tk k = (body s1).1.tk k := by
  have hI : Inv s := Inv.steps ⟨by simp [h0], by simp [h0]⟩ hs
  obtain ⟨s1, -, -, -, -, h1, h2, h3⟩ := enter_good ks s hI hn hg
  refine ⟨s1, h2, h1, fun body => ?_⟩
  rw [h3]
  exact ⟨rfl, fun k hk => by simp [leave, hk]⟩

/-- **C112.** If one of the names is not in `tkinter`, it is an `AttributeError`, the block is not run and nothing of
`tkinter` is changed. -/
theorem C112_missing (s0 s : World) (h0 : s0.cache = []) (hs : Steps s0 s) (ks : List String) (hn : ks.Nodup)
    (hp : ∀ k ∈ ks, Plain s k) (k : String) (hk : k ∈ ks) (hm : s.tk k = none) :
    ∃ s' : World, s'.tk = s.tk ∧ ∀ body, mockTk ks body s = (s', some .attributeError) := by
  have hI : Inv s := Inv.steps ⟨by simp [h0], by simp [h0]⟩ hs
  clear hs h0
  induction ks generalizing k with
  | nil => simp at hk
  | cons j ks ih =>
    obtain ⟨hj, hn'⟩ := List.nodup_cons.1 hn
    by_cases hex : ∃ i ∈ ks, s.tk i = none
    · obtain ⟨i, hi, him⟩ := hex
      obtain ⟨s', h1, h2⟩ := ih hn' (fun a ha => hp a (List.mem_cons_of_mem _ ha)) i hi him
      exact ⟨s', h1, fun body => h2 _⟩
    · have hkj : k = j := by
        rcases List.mem_cons.1 hk with h | h
        · exact h
        · exact absurd ⟨k, h, hm⟩ hex
      subst hkj
      obtain ⟨s1, i1, i2, i3, i4, h1, h2, h3⟩ := enter_good ks s hI hn' fun i hi =>
        ⟨by cases hi' : s.tk i with
            | none => exact absurd ⟨i, hi, hi'⟩ hex
            | some _ => rfl, hp i (List.mem_cons_of_mem _ hi)⟩
      have hf := find_congr s s1 k i3 i4 (h1 k hj)
      have hpl : Plain s1 k := fun i n => by rw [hf]; exact hp k (by simp) i n
      have he := (get_wraps s1 i1 k hpl).2
      have ht := (get_tk s1 k).1
      have hpatch : ∃ s', s'.tk = s1.tk ∧ ∀ body, patch k body s1 = (s', some .attributeError) := by
        unfold patch
        cases hgk : s1.get k with
        | mk x s2 =>
          rw [hgk] at he ht
          simp only at he ht
          refine ⟨s2, ht, fun body => ?_⟩
          cases x with
          | error e => simp [he e rfl]
          | ok v =>
            simp only
            rw [ht, h1 k hj, hm]
      obtain ⟨s', ht', hpp⟩ := hpatch
      refine ⟨(leave ks s (s', some .attributeError)).1, ?_, fun body => by rw [mockTk, h3, hpp]; rfl⟩
      funext i
      simp only [leave, ht']
      by_cases hi : i ∈ ks
      · simp [hi]
      · simp [hi, h1 i hi]

/-- The same name twice, of a class that only `tkinter` has: the class would be mixed twice. -/
theorem twice : (mockTk ["Canvas", "Canvas"] (fun s => (s, none)) exWorld).2 = some .typeError := by
  decide +kernel

/-- Two names: inside the block they are the mixed classes. -/
example : ((mockTk ["Canvas", "Frame"] (fun s => (s, if s.tk "Canvas" = some (.resp 1 3) ∧ s.tk "Frame" = some (.resp 0 1) then
    some .keyError else none)) exWorld).2 = some .keyError) := by
  decide +kernel

/-! ## C114: `ResponsiveMixin.responsive` -/

/-- Spec: the rows (or columns) asked for. -/
def Asked (x : Option Which) (i : Int) : Prop :=
  match x with
  | none => False
  | some (.count n) => 0 ≤ i ∧ i < n
  | some (.list l) => i ∈ l

/-- Spec: no negative indices are asked for. -/
def NonNeg (x : Option Which) : Prop := ∀ i, Asked x i → 0 ≤ i

theorem setWeights_ok (l : List Int) (w : Int → Nat) (h : ∀ i ∈ l, 0 ≤ i) :
    (setWeights w l).2 = none ∧ ∀ i, (i ∈ l → (setWeights w l).1 i = 1) ∧ (i ∉ l → (setWeights w l).1 i = w i) := by
  induction l generalizing w with
  | nil => simp [setWeights]
  | cons a l ih =>
    have ha : ¬ a < 0 := by have := h a (by simp); omega
    obtain ⟨h1, h2⟩ := ih (fun j => if j = a then 1 else w j) fun i hi => h i (List.mem_cons_of_mem _ hi)
    rw [setWeights, if_neg ha]
    refine ⟨h1, fun i => ⟨?_, ?_⟩⟩
    · intro hi
      by_cases hil : i ∈ l
      · exact (h2 i).1 hil
      · have hia : i = a := by simpa [hil] using hi
        rw [(h2 i).2 hil, if_pos hia]
    · intro hi
      simp only [List.mem_cons, not_or] at hi
      rw [(h2 i).2 hi.2, if_neg hi.1]

theorem setWeights_err (l : List Int) (w : Int → Nat) :
    ((setWeights w l).2 ≠ none → (setWeights w l).2 = some .valueError ∧ ∃ i ∈ l, i < 0) ∧
    (∀ i, (setWeights w l).1 i = w i ∨ (0 ≤ i ∧ i ∈ l ∧ (setWeights w l).1 i = 1)) := by
  induction l generalizing w with
  | nil => simp [setWeights]
  | cons a l ih =>
    rw [setWeights]
    by_cases ha : a < 0
    · rw [if_pos ha]
      exact ⟨fun _ => ⟨rfl, a, by simp, ha⟩, fun i => .inl rfl⟩
    · rw [if_neg ha]
      obtain ⟨h1, h2⟩ := ih fun j => if j = a then 1 else w j
      refine ⟨fun h => ?_, fun i => ?_⟩
      · obtain ⟨h3, i, hi, hn⟩ := h1 h
        exact ⟨h3, i, List.mem_cons_of_mem _ hi, hn⟩
      · rcases h2 i with h | ⟨h, h', h''⟩
        · by_cases hia : i = a
          · right; exact ⟨by omega, by simp [hia], by rw [h, if_pos hia]⟩
          · left; rw [h, if_neg hia]
        · right; exact ⟨h, List.mem_cons_of_mem _ h', h''⟩

theorem indices_asked (x : Which) (i : Int) : i ∈ x.indices ↔ Asked (some x) i := by
  cases x with
  | count n =>
    simp only [Which.indices, List.mem_map, List.mem_range, Asked]
    constructor
    · rintro ⟨k, hk, rfl⟩; omega
    · rintro ⟨h1, h2⟩; exact ⟨i.toNat, by omega, by omega⟩
  | list l => rfl

theorem configure_ok (has : Bool) (meth : String) (x : Option Which) (w : Int → Nat) (h : NonNeg x) :
    (configure has meth x w).2.1 = none ∧
    (∀ i, (has = true → Asked x i → (configure has meth x w).1 i = 1) ∧
      (has = false ∨ ¬ Asked x i → (configure has meth x w).1 i = w i)) ∧
    (configure has meth x w).2.2 = if has then [] else [meth] := by
  cases has with
  | false => simp [configure]
  | true =>
    cases x with
    | none => simp [configure, Asked]
    | some x =>
      have h' : ∀ i ∈ x.indices, 0 ≤ i := fun i hi => h i ((indices_asked x i).1 hi)
      obtain ⟨h1, h2⟩ := setWeights_ok x.indices w h'
      simp only [configure, Bool.not_true, Bool.false_eq_true, if_false, if_true]
      refine ⟨h1, fun i => ⟨fun _ ha => (h2 i).1 ((indices_asked x i).2 ha), ?_⟩, trivial⟩
      intro hi
      refine (h2 i).2 fun hc => ?_
      rcases hi with hi | hi
      · simp at hi
      · exact hi ((indices_asked x i).1 hc)

/-- **C114.** Making rows and columns responsive: those asked for (the first `n`, or the listed ones) get weight 1, the
others keep theirs; a widget that has no rows (or columns) is left as it is, with a warning for each. -/
theorem C114_weights (g : Grid) (rows cols : Option Which) (hr : NonNeg rows) (hc : NonNeg cols) :
    (g.responsive rows cols).2 = none ∧
    (∀ i, (g.hasRows = true → Asked rows i → (g.responsive rows cols).1.rows i = 1) ∧
      (g.hasRows = false ∨ ¬ Asked rows i → (g.responsive rows cols).1.rows i = g.rows i)) ∧
    (∀ i, (g.hasCols = true → Asked cols i → (g.responsive rows cols).1.cols i = 1) ∧
      (g.hasCols = false ∨ ¬ Asked cols i → (g.responsive rows cols).1.cols i = g.cols i)) ∧
    (g.responsive rows cols).1.warnings = g.warnings ++ (if g.hasRows then [] else ["grid_rowconfigure"]) ++
      (if g.hasCols then [] else ["grid_columnconfigure"]) := by
  obtain ⟨r1, r2, r3⟩ := configure_ok g.hasRows "grid_rowconfigure" rows g.rows hr
  obtain ⟨c1, c2, c3⟩ := configure_ok g.hasCols "grid_columnconfigure" cols g.cols hc
  unfold Grid.responsive
  simp only [r1, r3, c3]
  exact ⟨c1, r2, c2, trivial⟩

/-- **C114.** A negative index is an error; whatever was set is asked for, and no columns are touched if it is in the
rows. -/
theorem C114_negative (g : Grid) (rows cols : Option Which) :
    ((g.responsive rows cols).2 ≠ none → (g.responsive rows cols).2 = some .valueError ∧
      ((∃ i, i < 0 ∧ Asked rows i) ∨ ∃ i, i < 0 ∧ Asked cols i)) ∧
    (∀ i, (g.responsive rows cols).1.rows i = g.rows i ∨ (Asked rows i ∧ (g.responsive rows cols).1.rows i = 1)) ∧
    (∀ i, (g.responsive rows cols).1.cols i = g.cols i ∨ (Asked cols i ∧ (g.responsive rows cols).1.cols i = 1)) ∧
    (g.hasRows = true → (∃ i, i < 0 ∧ Asked rows i) →
      (g.responsive rows cols).2 = some .valueError ∧ (g.responsive rows cols).1.cols = g.cols) ∧
    (g.hasCols = true → (∃ i, i < 0 ∧ Asked cols i) → (g.responsive rows cols).2 = some .valueError) := by
  have key : ∀ (has : Bool) (meth : String) (x : Option Which) (w : Int → Nat),
      ((configure has meth x w).2.1 = none ∨ ((configure has meth x w).2.1 = some .valueError ∧ ∃ i, i < 0 ∧ Asked x i)) ∧
      (∀ i, (configure has meth x w).1 i = w i ∨ (Asked x i ∧ (configure has meth x w).1 i = 1)) ∧
      (has = true → (∃ i, i < 0 ∧ Asked x i) → (configure has meth x w).2.1 = some .valueError) := by
    intro has meth x w
    cases has with
    | false => simp [configure]
    | true =>
      cases x with
      | none => simp [configure, Asked]
      | some x =>
        obtain ⟨h1, h2⟩ := setWeights_err x.indices w
        simp only [configure, Bool.not_true, Bool.false_eq_true, if_false]
        refine ⟨?_, fun i => ?_, ?_⟩
        · by_cases h : (setWeights w x.indices).2 = none
          · exact .inl h
          · obtain ⟨h3, i, hi, hn⟩ := h1 h
            exact .inr ⟨h3, i, hn, (indices_asked x i).1 hi⟩
        · rcases h2 i with h | ⟨-, h, h'⟩
          · exact .inl h
          · exact .inr ⟨(indices_asked x i).1 h, h'⟩
        · rintro - ⟨i, hn, ha⟩
          have : ∀ (l : List Int) (w : Int → Nat), i ∈ l → (setWeights w l).2 = some .valueError := by
            intro l
            induction l with
            | nil => simp
            | cons a l ih =>
              intro w hi
              rw [setWeights]
              by_cases ha : a < 0
              · rw [if_pos ha]
              · rw [if_neg ha]
                apply ih
                rcases List.mem_cons.1 hi with h | h
                · omega
                · exact h
          exact this _ _ ((indices_asked x i).2 ha)
  obtain ⟨r1, r2, r3⟩ := key g.hasRows "grid_rowconfigure" rows g.rows
  obtain ⟨c1, c2, c3⟩ := key g.hasCols "grid_columnconfigure" cols g.cols
  rcases r1 with hr | ⟨hr, hr'⟩
  · have e : ((g.responsive rows cols).1.rows = (configure g.hasRows "grid_rowconfigure" rows g.rows).1) ∧
        (g.responsive rows cols).1.cols = (configure g.hasCols "grid_columnconfigure" cols g.cols).1 ∧
        (g.responsive rows cols).2 = (configure g.hasCols "grid_columnconfigure" cols g.cols).2.1 := by
      unfold Grid.responsive; simp only [hr]; exact ⟨trivial, trivial, trivial⟩
    obtain ⟨e1, e2, e3⟩ := e
    rw [e1, e2, e3]
    refine ⟨fun h => ?_, r2, c2, fun h1 h2 => ?_, c3⟩
    · rcases c1 with h' | ⟨h', h''⟩
      · exact absurd h' h
      · exact ⟨h', .inr h''⟩
    · rw [r3 h1 h2] at hr; simp at hr
  · have e : ((g.responsive rows cols).1.rows = (configure g.hasRows "grid_rowconfigure" rows g.rows).1) ∧
        (g.responsive rows cols).1.cols = g.cols ∧ (g.responsive rows cols).2 = some .valueError := by
      unfold Grid.responsive; simp only [hr]; exact ⟨trivial, trivial, trivial⟩
    obtain ⟨e1, e2, e3⟩ := e
    rw [e1, e2, e3]
    exact ⟨fun _ => ⟨rfl, .inl hr'⟩, r2, fun i => .inl rfl, fun _ _ => ⟨rfl, rfl⟩, fun _ _ => rfl⟩

/-- Three rows, and two of the columns: as in the settings tab. -/
example : let g := ((⟨true, true, fun _ => 0, fun _ => 0, []⟩ : Grid).responsive (some (.count 3)) (some (.list [0, 2]))).1
    ([0, 1, 2, 3].map g.rows, [0, 1, 2, 3].map g.cols) = ([1, 1, 1, 0], [1, 0, 1, 0]) := by
  decide +kernel

/-! ## C116: shared attributes -/

section Shared

variable {W V : Type} [DecidableEq W]

/-- A history of assignments: widget, name, value. -/
def assign (parent : W → W) (st : Store W V) : List (W × String × V) → Store W V
  | [] => st
  | (w, n, v) :: l => assign parent (propSet parent st w n v) l

/-- Spec: the last value assigned to that name through a widget with that parent. -/
def Last (parent : W → W) (l : List (W × String × V)) (p : W) (n : String) (v : V) : Prop :=
  ∃ a w b, l = a ++ (w, n, v) :: b ∧ parent w = p ∧ ∀ e ∈ b, parent e.1 = p → e.2.1 ≠ n

theorem assign_append (parent : W → W) (st : Store W V) (a b : List (W × String × V)) :
    assign parent st (a ++ b) = assign parent (assign parent st a) b := by
  induction a generalizing st with
  | nil => rfl
  | cons e a ih => obtain ⟨w, n, v⟩ := e; exact ih _

theorem assign_other (parent : W → W) (st : Store W V) (l : List (W × String × V)) (p : W) (n : String)
    (h : ∀ e ∈ l, parent e.1 = p → e.2.1 ≠ n) : assign parent st l p n = st p n := by
  induction l generalizing st with
  | nil => rfl
  | cons e l ih =>
    obtain ⟨w, m, v⟩ := e
    rw [assign, ih _ fun e he => h e (List.mem_cons_of_mem _ he)]
    have := h (w, m, v) (by simp)
    simp only [propSet]
    rw [if_neg]
    rintro ⟨h1, h2⟩
    exact this h1.symm h2.symm

/-- **C116.** After any history of assignments by any widgets, a shared attribute read through a widget is the last
value assigned to that name through a widget with the same parent; if there was none it is what it was at the
start. -/
theorem C116_shared (parent : W → W) (st : Store W V) (l : List (W × String × V)) (w : W) (n : String) :
    (∀ v, Last parent l (parent w) n v → propGet parent (assign parent st l) w n = some v) ∧
    ((∀ e ∈ l, parent e.1 = parent w → e.2.1 ≠ n) → propGet parent (assign parent st l) w n = propGet parent st w n) := by
  constructor
  · rintro v ⟨a, x, b, rfl, hx, hb⟩
    rw [propGet, assign_append, assign, assign_other _ _ _ _ _ hb]
    simp [propSet, hx]
  · intro h
    exact assign_other _ _ _ _ _ h

/-- **C116.** Which attributes of a class are shared: those listed in its own body that it does not define itself; the
attributes it defines stay, and no others are added. -/
theorem C116_class (ps : List String) (d : List (String × Bool)) (n : String) :
    (∀ b, (n, b) ∈ metaNew (some ps) d ↔ (n, b) ∈ d ∨ (b = true ∧ n ∈ ps ∧ n ∉ d.map Prod.fst)) ∧ metaNew none d = d := by
  refine ⟨fun b => ?_, rfl⟩
  unfold metaNew
  simp only
  induction ps generalizing d with
  | nil => simp
  | cons p ps ih =>
    rw [List.foldl_cons, ih]
    have hany : (d.any fun e => e.1 == p) = true ↔ p ∈ d.map Prod.fst := by simp [List.any_eq_true]
    by_cases hp : p ∈ d.map Prod.fst
    · rw [if_pos (hany.2 hp)]
      constructor
      · rintro (h | ⟨h1, h2, h3⟩)
        · exact .inl h
        · exact .inr ⟨h1, List.mem_cons_of_mem _ h2, h3⟩
      · rintro (h | ⟨h1, h2, h3⟩)
        · exact .inl h
        · refine .inr ⟨h1, ?_, h3⟩
          rcases List.mem_cons.1 h2 with rfl | h
          · exact absurd hp h3
          · exact h
    · rw [if_neg (fun h => hp (hany.1 h))]
      simp only [List.mem_append, List.mem_singleton, Prod.mk.injEq, List.map_append, List.map_cons, List.map_nil, not_or,
        List.mem_cons, List.not_mem_nil, or_false, not_false_eq_true, and_true]
      constructor
      · rintro ((h | ⟨rfl, rfl⟩) | ⟨h1, h2, h3, h4⟩)
        · exact .inl h
        · exact .inr ⟨rfl, .inl rfl, hp⟩
        · exact .inr ⟨h1, .inr h2, h3⟩
      · rintro (h | ⟨h1, h2 | h2, h3⟩)
        · exact .inl (.inl h)
        · exact .inl (.inr ⟨h2, h1⟩)
        · by_cases hnp : n = p
          · exact .inl (.inr ⟨hnp, h1⟩)
          · exact .inr ⟨h1, h2, h3, hnp⟩

/-- Two tabs (1 and 2) of window 0, and a widget 3 inside tab 1. -/
example : let st : Store Nat Nat := assign (fun w => if w = 3 then 1 else 0) (fun _ _ => none) [(1, "audio_sr", 5), (2, "audio_sr", 6)]
    (propGet (fun w => if w = 3 then 1 else 0) st 1 "audio_sr", propGet (fun w => if w = 3 then 1 else 0) st 3 "audio_sr") =
      (some 6, none) := by
  decide +kernel

end Shared

end Verif.Tk
