import Verif.Learn.OldModel
import Verif.Learn.OldTyped
import Mathlib.Data.List.Perm.Basic
import Mathlib.Data.List.Forall2

/-!
# Calls with deprecated names are calls with the names of today
-/

set_option autoImplicit false
set_option linter.unusedSectionVars false
set_option linter.unusedSimpArgs false

namespace Verif.Est

open Verif

variable {A C : Type}

/-! ## Spec: the names of today -/

/-- What each class calls its arguments today, and which arguments are only renamed. -/
structure Renaming (C : Type) where
  ren : C → String → String
  plain : C → String → Prop

/-- `Inner c k k'`: argument `k` of class `c`, which has no old name for that class, is parameter `k'` today: if it is
meant for a part, it is renamed as arguments of the class of the part are. -/
inductive Inner (T : Table A C) (R : Renaming C) : C → String → String → Prop where
  | own {c : C} {k n : String} : partition k = (n, Option.none) → Inner T R c k k
  | part {c c' : C} {k n r r' : String} {s : Slot A C} : partition k = (n, some r) → (T.slots c).get? n = some s →
      s.auto = some (.make c') → R.plain c' r → Inner T R c' (R.ren c' r) r' → Inner T R c k (join n r')
  | stop {c : C} {k n r : String} : partition k = (n, some r) →
      (∀ s c', (T.slots c).get? n = some s → s.auto ≠ some (.make c')) → Inner T R c k k

/-- Argument `k` of class `c` is parameter `k'` today. -/
def Modern (T : Table A C) (R : Renaming C) (c : C) (k k' : String) : Prop :=
  R.plain c k ∧ Inner T R c (R.ren c k) k'

/-- The same arguments with the names of today. -/
def Today (T : Table A C) (R : Renaming C) (c : C) (kw kw' : Dict (Val A)) : Prop :=
  List.Forall₂ (fun e e' => e.2 = e'.2 ∧ Modern T R c e.1 e'.1) kw kw'

/-- What decorators have to do: rename the arguments, in any order, if all are only renamed and no two get the
same name. -/
structure Renaming.Of (R : Renaming C) (deco : Deco A C) : Prop where
  does : ∀ c (kw : Dict (Val A)), kw.Ok → (∀ e ∈ kw, R.plain c e.1) →
    Dict.Ok (kw.map fun e => (R.ren c e.1, e.2)) →
    ∃ kw2, deco c kw = .ok kw2 ∧ kw2.Perm (kw.map fun e => (R.ren c e.1, e.2))
  again : ∀ c k, R.plain c k → R.plain c (R.ren c k) ∧ R.ren c (R.ren c k) = R.ren c k

/-! ## Lemmas about names -/

/-- Entries with the name of today. -/
def PI (T : Table A C) (R : Renaming C) (c : C) (e e' : String × Val A) : Prop := e.2 = e'.2 ∧ Inner T R c e.1 e'.1

theorem Inner.det {T : Table A C} {R : Renaming C} {c : C} {k a b : String} (x : Inner T R c k a)
    (y : Inner T R c k b) : a = b := by
  induction x generalizing b with
  | own h =>
    cases y with
    | own _ => rfl
    | part h' => rw [h] at h'; simp at h'
    | stop _ => rfl
  | part h hs ha _ _ ih =>
    cases y with
    | own h' => rw [h] at h'; simp at h'
    | part h' hs' ha' _ y =>
      rw [h] at h'
      simp only [Prod.mk.injEq, Option.some.injEq] at h'
      obtain ⟨rfl, rfl⟩ := h'
      rw [hs] at hs'
      cases hs'
      rw [ha] at ha'
      cases ha'
      rw [ih y]
    | stop h' hn =>
      rw [h] at h'
      simp only [Prod.mk.injEq, Option.some.injEq] at h'
      obtain ⟨rfl, rfl⟩ := h'
      exact absurd ha (hn _ _ hs)
  | stop h hn =>
    cases y with
    | own _ => rfl
    | part h' hs' ha' _ _ =>
      rw [h] at h'
      simp only [Prod.mk.injEq, Option.some.injEq] at h'
      obtain ⟨rfl, rfl⟩ := h'
      exact absurd ha' (hn _ _ hs')
    | stop _ => rfl

theorem PI.det {T : Table A C} {R : Renaming C} {c : C} {e a b : String × Val A} (x : PI T R c e a)
    (y : PI T R c e b) : a = b := Prod.ext (x.2.det y.2) (x.1.symm.trans y.1)

theorem forall₂_det {α β : Type} {P : α → β → Prop} (hP : ∀ e a b, P e a → P e b → a = b) {l : List α} {u v : List β}
    (x : List.Forall₂ P l u) (y : List.Forall₂ P l v) : u = v := by
  induction x generalizing v with
  | nil => cases y; rfl
  | cons h _ ih =>
    cases y with
    | cons h' y => rw [hP _ _ _ h h', ih y]

theorem forall₂_exists {α β : Type} {P : α → β → Prop} {l : List α} (h : ∀ e ∈ l, ∃ e', P e e') :
    ∃ u, List.Forall₂ P l u := by
  induction l with
  | nil => exact ⟨[], .nil⟩
  | cons e l ih =>
    obtain ⟨e', he⟩ := h e (by simp)
    obtain ⟨u, hu⟩ := ih fun e he => h e (by simp [he])
    exact ⟨e' :: u, .cons he hu⟩

theorem forall₂_mem {α β : Type} {P : α → β → Prop} {l : List α} {u : List β} (h : List.Forall₂ P l u) :
    (∀ e ∈ l, ∃ e' ∈ u, P e e') ∧ ∀ e' ∈ u, ∃ e ∈ l, P e e' := by
  induction h with
  | nil => simp
  | cons h _ ih =>
    constructor
    · intro e he
      rcases List.mem_cons.1 he with rfl | he
      · exact ⟨_, by simp, h⟩
      · obtain ⟨e', h1, h2⟩ := ih.1 e he
        exact ⟨e', by simp [h1], h2⟩
    · intro e he
      rcases List.mem_cons.1 he with rfl | he
      · exact ⟨_, by simp, h⟩
      · obtain ⟨e', h1, h2⟩ := ih.2 e he
        exact ⟨e', by simp [h1], h2⟩

/-- Different names today are different names before. -/
theorem ok_back {T : Table A C} {R : Renaming C} {c : C} {kw kwm : Dict (Val A)} (h : List.Forall₂ (PI T R c) kw kwm)
    (ok : kwm.Ok) : kw.Ok := by
  unfold Dict.Ok at *
  induction h with
  | nil => simp
  | @cons e e' l u h hl ih =>
    simp only [List.map_cons, List.nodup_cons] at ok ⊢
    refine ⟨fun hm => ok.1 ?_, ih ok.2⟩
    obtain ⟨x, hx, hxe⟩ := List.mem_map.1 hm
    obtain ⟨x', hx', p⟩ := (forall₂_mem hl).1 x hx
    have := p.2
    rw [hxe] at this
    exact List.mem_map.2 ⟨x', hx', this.det h.2⟩

theorem inj_of_ok {T : Table A C} {R : Renaming C} {c : C} {kw kwm : Dict (Val A)}
    (h : List.Forall₂ (PI T R c) kw kwm) (ok : kwm.Ok) :
    ∀ e1 ∈ kw, ∀ e2 ∈ kw, ∀ k', Inner T R c e1.1 k' → Inner T R c e2.1 k' → e1.1 = e2.1 := by
  unfold Dict.Ok at ok
  induction h with
  | nil => simp
  | @cons e e' l u h hl ih =>
    simp only [List.map_cons, List.nodup_cons] at ok
    have no : ∀ x ∈ l, ∀ k', Inner T R c e.1 k' → Inner T R c x.1 k' → False := by
      intro x hx k' a b
      obtain ⟨x', hx', p⟩ := (forall₂_mem hl).1 x hx
      refine ok.1 (List.mem_map.2 ⟨x', hx', ?_⟩)
      rw [p.2.det b, ← a.det h.2]
    intro e1 h1 e2 h2 k' a b
    rcases List.mem_cons.1 h1 with h1' | h1' <;> rcases List.mem_cons.1 h2 with h2' | h2'
    · rw [h1', h2']
    · rw [h1'] at a
      exact (no _ h2' _ a b).elim
    · rw [h2'] at b
      exact (no _ h1' _ b a).elim
    · exact ih ok.2 _ h1' _ h2' _ a b

/-- The first part of the name stays. -/
theorem Inner.partition {T : Table A C} (hT : T.Good) {R : Renaming C} {c : C} {k k' : String} (x : Inner T R c k k') :
    (partition k').1 = (Est.partition k).1 ∧
      (((Est.partition k).2 = Option.none ∧ k' = k) ∨
        ∃ r r', (Est.partition k).2 = some r ∧ (Est.partition k').2 = some r') := by
  cases x with
  | own h => exact ⟨rfl, .inl ⟨by rw [h], rfl⟩⟩
  | @part _ c' _ n r r' s h hs ha _ _ =>
    have hg : Good n := hT.good c n s (Dict.get?_some_mem _ _ _ hs)
    rw [partition_join hg, h]
    exact ⟨rfl, .inr ⟨r, r', rfl, rfl⟩⟩
  | @stop _ _ n r h hn => exact ⟨rfl, .inr ⟨r, r, by rw [h], by rw [h]⟩⟩

/-! ## The first loop -/

theorem gather_error_sim {T : Table A C} (hT : T.Good) {R : Renaming C} {c : C} {depth i : Nat}
    {kw kwm : Dict (Val A)} (f : List.Forall₂ (PI T R c) kw kwm) {h h' : Heap A C} {valid : Dict (Val A)}
    {nested nested' : Dict (Dict (Val A))} {err : PyErr}
    (e : gather T depth i (T.slots c) kw h valid nested = some (h', .error err)) :
    gather T depth i (T.slots c) kwm h valid nested' = some (h', .error err) := by
  induction f generalizing h valid nested nested' with
  | nil => simp [gather] at e
  | @cons x x' l u hx _ ih =>
    obtain ⟨k, v⟩ := x
    obtain ⟨k', v'⟩ := x'
    obtain ⟨hv, hk⟩ := hx
    simp only at hv hk
    subst hv
    rw [gather] at e ⊢
    obtain ⟨hp, hq⟩ := hk.partition hT
    rw [hp]
    cases hs : (T.slots c).get? (partition k).1 with
    | none => simp only [hs] at e ⊢; exact e
    | some s =>
      simp only [hs] at e ⊢
      rcases hq with ⟨hn, rfl⟩ | ⟨r, r', h1, h2⟩
      · simp only [hn] at e ⊢
        cases ha : setAttr T depth i s (partition k').1 v h with
        | none => rw [ha] at e; simp at e
        | some h1 => simp only [ha] at e ⊢; exact ih e
      · simp only [h1] at e
        simp only [h2]
        exact ih e

theorem gather_own {T : Table A C} {c : C} {depth i : Nat} {kw : Dict (Val A)} {h h' : Heap A C}
    {valid valid' : Dict (Val A)} {nested nested' : Dict (Dict (Val A))}
    (e : gather T depth i (T.slots c) kw h valid nested = some (h', .ok (valid', nested')))
    (rest : Dict (Val A)) (nested2 : Dict (Dict (Val A))) :
    gather T depth i (T.slots c) (ownPart kw ++ rest) h valid nested2 =
      gather T depth i (T.slots c) rest h' valid' nested2 := by
  induction kw generalizing h valid nested with
  | nil =>
    simp only [gather, Option.some.injEq, Prod.mk.injEq, Except.ok.injEq] at e
    obtain ⟨rfl, rfl, -⟩ := e
    rfl
  | cons x kw ih =>
    obtain ⟨k, v⟩ := x
    rw [gather] at e
    cases hs : (T.slots c).get? (partition k).1 with
    | none => rw [hs] at e; simp at e
    | some s =>
      simp only [hs] at e
      cases hp : (partition k).2 with
      | some sub =>
        simp only [hp] at e
        have : ownPart ((k, v) :: kw) = ownPart kw := by simp [ownPart, hp]
        rw [this]
        exact ih e
      | none =>
        simp only [hp] at e
        cases ha : setAttr T depth i s (partition k).1 v h with
        | none => rw [ha] at e; simp at e
        | some h1 =>
          simp only [ha] at e
          have : ownPart ((k, v) :: kw) = (k, v) :: ownPart kw := by simp [ownPart, hp]
          rw [this, List.cons_append, gather, hs]
          simp only [hp, ha]
          exact ih e

theorem gather_heads {T : Table A C} {c : C} {depth i : Nat} {kw : Dict (Val A)} {h h' : Heap A C}
    {valid valid' : Dict (Val A)} {nested nested' : Dict (Dict (Val A))}
    (e : gather T depth i (T.slots c) kw h valid nested = some (h', .ok (valid', nested'))) :
    ∀ x ∈ kw, ∃ s, (T.slots c).get? (partition x.1).1 = some s := by
  induction kw generalizing h valid nested with
  | nil => simp
  | cons x kw ih =>
    obtain ⟨k, v⟩ := x
    rw [gather] at e
    cases hs : (T.slots c).get? (partition k).1 with
    | none => rw [hs] at e; simp at e
    | some s =>
      simp only [hs] at e
      have hrest : ∀ x ∈ kw, ∃ s, (T.slots c).get? (partition x.1).1 = some s := by
        cases hp : (partition k).2 with
        | some sub => simp only [hp] at e; exact ih e
        | none =>
          simp only [hp] at e
          cases ha : setAttr T depth i s (partition k).1 v h with
          | none => rw [ha] at e; simp at e
          | some h1 => simp only [ha] at e; exact ih e
      intro y hy
      rcases List.mem_cons.1 hy with rfl | hy
      · exact ⟨s, hs⟩
      · exact hrest y hy

theorem gather_parts {T : Table A C} {c : C} {depth i : Nat} (kw : Dict (Val A)) (h : Heap A C)
    (valid : Dict (Val A)) (nested : Dict (Dict (Val A)))
    (hs : ∀ x ∈ kw, ∃ s r, (T.slots c).get? (partition x.1).1 = some s ∧ (partition x.1).2 = some r) :
    gather T depth i (T.slots c) kw h valid nested = some (h, .ok (valid, nest nested kw)) := by
  induction kw generalizing nested with
  | nil => rfl
  | cons x kw ih =>
    obtain ⟨k, v⟩ := x
    obtain ⟨s, r, h1, h2⟩ := hs (k, v) (by simp)
    rw [gather]
    simp only at h1 h2
    simp only [h1, h2]
    rw [ih _ fun x hx => hs x (by simp [hx])]
    simp only [nest, List.foldl_cons, nestOne, h2]

theorem gather_valid {T : Table A C} {c : C} {depth i : Nat} {kw : Dict (Val A)} (hpl : Plain kw) {h h' : Heap A C}
    {valid valid' : Dict (Val A)} {nested nested' : Dict (Dict (Val A))}
    (e : gather T depth i (T.slots c) kw h valid nested = some (h', .ok (valid', nested'))) {n : String} {j : Nat}
    (hn : valid'.get? n = some (.ref j)) : valid.get? n = some (.ref j) := by
  induction kw generalizing h valid nested with
  | nil =>
    simp only [gather, Option.some.injEq, Prod.mk.injEq, Except.ok.injEq] at e
    obtain ⟨-, rfl, -⟩ := e
    exact hn
  | cons x kw ih =>
    obtain ⟨k, v⟩ := x
    have hpl' : Plain kw := fun e he => hpl e (by simp [he])
    rw [gather] at e
    cases hs : (T.slots c).get? (partition k).1 with
    | none => rw [hs] at e; simp at e
    | some s =>
      simp only [hs] at e
      cases hp : (partition k).2 with
      | some sub => simp only [hp] at e; exact ih hpl' e
      | none =>
        simp only [hp] at e
        cases ha : setAttr T depth i s (partition k).1 v h with
        | none => rw [ha] at e; simp at e
        | some h1 =>
          simp only [ha] at e
          have := ih hpl' e
          rw [Dict.get?_set] at this
          split at this
          · simp only [Option.some.injEq] at this
            exact absurd this (hpl (k, v) (by simp) j)
          · exact this

/-! ## The arguments for the parts, in a row -/

/-- The arguments for the parts, with the names of the parts in front. -/
def flat (nested : Dict (Dict (Val A))) : Dict (Val A) :=
  nested.flatMap fun x => x.2.map fun p => (join x.1 p.1, p.2)

theorem set_new {V : Type} (d : Dict V) (k : String) (v : V) (h : k ∉ d.map Prod.fst) : d.set k v = d ++ [(k, v)] := by
  induction d with
  | nil => rfl
  | cons x d ih =>
    simp only [List.map_cons, List.mem_cons, not_or] at h
    rw [Dict.set, if_neg (Ne.symm h.1), ih h.2]
    rfl

theorem set_last {V : Type} (d : Dict V) (k : String) (u v : V) (h : k ∉ d.map Prod.fst) :
    Dict.set (d ++ [(k, u)]) k v = d ++ [(k, v)] := by
  induction d with
  | nil => simp [Dict.set]
  | cons x d ih =>
    simp only [List.map_cons, List.mem_cons, not_or] at h
    rw [List.cons_append, Dict.set, if_neg (Ne.symm h.1), ih h.2]
    rfl

theorem get?_last {V : Type} (d : Dict V) (k : String) (u : V) (h : k ∉ d.map Prod.fst) :
    Dict.get? (d ++ [(k, u)]) k = some u := by
  rw [Dict.get?_append, (Dict.get?_none_iff d k).2 h]
  simp [Dict.get?]

theorem nest_row (acc : Dict (Dict (Val A))) {n : String} (hg : Good n) (hn : n ∉ acc.map Prod.fst)
    (dn sub : Dict (Val A)) (ok : Dict.Ok (dn ++ sub)) :
    nest (acc ++ [(n, dn)]) (sub.map fun p => (join n p.1, p.2)) = acc ++ [(n, dn ++ sub)] := by
  induction sub generalizing dn with
  | nil => simp [nest]
  | cons x sub ih =>
    obtain ⟨r, v⟩ := x
    have hr : r ∉ dn.map Prod.fst := by
      unfold Dict.Ok at ok
      simp only [List.map_append, List.map_cons] at ok
      intro hm
      exact (List.nodup_append.1 ok).2.2 r hm r (by simp) rfl
    simp only [List.map_cons]
    rw [nest, List.foldl_cons, nestOne]
    simp only [partition_join hg, get?_last acc n dn hn, Option.getD_some, set_last acc n dn _ hn, set_new dn r v hr]
    have := ih (dn ++ [(r, v)]) (by simpa using ok)
    rw [nest] at this
    rw [this]
    simp

theorem nest_flat (nested : Dict (Dict (Val A))) (acc : Dict (Dict (Val A)))
    (ok : Dict.Ok (acc ++ nested)) (hg : ∀ x ∈ nested, Good x.1 ∧ x.2 ≠ [] ∧ x.2.Ok) :
    nest acc (flat nested) = acc ++ nested := by
  induction nested generalizing acc with
  | nil => simp [flat, nest]
  | cons x nested ih =>
    obtain ⟨n, sub⟩ := x
    obtain ⟨h1, h2, h3⟩ := hg (n, sub) (by simp)
    have hn : n ∉ acc.map Prod.fst := by
      unfold Dict.Ok at ok
      simp only [List.map_append, List.map_cons] at ok
      intro hm
      exact (List.nodup_append.1 ok).2.2 n hm n (by simp) rfl
    have key : nest acc (sub.map fun p => (join n p.1, p.2)) = acc ++ [(n, sub)] := by
      cases sub with
      | nil => exact absurd rfl h2
      | cons y sub =>
        obtain ⟨r, v⟩ := y
        simp only [List.map_cons]
        rw [nest, List.foldl_cons, nestOne]
        simp only [partition_join h1, (Dict.get?_none_iff acc n).2 hn, Option.getD_none]
        rw [set_new acc n _ hn]
        have := nest_row acc h1 hn [(r, v)] sub (by simpa using h3)
        rw [nest] at this
        exact this
    have hf : flat ((n, sub) :: nested) = (sub.map fun p => (join n p.1, p.2)) ++ flat nested := by
      simp [flat]
    rw [hf, nest, List.foldl_append]
    rw [nest] at key
    rw [key]
    have := ih (acc ++ [(n, sub)]) (by simpa using ok) fun x hx => hg x (by simp [hx])
    rw [nest] at this
    rw [this]
    simp

theorem nestOne_nonempty (nested : Dict (Dict (Val A))) (hn : ∀ x ∈ nested, x.2 ≠ []) (e : String × Val A) :
    ∀ x ∈ nestOne nested e, x.2 ≠ [] := by
  intro x hx
  unfold nestOne at hx
  cases hp : (partition e.1).2 with
  | none => rw [hp] at hx; exact hn x hx
  | some sub =>
    rw [hp] at hx
    rcases mem_set _ _ _ _ hx with h | rfl
    · exact hn x h
    · intro h0
      have := Dict.get?_set_self ((nested.get? (partition e.1).1).getD []) sub e.2
      simp only at h0
      rw [h0] at this
      simp [Dict.get?] at this

theorem nest_nonempty (kw : Dict (Val A)) (nested : Dict (Dict (Val A))) (hn : ∀ x ∈ nested, x.2 ≠ []) :
    ∀ x ∈ nest nested kw, x.2 ≠ [] := by
  induction kw generalizing nested with
  | nil => exact hn
  | cons e kw ih =>
    rw [nest, List.foldl_cons]
    exact ih _ (nestOne_nonempty nested hn e)

/-- The arguments are those for the estimator and those for the parts. -/
theorem perm_flat {kw : Dict (Val A)} (ok : kw.Ok) : kw.Perm (ownPart kw ++ flat (nest [] kw)) := by
  have hno := nest_ok kw [] (by simp [Dict.Ok]) (by simp [Dict.get?])
  have hmem : ∀ n sub, (n, sub) ∈ nest [] kw → (nest [] kw).get? n = some sub :=
    fun n sub h => Dict.get?_of_mem _ _ _ hno.1 h
  have hflat : ∀ e, e ∈ flat (nest [] kw) ↔ e ∈ kw ∧ (partition e.1).2.isSome = true := by
    intro e
    simp only [flat, List.mem_flatMap, List.mem_map]
    constructor
    · rintro ⟨⟨n, sub⟩, hx, ⟨r, v⟩, hp, rfl⟩
      have hg := hmem n sub hx
      obtain ⟨k, hk, hm⟩ := (nest_sub ok hg r v).1 (Dict.get?_of_mem _ _ _ (hno.2 n sub hg) hp)
      have := of_partition_some hk
      subst this
      exact ⟨hm, by simp [hk]⟩
    · rintro ⟨hm, hs⟩
      obtain ⟨r, hr⟩ := Option.isSome_iff_exists.1 hs
      obtain ⟨k, v⟩ := e
      have hk : partition k = ((partition k).1, some r) := by rw [← hr]
      obtain ⟨sub, h1, h2⟩ := nest_mem ok hk hm
      exact ⟨((partition k).1, sub), Dict.get?_some_mem _ _ _ h1, (r, v), Dict.get?_some_mem _ _ _ h2,
        by rw [← of_partition_some hk]⟩
  have hnd : (flat (nest [] kw)).Nodup := by
    rw [flat, List.nodup_flatMap]
    constructor
    · rintro ⟨n, sub⟩ hx
      have := ok_map_join sub n (hno.2 n sub (hmem n sub hx))
      exact List.Nodup.of_map _ this
    · have hp : (nest [] kw).Pairwise fun a b => a.1 ≠ b.1 := by
        have := hno.1
        unfold Dict.Ok at this
        exact List.pairwise_map.1 this
      refine hp.imp_of_mem ?_
      rintro ⟨n, sub⟩ ⟨n', sub'⟩ hx hx' hne
      simp only [Function.onFun, List.disjoint_left, List.mem_map]
      rintro e ⟨⟨r, v⟩, hr, rfl⟩ ⟨⟨r', v'⟩, hr', he⟩
      simp only [Prod.mk.injEq] at he
      have hg := hmem n sub hx
      have hg' := hmem n' sub' hx'
      obtain ⟨k, hk, -⟩ := (nest_sub ok hg r v).1 (Dict.get?_of_mem _ _ _ (hno.2 n sub hg) hr)
      obtain ⟨k', hk', -⟩ := (nest_sub ok hg' r' v').1 (Dict.get?_of_mem _ _ _ (hno.2 n' sub' hg') hr')
      rw [of_partition_some hk] at hk
      rw [of_partition_some hk', he.1, hk] at hk'
      simp only [Prod.mk.injEq] at hk'
      exact hne hk'.1
  have hkn : kw.Nodup := List.Nodup.of_map _ ok
  refine (List.perm_ext_iff_of_nodup hkn ?_).2 ?_
  · refine List.nodup_append.2 ⟨hkn.sublist List.filter_sublist, hnd, ?_⟩
    rintro a ha b hb rfl
    have h1 := (hflat a).1 hb
    simp only [ownPart, List.mem_filter] at ha
    rw [Option.isNone_iff_eq_none] at ha
    rw [ha.2] at h1
    simp at h1
  · intro e
    rw [List.mem_append, hflat]
    simp only [ownPart, List.mem_filter]
    cases (partition e.1).2 <;> simp

/-! ## The second loop -/

/-- Arguments of part `n` of class `c` today. -/
def PQ (T : Table A C) (R : Renaming C) (c : C) (n : String) (e e' : String × Val A) : Prop :=
  e.2 = e'.2 ∧ Inner T R c (join n e.1) (join n e'.1)

/-- Arguments of the parts of class `c` today, those of each part in some order. -/
def PN (T : Table A C) (R : Renaming C) (c : C) (x x' : String × Dict (Val A)) : Prop :=
  x.1 = x'.1 ∧ ∃ u, List.Forall₂ (PQ T R c x.1) x.2 u ∧ x'.2.Perm u

theorem Inner.of_join {T : Table A C} {R : Renaming C} {c : C} {n r k' : String} (hg : Good n)
    (x : Inner T R c (join n r) k') :
    ∃ r', k' = join n r' ∧
      ∀ s c', (T.slots c).get? n = some s → s.auto = some (.make c') → Modern T R c' r r' := by
  cases x with
  | own h => rw [partition_join hg] at h; simp at h
  | @part _ c1 _ n1 r1 r' s h hs ha hp hi =>
    rw [partition_join hg] at h
    simp only [Prod.mk.injEq, Option.some.injEq] at h
    obtain ⟨rfl, rfl⟩ := h
    refine ⟨r', rfl, fun s2 c2 h2 a2 => ?_⟩
    rw [hs] at h2
    cases h2
    rw [ha] at a2
    cases a2
    exact ⟨hp, hi⟩
  | stop h hn =>
    rw [partition_join hg] at h
    simp only [Prod.mk.injEq, Option.some.injEq] at h
    obtain ⟨rfl, rfl⟩ := h
    exact ⟨r, rfl, fun s2 c2 h2 a2 => absurd a2 (hn _ _ h2)⟩

theorem sub_exists {T : Table A C} {R : Renaming C} {c : C} {n : String} (hg : Good n) {sub : Dict (Val A)}
    (h : ∀ e ∈ sub, ∃ k', Inner T R c (join n e.1) k') : ∃ u, List.Forall₂ (PQ T R c n) sub u := by
  refine forall₂_exists fun e he => ?_
  obtain ⟨k', hk⟩ := h e he
  obtain ⟨r', rfl, -⟩ := hk.of_join hg
  exact ⟨(r', e.2), rfl, hk⟩

theorem sub_ok {T : Table A C} {R : Renaming C} {c : C} {n : String} {sub u : Dict (Val A)}
    (f : List.Forall₂ (PQ T R c n) sub u) (ok : sub.Ok)
    (inj : ∀ e1 ∈ sub, ∀ e2 ∈ sub, ∀ k', Inner T R c (join n e1.1) k' → Inner T R c (join n e2.1) k' → e1.1 = e2.1) :
    u.Ok := by
  unfold Dict.Ok at *
  induction f with
  | nil => simp
  | @cons e e' l u h hl ih =>
    simp only [List.map_cons, List.nodup_cons] at ok ⊢
    refine ⟨fun hm => ok.1 ?_, ih ok.2 fun a ha b hb => inj a (by simp [ha]) b (by simp [hb])⟩
    obtain ⟨x', hx', hxe⟩ := List.mem_map.1 hm
    obtain ⟨x, hx, p⟩ := (forall₂_mem hl).2 x' hx'
    have := p.2
    rw [hxe] at this
    exact List.mem_map.2 ⟨x, hx, inj x (by simp [hx]) e (by simp) _ this h.2⟩

theorem spread_sim {T : Table A C} (hT : T.Good) {R : Renaming C} {c : C} {depth fuel : Nat}
    {recD : Nat → Dict (Val A) → Heap A C → Option (Heap A C × Except PyErr Unit)}
    (hrec : ∀ j sub subm h h' c' res, Typed T h → (h[j]?).map Obj.cls = some c' → sub.Ok → Plain sub →
      Today T R c' sub subm → subm.Ok → recD j sub h = some (h', res) →
      ∃ sub', sub'.Perm subm ∧ setParams T depth fuel j sub' h = some (h', res))
    (valid : Dict (Val A)) (nested : Dict (Dict (Val A))) {h h' : Heap A C} (t : Typed T h)
    (hval : ∀ n j, valid.get? n = some (.ref j) →
      ∃ s c', (T.slots c).get? n = some s ∧ s.auto = some (.make c') ∧ (h[j]?).map Obj.cls = some c')
    (hn : ∀ x ∈ nested, Good x.1 ∧ x.2.Ok ∧ Plain x.2 ∧ ∀ e ∈ x.2, ∃ k', Inner T R c (join x.1 e.1) k')
    (inj : ∀ x ∈ nested, ∀ e1 ∈ x.2, ∀ e2 ∈ x.2, ∀ k', Inner T R c (join x.1 e1.1) k' →
      Inner T R c (join x.1 e2.1) k' → e1.1 = e2.1)
    {res : Except PyErr Unit} (e : spread recD valid nested h = some (h', res)) :
    ∃ nested', List.Forall₂ (PN T R c) nested nested' ∧
      spread (setParams T depth fuel) valid nested' h = some (h', res) := by
  have any : ∀ l : Dict (Dict (Val A)), (∀ x ∈ l, x ∈ nested) → ∃ l', List.Forall₂ (PN T R c) l l' := by
    intro l hl
    refine forall₂_exists fun x hx => ?_
    obtain ⟨u, hu⟩ := sub_exists (hn x (hl x hx)).1 (hn x (hl x hx)).2.2.2
    exact ⟨(x.1, u), rfl, u, hu, .refl _⟩
  induction nested generalizing h with
  | nil => exact ⟨[], .nil, e⟩
  | cons x nested ih =>
    obtain ⟨n, sub⟩ := x
    obtain ⟨hg, hok, hpl, hin⟩ := hn (n, sub) (by simp)
    obtain ⟨l', hl'⟩ := any nested fun x hx => by simp [hx]
    obtain ⟨u, hu⟩ := sub_exists hg hin
    rw [spread] at e
    have bad : (∀ j, valid.get? n ≠ some (.ref j)) → some (h, Except.error PyErr.attributeError) = some (h', res) →
        ∃ nested', List.Forall₂ (PN T R c) ((n, sub) :: nested) nested' ∧
          spread (setParams T depth fuel) valid nested' h = some (h', res) := by
      intro hv e
      refine ⟨(n, u) :: l', .cons ⟨rfl, u, hu, .refl _⟩ hl', ?_⟩
      rw [spread, ← e]
      cases hvn : valid.get? n with
      | none => rfl
      | some w =>
        cases w with
        | none => rfl
        | atom a => rfl
        | ref j => exact absurd hvn (hv j)
    cases hv : valid.get? n with
    | none => rw [hv] at e; exact bad (by simp [hv]) e
    | some w =>
      cases w with
      | none => rw [hv] at e; exact bad (by simp [hv]) e
      | atom a => rw [hv] at e; exact bad (by simp [hv]) e
      | ref j =>
        simp only [hv] at e
        obtain ⟨s, c', hs, ha, hc⟩ := hval n j hv
        cases hr : recD j sub h with
        | none => rw [hr] at e; simp at e
        | some q =>
          obtain ⟨h1, r1⟩ := q
          simp only [hr] at e
          have today : Today T R c' sub u := by
            refine hu.imp fun a b hab => ⟨hab.1, ?_⟩
            obtain ⟨r', h1, h2⟩ := hab.2.of_join hg
            rw [join_inj h1]
            exact h2 s c' hs ha
          have uok : Dict.Ok u := sub_ok hu hok (inj (n, sub) (by simp))
          obtain ⟨sub', hp, hset⟩ := hrec j sub u h h1 c' r1 t hc hok hpl today uok hr
          have pl' : Plain sub' := by
            intro y hy k
            obtain ⟨z, hz, hzy⟩ := (forall₂_mem hu).2 y (hp.mem_iff.1 hy)
            rw [← hzy.1]
            exact hpl z hz k
          obtain ⟨t1, k1⟩ := setParams_typed hT pl' t hset
          cases r1 with
          | error err =>
            simp only [Option.some.injEq, Prod.mk.injEq] at e
            obtain ⟨rfl, rfl⟩ := e
            refine ⟨(n, sub') :: l', .cons ⟨rfl, u, hu, hp⟩ hl', ?_⟩
            rw [spread, hv]
            simp only [hset]
          | ok w =>
            obtain ⟨l2, hl2, hsp⟩ := ih t1
              (fun n j hnj => by
                obtain ⟨s, c', a1, a2, a3⟩ := hval n j hnj
                exact ⟨s, c', a1, a2, k1 _ _ a3⟩)
              (fun x hx => hn x (by simp [hx])) (fun x hx => inj x (by simp [hx])) e
              (fun l hl => any l fun x hx => by simp [hl x hx])
            refine ⟨(n, sub') :: l2, .cons ⟨rfl, u, hu, hp⟩ hl2, ?_⟩
            rw [spread, hv]
            simp only [hset]
            exact hsp

theorem forall₂_names {T : Table A C} {R : Renaming C} {c : C} {nested nested' : Dict (Dict (Val A))}
    (f : List.Forall₂ (PN T R c) nested nested') : nested'.map Prod.fst = nested.map Prod.fst := by
  induction f with
  | nil => rfl
  | cons h _ ih => simp only [List.map_cons, ih, h.1]

theorem forall₂_flat {T : Table A C} {R : Renaming C} {c : C} {nested nested' : Dict (Dict (Val A))}
    (f : List.Forall₂ (PN T R c) nested nested') :
    ∃ L, List.Forall₂ (PI T R c) (flat nested) L ∧ (flat nested').Perm L := by
  induction f with
  | nil => exact ⟨[], by simp [flat], by simp [flat]⟩
  | @cons x x' l l' h _ ih =>
    obtain ⟨L, hL, hp⟩ := ih
    obtain ⟨n, sub⟩ := x
    obtain ⟨n', sub'⟩ := x'
    obtain ⟨hn, u, hu, hpu⟩ := h
    simp only at hn hu hpu
    subst hn
    refine ⟨(u.map fun p => (join n p.1, p.2)) ++ L, ?_, ?_⟩
    · have : flat ((n, sub) :: l) = (sub.map fun p => (join n p.1, p.2)) ++ flat l := by simp [flat]
      rw [this]
      refine List.rel_append ?_ hL
      rw [List.forall₂_map_left_iff, List.forall₂_map_right_iff]
      exact hu.imp fun a b hab => ⟨hab.1, hab.2⟩
    · have : flat ((n, sub') :: l') = (sub'.map fun p => (join n p.1, p.2)) ++ flat l' := by simp [flat]
      rw [this]
      exact (hpu.map _).append hp

/-! ## `set_params` -/

theorem ok_perm {V : Type} {d e : Dict V} (p : d.Perm e) (ok : e.Ok) : d.Ok := by
  unfold Dict.Ok at *
  exact ((p.map Prod.fst).nodup_iff).2 ok

theorem plain_perm {d e : Dict (Val A)} (p : d.Perm e) (h : Plain e) : Plain d := fun x hx => h x (p.mem_iff.1 hx)

/-- The arguments that the first loop collects for the parts. -/
theorem nested_facts {T : Table A C} (hT : T.Good) {R : Renaming C} {c : C} {depth i : Nat} {kw kwm : Dict (Val A)}
    (f : List.Forall₂ (PI T R c) kw kwm) (okm : kwm.Ok) {h h1 : Heap A C} {attrs valid : Dict (Val A)}
    {nested : Dict (Dict (Val A))} (hg : gather T depth i (T.slots c) kw h attrs [] = some (h1, .ok (valid, nested))) :
    ((nest [] kw).Ok ∧ ∀ n d, (nest [] kw).get? n = some d → d.Ok) ∧ (∀ x ∈ nest [] kw, x.2 ≠ []) ∧
    (∀ x ∈ nest [] kw, ∃ s, (T.slots c).get? x.1 = some s) ∧ (∀ x ∈ nest [] kw, Good x.1) ∧
    (∀ x ∈ nest [] kw, x.2.Ok) ∧
    (∀ x ∈ nest [] kw, ∀ e1 ∈ x.2, ∀ e2 ∈ x.2, ∀ k', Inner T R c (join x.1 e1.1) k' →
      Inner T R c (join x.1 e2.1) k' → e1.1 = e2.1) ∧
    ∀ x ∈ nest [] kw, ∀ e ∈ x.2, ∃ k', Inner T R c (join x.1 e.1) k' := by
  have ok := ok_back f okm
  have hno := nest_ok kw [] (by simp [Dict.Ok]) (by simp [Dict.get?])
  have hheads := gather_heads hg
  have hmem : ∀ x ∈ nest [] kw, ∀ y ∈ x.2, ∃ v, (join x.1 y.1, v) ∈ kw ∧
      partition (join x.1 y.1) = (x.1, some y.1) := by
    rintro ⟨n, sub⟩ hx ⟨r, v⟩ hy
    have hgn := Dict.get?_of_mem _ _ _ hno.1 hx
    obtain ⟨k, hk, hm⟩ := (nest_sub ok hgn r v).1 (Dict.get?_of_mem _ _ _ (hno.2 n sub hgn) hy)
    have := of_partition_some hk
    subst this
    exact ⟨v, hm, hk⟩
  have hne := nest_nonempty kw [] (by simp)
  have hslot : ∀ x ∈ nest [] kw, ∃ s, (T.slots c).get? x.1 = some s := by
    intro x hx
    obtain ⟨y, hy⟩ := List.exists_mem_of_ne_nil _ (hne x hx)
    obtain ⟨v, hm, hk⟩ := hmem x hx y hy
    have := hheads _ hm
    rw [hk] at this
    exact this
  have hgood : ∀ x ∈ nest [] kw, Good x.1 := by
    intro x hx
    obtain ⟨s, hs⟩ := hslot x hx
    exact hT.good _ _ _ (Dict.get?_some_mem _ _ _ hs)
  have hsubok : ∀ x ∈ nest [] kw, x.2.Ok := fun x hx => hno.2 x.1 x.2 (Dict.get?_of_mem _ _ _ hno.1 hx)
  have hinj : ∀ x ∈ nest [] kw, ∀ e1 ∈ x.2, ∀ e2 ∈ x.2, ∀ k', Inner T R c (join x.1 e1.1) k' →
      Inner T R c (join x.1 e2.1) k' → e1.1 = e2.1 := by
    intro x hx e1 h1 e2 h2 k' a b
    obtain ⟨v1, m1, -⟩ := hmem x hx e1 h1
    obtain ⟨v2, m2, -⟩ := hmem x hx e2 h2
    exact join_inj (inj_of_ok f okm _ m1 _ m2 k' a b)
  refine ⟨hno, hne, hslot, hgood, hsubok, hinj, ?_⟩
  intro x hx y hy
  obtain ⟨v, hm, -⟩ := hmem x hx y hy
  obtain ⟨z, -, p⟩ := (forall₂_mem f).1 _ hm
  exact ⟨z.1, p.2⟩

/-- After the decorators. -/
theorem core_sim {T : Table A C} (hT : T.Good) {R : Renaming C} {depth fuel i : Nat}
    {recD : Nat → Dict (Val A) → Heap A C → Option (Heap A C × Except PyErr Unit)}
    (hrec : ∀ j sub subm h h' c' res, Typed T h → (h[j]?).map Obj.cls = some c' → sub.Ok → Plain sub →
      Today T R c' sub subm → subm.Ok → recD j sub h = some (h', res) →
      ∃ sub', sub'.Perm subm ∧ setParams T depth fuel j sub' h = some (h', res))
    {h h' : Heap A C} {o : Obj A C} (hi : h[i]? = some o) (t : Typed T h)
    {kw kwm : Dict (Val A)} (hpl : Plain kw) (f : List.Forall₂ (PI T R o.cls) kw kwm) (okm : kwm.Ok)
    {res : Except PyErr Unit}
    (e : (if kw.isEmpty then some (h, .ok ())
      else
        match gather T depth i (T.slots o.cls) kw h o.attrs [] with
        | Option.none => Option.none
        | some (h, .error e) => some (h, .error e)
        | some (h, .ok (valid, nested)) => spread recD valid nested h) = some (h', res)) :
    ∃ kw', kw'.Perm kwm ∧ setParams T depth (fuel + 1) i kw' h = some (h', res) := by
  have ok := ok_back f okm
  by_cases hemp : kw.isEmpty = true
  · rw [if_pos hemp] at e
    have : kw = [] := List.isEmpty_iff.1 hemp
    subst this
    cases f
    exact ⟨[], .refl _, by rw [setParams]; exact e⟩
  · rw [if_neg hemp] at e
    have ne : ∀ l : Dict (Val A), l.length = kw.length → ¬ l.isEmpty = true := by
      intro l hl hc
      rw [List.isEmpty_iff] at hc hemp
      subst hc
      exact hemp (List.length_eq_zero_iff.1 hl.symm)
    cases hg : gather T depth i (T.slots o.cls) kw h o.attrs [] with
    | none => rw [hg] at e; simp at e
    | some q =>
      obtain ⟨h1, r1⟩ := q
      cases r1 with
      | error err =>
        simp only [hg] at e
        refine ⟨kwm, .refl _, ?_⟩
        rw [setParams, if_neg (ne kwm f.length_eq.symm), hi]
        simp only [gather_error_sim hT f (nested' := []) hg]
        exact e
      | ok p =>
        obtain ⟨valid, nested⟩ := p
        simp only [hg] at e
        have hnest := gather_nest _ _ _ _ hg
        subst hnest
        obtain ⟨t1, k1⟩ := gather_typed hT kw hpl t (by rw [hi]; rfl) _ _ hg
        obtain ⟨hno, hne, hslot, hgood, hsubok, hinj, hmod⟩ := nested_facts hT f okm hg
        obtain ⟨nested', hf, hsp⟩ := spread_sim hT hrec valid (nest [] kw) t1
          (fun n j hnj => by
            have := gather_valid hpl hg hnj
            obtain ⟨s, c', a1, a2, a3⟩ := t i o hi _ (Dict.get?_some_mem _ _ _ this) j rfl
            exact ⟨s, c', a1, a2, k1 _ _ a3⟩)
          (fun x hx => ⟨hgood x hx, hsubok x hx, nest_plain kw hpl [] (by simp) x hx, hmod x hx⟩) hinj e
        -- the same arguments
        obtain ⟨L, hL, hpL⟩ := forall₂_flat hf
        have hown : List.Forall₂ (PI T R o.cls) (ownPart kw) (ownPart kw) := by
          rw [List.forall₂_same]
          intro x hx
          simp only [ownPart, List.mem_filter, Option.isNone_iff_eq_none] at hx
          exact ⟨rfl, .own (n := (partition x.1).1) (by rw [← hx.2])⟩
        obtain ⟨X, hX, hpX⟩ := List.perm_comp_forall₂ (perm_flat ok).symm f
        have hXL : X = ownPart kw ++ L :=
          forall₂_det (P := PI T R o.cls) (fun _ _ _ a b => PI.det a b) hX (List.rel_append hown hL)
        subst hXL
        have hperm : (ownPart kw ++ flat nested').Perm kwm := ((List.Perm.refl _).append hpL).trans hpX
        refine ⟨ownPart kw ++ flat nested', hperm, ?_⟩
        -- the new dictionaries
        have hkeys : nested'.map Prod.fst = (nest [] kw).map Prod.fst := forall₂_names hf
        have hprop : ∀ x' ∈ nested', Good x'.1 ∧ x'.2 ≠ [] ∧ x'.2.Ok := by
          intro x' hx'
          obtain ⟨x, hx, hn, u, hu, hpu⟩ := (forall₂_mem hf).2 x' hx'
          refine ⟨hn ▸ hgood x hx, ?_, ok_perm hpu (sub_ok hu (hsubok x hx) (hinj x hx))⟩
          intro h0
          rw [h0] at hpu
          have : u = [] := hpu.symm.eq_nil
          subst this
          cases hxx : x.2 with
          | nil => exact hne x hx hxx
          | cons a b => rw [hxx] at hu; cases hu
        have hnf : nest [] (flat nested') = nested' := by
          have := nest_flat nested' [] (by
            have h1 := hno.1
            unfold Dict.Ok at *
            simp only [List.nil_append]
            rw [hkeys]
            exact h1) hprop
          simpa using this
        have hg2 : gather T depth i (T.slots o.cls) (ownPart kw ++ flat nested') h o.attrs [] =
            some (h1, .ok (valid, nested')) := by
          rw [gather_own hg, gather_parts, hnf]
          intro y hy
          simp only [flat, List.mem_flatMap, List.mem_map] at hy
          obtain ⟨x', hx', p, -, rfl⟩ := hy
          obtain ⟨x, hx, hn, -⟩ := (forall₂_mem hf).2 x' hx'
          obtain ⟨s, hs⟩ := hslot x hx
          rw [hn] at hs
          have := hgood x hx
          rw [hn] at this
          rw [partition_join this]
          exact ⟨s, p.1, hs, rfl⟩
        rw [setParams, if_neg (ne _ (hperm.length_eq.trans f.length_eq.symm)), hi]
        simp only [hg2]
        exact hsp

theorem today_map {T : Table A C} {R : Renaming C} {c : C} {kw kwm : Dict (Val A)} (f : Today T R c kw kwm) :
    List.Forall₂ (PI T R c) (kw.map fun e => (R.ren c e.1, e.2)) kwm := by
  rw [List.forall₂_map_left_iff]
  exact f.imp fun a b h => ⟨h.1, h.2.2⟩

theorem deco_sim {T : Table A C} {R : Renaming C} {deco : Deco A C} (hR : R.Of deco) {c : C} {kw kwm : Dict (Val A)}
    (ok : kw.Ok) (hpl : Plain kw) (f : Today T R c kw kwm) (okm : kwm.Ok) :
    ∃ kw2 kwm2, deco c kw = .ok kw2 ∧ Plain kw2 ∧ List.Forall₂ (PI T R c) kw2 kwm2 ∧ kwm2.Perm kwm ∧
      ∀ e ∈ kw2, R.plain c e.1 ∧ R.ren c e.1 = e.1 := by
  have f1 := today_map f
  obtain ⟨kw2, h1, h2⟩ := hR.does c kw ok (fun e he => by
    obtain ⟨e', -, p⟩ := (forall₂_mem f).1 e he
    exact p.2.1) (ok_back f1 okm)
  obtain ⟨kwm2, h3, h4⟩ := List.perm_comp_forall₂ h2 f1
  refine ⟨kw2, kwm2, h1, ?_, h3, h4, ?_⟩
  · intro x hx j
    obtain ⟨y, hy, rfl⟩ := List.mem_map.1 (h2.mem_iff.1 hx)
    exact hpl y hy j
  · intro x hx
    obtain ⟨y, hy, rfl⟩ := List.mem_map.1 (h2.mem_iff.1 hx)
    obtain ⟨e', -, p⟩ := (forall₂_mem f).1 y hy
    exact hR.again c y.1 p.2.1

/-- `set_params` with old names is `set_params` with the names of today, in some order. -/
theorem setParams_sim {T : Table A C} (hT : T.Good) {R : Renaming C} {deco : Deco A C} (hR : R.Of deco)
    {depth fuel i : Nat} {kw kwm : Dict (Val A)} {h h' : Heap A C} {c : C} {res : Except PyErr Unit} (t : Typed T h)
    (hc : (h[i]?).map Obj.cls = some c) (ok : kw.Ok) (hpl : Plain kw) (f : Today T R c kw kwm) (okm : kwm.Ok)
    (e : setParamsD T deco depth fuel i kw h = some (h', res)) :
    ∃ kw', kw'.Perm kwm ∧ setParams T depth fuel i kw' h = some (h', res) := by
  induction fuel generalizing i kw kwm h h' c res with
  | zero => simp [setParamsD] at e
  | succ fuel ih =>
    cases hi : h[i]? with
    | none => rw [hi] at hc; simp at hc
    | some o =>
      obtain rfl : o.cls = c := by simpa [hi] using hc
      obtain ⟨kw2, kwm2, h1, h2, h3, h4, -⟩ := deco_sim hR ok hpl f okm
      rw [setParamsD, hi] at e
      simp only [h1] at e
      obtain ⟨kw', h5, h6⟩ := core_sim hT
        (fun j sub subm h h' c' res t hc ok hpl f okm e => ih t hc ok hpl f okm e) hi t h2 h3 (ok_perm h4 okm) e
      exact ⟨kw', h5.trans h4, h6⟩

/-- A constructor with old names is the constructor with the names of today, in some order. -/
theorem construct_sim {T : Table A C} (hT : T.Good) {R : Renaming C} {deco : Deco A C} (hR : R.Of deco)
    {depth fuel : Nat} {c : C} {kw kwm : Dict (Val A)} {h h' : Heap A C} {res : Except PyErr Nat} (t : Typed T h)
    (ok : kw.Ok) (hpl : Plain kw) (f : Today T R c kw kwm) (okm : kwm.Ok)
    (e : constructD T deco depth fuel c kw h = some (h', res)) :
    ∃ kw', kw'.Perm kwm ∧ construct T depth fuel c kw' h = some (h', res) := by
  obtain ⟨kw2, kwm2, h1, h2, h3, h4, h5⟩ := deco_sim hR ok hpl f okm
  have okm2 := ok_perm h4 okm
  have ok2 := ok_back h3 okm2
  unfold constructD at e
  simp only [h1] at e
  have hkn : ∀ k k', Inner T R c k k' → ((T.slots c).has k' = (T.slots c).has k) ∧ ((T.slots c).has k = true → k' = k) := by
    have key : ∀ n r, (T.slots c).has (join n r) = false ∨ Good (join n r) := by
      intro n r
      cases hh : (T.slots c).has (join n r) with
      | false => exact .inl rfl
      | true =>
        obtain ⟨s, hs⟩ := (Dict.has_iff _ _).1 hh
        exact .inr (hT.good _ _ _ (Dict.get?_some_mem _ _ _ hs))
    intro k k' x
    cases x with
    | own _ => exact ⟨rfl, fun _ => rfl⟩
    | stop _ _ => exact ⟨rfl, fun _ => rfl⟩
    | @part _ c' _ n r r' s hp hs ha _ _ =>
      have hg : Good n := hT.good c n s (Dict.get?_some_mem _ _ _ hs)
      have no : ∀ r, (T.slots c).has (join n r) = false := by
        intro r
        rcases key n r with h | h
        · exact h
        · have h1 := partition_good h
          rw [partition_join hg] at h1
          simp at h1
      have := of_partition_some hp
      subst this
      rw [no r, no r']
      exact ⟨rfl, by simp⟩
  have split : ∀ b : Bool, List.Forall₂ (PI T R c) (kw2.filter fun e => (T.slots c).has e.1 == b)
      (kwm2.filter fun e => (T.slots c).has e.1 == b) := by
    intro b
    clear h1 h2 h4 h5 okm2 ok2 e
    induction h3 with
    | nil => exact .nil
    | @cons x x' l u hx _ ih =>
      have := (hkn _ _ hx.2).1
      by_cases hb : ((T.slots c).has x.1 == b) = true
      · simp only [List.filter_cons, this, hb, if_true]
        exact .cons hx ih
      · simp only [List.filter_cons, this, if_neg hb]
        exact ih
  have ft : ∀ l : Dict (Val A), (l.filter fun e => (T.slots c).has e.1 == true) =
      l.filter fun e => (T.slots c).has e.1 := by
    intro l; congr 1; funext e; simp
  have ff : ∀ l : Dict (Val A), (l.filter fun e => (T.slots c).has e.1 == false) =
      l.filter fun e => !(T.slots c).has e.1 := by
    intro l; congr 1; funext e; cases (T.slots c).has e.1 <;> rfl
  have s1 := split true
  have s2 := split false
  rw [ft, ft] at s1
  rw [ff, ff] at s2
  have hown : (kwm2.filter fun e => (T.slots c).has e.1) = kw2.filter fun e => (T.slots c).has e.1 := by
    refine forall₂_det (P := PI T R c) (fun _ _ _ a b => PI.det a b) s1 ?_
    rw [List.forall₂_same]
    intro x hx
    obtain ⟨x', -, p⟩ := (forall₂_mem s1).1 x hx
    have hh : (T.slots c).has x.1 = true := by simpa using (List.mem_filter.1 hx).2
    have := (hkn _ _ p.2).2 hh
    refine ⟨rfl, ?_⟩
    have p2 := p.2
    rw [this] at p2
    exact p2
  have subok : ∀ p : String × Val A → Bool, ∀ l : Dict (Val A), l.Ok → Dict.Ok (l.filter p) := by
    intro p l hl
    unfold Dict.Ok at *
    exact hl.sublist (List.Sublist.map _ List.filter_sublist)
  -- any order of the rest
  have fin : ∀ rest' : Dict (Val A), rest'.Perm (kwm2.filter fun e => !(T.slots c).has e.1) →
      ((kw2.filter fun e => (T.slots c).has e.1) ++ rest').Perm kwm ∧
      (((kw2.filter fun e => (T.slots c).has e.1) ++ rest').filter fun e => (T.slots c).has e.1) =
        (kw2.filter fun e => (T.slots c).has e.1) ∧
      (((kw2.filter fun e => (T.slots c).has e.1) ++ rest').filter fun e => !(T.slots c).has e.1) = rest' := by
    intro rest' hp
    have hr : ∀ x ∈ rest', (T.slots c).has x.1 = false := by
      intro x hx
      simpa using (List.mem_filter.1 (hp.mem_iff.1 hx)).2
    refine ⟨?_, ?_, ?_⟩
    · rw [← hown]
      refine (((List.Perm.refl _).append hp).trans ?_).trans h4
      exact List.filter_append_perm (fun e : String × Val A => (T.slots c).has e.1) kwm2
    · rw [List.filter_append, List.filter_filter]
      have : (rest'.filter fun e => (T.slots c).has e.1) = [] := by
        rw [List.filter_eq_nil_iff]
        intro x hx
        simp [hr x hx]
      rw [this]
      simp
    · rw [List.filter_append, List.filter_filter]
      have h1 : (rest'.filter fun e => !(T.slots c).has e.1) = rest' := by
        rw [List.filter_eq_self]
        intro x hx
        simp [hr x hx]
      rw [h1]
      simp
  have empt : ∀ rest' : Dict (Val A), rest'.Perm (kwm2.filter fun e => !(T.slots c).has e.1) →
      rest'.isEmpty = (kw2.filter fun e => !(T.slots c).has e.1).isEmpty := by
    intro rest' hp
    have : rest'.length = (kw2.filter fun e => !(T.slots c).has e.1).length := hp.length_eq.trans s2.length_eq.symm
    rw [Bool.eq_iff_iff, List.isEmpty_iff, List.isEmpty_iff, ← List.length_eq_zero_iff, ← List.length_eq_zero_iff, this]
  split at e
  · rename_i hb
    obtain ⟨f1, f2, f3⟩ := fin _ (.refl _)
    refine ⟨_, f1, ?_⟩
    unfold construct
    simp only [f2, f3, empt _ (.refl _)]
    rw [if_pos hb]
    exact e
  · rename_i hb
    cases hn : newObj T depth c (kw2.filter fun e => (T.slots c).has e.1) h with
    | none => rw [hn] at e; simp at e
    | some q =>
      obtain ⟨hp1, i1⟩ := q
      simp only [hn] at e
      obtain ⟨t1, -, c1⟩ := newObj_typed hT t (fun n v hv => .plain _ _ _ _ fun j =>
        h2 (n, v) (List.mem_of_mem_filter (Dict.get?_some_mem _ _ _ hv)) j) hn
      cases hs : setParamsD T deco depth fuel i1 (kw2.filter fun e => !(T.slots c).has e.1) hp1 with
      | none => rw [hs] at e; simp at e
      | some q =>
        obtain ⟨hp2, r2⟩ := q
        have today : Today T R c (kw2.filter fun e => !(T.slots c).has e.1)
            (kwm2.filter fun e => !(T.slots c).has e.1) := by
          have mem : ∀ x ∈ (kw2.filter fun e => !(T.slots c).has e.1), x ∈ kw2 := fun x hx => List.mem_of_mem_filter hx
          generalize (kw2.filter fun e => !(T.slots c).has e.1) = a at s2 mem
          generalize (kwm2.filter fun e => !(T.slots c).has e.1) = b at s2
          unfold Today
          induction s2 with
          | nil => exact .nil
          | @cons x x' l u hx _ ih =>
            refine .cons ⟨hx.1, ?_⟩ (ih fun x hx => mem x (by simp [hx]))
            obtain ⟨a1, a2⟩ := h5 x (mem x (by simp))
            refine ⟨a1, ?_⟩
            rw [a2]
            exact hx.2
        obtain ⟨rest', hp, hset⟩ := setParams_sim hT hR t1 c1 (subok _ _ ok2)
          (fun x hx => h2 x (List.mem_of_mem_filter hx)) today (subok _ _ okm2) hs
        obtain ⟨f1, f2, f3⟩ := fin _ hp
        refine ⟨_, f1, ?_⟩
        unfold construct
        simp only [f2, f3, empt _ hp]
        rw [if_neg hb]
        simp only [hn, hset]
        simp only [hs] at e
        exact e

/-! ## Endings -/

theorem spread_ends {T : Table A C} (hT : T.Good) {R : Renaming C} {c : C} {depth fuel : Nat}
    {recD : Nat → Dict (Val A) → Heap A C → Option (Heap A C × Except PyErr Unit)}
    (hrec : ∀ j sub subm h h' c' res, Typed T h → (h[j]?).map Obj.cls = some c' → sub.Ok → Plain sub →
      Today T R c' sub subm → subm.Ok → recD j sub h = some (h', res) →
      ∃ sub', sub'.Perm subm ∧ setParams T depth fuel j sub' h = some (h', res))
    (hends : ∀ j sub subm h c' s n, (T.slots c).get? n = some s → s.auto = some (.make c') → Typed T h →
      (h[j]?).map Obj.cls = some c' → sub.Ok → Plain sub → Today T R c' sub subm → subm.Ok → ∃ r, recD j sub h = some r)
    (valid : Dict (Val A)) (nested : Dict (Dict (Val A))) {h : Heap A C} (t : Typed T h)
    (hval : ∀ n j, valid.get? n = some (.ref j) →
      ∃ s c', (T.slots c).get? n = some s ∧ s.auto = some (.make c') ∧ (h[j]?).map Obj.cls = some c')
    (hn : ∀ x ∈ nested, Good x.1 ∧ x.2.Ok ∧ Plain x.2 ∧ ∀ e ∈ x.2, ∃ k', Inner T R c (join x.1 e.1) k')
    (inj : ∀ x ∈ nested, ∀ e1 ∈ x.2, ∀ e2 ∈ x.2, ∀ k', Inner T R c (join x.1 e1.1) k' →
      Inner T R c (join x.1 e2.1) k' → e1.1 = e2.1) : ∃ r, spread recD valid nested h = some r := by
  induction nested generalizing h with
  | nil => exact ⟨_, rfl⟩
  | cons x nested ih =>
    obtain ⟨n, sub⟩ := x
    obtain ⟨hg, hok, hpl, hin⟩ := hn (n, sub) (by simp)
    obtain ⟨u, hu⟩ := sub_exists hg hin
    rw [spread]
    cases hv : valid.get? n with
    | none => exact ⟨_, rfl⟩
    | some w =>
      cases w with
      | none => exact ⟨_, rfl⟩
      | atom a => exact ⟨_, rfl⟩
      | ref j =>
        obtain ⟨s, c', hs, ha, hc⟩ := hval n j hv
        have today : Today T R c' sub u := by
          refine hu.imp fun a b hab => ⟨hab.1, ?_⟩
          obtain ⟨r', h1, h2⟩ := hab.2.of_join hg
          rw [join_inj h1]
          exact h2 s c' hs ha
        have uok : Dict.Ok u := sub_ok hu hok (inj (n, sub) (by simp))
        obtain ⟨⟨h1, r1⟩, hr⟩ := hends j sub u h c' s n hs ha t hc hok hpl today uok
        obtain ⟨sub', hp, hset⟩ := hrec j sub u h h1 c' r1 t hc hok hpl today uok hr
        have pl' : Plain sub' := by
          intro y hy k
          obtain ⟨z, hz, hzy⟩ := (forall₂_mem hu).2 y (hp.mem_iff.1 hy)
          rw [← hzy.1]
          exact hpl z hz k
        obtain ⟨t1, k1⟩ := setParams_typed hT pl' t hset
        simp only [hr]
        cases r1 with
        | error err => exact ⟨_, rfl⟩
        | ok w =>
          exact ih t1
            (fun n j hnj => by
              obtain ⟨s, c', a1, a2, a3⟩ := hval n j hnj
              exact ⟨s, c', a1, a2, k1 _ _ a3⟩)
            (fun x hx => hn x (by simp [hx])) (fun x hx => inj x (by simp [hx]))

/-- `set_params` with old names ends. -/
theorem setParamsD_ends {T : Table A C} (hT : T.Good) {R : Renaming C} {deco : Deco A C} (hR : R.Of deco)
    {rk : C → Nat} (hr : Ranked T rk) {depth : Nat} (hd : ∀ c, rk c < depth) {fuel i : Nat} {kw kwm : Dict (Val A)}
    {h : Heap A C} {c : C} (t : Typed T h) (hc : (h[i]?).map Obj.cls = some c) (hf : rk c < fuel) (ok : kw.Ok)
    (hpl : Plain kw) (f : Today T R c kw kwm) (okm : kwm.Ok) : ∃ r, setParamsD T deco depth fuel i kw h = some r := by
  induction fuel generalizing i kw kwm h c with
  | zero => omega
  | succ fuel ih =>
    cases hi : h[i]? with
    | none => rw [hi] at hc; simp at hc
    | some o =>
      obtain rfl : o.cls = c := by simpa [hi] using hc
      obtain ⟨kw2, kwm2, h1, h2, h3, h4, -⟩ := deco_sim hR ok hpl f okm
      rw [setParamsD, hi]
      simp only [h1]
      split
      · exact ⟨_, rfl⟩
      · obtain ⟨⟨hp1, r1⟩, hg⟩ := gather_total hr (hd o.cls) i kw2 h (List.getElem?_eq_some_iff.1 hi).1 o.attrs []
        simp only [hg]
        cases r1 with
        | error err => exact ⟨_, rfl⟩
        | ok p =>
          obtain ⟨valid, nested⟩ := p
          have hnest := gather_nest _ _ _ _ hg
          subst hnest
          obtain ⟨t1, k1⟩ := gather_typed hT kw2 h2 t (by rw [hi]; rfl) _ _ hg
          obtain ⟨hno, hne, hslot, hgood, hsubok, hinj, hmod⟩ := nested_facts hT h3 (ok_perm h4 okm) hg
          exact spread_ends hT (R := R) (depth := depth) (fuel := fuel)
            (fun j sub subm h h' c' res t hc ok hpl f okm e => setParams_sim hT hR t hc ok hpl f okm e)
            (fun j sub subm h c' s n hs ha t hc ok hpl f okm =>
              ih t hc (by have := hr.lt o.cls n s c' (Dict.get?_some_mem _ _ _ hs) ha; omega) ok hpl f okm)
            valid (nest [] kw2) t1
            (fun n j hnj => by
              have := gather_valid h2 hg hnj
              obtain ⟨s, c', a1, a2, a3⟩ := t i o hi _ (Dict.get?_some_mem _ _ _ this) j rfl
              exact ⟨s, c', a1, a2, k1 _ _ a3⟩)
            (fun x hx => ⟨hgood x hx, hsubok x hx, nest_plain kw2 h2 [] (by simp) x hx, hmod x hx⟩) hinj

theorem rest_today {T : Table A C} {R : Renaming C} {c : C} (p : String × Val A → Bool) {kw2 kwm2 : Dict (Val A)}
    (f : List.Forall₂ (PI T R c) kw2 kwm2) (h : ∀ e ∈ kw2, R.plain c e.1 ∧ R.ren c e.1 = e.1) :
    ∃ rm : Dict (Val A), Today T R c (kw2.filter p) rm ∧ rm.Sublist kwm2 := by
  induction f with
  | nil => exact ⟨[], .nil, .slnil⟩
  | @cons x x' l u hx _ ih =>
    obtain ⟨rm, h1, h2⟩ := ih fun e he => h e (by simp [he])
    obtain ⟨a1, a2⟩ := h x (by simp)
    by_cases hp : p x = true
    · rw [List.filter_cons_of_pos hp]
      exact ⟨x' :: rm, .cons ⟨hx.1, a1, by rw [a2]; exact hx.2⟩ h1, h2.cons_cons _⟩
    · rw [List.filter_cons_of_neg hp]
      exact ⟨rm, h1, h2.cons _⟩

/-- A constructor with old names ends. -/
theorem constructD_ends {T : Table A C} (hT : T.Good) {R : Renaming C} {deco : Deco A C} (hR : R.Of deco)
    {rk : C → Nat} (hr : Ranked T rk) {depth : Nat} (hd : ∀ c, rk c < depth) {fuel : Nat} {c : C}
    {kw kwm : Dict (Val A)} {h : Heap A C} (t : Typed T h) (hf : rk c < fuel) (ok : kw.Ok)
    (hpl : Plain kw) (f : Today T R c kw kwm) (okm : kwm.Ok) : ∃ r, constructD T deco depth fuel c kw h = some r := by
  obtain ⟨kw2, kwm2, h1, h2, h3, h4, h5⟩ := deco_sim hR ok hpl f okm
  have okm2 := ok_perm h4 okm
  have ok2 := ok_back h3 okm2
  unfold constructD
  simp only [h1]
  split
  · exact ⟨_, rfl⟩
  · obtain ⟨⟨hp1, i1⟩, hn⟩ := newObj_total hr (hd c) (kw2.filter fun e => (T.slots c).has e.1) h
    simp only [hn]
    obtain ⟨t1, -, c1⟩ := newObj_typed hT t (fun n v hv => .plain _ _ _ _ fun j =>
      h2 (n, v) (List.mem_of_mem_filter (Dict.get?_some_mem _ _ _ hv)) j) hn
    obtain ⟨rm, r1, r2⟩ := rest_today (fun e => !(T.slots c).has e.1) h3 h5
    obtain ⟨⟨hp2, q⟩, hs⟩ := setParamsD_ends hT hR hr hd (i := i1) t1 c1 hf
      (by
        unfold Dict.Ok at *
        exact ok2.sublist (List.Sublist.map _ List.filter_sublist))
      (fun x hx => h2 x (List.mem_of_mem_filter hx)) r1
      (by
        unfold Dict.Ok at *
        exact okm2.sublist (r2.map _))
    simp only [hs]
    cases q with
    | error err => exact ⟨_, rfl⟩
    | ok u => exact ⟨_, rfl⟩

end Verif.Est
