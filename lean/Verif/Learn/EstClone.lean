import Verif.Learn.EstTotal

/-!
# `clone`
-/

set_option autoImplicit false
set_option linter.unusedSectionVars false
set_option linter.unusedSimpArgs false

namespace Verif.Est

open Verif

variable {A C : Type}

/-- What can be told of a value without its identity: estimators by their class. -/
inductive Kind (A C : Type) where
  | none
  | atom (a : A)
  | obj (c : C)

/-- The kind of a value. -/
def kindOf (h : Heap A C) : Val A → Option (Kind A C)
  | .none => some .none
  | .atom a => some (.atom a)
  | .ref j => (h[j]?).map fun o => .obj o.cls

/-- Two estimators with the same parameters, part by part. -/
def Alike (h : Heap A C) (i : Nat) (h' : Heap A C) (i' : Nat) : Prop :=
  ∀ k x, (∃ v, Look h i k v ∧ kindOf h v = some x) ↔ ∃ v, Look h' i' k v ∧ kindOf h' v = some x

theorem Look.mem {h : Heap A C} {i : Nat} {k : String} {v : Val A} (l : Look h i k v) {fp : List Nat}
    (o : Own h [.ref i] fp) : ∀ j, v = .ref j → j ∈ fp := by
  induction l generalizing fp with
  | here hp hi ha =>
    rintro j rfl
    obtain ⟨ob, f, h1, rfl, o1, _⟩ := own_ref o
    rw [hi] at h1
    cases h1
    obtain ⟨f', r, o2, _, m, _⟩ := o1.split _ _ _ ha
    obtain ⟨_, f2, _, rfl, _⟩ := own_ref o2
    simp [(m j).2 (.inl (by simp))]
  | there hp hi ha _ ih =>
    intro j hj
    obtain ⟨ob, f, h1, rfl, o1, _⟩ := own_ref o
    rw [hi] at h1
    cases h1
    obtain ⟨f', r, o2, _, m, _⟩ := o1.split _ _ _ ha
    simp [(m j).2 (.inl (ih o2 j hj))]

theorem kindOf_frame {h h' : Heap A C} {i : Nat} {k : String} {v : Val A} (l : Look h i k v) {fp : List Nat}
    (o : Own h [.ref i] fp) (e : ∀ x ∈ fp, h'[x]? = h[x]?) : kindOf h' v = kindOf h v := by
  cases v with
  | none => rfl
  | atom a => rfl
  | ref j => simp only [kindOf, e j (l.mem o j rfl)]

theorem shows_frame {h h' : Heap A C} {i : Nat} {fp : List Nat} (o : Own h [.ref i] fp)
    (e : ∀ x ∈ fp, h'[x]? = h[x]?) (k : String) (x : Kind A C) :
    (∃ v, Look h' i k v ∧ kindOf h' v = some x) ↔ ∃ v, Look h i k v ∧ kindOf h v = some x := by
  constructor
  · rintro ⟨v, l, hk⟩
    have l' := (look_frame o e k v).1 l
    exact ⟨v, l', by rw [← kindOf_frame l' o e]; exact hk⟩
  · rintro ⟨v, l, hk⟩
    exact ⟨v, (look_frame o e k v).2 l, by rw [kindOf_frame l o e]; exact hk⟩

theorem Alike.right {h h1 h2 : Heap A C} {i j : Nat} (a : Alike h i h1 j) {fp : List Nat} (o : Own h1 [.ref j] fp)
    (e : ∀ x ∈ fp, h2[x]? = h1[x]?) : Alike h i h2 j := fun k x => (a k x).trans (shows_frame o e k x).symm

theorem Alike.left {h h1 h2 : Heap A C} {i j : Nat} (a : Alike h1 i h2 j) {fp : List Nat} (o : Own h [.ref i] fp)
    (e : ∀ x ∈ fp, h1[x]? = h[x]?) : Alike h i h2 j := fun k x => (shows_frame o e k x).symm.trans (a k x)

/-- A value and its clone. -/
def CloneVal (h : Heap A C) (h' : Heap A C) : Val A → Val A → Prop
  | .none, w => w = .none
  | .atom a, w => w = .atom a
  | .ref j, w => ∃ k, w = .ref k ∧ Alike h j h' k ∧ (h'[k]?).map Obj.cls = (h[j]?).map Obj.cls

theorem fill_given (mk : C → Heap A C → Option (Heap A C × Nat)) (given : Dict (Val A)) (l : Dict (Slot A C))
    (h : Heap A C) (hg : ∀ n s, (n, s) ∈ l → ∃ v, given.get? n = some v ∧ (s.auto.isSome → v ≠ .none)) :
    fill mk given l h = some (h, l.map fun e => (e.1, (given.get? e.1).getD .none)) := by
  induction l with
  | nil => rfl
  | cons x l ih =>
    obtain ⟨n, s⟩ := x
    obtain ⟨v, hv, hn⟩ := hg n s (by simp)
    rw [fill]
    have hs : store mk s ((given.get? n).getD s.init) h = some (h, v) := by
      rw [hv]
      simp only [Option.getD_some, store]
      cases v with
      | none =>
        cases ha : s.auto with
        | none => rfl
        | some d => exact absurd rfl (hn (by simp [ha]))
      | atom a => rfl
      | ref j => rfl
    simp only [hs, ih fun n s hm => hg n s (by simp [hm]), List.map_cons]
    rw [hv, Option.getD_some]

theorem given_eq (given : Dict (Val A)) (l : Dict (Slot A C)) (hk : given.map Prod.fst = l.map Prod.fst)
    (ho : given.Ok) : (l.map fun e => (e.1, (given.get? e.1).getD .none)) = given := by
  have h1 : (l.map fun e => (e.1, (given.get? e.1).getD .none)) =
      (l.map Prod.fst).map fun n => (n, (given.get? n).getD .none) := by simp
  rw [h1, ← hk, List.map_map]
  conv => rhs; rw [← List.map_id given]
  refine List.map_congr_left fun e he => ?_
  simp only [Function.comp_apply, id]
  rw [Dict.get?_of_mem given e.1 e.2 ho he]
  rfl

theorem newObj_given {T : Table A C} (depth : Nat) (c : C) (given : Dict (Val A)) (h : Heap A C)
    (hk : given.map Prod.fst = (T.slots c).map Prod.fst) (ho : given.Ok)
    (hn : ∀ n s, (T.slots c).get? n = some s → s.auto.isSome → given.get? n ≠ some .none) (hT : (T.slots c).Ok) :
    newObj T (depth + 1) c given h = some (h ++ [⟨c, given⟩], h.length) := by
  rw [newObj, fill_given _ _ _ _ ?_]
  · simp only [given_eq given _ hk ho]
  · intro n s hm
    have hs := Dict.get?_of_mem _ _ _ hT hm
    have := get?_keys _ _ hk n
    rw [hs] at this
    obtain ⟨v, hv⟩ := Option.isSome_iff_exists.1 (by simpa using this)
    refine ⟨v, hv, fun ha hvn => hn n s hs ha (hvn ▸ hv)⟩

/-- What a clone of an estimator is. -/
def CloneOf (T : Table A C) (h : Heap A C) (i : Nat) (h' : Heap A C) (i' : Nat) : Prop :=
  Fresh T h h' [.ref i'] ∧ (h'[i']?).map Obj.cls = (h[i]?).map Obj.cls ∧ Alike h i h' i'

theorem cloneAll_spec {T : Table A C} {rec : Nat → Heap A C → Option (Heap A C × Nat)}
    (hrec : ∀ j h h' k fp, Wf T h → Own h [.ref j] fp → rec j h = some (h', k) → CloneOf T h j h' k)
    (l : Dict (Val A)) {h h' : Heap A C} (w : Wf T h) {fp : List Nat} (o : Own h (l.map Prod.snd) fp)
    {d : Dict (Val A)} (e : cloneAll rec l h = some (h', d)) :
    Fresh T h h' (d.map Prod.snd) ∧ d.map Prod.fst = l.map Prod.fst ∧
      ∀ n v, l.get? n = some v → ∃ w, d.get? n = some w ∧ CloneVal h h' v w := by
  induction l generalizing h fp d with
  | nil =>
    simp only [cloneAll, Option.some.injEq, Prod.mk.injEq] at e
    obtain ⟨rfl, rfl⟩ := e
    exact ⟨⟨⟨[], by simp⟩, id, [], .nil, by simp⟩, rfl, by simp [Dict.get?]⟩
  | cons x l ih =>
    obtain ⟨n, v⟩ := x
    simp only [List.map_cons] at o
    obtain ⟨f, g, rfl, of, og, hn⟩ := (own_cons _ _ _).1 o
    have plain : (∀ j, v ≠ .ref j) → ∀ d' : Dict (Val A), cloneAll rec l h = some (h', d') → d = (n, v) :: d' →
        Fresh T h h' (d.map Prod.snd) ∧ d.map Prod.fst = ((n, v) :: l).map Prod.fst ∧
        ∀ n' v', Dict.get? ((n, v) :: l) n' = some v' → ∃ w, d.get? n' = some w ∧ CloneVal h h' v' w := by
      rintro hv d' hd' rfl
      obtain ⟨⟨e1, w1, fp1, o1, l1⟩, k1, c1⟩ := ih w og hd'
      refine ⟨⟨e1, w1, fp1, ?_, l1⟩, by simp [k1], ?_⟩
      · cases v with
        | none => exact .none o1
        | atom a => exact .atom o1
        | ref j => exact absurd rfl (hv j)
      · intro n' v' hv'
        by_cases hk : n = n'
        · rw [Dict.get?, if_pos hk] at hv'
          simp only [Option.some.injEq] at hv'
          subst hv'
          refine ⟨v, by rw [Dict.get?, if_pos hk], ?_⟩
          cases v with
          | none => rfl
          | atom a => rfl
          | ref j => exact absurd rfl (hv j)
        · rw [Dict.get?, if_neg hk] at hv'
          obtain ⟨u, hu, cu⟩ := c1 n' v' hv'
          exact ⟨u, by rw [Dict.get?, if_neg hk]; exact hu, cu⟩
    cases v with
    | none =>
      rw [cloneAll] at e
      · cases hc : cloneAll rec l h with
        | none => rw [hc] at e; simp at e
        | some r =>
          obtain ⟨h1, d'⟩ := r
          simp only [hc, Option.some.injEq, Prod.mk.injEq] at e
          obtain ⟨rfl, rfl⟩ := e
          exact plain (by simp) d' hc rfl
      · simp
    | atom a =>
      rw [cloneAll] at e
      · cases hc : cloneAll rec l h with
        | none => rw [hc] at e; simp at e
        | some r =>
          obtain ⟨h1, d'⟩ := r
          simp only [hc, Option.some.injEq, Prod.mk.injEq] at e
          obtain ⟨rfl, rfl⟩ := e
          exact plain (by simp) d' hc rfl
      · simp
    | ref j =>
      rw [cloneAll] at e
      cases hr : rec j h with
      | none => rw [hr] at e; simp at e
      | some r =>
        obtain ⟨h1, k⟩ := r
        simp only [hr] at e
        cases hc : cloneAll rec l h1 with
        | none => rw [hc] at e; simp at e
        | some r =>
          obtain ⟨h2, d'⟩ := r
          simp only [hc, Option.some.injEq, Prod.mk.injEq] at e
          obtain ⟨rfl, rfl⟩ := e
          obtain ⟨⟨⟨e1, rfl⟩, w1, fp1, o1, l1⟩, cl1, al1⟩ := hrec j h h1 k f w of hr
          have og1 : Own (h ++ e1) (l.map Prod.snd) g := og.frame fun x hx => getElem?_ext _ (og.lt x hx)
          obtain ⟨⟨⟨e2, rfl⟩, w2, fp2, o2, l2⟩, k2, c2⟩ := ih (w1 w) og1 hc
          have fr1 : ∀ x ∈ fp1, (h ++ e1 ++ e2 : Heap A C)[x]? = (h ++ e1 : Heap A C)[x]? :=
            fun x hx => getElem?_ext _ (o1.lt x hx)
          refine ⟨⟨⟨e1 ++ e2, by simp⟩, fun w => w2 (w1 w), fp1 ++ fp2, ?_, ?_⟩, by simp [k2], ?_⟩
          · simp only [List.map_cons]
            refine (own_cons _ _ _).2 ⟨fp1, fp2, rfl, o1.frame fr1, o2, ?_⟩
            refine List.nodup_append.2 ⟨o1.nodup, o2.nodup, ?_⟩
            rintro a ha b hb rfl
            have := o1.lt a ha
            have := l2 a hb
            omega
          · intro x hx
            rcases List.mem_append.1 hx with hx | hx
            · exact l1 x hx
            · have := l2 x hx
              simp only [List.length_append] at this
              omega
          · intro n' v' hv'
            by_cases hk : n = n'
            · rw [Dict.get?, if_pos hk] at hv'
              simp only [Option.some.injEq] at hv'
              subst hv'
              refine ⟨.ref k, by rw [Dict.get?, if_pos hk], k, rfl, al1.right o1 fr1, ?_⟩
              rw [← cl1]
              obtain ⟨_, f1, _, rfl, _⟩ := own_ref o1
              rw [fr1 k (by simp)]
            · rw [Dict.get?, if_neg hk] at hv'
              obtain ⟨u, hu, cu⟩ := c2 n' v' hv'
              refine ⟨u, by rw [Dict.get?, if_neg hk]; exact hu, ?_⟩
              cases v' with
              | none => exact cu
              | atom a => exact cu
              | ref j' =>
                obtain ⟨k', rfl, al, cl⟩ := cu
                obtain ⟨f3, o3, m3, _⟩ := own_mem _ og (Dict.get?_some_mem _ _ _ hv')
                have fr3 : ∀ x ∈ f3, (h ++ e1 : Heap A C)[x]? = h[x]? := fun x hx => getElem?_ext _ (o3.lt x hx)
                refine ⟨k', rfl, al.left o3 fr3, ?_⟩
                rw [cl]
                obtain ⟨_, f1, _, rfl, _⟩ := own_ref o3
                rw [fr3 j' (by simp)]

theorem clone_spec {T : Table A C} (hT : T.Good) {depth fuel i : Nat} {h h' : Heap A C} (w : Wf T h) {fp : List Nat}
    (o : Own h [.ref i] fp) {i' : Nat} (e : clone T (depth + 1) fuel i h = some (h', i')) : CloneOf T h i h' i' := by
  induction fuel generalizing i h h' i' fp with
  | zero => simp [clone] at e
  | succ fuel ih =>
    obtain ⟨⟨c, attrs⟩, f, hi, rfl, of, hif⟩ := own_ref o
    rw [clone, hi] at e
    simp only at e
    cases hc : cloneAll (clone T (depth + 1) fuel) attrs h with
    | none => rw [hc] at e; simp at e
    | some r =>
      obtain ⟨h1, given⟩ := r
      simp only [hc] at e
      obtain ⟨⟨⟨e1, rfl⟩, w1, fp1, o1, l1⟩, k1, c1⟩ := cloneAll_spec (T := T)
        (fun j h h' k fp w o he => ih w o he) attrs w of hc
      have hwf := wf_get w hi
      have hnames := wf_names hT hwf
      have hgo : given.Ok := by
        have := hnames.1
        unfold Dict.Ok at *
        rw [k1]; exact this
      have hgk : given.map Prod.fst = (T.slots c).map Prod.fst := k1.trans hwf.1
      have hback : ∀ n u, given.get? n = some u → ∃ v, attrs.get? n = some v ∧ CloneVal h (h ++ e1) v u := by
        intro n u hu
        have := get?_keys _ _ k1 n
        rw [hu] at this
        obtain ⟨v, hv⟩ := Option.isSome_iff_exists.1 (by simpa using this.symm)
        obtain ⟨u', hu', cu⟩ := c1 n v hv
        rw [hu] at hu'
        simp only [Option.some.injEq] at hu'
        subst hu'
        exact ⟨v, hv, cu⟩
      have hnn : ∀ n s, (T.slots c).get? n = some s → s.auto.isSome → given.get? n ≠ some .none := by
        intro n s hs ha hg
        obtain ⟨v, hv, cv⟩ := hback n _ hg
        cases v with
        | none => exact hwf.2 n s hs ha hv
        | atom a => simp [CloneVal] at cv
        | ref j => obtain ⟨k, hk, _⟩ := cv; simp at hk
      rw [newObj_given depth c given (h ++ e1) hgk hgo hnn (hT.ok c)] at e
      simp only [Option.some.injEq, Prod.mk.injEq] at e
      obtain ⟨rfl, rfl⟩ := e
      have hi1 : (h ++ e1 ++ [⟨c, given⟩] : Heap A C)[(h ++ e1).length]? = some ⟨c, given⟩ := by simp
      have fr1 : ∀ x ∈ fp1, (h ++ e1 ++ [⟨c, given⟩] : Heap A C)[x]? = (h ++ e1 : Heap A C)[x]? :=
        fun x hx => getElem?_ext _ (o1.lt x hx)
      refine ⟨⟨⟨e1 ++ [⟨c, given⟩], by simp⟩, ?_, (h ++ e1).length :: fp1, ?_, ?_⟩, by rw [hi1, hi]; rfl, ?_⟩
      · intro w x hx
        rcases List.mem_append.1 hx with hx | hx
        · exact w1 w x hx
        · simp only [List.mem_singleton] at hx
          subst hx
          exact ⟨hgk, hnn⟩
      · refine own_of_ref hi1 (o1.frame fr1) fun hx => ?_
        have := o1.lt _ hx
        omega
      · intro x hx
        rcases List.mem_cons.1 hx with rfl | hx
        · simp
        · exact l1 x hx
      · -- the same parameters
        have part : ∀ n j k, attrs.get? n = some (.ref j) → given.get? n = some (.ref k) →
            Alike h j (h ++ e1 ++ [⟨c, given⟩]) k ∧
            ((h ++ e1 ++ [⟨c, given⟩] : Heap A C)[k]?).map Obj.cls = (h[j]?).map Obj.cls := by
          intro n j k ha hg
          obtain ⟨u, hu, k', rfl, al, cl⟩ := c1 n _ ha
          rw [hg] at hu
          simp only [Option.some.injEq, Val.ref.injEq] at hu
          subst hu
          obtain ⟨f3, o3, m3, _⟩ := own_mem _ o1 (Dict.get?_some_mem _ _ _ hg)
          have fr3 : ∀ x ∈ f3, (h ++ e1 ++ [⟨c, given⟩] : Heap A C)[x]? = (h ++ e1 : Heap A C)[x]? :=
            fun x hx => getElem?_ext _ (o3.lt x hx)
          refine ⟨al.right o3 fr3, ?_⟩
          rw [← cl]
          obtain ⟨_, f1, _, rfl, _⟩ := own_ref o3
          rw [fr3 k (by simp)]
        have kinds : ∀ n v u, attrs.get? n = some v → given.get? n = some u →
            kindOf (h ++ e1 ++ [⟨c, given⟩]) u = kindOf h v := by
          intro n v u hv hu
          obtain ⟨u', hu', cu⟩ := c1 n v hv
          rw [hu] at hu'
          simp only [Option.some.injEq] at hu'
          subst hu'
          cases v with
          | none => simp only [CloneVal] at cu; subst cu; rfl
          | atom a => simp only [CloneVal] at cu; subst cu; rfl
          | ref j =>
            obtain ⟨k, rfl, _, _⟩ := cu
            have := (part n j k hv hu).2
            simp only [kindOf]
            cases h1 : (h ++ e1 ++ [⟨c, given⟩] : Heap A C)[k]? <;> cases h2 : h[j]? <;> simp_all
        intro k x
        have look1 : ∀ v, Look h i k v ↔
            (((partition k).2 = Option.none ∧ attrs.get? (partition k).1 = some v) ∨
            ∃ r j, (partition k).2 = some r ∧ attrs.get? (partition k).1 = some (.ref j) ∧ Look h j r v) := by
          intro v
          rw [look_iff, hi]
          simp
        have look2 : ∀ v, Look (h ++ e1 ++ [⟨c, given⟩]) (h ++ e1).length k v ↔
            (((partition k).2 = Option.none ∧ given.get? (partition k).1 = some v) ∨
            ∃ r j, (partition k).2 = some r ∧ given.get? (partition k).1 = some (.ref j) ∧
              Look (h ++ e1 ++ [⟨c, given⟩]) j r v) := by
          intro v
          rw [look_iff, hi1]
          simp
        constructor
        · rintro ⟨v, l, hk⟩
          rcases (look1 v).1 l with ⟨p, ha⟩ | ⟨r, j, p, ha, lj⟩
          · obtain ⟨u, hu, _⟩ := c1 _ _ ha
            exact ⟨u, (look2 u).2 (.inl ⟨p, hu⟩), (kinds _ _ _ ha hu).trans hk⟩
          · obtain ⟨u, hu, k', rfl, _⟩ := c1 _ _ ha
            obtain ⟨v', l', hk'⟩ := ((part _ _ _ ha hu).1 r x).1 ⟨v, lj, hk⟩
            exact ⟨v', (look2 v').2 (.inr ⟨r, k', p, hu, l'⟩), hk'⟩
        · rintro ⟨v, l, hk⟩
          rcases (look2 v).1 l with ⟨p, hg⟩ | ⟨r, j, p, hg, lj⟩
          · obtain ⟨u, hu, _⟩ := hback _ _ hg
            exact ⟨u, (look1 u).2 (.inl ⟨p, hu⟩), (kinds _ _ _ hu hg).symm.trans hk⟩
          · obtain ⟨u, hu, cu⟩ := hback _ _ hg
            cases u with
            | none => simp [CloneVal] at cu
            | atom a => simp [CloneVal] at cu
            | ref j' =>
              obtain ⟨v', l', hk'⟩ := ((part _ _ _ hu hg).1 r x).2 ⟨v, lj, hk⟩
              exact ⟨v', (look1 v').2 (.inr ⟨r, j', p, hu, l'⟩), hk'⟩

/-- `clone` ends. -/
theorem clone_total {T : Table A C} (hT : T.Good) {depth fuel i : Nat} {h : Heap A C} (w : Wf T h) {fp : List Nat}
    (o : Own h [.ref i] fp) (hf : fp.length ≤ fuel) : ∃ r, clone T (depth + 1) fuel i h = some r := by
  induction fuel generalizing i h fp with
  | zero =>
    obtain ⟨_, f, _, rfl, _⟩ := own_ref o
    simp at hf
  | succ fuel ih =>
    obtain ⟨⟨c, attrs⟩, f, hi, rfl, of, hif⟩ := own_ref o
    simp only [List.length_cons] at hf
    rw [clone, hi]
    simp only
    have all : ∀ (l : Dict (Val A)) (h : Heap A C) (fp : List Nat), Wf T h → Own h (l.map Prod.snd) fp →
        fp.length ≤ fuel → ∃ r, cloneAll (clone T (depth + 1) fuel) l h = some r := by
      intro l
      induction l with
      | nil => intro h fp _ _ _; exact ⟨_, rfl⟩
      | cons x l ihl =>
        intro h fp w o hf
        obtain ⟨n, v⟩ := x
        simp only [List.map_cons] at o
        obtain ⟨f, g, rfl, of, og, hn⟩ := (own_cons _ _ _).1 o
        simp only [List.length_append] at hf
        cases v with
        | none =>
          obtain ⟨⟨h1, d⟩, hr⟩ := ihl h g w og (by omega)
          rw [cloneAll]
          · simp only [hr]; exact ⟨_, rfl⟩
          · simp
        | atom a =>
          obtain ⟨⟨h1, d⟩, hr⟩ := ihl h g w og (by omega)
          rw [cloneAll]
          · simp only [hr]; exact ⟨_, rfl⟩
          · simp
        | ref j =>
          obtain ⟨⟨h1, k⟩, hr⟩ := ih w of (by omega)
          obtain ⟨⟨⟨e1, rfl⟩, w1, _⟩, _⟩ := clone_spec hT w of hr
          obtain ⟨⟨h2, d⟩, hr2⟩ := ihl (h ++ e1) g (w1 w) (og.frame fun x hx => getElem?_ext _ (og.lt x hx)) (by omega)
          rw [cloneAll]
          simp only [hr, hr2]
          exact ⟨_, rfl⟩
    obtain ⟨⟨h1, given⟩, hc⟩ := all attrs h f w of (by omega)
    simp only [hc]
    obtain ⟨⟨⟨e1, rfl⟩, w1, fp1, o1, l1⟩, k1, c1⟩ := cloneAll_spec (T := T)
      (fun j h h' k fp w o he => clone_spec hT w o he) attrs w of hc
    have hwf := wf_get w hi
    have hnames := wf_names hT hwf
    have hgo : given.Ok := by
      have := hnames.1
      unfold Dict.Ok at *
      rw [k1]; exact this
    rw [newObj_given depth c given (h ++ e1) (k1.trans hwf.1) hgo ?_ (hT.ok c)]
    · exact ⟨_, rfl⟩
    · intro n s hs ha hg
      have := get?_keys _ _ k1 n
      rw [hg] at this
      obtain ⟨v, hv⟩ := Option.isSome_iff_exists.1 (by simpa using this.symm)
      obtain ⟨u', hu', cu⟩ := c1 n v hv
      rw [hg] at hu'
      simp only [Option.some.injEq] at hu'
      subst hu'
      cases v with
      | none => exact hwf.2 n s hs ha hv
      | atom a => simp [CloneVal] at cu
      | ref j => obtain ⟨k, hk, _⟩ := cu; simp at hk

end Verif.Est
