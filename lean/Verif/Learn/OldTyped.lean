import Verif.Learn.EstProps

/-!
# The classes of the parts

Programs without estimators as arguments only make parts of the classes that the table gives.
-/

set_option autoImplicit false
set_option linter.unusedSectionVars false
set_option linter.unusedSimpArgs false

namespace Verif.Est

open Verif

variable {A C : Type}

/-- The value `v` of parameter `n` of class `c`: if it is an estimator, then one of the class of the default
property. -/
def TypedVal (T : Table A C) (h : Heap A C) (c : C) (n : String) (v : Val A) : Prop :=
  ∀ j, v = .ref j → ∃ s c', (T.slots c).get? n = some s ∧ s.auto = some (.make c') ∧ (h[j]?).map Obj.cls = some c'

/-- All parts are of the classes of the default properties. -/
def Typed (T : Table A C) (h : Heap A C) : Prop :=
  ∀ (x : Nat) (o : Obj A C), h[x]? = some o → ∀ e ∈ o.attrs, TypedVal T h o.cls e.1 e.2

/-- Objects stay and keep their classes. -/
def Keeps (h h' : Heap A C) : Prop := ∀ (x : Nat) (c : C), (h[x]?).map Obj.cls = some c → (h'[x]?).map Obj.cls = some c

theorem Keeps.refl (h : Heap A C) : Keeps h h := fun _ _ e => e

theorem Keeps.trans {h h1 h2 : Heap A C} (a : Keeps h h1) (b : Keeps h1 h2) : Keeps h h2 := fun x c e => b x c (a x c e)

theorem Keeps.append (h e : Heap A C) : Keeps h (h ++ e) := by
  intro x c hx
  cases ho : h[x]? with
  | none => rw [ho] at hx; simp at hx
  | some o => rw [getElem?_ext e (List.getElem?_eq_some_iff.1 ho).1]; exact hx

theorem TypedVal.keeps {T : Table A C} {h h' : Heap A C} (k : Keeps h h') {c : C} {n : String} {v : Val A}
    (t : TypedVal T h c n v) : TypedVal T h' c n v := by
  intro j hj
  obtain ⟨s, c', h1, h2, h3⟩ := t j hj
  exact ⟨s, c', h1, h2, k _ _ h3⟩

theorem TypedVal.plain (T : Table A C) (h : Heap A C) (c : C) (n : String) {v : Val A} (hv : ∀ j, v ≠ .ref j) :
    TypedVal T h c n v := fun j hj => absurd hj (hv j)

theorem Typed.append {T : Table A C} {h : Heap A C} (t : Typed T h) (o : Obj A C)
    (ho : ∀ e ∈ o.attrs, TypedVal T h o.cls e.1 e.2) : Typed T (h ++ [o]) := by
  intro x o' hx y hy
  by_cases hl : x < h.length
  · rw [List.getElem?_append_left hl] at hx
    exact (t x o' hx y hy).keeps (.append _ _)
  · have hlt := (List.getElem?_eq_some_iff.1 hx).1
    simp only [List.length_append, List.length_singleton] at hlt
    obtain rfl : x = h.length := by omega
    simp only [List.getElem?_concat_length, Option.some.injEq] at hx
    subst hx
    exact (ho y hy).keeps (.append _ _)

theorem mem_set {V : Type} (d : Dict V) (k : String) (v : V) (x : String × V) (hx : x ∈ d.set k v) :
    x ∈ d ∨ x = (k, v) := by
  induction d with
  | nil => simp only [Dict.set, List.mem_singleton] at hx; exact .inr hx
  | cons y d ih =>
    rw [Dict.set] at hx
    split at hx
    · rename_i hy
      rcases List.mem_cons.1 hx with rfl | h
      · exact .inr (by rw [← hy])
      · exact .inl (by simp [h])
    · rcases List.mem_cons.1 hx with rfl | h
      · exact .inl (by simp)
      · rcases ih h with h | h
        · exact .inl (by simp [h])
        · exact .inr h

/-! ## New objects -/

theorem store_typed {T : Table A C} {mk : C → Heap A C → Option (Heap A C × Nat)}
    (hmk : ∀ c h h' i, mk c h = some (h', i) → Typed T h → Typed T h' ∧ Keeps h h' ∧ (h'[i]?).map Obj.cls = some c)
    {c : C} {n : String} {s : Slot A C} (hs : (T.slots c).get? n = some s) {v v' : Val A} {h h' : Heap A C}
    (t : Typed T h) (hv : TypedVal T h c n v) (e : store mk s v h = some (h', v')) :
    Typed T h' ∧ Keeps h h' ∧ TypedVal T h' c n v' := by
  unfold store at e
  cases v with
  | atom a =>
    simp only [Option.some.injEq, Prod.mk.injEq] at e
    obtain ⟨rfl, rfl⟩ := e
    exact ⟨t, .refl _, hv⟩
  | ref a =>
    simp only [Option.some.injEq, Prod.mk.injEq] at e
    obtain ⟨rfl, rfl⟩ := e
    exact ⟨t, .refl _, hv⟩
  | none =>
    cases ha : s.auto with
    | none =>
      simp only [ha, Option.some.injEq, Prod.mk.injEq] at e
      obtain ⟨rfl, rfl⟩ := e
      exact ⟨t, .refl _, .plain _ _ _ _ (by simp)⟩
    | some d =>
      cases d with
      | value a =>
        simp only [ha, Option.some.injEq, Prod.mk.injEq] at e
        obtain ⟨rfl, rfl⟩ := e
        exact ⟨t, .refl _, .plain _ _ _ _ (by simp)⟩
      | make c' =>
        simp only [ha] at e
        cases hm : mk c' h with
        | none => rw [hm] at e; simp at e
        | some r =>
          obtain ⟨h1, j⟩ := r
          simp only [hm, Option.some.injEq, Prod.mk.injEq] at e
          obtain ⟨rfl, rfl⟩ := e
          obtain ⟨t1, k1, c1⟩ := hmk _ _ _ _ hm t
          refine ⟨t1, k1, ?_⟩
          intro j' hj'
          simp only [Val.ref.injEq] at hj'
          subst hj'
          exact ⟨s, c', hs, ha, c1⟩

theorem fill_typed {T : Table A C} {mk : C → Heap A C → Option (Heap A C × Nat)}
    (hmk : ∀ c h h' i, mk c h = some (h', i) → Typed T h → Typed T h' ∧ Keeps h h' ∧ (h'[i]?).map Obj.cls = some c)
    {c : C} (given : Dict (Val A)) (l : Dict (Slot A C)) (hl : ∀ e ∈ l, (T.slots c).get? e.1 = some e.2)
    (hinit : ∀ e ∈ l, ∀ j, e.2.init ≠ .ref j) {h h' : Heap A C} (t : Typed T h)
    (hg : ∀ n v, given.get? n = some v → TypedVal T h c n v) {attrs : Dict (Val A)}
    (e : fill mk given l h = some (h', attrs)) :
    Typed T h' ∧ Keeps h h' ∧ ∀ e ∈ attrs, TypedVal T h' c e.1 e.2 := by
  induction l generalizing h attrs with
  | nil =>
    simp only [fill, Option.some.injEq, Prod.mk.injEq] at e
    obtain ⟨rfl, rfl⟩ := e
    exact ⟨t, .refl _, by simp⟩
  | cons x l ih =>
    obtain ⟨n, s⟩ := x
    rw [fill] at e
    cases hst : store mk s ((given.get? n).getD s.init) h with
    | none => rw [hst] at e; simp at e
    | some r =>
      obtain ⟨h1, v1⟩ := r
      simp only [hst] at e
      have hv : TypedVal T h c n ((given.get? n).getD s.init) := by
        cases hgn : given.get? n with
        | none => exact .plain _ _ _ _ (hinit (n, s) (by simp))
        | some v => exact hg n v hgn
      obtain ⟨t1, k1, tv1⟩ := store_typed hmk (hl (n, s) (by simp)) t hv hst
      cases hf : fill mk given l h1 with
      | none => rw [hf] at e; simp at e
      | some r =>
        obtain ⟨h2, d⟩ := r
        simp only [hf, Option.some.injEq, Prod.mk.injEq] at e
        obtain ⟨rfl, rfl⟩ := e
        obtain ⟨t2, k2, tv2⟩ := ih (fun e he => hl e (by simp [he])) (fun e he => hinit e (by simp [he])) t1
          (fun n v h => (hg n v h).keeps k1) hf
        refine ⟨t2, k1.trans k2, ?_⟩
        intro y hy
        rcases List.mem_cons.1 hy with rfl | hy
        · exact tv1.keeps k2
        · exact tv2 y hy

theorem newObj_typed {T : Table A C} (hT : T.Good) {depth : Nat} {c : C} {given : Dict (Val A)} {h h' : Heap A C}
    {i : Nat} (t : Typed T h) (hg : ∀ n v, given.get? n = some v → TypedVal T h c n v)
    (e : newObj T depth c given h = some (h', i)) : Typed T h' ∧ Keeps h h' ∧ (h'[i]?).map Obj.cls = some c := by
  induction depth generalizing c given h h' i with
  | zero => simp [newObj] at e
  | succ depth ih =>
    rw [newObj] at e
    cases hf : fill (fun c h => newObj T depth c [] h) given (T.slots c) h with
    | none => rw [hf] at e; simp at e
    | some r =>
      obtain ⟨h1, attrs⟩ := r
      simp only [hf, Option.some.injEq, Prod.mk.injEq] at e
      obtain ⟨rfl, rfl⟩ := e
      obtain ⟨t1, k1, tv⟩ := fill_typed (fun c h h' i e t => ih t (by simp [Dict.get?]) e) given (T.slots c)
        (fun e he => Dict.get?_of_mem _ _ _ (hT.ok c) he) (fun e he => hT.init c e.1 e.2 he) t hg hf
      exact ⟨t1.append _ tv, k1.trans (.append _ _), by simp⟩

/-! ## `set_params` -/

theorem setAttr_typed {T : Table A C} (hT : T.Good) {depth i : Nat} {c : C} {s : Slot A C} {key : String} {v : Val A}
    (hv : ∀ j, v ≠ .ref j) {h h' : Heap A C} (t : Typed T h) (hi : (h[i]?).map Obj.cls = some c)
    (hs : (T.slots c).get? key = some s) (e : setAttr T depth i s key v h = some h') : Typed T h' ∧ Keeps h h' := by
  unfold setAttr at e
  cases hst : store (fun c h => newObj T depth c [] h) s v h with
  | none => rw [hst] at e; simp at e
  | some r =>
    obtain ⟨h1, v'⟩ := r
    obtain ⟨t1, k1, tv⟩ := store_typed (fun c h h' i e t => newObj_typed hT t (by simp [Dict.get?]) e) hs t
      (.plain _ _ _ _ hv) hst
    simp only [hst] at e
    have hi1 := k1 _ _ hi
    cases ho : h1[i]? with
    | none => rw [ho] at hi1; simp at hi1
    | some o =>
      simp only [ho, Option.some.injEq] at e
      subst e
      have hoc : o.cls = c := by simpa [ho] using hi1
      have hlt := (List.getElem?_eq_some_iff.1 ho).1
      have k2 : Keeps h1 (h1.set i ⟨o.cls, o.attrs.set key v'⟩) := by
        intro x c' hx
        by_cases hxi : i = x
        · subst hxi
          rw [List.getElem?_set_self hlt]
          simpa [ho] using hx
        · rw [List.getElem?_set_ne hxi]; exact hx
      refine ⟨?_, k1.trans k2⟩
      intro x o' hx y hy
      by_cases hxi : i = x
      · subst hxi
        rw [List.getElem?_set_self hlt, Option.some.injEq] at hx
        subst hx
        rcases mem_set _ _ _ _ hy with hy | rfl
        · exact (t1 i o ho y hy).keeps k2
        · have := tv.keeps k2
          rw [← hoc] at this
          exact this
      · rw [List.getElem?_set_ne hxi] at hx
        exact (t1 x o' hx y hy).keeps k2

theorem gather_typed {T : Table A C} (hT : T.Good) {depth i : Nat} {c : C} (kw : Dict (Val A)) (hpl : Plain kw)
    {h h' : Heap A C} (t : Typed T h) (hi : (h[i]?).map Obj.cls = some c) (valid : Dict (Val A))
    (nested : Dict (Dict (Val A))) {res : Except PyErr (Dict (Val A) × Dict (Dict (Val A)))}
    (e : gather T depth i (T.slots c) kw h valid nested = some (h', res)) : Typed T h' ∧ Keeps h h' := by
  induction kw generalizing h valid nested with
  | nil =>
    simp only [gather, Option.some.injEq, Prod.mk.injEq] at e
    rw [← e.1]
    exact ⟨t, .refl _⟩
  | cons x kw ih =>
    obtain ⟨k, v⟩ := x
    have hpl' : Plain kw := fun e he => hpl e (by simp [he])
    rw [gather] at e
    cases hs : (T.slots c).get? (partition k).1 with
    | none =>
      simp only [hs, Option.some.injEq, Prod.mk.injEq] at e
      rw [← e.1]
      exact ⟨t, .refl _⟩
    | some s =>
      simp only [hs] at e
      cases hp : (partition k).2 with
      | some sub =>
        simp only [hp] at e
        exact ih hpl' t hi _ _ e
      | none =>
        simp only [hp] at e
        cases ha : setAttr T depth i s (partition k).1 v h with
        | none => rw [ha] at e; simp at e
        | some h1 =>
          simp only [ha] at e
          obtain ⟨t1, k1⟩ := setAttr_typed hT (fun j => hpl (k, v) (by simp) j) t hi hs ha
          obtain ⟨t2, k2⟩ := ih hpl' t1 (k1 _ _ hi) _ _ e
          exact ⟨t2, k1.trans k2⟩

theorem spread_typed {T : Table A C} {rec : Nat → Dict (Val A) → Heap A C → Option (Heap A C × Except PyErr Unit)}
    (hrec : ∀ j sub h h' res, Plain sub → Typed T h → rec j sub h = some (h', res) → Typed T h' ∧ Keeps h h')
    (valid : Dict (Val A)) (nested : Dict (Dict (Val A))) (hsub : ∀ e ∈ nested, Plain e.2) {h h' : Heap A C}
    (t : Typed T h) {res : Except PyErr Unit} (e : spread rec valid nested h = some (h', res)) :
    Typed T h' ∧ Keeps h h' := by
  induction nested generalizing h with
  | nil =>
    simp only [spread, Option.some.injEq, Prod.mk.injEq] at e
    rw [← e.1]
    exact ⟨t, .refl _⟩
  | cons x nested ih =>
    obtain ⟨n, d⟩ := x
    rw [spread] at e
    have bad : some (h, Except.error PyErr.attributeError) = some (h', res) → Typed T h' ∧ Keeps h h' := by
      intro e
      simp only [Option.some.injEq, Prod.mk.injEq] at e
      rw [← e.1]
      exact ⟨t, .refl _⟩
    cases hv : valid.get? n with
    | none => rw [hv] at e; exact bad e
    | some u =>
      cases u with
      | none => rw [hv] at e; exact bad e
      | atom a => rw [hv] at e; exact bad e
      | ref j =>
        simp only [hv] at e
        cases hr : rec j d h with
        | none => rw [hr] at e; simp at e
        | some r =>
          obtain ⟨h1, r1⟩ := r
          simp only [hr] at e
          obtain ⟨t1, k1⟩ := hrec _ _ _ _ _ (hsub (n, d) (by simp)) t hr
          cases r1 with
          | error err =>
            simp only [Option.some.injEq, Prod.mk.injEq] at e
            rw [← e.1]
            exact ⟨t1, k1⟩
          | ok u =>
            obtain ⟨t2, k2⟩ := ih (fun e he => hsub e (by simp [he])) t1 e
            exact ⟨t2, k1.trans k2⟩

theorem nest_plain (kw : Dict (Val A)) (hpl : Plain kw) (nested : Dict (Dict (Val A)))
    (hn : ∀ e ∈ nested, Plain e.2) : ∀ e ∈ nest nested kw, Plain e.2 := by
  induction kw generalizing nested with
  | nil => exact hn
  | cons x kw ih =>
    rw [nest, List.foldl_cons]
    refine ih (fun e he => hpl e (by simp [he])) _ ?_
    intro e he
    unfold nestOne at he
    cases hp : (partition x.1).2 with
    | none => rw [hp] at he; exact hn e he
    | some sub =>
      rw [hp] at he
      rcases mem_set _ _ _ _ he with h | h
      · exact hn e h
      · subst h
        intro y hy j
        rcases mem_set _ _ _ _ hy with h' | h'
        · cases hg : nested.get? (partition x.1).1 with
          | none => rw [hg] at h'; simp at h'
          | some d =>
            rw [hg] at h'
            exact hn _ (Dict.get?_some_mem _ _ _ hg) y h' j
        · subst h'; exact hpl x (by simp) j

theorem gather_nest {T : Table A C} {depth i : Nat} (sl : Dict (Slot A C)) (kw : Dict (Val A)) {h h' : Heap A C}
    (valid : Dict (Val A)) (nested : Dict (Dict (Val A))) {valid' : Dict (Val A)} {nested' : Dict (Dict (Val A))}
    (e : gather T depth i sl kw h valid nested = some (h', .ok (valid', nested'))) : nested' = nest nested kw := by
  induction kw generalizing h valid nested with
  | nil =>
    simp only [gather, Option.some.injEq, Prod.mk.injEq, Except.ok.injEq] at e
    exact e.2.2.symm
  | cons x kw ih =>
    obtain ⟨k, v⟩ := x
    rw [gather] at e
    rw [nest, List.foldl_cons]
    cases hs : sl.get? (partition k).1 with
    | none => rw [hs] at e; simp at e
    | some s =>
      simp only [hs] at e
      cases hp : (partition k).2 with
      | some sub =>
        simp only [hp] at e
        rw [nestOne]
        simp only [hp]
        exact ih _ _ e
      | none =>
        simp only [hp] at e
        cases ha : setAttr T depth i s (partition k).1 v h with
        | none => rw [ha] at e; simp at e
        | some h1 =>
          simp only [ha] at e
          rw [nestOne]
          simp only [hp]
          exact ih _ _ e

theorem setParams_typed {T : Table A C} (hT : T.Good) {depth fuel i : Nat} {kw : Dict (Val A)} (hpl : Plain kw)
    {h h' : Heap A C} (t : Typed T h) {res : Except PyErr Unit}
    (e : setParams T depth fuel i kw h = some (h', res)) : Typed T h' ∧ Keeps h h' := by
  induction fuel generalizing i kw h h' res with
  | zero => simp [setParams] at e
  | succ fuel ih =>
    rw [setParams] at e
    split at e
    · simp only [Option.some.injEq, Prod.mk.injEq] at e
      rw [← e.1]
      exact ⟨t, .refl _⟩
    · cases hi : h[i]? with
      | none => rw [hi] at e; simp at e
      | some o =>
        simp only [hi] at e
        cases hg : gather T depth i (T.slots o.cls) kw h o.attrs [] with
        | none => rw [hg] at e; simp at e
        | some r =>
          obtain ⟨h1, r1⟩ := r
          simp only [hg] at e
          obtain ⟨t1, k1⟩ := gather_typed hT kw hpl t (by rw [hi]; rfl) _ _ hg
          cases r1 with
          | error err =>
            simp only [Option.some.injEq, Prod.mk.injEq] at e
            rw [← e.1]
            exact ⟨t1, k1⟩
          | ok p =>
            obtain ⟨valid, nested⟩ := p
            have hn := gather_nest _ _ _ _ hg
            obtain ⟨t2, k2⟩ := spread_typed (fun j sub h h' res hp t e => ih hp t e) valid nested
              (by rw [hn]; exact nest_plain kw hpl [] (by simp)) t1 e
            exact ⟨t2, k1.trans k2⟩

/-! ## Programs -/

theorem construct_typed {T : Table A C} (hT : T.Good) {depth fuel : Nat} {c : C} {kw : Dict (Val A)} (hpl : Plain kw)
    {h h' : Heap A C} (t : Typed T h) {res : Except PyErr Nat} (e : construct T depth fuel c kw h = some (h', res)) :
    Typed T h' := by
  unfold construct at e
  simp only at e
  split at e
  · simp only [Option.some.injEq, Prod.mk.injEq] at e
    rw [← e.1]
    exact t
  · cases hn : newObj T depth c (kw.filter fun e => (T.slots c).has e.1) h with
    | none => rw [hn] at e; simp at e
    | some q =>
      obtain ⟨h1, i1⟩ := q
      simp only [hn] at e
      obtain ⟨t1, k1, -⟩ := newObj_typed hT t (fun n v hv => .plain _ _ _ _ fun j =>
        hpl (n, v) (List.mem_of_mem_filter (Dict.get?_some_mem _ _ _ hv)) j) hn
      cases hs : setParams T depth fuel i1 (kw.filter fun e => !(T.slots c).has e.1) h1 with
      | none => rw [hs] at e; simp at e
      | some q =>
        obtain ⟨h2, r2⟩ := q
        obtain ⟨t2, k2⟩ := setParams_typed hT (fun x hx => hpl x (List.mem_of_mem_filter hx)) t1 hs
        simp only [hs] at e
        cases r2 with
        | error err =>
          simp only [Option.some.injEq, Prod.mk.injEq] at e
          rw [← e.1]
          exact t2
        | ok u =>
          simp only [Option.some.injEq, Prod.mk.injEq] at e
          rw [← e.1]
          exact t2

theorem cloneAll_typed {T : Table A C} {rec : Nat → Heap A C → Option (Heap A C × Nat)}
    (hrec : ∀ j h h' k, rec j h = some (h', k) → Typed T h →
      Typed T h' ∧ Keeps h h' ∧ (h'[k]?).map Obj.cls = (h[j]?).map Obj.cls)
    {c : C} (l : Dict (Val A)) {h h' : Heap A C} (t : Typed T h)
    (hl : ∀ e ∈ l, TypedVal T h c e.1 e.2) {d : Dict (Val A)} (e : cloneAll rec l h = some (h', d)) :
    Typed T h' ∧ Keeps h h' ∧ ∀ e ∈ d, TypedVal T h' c e.1 e.2 := by
  induction l generalizing h d with
  | nil =>
    simp only [cloneAll, Option.some.injEq, Prod.mk.injEq] at e
    obtain ⟨rfl, rfl⟩ := e
    exact ⟨t, .refl _, by simp⟩
  | cons x l ih =>
    obtain ⟨n, v⟩ := x
    have plain : (∀ j, v ≠ .ref j) → cloneAll rec ((n, v) :: l) h =
        (match cloneAll rec l h with
          | Option.none => Option.none
          | some (h, d) => some (h, (n, v) :: d)) := by
      intro hv
      cases v with
      | ref j => exact absurd rfl (hv j)
      | none => rfl
      | atom a => rfl
    by_cases hv : ∀ j, v ≠ .ref j
    · rw [plain hv] at e
      cases hc : cloneAll rec l h with
      | none => rw [hc] at e; simp at e
      | some r =>
        obtain ⟨h1, d1⟩ := r
        simp only [hc, Option.some.injEq, Prod.mk.injEq] at e
        obtain ⟨rfl, rfl⟩ := e
        obtain ⟨t1, k1, tv⟩ := ih t (fun e he => hl e (by simp [he])) hc
        refine ⟨t1, k1, ?_⟩
        intro y hy
        rcases List.mem_cons.1 hy with rfl | hy
        · exact .plain _ _ _ _ hv
        · exact tv y hy
    · obtain ⟨j, rfl⟩ : ∃ j, v = .ref j := by
        by_contra hc
        exact hv fun j hj => hc ⟨j, hj⟩
      rw [cloneAll] at e
      cases hr : rec j h with
      | none => rw [hr] at e; simp at e
      | some r =>
        obtain ⟨h1, k⟩ := r
        simp only [hr] at e
        obtain ⟨t1, k1, c1⟩ := hrec _ _ _ _ hr t
        cases hc : cloneAll rec l h1 with
        | none => rw [hc] at e; simp at e
        | some r =>
          obtain ⟨h2, d1⟩ := r
          simp only [hc, Option.some.injEq, Prod.mk.injEq] at e
          obtain ⟨rfl, rfl⟩ := e
          obtain ⟨t2, k2, tv⟩ := ih t1 (fun e he => (hl e (by simp [he])).keeps k1) hc
          refine ⟨t2, k1.trans k2, ?_⟩
          intro y hy
          rcases List.mem_cons.1 hy with rfl | hy
          · intro j' hj'
            simp only [Val.ref.injEq] at hj'
            subst hj'
            obtain ⟨s, c', a1, a2, a3⟩ := hl (n, .ref j) (by simp) j rfl
            exact ⟨s, c', a1, a2, k2 _ _ (c1.trans a3)⟩
          · exact tv y hy

theorem clone_typed {T : Table A C} (hT : T.Good) {depth fuel i : Nat} {h h' : Heap A C} {i' : Nat} (t : Typed T h)
    (e : clone T depth fuel i h = some (h', i')) :
    Typed T h' ∧ Keeps h h' ∧ (h'[i']?).map Obj.cls = (h[i]?).map Obj.cls := by
  induction fuel generalizing i h h' i' with
  | zero => simp [clone] at e
  | succ fuel ih =>
    rw [clone] at e
    cases hi : h[i]? with
    | none => rw [hi] at e; simp at e
    | some o =>
      simp only [hi] at e
      cases hc : cloneAll (clone T depth fuel) o.attrs h with
      | none => rw [hc] at e; simp at e
      | some r =>
        obtain ⟨h1, given⟩ := r
        simp only [hc] at e
        obtain ⟨t1, k1, tv⟩ := cloneAll_typed (fun j h h' k e t => ih t e) o.attrs t (t i o hi) hc
        obtain ⟨t2, k2, c2⟩ := newObj_typed hT t1 (fun n v hv => tv _ (Dict.get?_some_mem _ _ _ hv)) e
        exact ⟨t2, k1.trans k2, c2⟩

/-- Whatever a program does, the parts are of the classes that the table gives. -/
theorem Reach.typed {T : Table A C} (hT : T.Good) {depth : Nat} {s : Prog A C} (r : Reach T depth s) :
    Typed T s.heap := by
  induction r with
  | start => intro x o hx; simp at hx
  | @step s s' fuel c _ hc e ih =>
    cases c with
    | new c kw =>
      rw [Call.run] at e
      cases hk : construct T depth fuel c kw s.heap with
      | none => rw [hk] at e; simp at e
      | some q =>
        obtain ⟨h1, r1⟩ := q
        have t1 := construct_typed hT hc.2 ih hk
        cases r1 <;> simp only [hk, Option.some.injEq] at e <;> subst e <;> exact t1
    | set m kw =>
      rw [Call.run] at e
      cases hm : s.models[m]? with
      | none => simp only [hm, Option.some.injEq] at e; subst e; exact ih
      | some i =>
        simp only [hm] at e
        cases hk : setParams T depth fuel i kw s.heap with
        | none => rw [hk] at e; simp at e
        | some q =>
          obtain ⟨h1, r1⟩ := q
          simp only [hk, Option.some.injEq] at e
          subst e
          exact (setParams_typed hT hc.2 ih hk).1
    | clone m =>
      rw [Call.run] at e
      cases hm : s.models[m]? with
      | none => simp only [hm, Option.some.injEq] at e; subst e; exact ih
      | some i =>
        simp only [hm] at e
        cases hk : clone T depth fuel i s.heap with
        | none => rw [hk] at e; simp at e
        | some q =>
          obtain ⟨h1, i1⟩ := q
          simp only [hk, Option.some.injEq] at e
          subst e
          exact (clone_typed hT ih hk).1

end Verif.Est
