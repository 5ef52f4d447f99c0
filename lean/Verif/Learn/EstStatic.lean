import Verif.Learn.EstClone

/-!
# What new models are like
-/

set_option autoImplicit false
set_option linter.unusedSectionVars false
set_option linter.unusedSimpArgs false

namespace Verif.Est

open Verif

variable {A C : Type}

/-- Parameter `k` of an estimator can be told to be `x`. -/
def Shows (h : Heap A C) (i : Nat) (k : String) (x : Kind A C) : Prop := ∃ v, Look h i k v ∧ kindOf h v = some x

/-- What an argument that is no estimator becomes. -/
def settle (s : Slot A C) : Val A → Kind A C
  | .none =>
    match s.auto with
    | Option.none => .none
    | some (.value a) => .atom a
    | some (.make c) => .obj c
  | .atom a => .atom a
  | .ref _ => .none

/-- Parameter `k` of a new object, from the tables alone. -/
def static (T : Table A C) : Nat → C → Dict (Val A) → String → Option (Kind A C)
  | 0, _, _, _ => Option.none
  | depth + 1, c, given, k =>
    match (T.slots c).get? (partition k).1 with
    | Option.none => Option.none
    | some s =>
      match settle s ((given.get? (partition k).1).getD s.init), (partition k).2 with
      | x, Option.none => some x
      | .obj c', some r => static T depth c' [] r
      | _, some _ => Option.none

/-- What `fill` stores. -/
def Filled (mk : C → Heap A C → Option (Heap A C × Nat)) (h' : Heap A C) (x : Kind A C) (v : Val A) : Prop :=
  match x with
  | .none => v = .none
  | .atom a => v = .atom a
  | .obj c => ∃ h1 h2 j ext, mk c h1 = some (h2, j) ∧ h' = h2 ++ ext ∧ v = .ref j

theorem fill_static {T : Table A C} {mk : C → Heap A C → Option (Heap A C × Nat)}
    (hmk : ∀ c h h' i, mk c h = some (h', i) → Fresh T h h' [.ref i] ∧ h.length ≤ i)
    {given : Dict (Val A)} (hg : Plain given) (l : Dict (Slot A C)) (hl : ∀ e ∈ l, ∀ j, e.2.init ≠ .ref j)
    {h h' : Heap A C} {d : Dict (Val A)} (e : fill mk given l h = some (h', d)) :
    ∀ n s, l.get? n = some s → ∃ v', d.get? n = some v' ∧
        Filled mk h' (settle s ((given.get? n).getD s.init)) v' := by
  induction l generalizing h d with
  | nil => simp [Dict.get?]
  | cons x l ih =>
    obtain ⟨n, s⟩ := x
    rw [fill] at e
    cases hs : store mk s ((given.get? n).getD s.init) h with
    | none => rw [hs] at e; simp at e
    | some r =>
      obtain ⟨h1, v⟩ := r
      simp only [hs] at e
      cases hf : fill mk given l h1 with
      | none => rw [hf] at e; simp at e
      | some r =>
        obtain ⟨h2, d'⟩ := r
        simp only [hf, Option.some.injEq, Prod.mk.injEq] at e
        obtain ⟨rfl, rfl⟩ := e
        obtain ⟨⟨⟨ext, rfl⟩, _⟩, _⟩ := fill_spec hmk hg l (fun e he => hl e (by simp [he])) hf
        intro n' s' hn
        by_cases hk : n = n'
        · subst hk
          rw [Dict.get?, if_pos rfl] at hn
          simp only [Option.some.injEq] at hn
          subst hn
          refine ⟨v, by simp [Dict.get?], ?_⟩
          have hv : ∀ j, (given.get? n).getD s.init ≠ .ref j := by
            intro j
            cases hgn : given.get? n with
            | none => simpa using hl (n, s) (by simp) j
            | some w => simpa using hg _ (Dict.get?_some_mem _ _ _ hgn) j
          generalize (given.get? n).getD s.init = u at hs hv
          cases u with
          | ref j => exact absurd rfl (hv j)
          | atom a =>
            simp only [store, Option.some.injEq, Prod.mk.injEq] at hs
            exact hs.2.symm
          | none =>
            simp only [store] at hs
            simp only [settle]
            cases ha : s.auto with
            | none =>
              simp only [ha, Option.some.injEq, Prod.mk.injEq] at hs
              exact hs.2.symm
            | some dflt =>
              cases dflt with
              | value a =>
                simp only [ha, Option.some.injEq, Prod.mk.injEq] at hs
                exact hs.2.symm
              | make c =>
                simp only [ha] at hs
                cases hm : mk c h with
                | none => rw [hm] at hs; simp at hs
                | some r =>
                  obtain ⟨h3, j⟩ := r
                  simp only [hm, Option.some.injEq, Prod.mk.injEq] at hs
                  obtain ⟨rfl, rfl⟩ := hs
                  exact ⟨h, h3, j, ext, hm, rfl, rfl⟩
        · rw [Dict.get?, if_neg hk] at hn
          obtain ⟨v', h3, h4⟩ := ih (fun e he => hl e (by simp [he])) hf n' s' hn
          exact ⟨v', by rw [Dict.get?, if_neg hk]; exact h3, h4⟩

theorem newObj_static {T : Table A C} (hT : T.Good) {depth : Nat} {c : C} {given : Dict (Val A)} (hg : Plain given)
    {h h' : Heap A C} {i : Nat} (e : newObj T depth c given h = some (h', i)) (k : String) (x : Kind A C) :
    Shows h' i k x ↔ static T depth c given k = some x := by
  induction depth generalizing c given h h' i k x with
  | zero => simp [newObj] at e
  | succ depth ih =>
    have hmk : ∀ c h h' i, newObj T depth c [] h = some (h', i) → Fresh T h h' [.ref i] ∧ h.length ≤ i :=
      fun c h h' i e => ⟨(newObj_spec hT (by simp [Plain]) e).1, (newObj_spec hT (by simp [Plain]) e).2.1⟩
    rw [newObj] at e
    cases hf : fill (fun c h => newObj T depth c [] h) given (T.slots c) h with
    | none => rw [hf] at e; simp at e
    | some r =>
      obtain ⟨h1, attrs⟩ := r
      simp only [hf, Option.some.injEq, Prod.mk.injEq] at e
      obtain ⟨rfl, rfl⟩ := e
      have hi : (h1 ++ [⟨c, attrs⟩] : Heap A C)[h1.length]? = some ⟨c, attrs⟩ := by simp
      obtain ⟨_, ks, _⟩ := fill_spec hmk hg (T.slots c) (fun e he => hT.init c e.1 e.2 he) hf
      have hst := fill_static hmk hg (T.slots c) (fun e he => hT.init c e.1 e.2 he) hf
      have look : ∀ v, Look (h1 ++ [⟨c, attrs⟩]) h1.length k v ↔
          (((partition k).2 = Option.none ∧ attrs.get? (partition k).1 = some v) ∨
          ∃ r j, (partition k).2 = some r ∧ attrs.get? (partition k).1 = some (.ref j) ∧
            Look (h1 ++ [⟨c, attrs⟩]) j r v) := by
        intro v
        rw [look_iff, hi]
        simp
      unfold Shows
      simp only [look]
      rw [static]
      cases hs : (T.slots c).get? (partition k).1 with
      | none =>
        have : attrs.get? (partition k).1 = Option.none := by
          have := get?_keys _ _ ks (partition k).1
          rw [hs] at this
          simpa using this
        simp [this]
      | some s =>
        obtain ⟨v', hv', hfl⟩ := hst _ s hs
        simp only [hv', Option.some.injEq]
        generalize settle s ((given.get? (partition k).1).getD s.init) = y at hfl
        cases y with
        | none =>
          simp only [Filled] at hfl
          subst hfl
          cases hp : (partition k).2 <;> simp [kindOf]
        | atom a =>
          simp only [Filled] at hfl
          subst hfl
          cases hp : (partition k).2 <;> simp [kindOf]
        | obj c' =>
          obtain ⟨h3, h2, j, ext, hm, rfl, rfl⟩ := hfl
          obtain ⟨⟨⟨e3, he3⟩, _, fp, oj, _⟩, _, at', hj, _⟩ := newObj_spec hT (by simp [Plain]) hm
          have fr : ∀ x ∈ fp, (h2 ++ ext ++ [⟨c, attrs⟩] : Heap A C)[x]? = h2[x]? := by
            intro x hx
            have := oj.lt x hx
            rw [getElem?_ext _ (by simp; omega), getElem?_ext _ this]
          cases hp : (partition k).2 with
          | none =>
            have hjk : (h2 ++ ext ++ [⟨c, attrs⟩] : Heap A C)[j]? = some ⟨c', at'⟩ := by
              obtain ⟨_, f1, _, rfl, _⟩ := own_ref oj
              rw [fr j (by simp), hj]
            rw [List.append_assoc] at hjk
            simp [kindOf, hjk]
          | some r =>
            simp only [reduceCtorEq, false_and, Option.some.injEq, false_or, Val.ref.injEq]
            have h5 := ih (by simp [Plain]) hm r x
            have h6 := shows_frame oj fr r x
            constructor
            · rintro ⟨v, ⟨r', j', rfl, rfl, l⟩, hk⟩
              exact h5.1 (h6.1 ⟨v, l, hk⟩)
            · intro hs
              obtain ⟨v, l, hk⟩ := h6.2 (h5.2 hs)
              exact ⟨v, ⟨r, j, rfl, rfl, l⟩, hk⟩

/-! ## Classes do not change -/

theorem setAttr_cls {T : Table A C} (hT : T.Good) {depth i : Nat} {s : Slot A C} {key : String} {v : Val A}
    {h h' : Heap A C} (e : setAttr T depth i s key v h = some h') :
    h.length ≤ h'.length ∧ ∀ x, x < h.length → (h'[x]?).map Obj.cls = (h[x]?).map Obj.cls := by
  unfold setAttr at e
  cases hst : store (fun c h => newObj T depth c [] h) s v h with
  | none => rw [hst] at e; simp at e
  | some r =>
    obtain ⟨h1, v'⟩ := r
    have hex : ∃ ext, h1 = h ++ ext := by
      unfold store at hst
      cases v with
      | atom a => simp only [Option.some.injEq, Prod.mk.injEq] at hst; exact ⟨[], by simp [hst.1]⟩
      | ref a => simp only [Option.some.injEq, Prod.mk.injEq] at hst; exact ⟨[], by simp [hst.1]⟩
      | none =>
        cases ha : s.auto with
        | none => simp only [ha, Option.some.injEq, Prod.mk.injEq] at hst; exact ⟨[], by simp [hst.1]⟩
        | some d =>
          cases d with
          | value a => simp only [ha, Option.some.injEq, Prod.mk.injEq] at hst; exact ⟨[], by simp [hst.1]⟩
          | make c =>
            simp only [ha] at hst
            cases hm : newObj T depth c [] h with
            | none => rw [hm] at hst; simp at hst
            | some q =>
              obtain ⟨h2, j⟩ := q
              simp only [hm, Option.some.injEq, Prod.mk.injEq] at hst
              rw [← hst.1]
              exact (newObj_spec hT (by simp [Plain]) hm).1.1
    obtain ⟨ext, rfl⟩ := hex
    cases hi : (h ++ ext : Heap A C)[i]? with
    | none => simp only [hst, hi] at e; simp at e
    | some o =>
      simp only [hst, hi, Option.some.injEq] at e
      subst e
      refine ⟨by simp, fun x hx => ?_⟩
      by_cases hxi : i = x
      · subst hxi
        have hlt := (List.getElem?_eq_some_iff.1 hi).1
        rw [List.getElem?_set_self hlt, ← getElem?_ext ext hx, hi]
        rfl
      · rw [List.getElem?_set_ne hxi, getElem?_ext _ hx]

theorem setParams_cls {T : Table A C} (hT : T.Good) {depth fuel i : Nat} {kw : Dict (Val A)} {h h' : Heap A C}
    {res : Except PyErr Unit} (e : setParams T depth fuel i kw h = some (h', res)) :
    h.length ≤ h'.length ∧ ∀ x, x < h.length → (h'[x]?).map Obj.cls = (h[x]?).map Obj.cls := by
  induction fuel generalizing i kw h h' res with
  | zero => simp [setParams] at e
  | succ fuel ih =>
    rw [setParams] at e
    split at e
    · simp only [Option.some.injEq, Prod.mk.injEq] at e
      rw [← e.1]
      exact ⟨Nat.le_refl _, fun _ _ => rfl⟩
    · cases hi : h[i]? with
      | none => rw [hi] at e; simp at e
      | some o =>
        simp only [hi] at e
        have first : ∀ (kw : Dict (Val A)) (h h1 : Heap A C) valid nested
            (r : Except PyErr (Dict (Val A) × Dict (Dict (Val A)))),
            gather T depth i (T.slots o.cls) kw h valid nested = some (h1, r) →
            h.length ≤ h1.length ∧ ∀ x, x < h.length → (h1[x]?).map Obj.cls = (h[x]?).map Obj.cls := by
          intro kw
          induction kw with
          | nil =>
            intro h h1 valid nested r e
            simp only [gather, Option.some.injEq, Prod.mk.injEq] at e
            rw [← e.1]
            exact ⟨Nat.le_refl _, fun _ _ => rfl⟩
          | cons x kw ihk =>
            intro h h1 valid nested r e
            obtain ⟨k, v⟩ := x
            rw [gather] at e
            cases hs : (T.slots o.cls).get? (partition k).1 with
            | none =>
              simp only [hs, Option.some.injEq, Prod.mk.injEq] at e
              rw [← e.1]
              exact ⟨Nat.le_refl _, fun _ _ => rfl⟩
            | some s =>
              simp only [hs] at e
              cases hp : (partition k).2 with
              | some sub => simp only [hp] at e; exact ihk _ _ _ _ _ e
              | none =>
                simp only [hp] at e
                cases ha : setAttr T depth i s (partition k).1 v h with
                | none => rw [ha] at e; simp at e
                | some h2 =>
                  simp only [ha] at e
                  obtain ⟨a1, a2⟩ := setAttr_cls hT ha
                  obtain ⟨b1, b2⟩ := ihk _ _ _ _ _ e
                  exact ⟨Nat.le_trans a1 b1, fun x hx => (b2 x (Nat.lt_of_lt_of_le hx a1)).trans (a2 x hx)⟩
        have second : ∀ (l : Dict (Dict (Val A))) (h h1 : Heap A C) valid (r : Except PyErr Unit),
            spread (setParams T depth fuel) valid l h = some (h1, r) →
            h.length ≤ h1.length ∧ ∀ x, x < h.length → (h1[x]?).map Obj.cls = (h[x]?).map Obj.cls := by
          intro l
          induction l with
          | nil =>
            intro h h1 valid r e
            simp only [spread, Option.some.injEq, Prod.mk.injEq] at e
            rw [← e.1]
            exact ⟨Nat.le_refl _, fun _ _ => rfl⟩
          | cons x l ihl =>
            intro h h1 valid r e
            obtain ⟨n, d⟩ := x
            rw [spread] at e
            split at e
            · next j _ =>
              cases hr : setParams T depth fuel j d h with
              | none => rw [hr] at e; simp at e
              | some q =>
                obtain ⟨h2, r2⟩ := q
                obtain ⟨a1, a2⟩ := ih hr
                simp only [hr] at e
                cases r2 with
                | error err =>
                  simp only [Option.some.injEq, Prod.mk.injEq] at e
                  rw [← e.1]
                  exact ⟨a1, a2⟩
                | ok u =>
                  obtain ⟨b1, b2⟩ := ihl _ _ _ _ e
                  exact ⟨Nat.le_trans a1 b1, fun x hx => (b2 x (Nat.lt_of_lt_of_le hx a1)).trans (a2 x hx)⟩
            · simp only [Option.some.injEq, Prod.mk.injEq] at e
              rw [← e.1]
              exact ⟨Nat.le_refl _, fun _ _ => rfl⟩
        cases hg : gather T depth i (T.slots o.cls) kw h o.attrs [] with
        | none => rw [hg] at e; simp at e
        | some r =>
          obtain ⟨h1, r1⟩ := r
          obtain ⟨a1, a2⟩ := first _ _ _ _ _ _ hg
          simp only [hg] at e
          cases r1 with
          | error err =>
            simp only [Option.some.injEq, Prod.mk.injEq] at e
            rw [← e.1]
            exact ⟨a1, a2⟩
          | ok p =>
            obtain ⟨b1, b2⟩ := second _ _ _ _ _ e
            exact ⟨Nat.le_trans a1 b1, fun x hx => (b2 x (Nat.lt_of_lt_of_le hx a1)).trans (a2 x hx)⟩

end Verif.Est
