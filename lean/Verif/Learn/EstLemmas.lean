import Verif.Learn.EstModel
import Mathlib.Data.List.Basic
import Mathlib.Data.List.Nodup
import Mathlib.Data.List.Perm.Basic
import Mathlib.Tactic.Tauto

/-!
# Lemmas about estimators and their parameters
-/

set_option autoImplicit false
set_option linter.unusedSectionVars false
set_option linter.unusedSimpArgs false

namespace Verif.Est

open Verif

variable {A C : Type}

/-! ## Names -/

/-- No two consecutive underscores and none at the end. -/
def goodChars : List Char → Bool
  | [] => true
  | [c] => decide (c ≠ '_')
  | c :: c' :: l => !(decide (c = '_') && decide (c' = '_')) && goodChars (c' :: l)

/-- A name that `partition` does not cut. -/
def Good (n : String) : Prop := goodChars n.toList = true

instance (n : String) : Decidable (Good n) := inferInstanceAs (Decidable (_ = true))

theorem pc_good (a : List Char) (h : goodChars a = true) : partitionChars a = (a, Option.none) := by
  induction a using goodChars.induct with
  | case1 => rfl
  | case2 c => rfl
  | case3 c c' l ih =>
    simp only [goodChars, Bool.and_eq_true, Bool.not_eq_true', Bool.and_eq_false_iff, decide_eq_false_iff_not] at h
    have hn : ¬(c = '_' ∧ c' = '_') := by tauto
    simp only [partitionChars, if_neg hn, ih h.2]

theorem pc_join (a r : List Char) (h : goodChars a = true) :
    partitionChars (a ++ '_' :: '_' :: r) = (a, some r) := by
  induction a using goodChars.induct with
  | case1 => simp [partitionChars]
  | case2 c =>
    simp only [goodChars, decide_eq_true_eq] at h
    simp [partitionChars, h]
  | case3 c c' l ih =>
    simp only [goodChars, Bool.and_eq_true, Bool.not_eq_true', Bool.and_eq_false_iff, decide_eq_false_iff_not] at h
    have hn : ¬(c = '_' ∧ c' = '_') := by tauto
    have := ih h.2
    simp only [List.cons_append] at this ⊢
    simp only [partitionChars, if_neg hn, this]

theorem pc_some (k n r : List Char) (h : partitionChars k = (n, some r)) : k = n ++ '_' :: '_' :: r := by
  induction k using partitionChars.induct generalizing n with
  | case1 => simp [partitionChars] at h
  | case2 c => simp [partitionChars] at h
  | case3 c c' l hc =>
    simp only [partitionChars, if_pos hc, Prod.mk.injEq, Option.some.injEq] at h
    obtain ⟨rfl, rfl⟩ := h
    simp [hc.1, hc.2]
  | case4 c c' l hc ih =>
    rw [partitionChars, if_neg hc] at h
    simp only [Prod.mk.injEq] at h
    obtain ⟨rfl, h2⟩ := h
    have := ih (partitionChars (c' :: l)).1 (by rw [← h2])
    rw [List.cons_append, ← this]

theorem pc_none (k n : List Char) (h : partitionChars k = (n, Option.none)) : n = k := by
  induction k using partitionChars.induct generalizing n with
  | case1 => simpa [partitionChars, eq_comm] using h
  | case2 c => simpa [partitionChars, eq_comm] using h
  | case3 c c' l hc => simp only [partitionChars, if_pos hc] at h; simp at h
  | case4 c c' l hc ih =>
    rw [partitionChars, if_neg hc] at h
    simp only [Prod.mk.injEq] at h
    obtain ⟨rfl, h2⟩ := h
    rw [ih (partitionChars (c' :: l)).1 (by rw [← h2])]

theorem partition_good {n : String} (h : Good n) : partition n = (n, Option.none) := by
  simp [partition, pc_good _ h]

theorem partition_join {n : String} (h : Good n) (r : String) : partition (join n r) = (n, some r) := by
  simp [partition, join, pc_join _ _ h]

theorem of_partition_some {k n r : String} (h : partition k = (n, some r)) : k = join n r := by
  simp only [partition, Prod.mk.injEq] at h
  obtain ⟨h1, h2⟩ := h
  cases hp : (partitionChars k.toList).2 with
  | none => rw [hp] at h2; simp at h2
  | some r' =>
    rw [hp] at h2
    simp only [Option.map_some, Option.some.injEq] at h2
    have := pc_some k.toList (partitionChars k.toList).1 r' (by rw [← hp])
    rw [join, ← h1, ← h2]
    simp only [String.toList_ofList]
    rw [← this, String.ofList_toList]

theorem of_partition_none {k n : String} (h : partition k = (n, Option.none)) : n = k := by
  simp only [partition, Prod.mk.injEq, Option.map_eq_none_iff] at h
  obtain ⟨h1, h2⟩ := h
  have := pc_none k.toList (partitionChars k.toList).1 (by rw [← h2])
  rw [← h1, this, String.ofList_toList]

theorem join_inj {n r r' : String} (h : join n r = join n r') : r = r' := by
  have := congrArg String.toList h
  simp only [join, String.toList_ofList, List.append_cancel_left_eq, List.cons.injEq, true_and] at this
  exact String.toList_injective this

theorem length_join (n r : String) : (join n r).toList.length = n.toList.length + 2 + r.toList.length := by
  simp [join]; omega

/-! ## Dictionaries -/

theorem set_get? {V : Type} (d : Dict V) (n : String) (v : V) (h : d.get? n = some v) : d.set n v = d := by
  induction d with
  | nil => simp [Dict.get?] at h
  | cons e d ih =>
    obtain ⟨k, w⟩ := e
    by_cases hk : k = n
    · subst hk
      simp only [Dict.get?, if_pos] at h
      simp only [Dict.set, if_pos]
      simp at h; rw [h]
    · simp only [Dict.get?, if_neg hk] at h
      simp only [Dict.set, if_neg hk, ih h]

/-! ## Who owns what -/

/-- The estimators reachable from a list of values are the objects `fp`, each reached in one way only. -/
inductive Own (h : Heap A C) : List (Val A) → List Nat → Prop where
  | nil : Own h [] []
  | none {vs : List (Val A)} {fp : List Nat} : Own h vs fp → Own h (.none :: vs) fp
  | atom {a : A} {vs : List (Val A)} {fp : List Nat} : Own h vs fp → Own h (.atom a :: vs) fp
  | ref {i : Nat} {o : Obj A C} {vs : List (Val A)} {f g : List Nat} : h[i]? = some o →
      Own h (o.attrs.map Prod.snd) f → Own h vs g → (i :: (f ++ g)).Nodup → Own h (.ref i :: vs) (i :: (f ++ g))

theorem Own.nodup {h : Heap A C} {vs : List (Val A)} {fp : List Nat} (o : Own h vs fp) : fp.Nodup := by
  induction o with
  | nil => simp
  | none _ ih => exact ih
  | atom _ ih => exact ih
  | ref _ _ _ hn => exact hn

theorem Own.lt {h : Heap A C} {vs : List (Val A)} {fp : List Nat} (o : Own h vs fp) : ∀ x ∈ fp, x < h.length := by
  induction o with
  | nil => simp
  | none _ ih => exact ih
  | atom _ ih => exact ih
  | ref hi _ _ _ ih1 ih2 =>
    intro x hx
    simp only [List.mem_cons, List.mem_append] at hx
    rcases hx with rfl | hx | hx
    · exact (List.getElem?_eq_some_iff.1 hi).1
    · exact ih1 x hx
    · exact ih2 x hx

theorem Own.frame {h h' : Heap A C} {vs : List (Val A)} {fp : List Nat} (o : Own h vs fp)
    (e : ∀ x ∈ fp, h'[x]? = h[x]?) : Own h' vs fp := by
  induction o with
  | nil => exact .nil
  | none _ ih => exact .none (ih e)
  | atom _ ih => exact .atom (ih e)
  | ref hi _ _ hn ih1 ih2 =>
    exact .ref ((e _ (by simp)).trans hi) (ih1 fun x hx => e x (by simp [hx])) (ih2 fun x hx => e x (by simp [hx])) hn

theorem own_append {h : Heap A C} (a b : List (Val A)) (fp : List Nat) :
    Own h (a ++ b) fp ↔ ∃ f g, fp = f ++ g ∧ Own h a f ∧ Own h b g ∧ fp.Nodup := by
  constructor
  · intro o
    induction a generalizing fp with
    | nil => exact ⟨[], fp, rfl, .nil, o, o.nodup⟩
    | cons v a ih =>
      have hn := o.nodup
      cases o with
      | none o => obtain ⟨f, g, rfl, of, og, _⟩ := ih _ o; exact ⟨f, g, rfl, .none of, og, hn⟩
      | atom o => obtain ⟨f, g, rfl, of, og, _⟩ := ih _ o; exact ⟨f, g, rfl, .atom of, og, hn⟩
      | ref hi o1 o2 h1 =>
        obtain ⟨f, g, rfl, of, og, _⟩ := ih _ o2
        refine ⟨_ :: (_ ++ f), g, by simp, .ref hi o1 of ?_, og, hn⟩
        refine h1.sublist ?_
        simp
  · rintro ⟨f, g, rfl, of, og, hn⟩
    induction a generalizing f with
    | nil => cases of; simpa using og
    | cons v a ih =>
      cases of with
      | none o => exact .none (ih _ o hn)
      | atom o => exact .atom (ih _ o hn)
      | ref hi o1 o2 h1 =>
        rw [List.cons_append, List.append_assoc] at hn
        rw [List.cons_append, List.cons_append, List.append_assoc]
        refine .ref hi o1 (ih _ o2 ?_) hn
        exact hn.sublist (by simp)

theorem own_cons {h : Heap A C} (v : Val A) (b : List (Val A)) (fp : List Nat) :
    Own h (v :: b) fp ↔ ∃ f g, fp = f ++ g ∧ Own h [v] f ∧ Own h b g ∧ fp.Nodup :=
  own_append [v] b fp

theorem own_det {h : Heap A C} {vs : List (Val A)} {f g : List Nat} (o : Own h vs f) (o' : Own h vs g) : f = g := by
  induction o generalizing g with
  | nil => cases o'; rfl
  | none _ ih => cases o' with | none o' => exact ih o'
  | atom _ ih => cases o' with | atom o' => exact ih o'
  | ref hi _ _ _ ih1 ih2 =>
    cases o' with
    | ref hi' o1 o2 _ =>
      rw [hi] at hi'
      cases hi'
      rw [ih1 o1, ih2 o2]

/-- One attribute of an object and the others. -/
theorem Own.split {h : Heap A C} (d : Dict (Val A)) {fp : List Nat} (o : Own h (d.map Prod.snd) fp) (n : String)
    (v : Val A) (hv : d.get? n = some v) :
    ∃ f r : List Nat, Own h [v] f ∧ (∀ x ∈ f, x ∉ r) ∧ (∀ x, x ∈ fp ↔ x ∈ f ∨ x ∈ r) ∧
      (∀ n' w, n' ≠ n → d.get? n' = some w → ∃ g, Own h [w] g ∧ ∀ x ∈ g, x ∈ r) ∧
      (∀ (h' : Heap A C) (w : Val A) (g : List Nat), Own h' [w] g → (∀ x ∈ r, h'[x]? = h[x]?) → (∀ x ∈ g, x ∉ r) →
        ∃ fp', Own h' ((d.set n w).map Prod.snd) fp' ∧ ∀ x, x ∈ fp' ↔ x ∈ g ∨ x ∈ r) := by
  induction d generalizing fp with
  | nil => simp [Dict.get?] at hv
  | cons e d ih =>
    obtain ⟨k, u⟩ := e
    simp only [List.map_cons] at o
    obtain ⟨f, g, rfl, of, og, hn⟩ := (own_cons _ _ _).1 o
    have hd : ∀ x ∈ f, x ∉ g := fun x hx hx' => (List.nodup_append.1 hn).2.2 x hx x hx' rfl
    by_cases hk : k = n
    · subst hk
      simp only [Dict.get?, if_pos] at hv
      obtain rfl : u = v := by simpa using hv
      refine ⟨f, g, of, hd, fun x => by simp, ?_, ?_⟩
      · intro n' w hne hw
        rw [Dict.get?, if_neg (Ne.symm hne)] at hw
        have hm : w ∈ d.map Prod.snd := List.mem_map.2 ⟨_, Dict.get?_some_mem d n' w hw, rfl⟩
        obtain ⟨a, b, hab⟩ := List.append_of_mem hm
        rw [hab] at og
        obtain ⟨f1, g1, rfl, _, o2, _⟩ := (own_append _ _ _).1 og
        obtain ⟨f2, g2, rfl, o3, _, _⟩ := (own_cons _ _ _).1 o2
        exact ⟨f2, o3, fun x hx => by simp [hx]⟩
      · intro h' w g' ow hr hdis
        refine ⟨g' ++ g, ?_, fun x => by simp⟩
        simp only [Dict.set, if_pos, List.map_cons]
        exact (own_cons _ _ _).2 ⟨g', g, rfl, ow, og.frame hr,
          List.nodup_append.2 ⟨ow.nodup, og.nodup, fun a ha b hb hab => hdis a ha (hab ▸ hb)⟩⟩
    · simp only [Dict.get?, if_neg hk] at hv
      obtain ⟨f', r, o1, d1, m1, s1, p1⟩ := ih og hv
      refine ⟨f', f ++ r, o1, ?_, ?_, ?_, ?_⟩
      · intro x hx hx'
        rcases List.mem_append.1 hx' with hx' | hx'
        · exact hd x hx' ((m1 x).2 (.inl hx))
        · exact d1 x hx hx'
      · intro x
        simp only [List.mem_append, m1]
        tauto
      · intro n' w hne hw
        by_cases hk' : k = n'
        · rw [Dict.get?, if_pos hk'] at hw
          obtain rfl : u = w := by simpa using hw
          exact ⟨f, of, fun x hx => by simp [hx]⟩
        · rw [Dict.get?, if_neg hk'] at hw
          obtain ⟨g', og', hg'⟩ := s1 n' w hne hw
          exact ⟨g', og', fun x hx => by simp [hg' x hx]⟩
      · intro h' w g' ow hr hdis
        obtain ⟨fp', o2, m2⟩ := p1 h' w g' ow (fun x hx => hr x (by simp [hx]))
          (fun x hx hx' => hdis x hx (by simp [hx']))
        refine ⟨f ++ fp', ?_, ?_⟩
        · simp only [Dict.set, if_neg hk, List.map_cons]
          refine (own_cons _ _ _).2 ⟨f, fp', rfl, of.frame fun x hx => hr x (by simp [hx]), o2, ?_⟩
          refine List.nodup_append.2 ⟨of.nodup, o2.nodup, ?_⟩
          rintro a ha b hb rfl
          rcases (m2 a).1 hb with hb | hb
          · exact hdis a hb (by simp [ha])
          · exact hd a ha ((m1 a).2 (.inr hb))
        · intro x
          simp only [List.mem_append, m2]
          tauto

/-! ## Growing memories -/

/-- From `h` to `h'` only objects of `f` have changed, and the objects `g` are objects of `f` or new. -/
structure Grow (h : Heap A C) (f : List Nat) (h' : Heap A C) (g : List Nat) : Prop where
  le : h.length ≤ h'.length
  same : ∀ x, x < h.length → x ∉ f → h'[x]? = h[x]?
  sub : ∀ x ∈ g, x ∈ f ∨ h.length ≤ x

theorem Grow.refl (h : Heap A C) (f : List Nat) : Grow h f h f :=
  ⟨Nat.le_refl _, fun _ _ _ => rfl, fun _ hx => .inl hx⟩

theorem Grow.trans {h h1 h2 : Heap A C} {f f1 f2 : List Nat} (a : Grow h f h1 f1) (b : Grow h1 f1 h2 f2) :
    Grow h f h2 f2 := by
  refine ⟨Nat.le_trans a.le b.le, ?_, ?_⟩
  · intro x hx hf
    rw [b.same x (by have := a.le; omega) ?_, a.same x hx hf]
    intro hx1
    rcases a.sub x hx1 with h1 | h1
    · exact hf h1
    · omega
  · intro x hx
    rcases b.sub x hx with h1 | h1
    · exact a.sub x h1
    · exact .inr (Nat.le_trans a.le h1)

/-! ## Tables and memories -/

/-- Names of parameters are distinct and `partition` does not cut them; defaults of arguments are no
estimators. -/
structure Table.Good (T : Table A C) : Prop where
  ok : ∀ c, (T.slots c).Ok
  good : ∀ c n s, (n, s) ∈ T.slots c → Est.Good n
  init : ∀ c n s, (n, s) ∈ T.slots c → ∀ j, s.init ≠ .ref j

/-- An object has the parameters of its class, and those with a default property are never `None`. -/
def WfObj (T : Table A C) (o : Obj A C) : Prop :=
  o.attrs.map Prod.fst = (T.slots o.cls).map Prod.fst ∧
    ∀ n s, (T.slots o.cls).get? n = some s → s.auto.isSome → o.attrs.get? n ≠ some .none

/-- All objects of a memory do. -/
def Wf (T : Table A C) (h : Heap A C) : Prop := ∀ o ∈ h, WfObj T o

/-- No estimators among the values. -/
def Plain (kw : Dict (Val A)) : Prop := ∀ e ∈ kw, ∀ j, e.2 ≠ .ref j

/-- What an assigned value becomes; `n` is the size of the memory before. -/
def Stored (s : Slot A C) (v v' : Val A) (n : Nat) : Prop :=
  match v with
  | .none =>
    match s.auto with
    | Option.none => v' = .none
    | some (.value a) => v' = .atom a
    | some (.make _) => ∃ j, n ≤ j ∧ v' = .ref j
  | v => v' = v

theorem Stored.mono {s : Slot A C} {v v' : Val A} {m n : Nat} (h : Stored s v v' n) (l : m ≤ n) :
    Stored s v v' m := by
  unfold Stored at *
  cases v with
  | none =>
    cases ha : s.auto with
    | none => simpa [ha] using h
    | some d =>
      cases d with
      | value a => simpa [ha] using h
      | make c =>
        simp only [ha] at h ⊢
        obtain ⟨j, hj, e⟩ := h
        exact ⟨j, Nat.le_trans l hj, e⟩
  | atom a => exact h
  | ref j => exact h

/-- `h'` is `h` with new objects, and the objects of `vs` are new. -/
def Fresh (T : Table A C) (h h' : Heap A C) (vs : List (Val A)) : Prop :=
  (∃ ext, h' = h ++ ext) ∧ (Wf T h → Wf T h') ∧ ∃ fp, Own h' vs fp ∧ ∀ x ∈ fp, h.length ≤ x

theorem own_plain (h : Heap A C) (v : Val A) (hv : ∀ j, v ≠ .ref j) : Own h [v] [] := by
  cases v with
  | none => exact .none .nil
  | atom a => exact .atom .nil
  | ref j => exact absurd rfl (hv j)

theorem getElem?_ext {h : Heap A C} (ext : List (Obj A C)) {x : Nat} (hx : x < h.length) :
    (h ++ ext : Heap A C)[x]? = h[x]? := by
  rw [List.getElem?_append_left hx]

theorem store_spec {T : Table A C} {mk : C → Heap A C → Option (Heap A C × Nat)}
    (hmk : ∀ c h h' i, mk c h = some (h', i) → Fresh T h h' [.ref i] ∧ h.length ≤ i)
    {s : Slot A C} {v v' : Val A} {h h' : Heap A C} (hv : ∀ j, v ≠ .ref j)
    (e : store mk s v h = some (h', v')) :
    Fresh T h h' [v'] ∧ Stored s v v' h.length ∧ (s.auto.isSome → v' ≠ .none) := by
  have triv : ∀ w : Val A, (∀ j, w ≠ .ref j) → Fresh T h h [w] := fun w hw =>
    ⟨⟨[], by simp⟩, id, [], own_plain h w hw, by simp⟩
  unfold store at e
  cases v with
  | none =>
    simp only at e
    cases ha : s.auto with
    | none =>
      simp only [ha, Option.some.injEq, Prod.mk.injEq] at e
      obtain ⟨rfl, rfl⟩ := e
      exact ⟨triv _ (by simp), by simp [Stored, ha], by simp⟩
    | some d =>
      cases d with
      | value a =>
        simp only [ha, Option.some.injEq, Prod.mk.injEq] at e
        obtain ⟨rfl, rfl⟩ := e
        exact ⟨triv _ (by simp), by simp [Stored, ha], by simp⟩
      | make c =>
        simp only [ha] at e
        cases hm : mk c h with
        | none => rw [hm] at e; simp at e
        | some r =>
          obtain ⟨h1, i⟩ := r
          rw [hm] at e
          simp only [Option.some.injEq, Prod.mk.injEq] at e
          obtain ⟨rfl, rfl⟩ := e
          obtain ⟨f, hi⟩ := hmk c h h1 i hm
          exact ⟨f, by simp only [Stored, ha]; exact ⟨i, hi, rfl⟩, by simp⟩
  | atom a =>
    simp only [Option.some.injEq, Prod.mk.injEq] at e
    obtain ⟨rfl, rfl⟩ := e
    exact ⟨triv _ (by simp), by simp [Stored], by simp⟩
  | ref j => exact absurd rfl (hv j)

theorem fill_spec {T : Table A C} {mk : C → Heap A C → Option (Heap A C × Nat)}
    (hmk : ∀ c h h' i, mk c h = some (h', i) → Fresh T h h' [.ref i] ∧ h.length ≤ i)
    {given : Dict (Val A)} (hg : Plain given) (l : Dict (Slot A C)) (hl : ∀ e ∈ l, ∀ j, e.2.init ≠ .ref j)
    {h h' : Heap A C} {d : Dict (Val A)} (e : fill mk given l h = some (h', d)) :
    Fresh T h h' (d.map Prod.snd) ∧ d.map Prod.fst = l.map Prod.fst ∧
      ∀ n s, l.get? n = some s → ∃ v', d.get? n = some v' ∧
        Stored s ((given.get? n).getD s.init) v' h.length ∧ (s.auto.isSome → v' ≠ .none) := by
  induction l generalizing h d with
  | nil =>
    simp only [fill, Option.some.injEq, Prod.mk.injEq] at e
    obtain ⟨rfl, rfl⟩ := e
    exact ⟨⟨⟨[], by simp⟩, id, [], .nil, by simp⟩, rfl, by simp [Dict.get?]⟩
  | cons x l ih =>
    obtain ⟨n, s⟩ := x
    rw [fill] at e
    cases hs : store mk s ((given.get? n).getD s.init) h with
    | none => rw [hs] at e; simp at e
    | some r =>
      obtain ⟨h1, v⟩ := r
      simp only [hs] at e
      cases hf : fill mk given l h1 with
      | none => rw [hf] at e; simp at e
      | some r =>
        obtain ⟨h2, d'⟩ := r
        simp only [hf, Option.some.injEq, Prod.mk.injEq] at e
        obtain ⟨rfl, rfl⟩ := e
        have hv : ∀ j, (given.get? n).getD s.init ≠ .ref j := by
          intro j
          cases hgn : given.get? n with
          | none => simpa using hl (n, s) (by simp) j
          | some w => simpa using hg _ (Dict.get?_some_mem _ _ _ hgn) j
        obtain ⟨⟨⟨e1, rfl⟩, w1, fp1, o1, l1⟩, st, nn⟩ := store_spec hmk hv hs
        obtain ⟨⟨⟨e2, rfl⟩, w2, fp2, o2, l2⟩, ks, as⟩ := ih (fun e he => hl e (by simp [he])) hf
        refine ⟨⟨⟨e1 ++ e2, by simp⟩, fun w => w2 (w1 w), fp1 ++ fp2, ?_, ?_⟩, by simp [ks], ?_⟩
        · simp only [List.map_cons]
          refine (own_cons _ _ _).2 ⟨fp1, fp2, rfl, o1.frame fun x hx => getElem?_ext _ (o1.lt x hx), o2, ?_⟩
          refine List.nodup_append.2 ⟨o1.nodup, o2.nodup, ?_⟩
          rintro a ha b hb rfl
          have := o1.lt a ha
          have := l2 a hb
          omega
        · intro x hx
          rcases List.mem_append.1 hx with hx | hx
          · exact l1 x hx
          · have := l2 x hx
            simp only [List.length_append] at this
            omega
        · intro n' s' hn
          by_cases hk : n = n'
          · subst hk
            simp only [Dict.get?, if_pos, Option.some.injEq] at hn
            subst hn
            exact ⟨v, by simp [Dict.get?], st, nn⟩
          · rw [Dict.get?, if_neg hk] at hn
            obtain ⟨v', hv', st', nn'⟩ := as n' s' hn
            refine ⟨v', by rw [Dict.get?, if_neg hk, hv'], st'.mono (by simp), nn'⟩

theorem newObj_spec {T : Table A C} (hT : T.Good) {depth : Nat} {c : C} {given : Dict (Val A)} (hg : Plain given)
    {h h' : Heap A C} {i : Nat} (e : newObj T depth c given h = some (h', i)) :
    Fresh T h h' [.ref i] ∧ h.length ≤ i ∧ ∃ attrs, h'[i]? = some ⟨c, attrs⟩ ∧
      ∀ n s, (T.slots c).get? n = some s → ∃ v', attrs.get? n = some v' ∧
        Stored s ((given.get? n).getD s.init) v' h.length := by
  induction depth generalizing c given h h' i with
  | zero => simp [newObj] at e
  | succ depth ih =>
    rw [newObj] at e
    cases hf : fill (fun c h => newObj T depth c [] h) given (T.slots c) h with
    | none => rw [hf] at e; simp at e
    | some r =>
      obtain ⟨h1, attrs⟩ := r
      simp only [hf, Option.some.injEq, Prod.mk.injEq] at e
      obtain ⟨rfl, rfl⟩ := e
      have hmk : ∀ c h h' i, newObj T depth c [] h = some (h', i) → Fresh T h h' [.ref i] ∧ h.length ≤ i :=
        fun c h h' i e => ⟨(ih (by simp [Plain]) e).1, (ih (by simp [Plain]) e).2.1⟩
      obtain ⟨⟨⟨e1, rfl⟩, w1, fp, o1, l1⟩, ks, as⟩ :=
        fill_spec hmk hg (T.slots c) (fun e he => hT.init c e.1 e.2 he) hf
      have hi : (h ++ e1 ++ [⟨c, attrs⟩] : Heap A C)[(h ++ e1).length]? = some ⟨c, attrs⟩ := by simp
      refine ⟨⟨⟨e1 ++ [⟨c, attrs⟩], by simp⟩, ?_, (h ++ e1).length :: (fp ++ []), ?_, ?_⟩, by simp, attrs, hi, ?_⟩
      · intro w o ho
        rcases List.mem_append.1 ho with ho | ho
        · exact w1 w o ho
        · simp only [List.mem_singleton] at ho
          subst ho
          refine ⟨ks, fun n s hs ha => ?_⟩
          obtain ⟨v', hv', -, nn⟩ := as n s hs
          simp only [hv', ne_eq, Option.some.injEq]
          exact nn ha
      · refine .ref hi (o1.frame fun x hx => getElem?_ext _ (o1.lt x hx)) .nil ?_
        refine List.nodup_cons.2 ⟨?_, by simpa using o1.nodup⟩
        intro hx
        simp only [List.append_nil] at hx
        have := o1.lt _ hx
        omega
      · intro x hx
        simp only [List.append_nil, List.mem_cons] at hx
        rcases hx with rfl | hx
        · simp
        · exact l1 x hx
      · intro n s hs
        obtain ⟨v', hv', st, -⟩ := as n s hs
        exact ⟨v', hv', st⟩

/-! ## Looking up parameters -/

/-- Parameter `k` of an estimator has value `v`. -/
inductive Look (h : Heap A C) : Nat → String → Val A → Prop where
  | here {i : Nat} {k n : String} {v : Val A} {o : Obj A C} : partition k = (n, Option.none) → h[i]? = some o →
      o.attrs.get? n = some v → Look h i k v
  | there {i j : Nat} {k n r : String} {v : Val A} {o : Obj A C} : partition k = (n, some r) → h[i]? = some o →
      o.attrs.get? n = some (.ref j) → Look h j r v → Look h i k v

theorem look_iff (h : Heap A C) (i : Nat) (k : String) (v : Val A) :
    Look h i k v ↔ ∃ o, h[i]? = some o ∧
      (((partition k).2 = Option.none ∧ o.attrs.get? (partition k).1 = some v) ∨
        ∃ r j, (partition k).2 = some r ∧ o.attrs.get? (partition k).1 = some (.ref j) ∧ Look h j r v) := by
  constructor
  · rintro (⟨hp, hi, ha⟩ | ⟨hp, hi, ha, hl⟩)
    · exact ⟨_, hi, .inl (by simp [hp, ha])⟩
    · exact ⟨_, hi, .inr ⟨_, _, by simp [hp], by simp [hp, ha], hl⟩⟩
  · rintro ⟨o, hi, ⟨hp, ha⟩ | ⟨r, j, hp, ha, hl⟩⟩
    · exact .here (n := (partition k).1) (by rw [← hp]) hi ha
    · exact .there (n := (partition k).1) (by rw [← hp]) hi ha hl

theorem Look.det {h : Heap A C} {i : Nat} {k : String} {v w : Val A} (a : Look h i k v) (b : Look h i k w) :
    v = w := by
  induction a with
  | here hp hi ha =>
    obtain ⟨o, ho, ⟨_, h2⟩ | ⟨r, j, h1, _, _⟩⟩ := (look_iff _ _ _ _).1 b
    · rw [hi] at ho; cases ho
      rw [hp] at h2
      simp only at h2
      rw [ha] at h2
      simpa using h2
    · rw [hp] at h1; simp at h1
  | there hp hi ha _ ih =>
    obtain ⟨o, ho, ⟨h1, _⟩ | ⟨r, j, h1, h2, h3⟩⟩ := (look_iff _ _ _ _).1 b
    · rw [hp] at h1; simp at h1
    · rw [hi] at ho; cases ho
      rw [hp] at h1 h2
      simp only [Option.some.injEq] at h1
      subst h1
      simp only at h2
      rw [ha] at h2
      simp only [Option.some.injEq, Val.ref.injEq] at h2
      subst h2
      exact ih h3

/-- The slot of parameter `k` of an estimator. -/
inductive SlotAt (T : Table A C) (h : Heap A C) : Nat → String → Slot A C → Prop where
  | here {i : Nat} {k n : String} {s : Slot A C} {o : Obj A C} : partition k = (n, Option.none) → h[i]? = some o →
      (T.slots o.cls).get? n = some s → SlotAt T h i k s
  | there {i j : Nat} {k n r : String} {s : Slot A C} {o : Obj A C} : partition k = (n, some r) → h[i]? = some o →
      o.attrs.get? n = some (.ref j) → SlotAt T h j r s → SlotAt T h i k s

theorem slotAt_iff (T : Table A C) (h : Heap A C) (i : Nat) (k : String) (s : Slot A C) :
    SlotAt T h i k s ↔ ∃ o, h[i]? = some o ∧
      (((partition k).2 = Option.none ∧ (T.slots o.cls).get? (partition k).1 = some s) ∨
        ∃ r j, (partition k).2 = some r ∧ o.attrs.get? (partition k).1 = some (.ref j) ∧ SlotAt T h j r s) := by
  constructor
  · rintro (⟨hp, hi, ha⟩ | ⟨hp, hi, ha, hl⟩)
    · exact ⟨_, hi, .inl (by simp [hp, ha])⟩
    · exact ⟨_, hi, .inr ⟨_, _, by simp [hp], by simp [hp, ha], hl⟩⟩
  · rintro ⟨o, hi, ⟨hp, ha⟩ | ⟨r, j, hp, ha, hl⟩⟩
    · exact .here (n := (partition k).1) (by rw [← hp]) hi ha
    · exact .there (n := (partition k).1) (by rw [← hp]) hi ha hl

theorem own_ref {h : Heap A C} {i : Nat} {fp : List Nat} (o : Own h [.ref i] fp) :
    ∃ ob f, h[i]? = some ob ∧ fp = i :: f ∧ Own h (ob.attrs.map Prod.snd) f ∧ i ∉ f := by
  cases o with
  | ref hi o1 o2 hn =>
    cases o2
    simp only [List.append_nil] at hn ⊢
    exact ⟨_, _, hi, rfl, o1, (List.nodup_cons.1 hn).1⟩

theorem own_of_ref {h : Heap A C} {i : Nat} {ob : Obj A C} {f : List Nat} (hi : h[i]? = some ob)
    (o : Own h (ob.attrs.map Prod.snd) f) (hn : i ∉ f) : Own h [.ref i] (i :: f) := by
  have := Own.ref (vs := []) (g := []) hi o .nil (by simpa using ⟨hn, o.nodup⟩)
  simpa using this

/-- What is looked up depends on the owned objects only. -/
theorem Look.frame {h h' : Heap A C} {i : Nat} {k : String} {v : Val A} (l : Look h i k v) {fp : List Nat}
    (o : Own h [.ref i] fp) (e : ∀ x ∈ fp, h'[x]? = h[x]?) : Look h' i k v := by
  induction l generalizing fp with
  | here hp hi ha =>
    obtain ⟨ob, f, h1, rfl, _⟩ := own_ref o
    exact .here hp ((e _ (by simp)).trans hi) ha
  | there hp hi ha _ ih =>
    obtain ⟨ob, f, h1, rfl, o1, _⟩ := own_ref o
    rw [hi] at h1
    cases h1
    obtain ⟨f', r, o2, _, m, _⟩ := o1.split _ _ _ ha
    exact .there hp ((e _ (by simp)).trans hi) ha (ih o2 fun x hx => e x (by simp [(m x).2 (.inl hx)]))

theorem look_frame {h h' : Heap A C} {i : Nat} {fp : List Nat} (o : Own h [.ref i] fp)
    (e : ∀ x ∈ fp, h'[x]? = h[x]?) (k : String) (v : Val A) : Look h' i k v ↔ Look h i k v :=
  ⟨fun l => l.frame (o.frame e) fun x hx => (e x hx).symm, fun l => l.frame o e⟩

theorem SlotAt.frame {T : Table A C} {h h' : Heap A C} {i : Nat} {k : String} {s : Slot A C} (l : SlotAt T h i k s)
    {fp : List Nat} (o : Own h [.ref i] fp) (e : ∀ x ∈ fp, h'[x]? = h[x]?) : SlotAt T h' i k s := by
  induction l generalizing fp with
  | here hp hi ha =>
    obtain ⟨ob, f, h1, rfl, _⟩ := own_ref o
    exact .here hp ((e _ (by simp)).trans hi) ha
  | there hp hi ha _ ih =>
    obtain ⟨ob, f, h1, rfl, o1, _⟩ := own_ref o
    rw [hi] at h1
    cases h1
    obtain ⟨f', r, o2, _, m, _⟩ := o1.split _ _ _ ha
    exact .there hp ((e _ (by simp)).trans hi) ha (ih o2 fun x hx => e x (by simp [(m x).2 (.inl hx)]))

theorem get?_keys {V W : Type} (d : Dict V) (e : Dict W) (h : d.map Prod.fst = e.map Prod.fst) (n : String) :
    (d.get? n).isSome = (e.get? n).isSome := by
  have h1 := Dict.get?_none_iff d n
  have h2 := Dict.get?_none_iff e n
  rw [h, ← h2] at h1
  cases hd : d.get? n <;> cases he : e.get? n <;> simp_all

theorem wf_get {T : Table A C} {h : Heap A C} (w : Wf T h) {i : Nat} {o : Obj A C} (hi : h[i]? = some o) :
    WfObj T o := w o (List.mem_of_getElem? hi)

/-- There is a value where there is a slot. -/
theorem SlotAt.look {T : Table A C} {h : Heap A C} (w : Wf T h) {i : Nat} {k : String} {s : Slot A C}
    (l : SlotAt T h i k s) : ∃ v, Look h i k v := by
  induction l with
  | @here i k n s o hp hi ha =>
    have := get?_keys _ _ (wf_get w hi).1 n
    rw [ha] at this
    obtain ⟨v, hv⟩ := Option.isSome_iff_exists.1 (by simpa using this)
    exact ⟨v, .here hp hi hv⟩
  | there hp hi ha _ ih =>
    obtain ⟨v, hv⟩ := ih
    exact ⟨v, .there hp hi ha hv⟩

theorem Look.slot {T : Table A C} {h : Heap A C} (w : Wf T h) {i : Nat} {k : String} {v : Val A}
    (l : Look h i k v) : ∃ s, SlotAt T h i k s := by
  induction l with
  | @here i k n v o hp hi ha =>
    have := get?_keys _ _ (wf_get w hi).1 n
    rw [ha] at this
    obtain ⟨s, hs⟩ := Option.isSome_iff_exists.1 (by simpa using this.symm)
    exact ⟨s, .here hp hi hs⟩
  | there hp hi ha _ ih =>
    obtain ⟨s, hs⟩ := ih
    exact ⟨s, .there hp hi ha hs⟩

end Verif.Est
