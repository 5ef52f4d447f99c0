import Verif.Learn.EstStatic

/-!
# C100: parameters of models
-/

set_option autoImplicit false
set_option linter.unusedSectionVars false
set_option linter.unusedSimpArgs false

namespace Verif.Est

open Verif

variable {A C : Type}

/-! ## Programs that make and change models -/

/-- The memory and the models that a program has made. -/
structure Prog (A C : Type) where
  heap : Heap A C := []
  models : List Nat := []

/-- A call: `cls(**kw)`, `models[m].set_params(**kw)` or `clone(models[m])`. -/
inductive Call (A C : Type) where
  | new (c : C) (kw : Dict (Val A))
  | set (m : Nat) (kw : Dict (Val A))
  | clone (m : Nat)

/-- The state after a call, which may raise. -/
def Call.run (T : Table A C) (depth fuel : Nat) (s : Prog A C) : Call A C → Option (Prog A C)
  | .new c kw =>
    match construct T depth fuel c kw s.heap with
    | Option.none => Option.none
    | some (h, .ok i) => some ⟨h, s.models ++ [i]⟩
    | some (h, .error _) => some ⟨h, s.models⟩
  | .set m kw =>
    match s.models[m]? with
    | Option.none => some s
    | some i =>
      match setParams T depth fuel i kw s.heap with
      | Option.none => Option.none
      | some (h, _) => some ⟨h, s.models⟩
  | .clone m =>
    match s.models[m]? with
    | Option.none => some s
    | some i =>
      match Est.clone T depth fuel i s.heap with
      | Option.none => Option.none
      | some (h, j) => some ⟨h, s.models ++ [j]⟩

/-- The arguments are dictionaries without estimators. -/
def Call.Plain : Call A C → Prop
  | .new _ kw => kw.Ok ∧ Est.Plain kw
  | .set _ kw => kw.Ok ∧ Est.Plain kw
  | .clone _ => True

/-- The model that a call is about. -/
def Call.target : Call A C → Option Nat
  | .set m _ => some m
  | _ => Option.none

/-- States that programs reach. -/
inductive Reach (T : Table A C) (depth : Nat) : Prog A C → Prop where
  | start : Reach T depth {}
  | step {s s' : Prog A C} {fuel : Nat} {c : Call A C} : Reach T depth s → c.Plain → c.run T depth fuel s = some s' →
      Reach T depth s'

/-- The invariant: models share nothing. -/
def Inv (T : Table A C) (s : Prog A C) : Prop := Wf T s.heap ∧ ∃ fp, Own s.heap (s.models.map Val.ref) fp

theorem Inv.model {T : Table A C} {s : Prog A C} (inv : Inv T s) {m i : Nat} (hm : s.models[m]? = some i) :
    ∃ f, Own s.heap [.ref i] f := by
  obtain ⟨_, fp, o⟩ := inv
  have : Val.ref i ∈ s.models.map (Val.ref (A := A)) := List.mem_map.2 ⟨i, List.mem_of_getElem? hm, rfl⟩
  obtain ⟨a, b, hab⟩ := List.append_of_mem this
  rw [hab] at o
  obtain ⟨f1, g1, rfl, _, o2, _⟩ := (own_append _ _ _).1 o
  obtain ⟨f2, g2, rfl, o3, _, _⟩ := (own_cons _ _ _).1 o2
  exact ⟨f2, o3⟩

theorem own_snoc {h h' : Heap A C} {l : List (Val A)} {fp : List Nat} (o : Own h l fp) (e : ∀ x, x < h.length → h'[x]? = h[x]?)
    {v : Val A} {f : List Nat} (ov : Own h' [v] f) (hf : ∀ x ∈ f, h.length ≤ x) : Own h' (l ++ [v]) (fp ++ f) := by
  refine (own_append _ _ _).2 ⟨fp, f, rfl, o.frame fun x hx => e x (o.lt x hx), ov, ?_⟩
  refine List.nodup_append.2 ⟨o.nodup, ov.nodup, ?_⟩
  rintro a ha b hb rfl
  have := o.lt a ha
  have := hf a hb
  omega

theorem construct_spec {T : Table A C} (hT : T.Good) {depth fuel : Nat} {c : C} {kw : Dict (Val A)} (hkw : kw.Ok)
    (hpl : Plain kw) {h h' : Heap A C} (w : Wf T h) {res : Except PyErr Nat}
    (e : construct T depth fuel c kw h = some (h', res)) :
    Wf T h' ∧ (∀ x, x < h.length → h'[x]? = h[x]?) ∧ h.length ≤ h'.length ∧
      ∀ i, res = .ok i → ∃ f, Own h' [.ref i] f ∧ ∀ x ∈ f, h.length ≤ x := by
  unfold construct at e
  have hown : Plain (kw.filter fun e => (T.slots c).has e.1) := fun x hx => hpl x (List.mem_of_mem_filter hx)
  have hrest : Plain (kw.filter fun e => !(T.slots c).has e.1) := fun x hx => hpl x (List.mem_of_mem_filter hx)
  have hro : Dict.Ok (kw.filter fun e => !(T.slots c).has e.1) := by
    unfold Dict.Ok at *
    exact hkw.sublist (List.Sublist.map _ List.filter_sublist)
  simp only at e
  split at e
  · simp only [Option.some.injEq, Prod.mk.injEq] at e
    obtain ⟨rfl, rfl⟩ := e
    exact ⟨w, fun _ _ => rfl, Nat.le_refl _, by simp⟩
  · cases hn : newObj T depth c (kw.filter fun e => (T.slots c).has e.1) h with
    | none => rw [hn] at e; simp at e
    | some r =>
      obtain ⟨h1, i⟩ := r
      simp only [hn] at e
      obtain ⟨⟨⟨ext, rfl⟩, w1, f, o, l⟩, li, _⟩ := newObj_spec hT hown hn
      cases hs : setParams T depth fuel i (kw.filter fun e => !(T.slots c).has e.1) (h ++ ext) with
      | none => rw [hs] at e; simp at e
      | some r =>
        obtain ⟨h2, r2⟩ := r
        obtain ⟨f2, o2, g2, w2, _⟩ := setParams_spec hT hro hrest (w1 w) o hs
        have same : ∀ x, x < h.length → h2[x]? = h[x]? := by
          intro x hx
          rw [g2.same x (by simp; omega) fun hxf => by have := l x hxf; omega, getElem?_ext _ hx]
        have hle : h.length ≤ h2.length := Nat.le_trans (by simp) g2.le
        simp only [hs] at e
        cases r2 with
        | error err =>
          simp only [Option.some.injEq, Prod.mk.injEq] at e
          obtain ⟨rfl, rfl⟩ := e
          exact ⟨w2, same, hle, by simp⟩
        | ok u =>
          simp only [Option.some.injEq, Prod.mk.injEq] at e
          obtain ⟨rfl, rfl⟩ := e
          refine ⟨w2, same, hle, ?_⟩
          rintro i' hi'
          simp only [Except.ok.injEq] at hi'
          subst hi'
          refine ⟨f2, o2, fun x hx => ?_⟩
          rcases g2.sub x hx with h3 | h3
          · exact l x h3
          · simp only [List.length_append] at h3; omega

theorem Inv.step {T : Table A C} (hT : T.Good) {depth fuel : Nat} {s s' : Prog A C} {c : Call A C} (inv : Inv T s)
    (hc : c.Plain) (hd : 0 < depth) (e : c.run T depth fuel s = some s') : Inv T s' := by
  obtain ⟨w, fp, o⟩ := inv
  cases c with
  | new c kw =>
    rw [Call.run] at e
    cases hk : construct T depth fuel c kw s.heap with
    | none => rw [hk] at e; simp at e
    | some r =>
      obtain ⟨h1, r1⟩ := r
      obtain ⟨w1, same, hle, ok1⟩ := construct_spec hT hc.1 hc.2 w hk
      simp only [hk] at e
      cases r1 with
      | error err =>
        simp only [Option.some.injEq] at e
        subst e
        exact ⟨w1, fp, o.frame fun x hx => same x (o.lt x hx)⟩
      | ok i =>
        simp only [Option.some.injEq] at e
        subst e
        obtain ⟨f, of, lf⟩ := ok1 i rfl
        refine ⟨w1, fp ++ f, ?_⟩
        rw [List.map_append]
        exact own_snoc o same of lf
  | set m kw =>
    rw [Call.run] at e
    cases hm : s.models[m]? with
    | none =>
      simp only [hm, Option.some.injEq] at e
      subst e
      exact ⟨w, fp, o⟩
    | some i =>
      simp only [hm] at e
      cases hs : setParams T depth fuel i kw s.heap with
      | none => rw [hs] at e; simp at e
      | some r =>
        obtain ⟨h1, r1⟩ := r
        simp only [hs, Option.some.injEq] at e
        subst e
        have : Val.ref i ∈ s.models.map (Val.ref (A := A)) := List.mem_map.2 ⟨i, List.mem_of_getElem? hm, rfl⟩
        obtain ⟨a, b, hab⟩ := List.append_of_mem this
        rw [hab] at o
        obtain ⟨f1, g1, rfl, o1, o2, n1⟩ := (own_append _ _ _).1 o
        obtain ⟨f2, g2, rfl, o3, o4, n2⟩ := (own_cons _ _ _).1 o2
        obtain ⟨f', o', g', w', _⟩ := setParams_spec hT hc.1 hc.2 w o3 hs
        have d1 : ∀ x ∈ f1, x ∉ f2 ++ g2 := fun x hx hx' => (List.nodup_append.1 n1).2.2 x hx x hx' rfl
        have d2 : ∀ x ∈ f2, x ∉ g2 := fun x hx hx' => (List.nodup_append.1 n2).2.2 x hx x hx' rfl
        have s1 : ∀ x ∈ f1, h1[x]? = s.heap[x]? := fun x hx =>
          g'.same x (o1.lt x hx) fun hxf => d1 x hx (by simp [hxf])
        have s2 : ∀ x ∈ g2, h1[x]? = s.heap[x]? := fun x hx =>
          g'.same x (o4.lt x hx) fun hxf => d2 x hxf hx
        have dis : ∀ x ∈ f', x ∉ f1 ∧ x ∉ g2 := by
          intro x hx
          rcases g'.sub x hx with h3 | h3
          · exact ⟨fun hx1 => d1 x hx1 (by simp [h3]), d2 x h3⟩
          · exact ⟨fun hx1 => by have := o1.lt x hx1; omega, fun hx1 => by have := o4.lt x hx1; omega⟩
        refine ⟨w', f1 ++ (f' ++ g2), ?_⟩
        simp only
        rw [hab]
        have n2' : (f' ++ g2).Nodup :=
          List.nodup_append.2 ⟨o'.nodup, o4.nodup, fun x hx y hy hxy => (dis x hx).2 (hxy ▸ hy)⟩
        refine (own_append _ _ _).2 ⟨f1, f' ++ g2, rfl, o1.frame s1, ?_, ?_⟩
        · exact (own_cons _ _ _).2 ⟨f', g2, rfl, o', o4.frame s2, n2'⟩
        · refine List.nodup_append.2 ⟨o1.nodup, n2', ?_⟩
          rintro x hx y hy rfl
          rcases List.mem_append.1 hy with hy | hy
          · exact (dis x hy).1 hx
          · exact d1 x hx (by simp [hy])
  | clone m =>
    rw [Call.run] at e
    cases hm : s.models[m]? with
    | none =>
      simp only [hm, Option.some.injEq] at e
      subst e
      exact ⟨w, fp, o⟩
    | some i =>
      simp only [hm] at e
      cases hs : Est.clone T depth fuel i s.heap with
      | none => rw [hs] at e; simp at e
      | some r =>
        obtain ⟨h1, j⟩ := r
        simp only [hs, Option.some.injEq] at e
        subst e
        obtain ⟨f0, o0⟩ := Inv.model ⟨w, fp, o⟩ hm
        obtain ⟨dp, rfl⟩ : ∃ dp, depth = dp + 1 := ⟨depth - 1, by omega⟩
        obtain ⟨⟨⟨ext, rfl⟩, w1, f, of, lf⟩, _⟩ := clone_spec hT w o0 hs
        refine ⟨w1 w, fp ++ f, ?_⟩
        rw [List.map_append]
        exact own_snoc o (fun x hx => getElem?_ext _ hx) of lf

theorem Reach.inv {T : Table A C} (hT : T.Good) {depth : Nat} (hd : 0 < depth) {s : Prog A C} (r : Reach T depth s) :
    Inv T s := by
  induction r with
  | start => exact ⟨by intro o ho; simp at ho, [], .nil⟩
  | step _ hc e ih => exact ih.step hT hc hd e

theorem own_disjoint {h : Heap A C} (l : List Nat) {fp : List Nat} (o : Own h (l.map Val.ref) fp) {m m' i i' : Nat}
    (hmm : m ≠ m') (hm : l[m]? = some i) (hm' : l[m']? = some i') {f f' : List Nat} (of : Own h [.ref i] f)
    (of' : Own h [.ref i'] f') : ∀ x ∈ f, x ∉ f' := by
  induction l generalizing m m' fp with
  | nil => simp at hm
  | cons y l ihl =>
    simp only [List.map_cons] at o
    obtain ⟨g1, g2, rfl, oy, ol, nn⟩ := (own_cons _ _ _).1 o
    have dd : ∀ x ∈ g1, x ∉ g2 := fun x hx hx' => (List.nodup_append.1 nn).2.2 x hx x hx' rfl
    have sub : ∀ (k i : Nat) (g : List Nat), l[k]? = some i → Own h [.ref i] g → ∀ x ∈ g, x ∈ g2 := by
      intro k i g hk og x hx
      have hmem : Val.ref i ∈ l.map (Val.ref (A := A)) := List.mem_map.2 ⟨i, List.mem_of_getElem? hk, rfl⟩
      obtain ⟨a, b, hab⟩ := List.append_of_mem hmem
      rw [hab] at ol
      obtain ⟨q1, q2, rfl, _, o2, _⟩ := (own_append _ _ _).1 ol
      obtain ⟨q3, q4, rfl, o3, _, _⟩ := (own_cons _ _ _).1 o2
      rw [own_det og o3] at hx
      simp [hx]
    cases m with
    | zero =>
      cases m' with
      | zero => exact absurd rfl hmm
      | succ m' =>
        simp only [List.getElem?_cons_zero, List.getElem?_cons_succ, Option.some.injEq] at hm hm'
        subst hm
        intro x hx hx'
        rw [own_det of oy] at hx
        exact dd x hx (sub m' i' f' hm' of' x hx')
    | succ m =>
      cases m' with
      | zero =>
        simp only [List.getElem?_cons_zero, List.getElem?_cons_succ, Option.some.injEq] at hm hm'
        subst hm'
        intro x hx hx'
        rw [own_det of' oy] at hx'
        exact dd x hx' (sub m i f hm of x hx)
      | succ m' =>
        simp only [List.getElem?_cons_succ] at hm hm'
        exact ihl ol (by omega) hm hm'

/-! ## The theorems -/

/-- **C100** (models do not influence each other): in every state that a program reaches with constructors,
`set_params` and `clone`, whether or not calls raise, a call leaves the parameters of every model as they are,
except of the one whose `set_params` it calls; new models do not take the place of others. -/
theorem C100_independent {T : Table A C} (hT : T.Good) {depth fuel : Nat} (hd : 0 < depth) {s s' : Prog A C}
    (r : Reach T depth s) (c : Call A C) (hc : c.Plain) (e : c.run T depth fuel s = some s') (m i : Nat)
    (hm : s.models[m]? = some i) (hne : c.target ≠ some m) :
    s'.models[m]? = some i ∧ ∀ n, getParams n s'.heap i = getParams n s.heap i := by
  obtain ⟨w, fp, o⟩ := r.inv hT hd
  obtain ⟨f, of⟩ := Inv.model (r.inv hT hd) hm
  have hml : m < s.models.length := (List.getElem?_eq_some_iff.1 hm).1
  cases c with
  | new c kw =>
    rw [Call.run] at e
    cases hk : construct T depth fuel c kw s.heap with
    | none => rw [hk] at e; simp at e
    | some q =>
      obtain ⟨h1, r1⟩ := q
      obtain ⟨w1, same, hle, ok1⟩ := construct_spec hT hc.1 hc.2 w hk
      have := fun n => getParams_frame (h' := h1) of (fun x hx => same x (of.lt x hx)) n
      simp only [hk] at e
      cases r1 with
      | error err =>
        simp only [Option.some.injEq] at e
        subst e
        exact ⟨hm, this⟩
      | ok j =>
        simp only [Option.some.injEq] at e
        subst e
        exact ⟨by rw [List.getElem?_append_left hml, hm], this⟩
  | set m' kw =>
    rw [Call.run] at e
    cases hm' : s.models[m']? with
    | none =>
      simp only [hm', Option.some.injEq] at e
      subst e
      exact ⟨hm, fun _ => rfl⟩
    | some i' =>
      simp only [hm'] at e
      cases hs : setParams T depth fuel i' kw s.heap with
      | none => rw [hs] at e; simp at e
      | some q =>
        obtain ⟨h1, r1⟩ := q
        simp only [hs, Option.some.injEq] at e
        subst e
        refine ⟨hm, fun n => ?_⟩
        have hmm : m ≠ m' := by
          rintro rfl
          exact hne rfl
        obtain ⟨f', of'⟩ := Inv.model (r.inv hT hd) hm'
        obtain ⟨_, _, g', _, _⟩ := setParams_spec hT hc.1 hc.2 w of' hs
        -- the two models have no objects in common
        have dis := own_disjoint _ o hmm hm hm' of of'
        exact getParams_frame of (fun x hx => g'.same x (of.lt x hx) (dis x hx)) n
  | clone m' =>
    rw [Call.run] at e
    cases hm' : s.models[m']? with
    | none =>
      simp only [hm', Option.some.injEq] at e
      subst e
      exact ⟨hm, fun _ => rfl⟩
    | some i' =>
      simp only [hm'] at e
      cases hs : Est.clone T depth fuel i' s.heap with
      | none => rw [hs] at e; simp at e
      | some q =>
        obtain ⟨h1, j⟩ := q
        simp only [hs, Option.some.injEq] at e
        subst e
        obtain ⟨f0, o0⟩ := Inv.model (r.inv hT hd) hm'
        obtain ⟨dp, rfl⟩ : ∃ dp, depth = dp + 1 := ⟨depth - 1, by omega⟩
        obtain ⟨⟨⟨ext, rfl⟩, _⟩, _⟩ := clone_spec hT w o0 hs
        exact ⟨by rw [List.getElem?_append_left hml, hm],
          fun n => getParams_frame of (fun x hx => getElem?_ext _ (of.lt x hx)) n⟩

/-- A parameter is not among the arguments, nor below one of them. -/
def Untouched (kw : Dict (Val A)) (k : String) : Prop := ∀ e ∈ kw, e.1 ≠ k ∧ ∀ r, k ≠ join e.1 r

/-- **C100** (`set_params`): for every model that a program has made and all arguments, `P` and `P'` being
what `get_params` gives before and after: if `set_params` returns, every argument is a parameter and has been
stored (`None` gives the default, if there is a default property), and the parameters that are neither arguments
nor below one are as before; if no argument is below another one, it returns exactly if the arguments are
parameters; else it raises `ValueError` or `AttributeError`. -/
theorem C100_set {T : Table A C} (hT : T.Good) {depth fuel : Nat} (hd : 0 < depth) {s : Prog A C}
    (r : Reach T depth s) {m i : Nat} (hm : s.models[m]? = some i) {kw : Dict (Val A)} (hkw : kw.Ok) (hpl : Plain kw)
    {h' : Heap A C} {res : Except PyErr Unit} (e : setParams T depth fuel i kw s.heap = some (h', res))
    {n n' : Nat} {P P' : Dict (Val A)} (eP : getParams n s.heap i = some P) (eP' : getParams n' h' i = some P') :
    (res = .ok () →
      (∀ k v, (k, v) ∈ kw → ∃ sl v', SlotAt T s.heap i k sl ∧ P.has k = true ∧ P'.get? k = some v' ∧
        Stored sl v v' s.heap.length) ∧
      ∀ k, Untouched kw k → P'.get? k = P.get? k) ∧
    (Apart kw → (res = .ok () ↔ ∀ e ∈ kw, P.has e.1 = true)) ∧
    ∀ err, res = .error err → err = .valueError ∨ err = .attributeError := by
  have inv := r.inv hT hd
  obtain ⟨f, of⟩ := Inv.model inv hm
  obtain ⟨f', o', g', w', law⟩ := setParams_spec hT hkw hpl inv.1 of e
  obtain ⟨okP, getP⟩ := getParams_spec hT inv.1 eP
  obtain ⟨okP', getP'⟩ := getParams_spec hT w' eP'
  have hasP : ∀ k, P.has k = true ↔ ∃ sl, SlotAt T s.heap i k sl := by
    intro k
    rw [Dict.has_iff]
    constructor
    · rintro ⟨v, hv⟩
      exact ((getP k v).1 hv).slot inv.1
    · rintro ⟨sl, hs⟩
      obtain ⟨v, hv⟩ := hs.look inv.1
      exact ⟨v, (getP k v).2 hv⟩
  refine ⟨fun hok => ⟨?_, ?_⟩, ?_, ?_⟩
  · intro k v hk
    obtain ⟨sl, v', h1, h2, h3⟩ := (law hok).set k v hk
    exact ⟨sl, v', h1, (hasP k).2 ⟨sl, h1⟩, (getP' k v').2 h2, h3⟩
  · intro k hk
    have := (law hok).keep k hk
    cases h1 : P.get? k with
    | some v => exact (getP' k v).2 ((this v).2 ((getP k v).1 h1))
    | none =>
      cases h2 : P'.get? k with
      | none => rfl
      | some v =>
        rw [(getP k v).2 ((this v).1 ((getP' k v).1 h2))] at h1
        exact absurd h1 (by simp)
  · intro hap
    constructor
    · intro hok x hx
      obtain ⟨sl, v', h1, _⟩ := (law hok).set x.1 x.2 hx
      exact (hasP _).2 ⟨sl, h1⟩
    · intro hall
      exact setParams_ok hT hkw hpl hap inv.1 of (fun x hx => (hasP _).1 (hall x hx)) e
  · rintro err rfl
    exact setParams_err e

theorem partition_join_ne (a b : String) : (partition (join a b)).2 ≠ Option.none := by
  intro hc
  simp only [partition, Option.map_eq_none_iff, join, String.toList_ofList] at hc
  have key : ∀ (a b : List Char), (partitionChars (a ++ '_' :: '_' :: b)).2 ≠ Option.none := by
    intro a b
    induction a with
    | nil => simp [partitionChars]
    | cons x a ih =>
      cases a with
      | nil =>
        simp only [List.cons_append, List.nil_append, partitionChars]
        split <;> simp
      | cons y a =>
        simp only [List.cons_append] at ih ⊢
        rw [partitionChars]
        split
        · simp
        · exact ih
  exact key _ _ hc

/-- **C100** (constructor): every argument of a constructor that returns is a parameter of the new model; it has the
value given, or for `None` and the name of a parameter of the class the default; and every parameter that is
neither an argument nor below one has its default, which depends on the class only. -/
theorem C100_new {T : Table A C} (hT : T.Good) {depth fuel : Nat} (hd : 0 < depth) {s : Prog A C}
    (r : Reach T depth s) (c : C) {kw : Dict (Val A)} (hkw : kw.Ok) (hpl : Plain kw) {h' : Heap A C} {i : Nat}
    (e : construct T depth fuel c kw s.heap = some (h', .ok i)) {n : Nat} {P : Dict (Val A)}
    (eP : getParams n h' i = some P) :
    (∀ k v, (k, v) ∈ kw → P.has k = true ∧ (v ≠ .none → P.get? k = some v) ∧
        ∀ sl, (T.slots c).get? k = some sl → ∃ v', P.get? k = some v' ∧ kindOf h' v' = some (settle sl v)) ∧
      ∀ k, Untouched kw k → ∀ x, (∃ v, P.get? k = some v ∧ kindOf h' v = some x) ↔ static T depth c [] k = some x := by
  have inv := r.inv hT hd
  unfold construct at e
  have hown : Plain (kw.filter fun e => (T.slots c).has e.1) := fun x hx => hpl x (List.mem_of_mem_filter hx)
  have hrest : Plain (kw.filter fun e => !(T.slots c).has e.1) := fun x hx => hpl x (List.mem_of_mem_filter hx)
  have sub : ∀ p : String × Val A → Bool, Dict.Ok (kw.filter p) := by
    intro p
    unfold Dict.Ok at *
    exact hkw.sublist (List.Sublist.map _ List.filter_sublist)
  simp only at e
  split at e
  · simp at e
  · cases hn : newObj T depth c (kw.filter fun e => (T.slots c).has e.1) s.heap with
    | none => rw [hn] at e; simp at e
    | some q =>
      obtain ⟨h1, i1⟩ := q
      simp only [hn] at e
      obtain ⟨⟨⟨ext, he1⟩, w1, f, o, l⟩, li, attrs, hi1, hat⟩ := newObj_spec hT hown hn
      have w1 := w1 inv.1
      cases hs : setParams T depth fuel i1 (kw.filter fun e => !(T.slots c).has e.1) h1 with
      | none => rw [hs] at e; simp at e
      | some q =>
        obtain ⟨h2, r2⟩ := q
        obtain ⟨f2, o2, g2, w2, law⟩ := setParams_spec hT (sub _) hrest w1 o hs
        obtain ⟨_, cls⟩ := setParams_cls hT hs
        simp only [hs] at e
        cases r2 with
        | error err => simp at e
        | ok u =>
          simp only [Option.some.injEq, Prod.mk.injEq, Except.ok.injEq] at e
          obtain ⟨rfl, rfl⟩ := e
          have law := law rfl
          obtain ⟨okP, getP⟩ := getParams_spec hT w2 eP
          have hhas : ∀ k, (T.slots c).has k = true → partition k = (k, Option.none) := by
            intro k hk
            obtain ⟨sl, hsl⟩ := (Dict.has_iff _ _).1 hk
            exact partition_good (hT.good c k sl (Dict.get?_some_mem _ _ _ hsl))
          have hle : s.heap.length ≤ h1.length := by rw [he1]; simp
          have kinds : ∀ k v, Look h1 i1 k v → kindOf h2 v = kindOf h1 v := by
            intro k v lv
            cases v with
            | none => rfl
            | atom a => rfl
            | ref j =>
              have := cls j (o.lt j (lv.mem o j rfl))
              simp only [kindOf]
              cases q1 : h2[j]? <;> cases q2 : h1[j]? <;> simp_all
          refine ⟨?_, ?_⟩
          · intro k v hk
            by_cases hin : (T.slots c).has k = true
            · have hg : Dict.get? (kw.filter fun e => (T.slots c).has e.1) k = some v :=
                Dict.get?_of_mem _ _ _ (sub _) (List.mem_filter.2 ⟨hk, hin⟩)
              have keep : ∀ v', Look h2 i1 k v' ↔ Look h1 i1 k v' := by
                refine law.keep k fun x hx => ?_
                have hx' := List.mem_filter.1 hx
                refine ⟨?_, ?_⟩
                · rintro rfl
                  rw [hin] at hx'
                  simp at hx'
                · intro r hr
                  have hp := hhas k hin
                  rw [hr] at hp
                  exact partition_join_ne _ _ (congrArg Prod.snd hp)
              obtain ⟨sl, hsl⟩ := (Dict.has_iff _ _).1 hin
              obtain ⟨v', hv', st⟩ := hat k sl hsl
              rw [hg, Option.getD_some] at st
              have lk1 : Look h1 i1 k v' := .here (hhas k hin) hi1 hv'
              have lk := (getP k v').2 ((keep v').2 lk1)
              refine ⟨(Dict.has_iff _ _).2 ⟨v', lk⟩, ?_, ?_⟩
              · intro hne
                rw [lk]
                cases v with
                | none => exact absurd rfl hne
                | atom a => exact congrArg some st
                | ref j => exact congrArg some st
              · intro sl' hsl'
                rw [hsl] at hsl'
                cases hsl'
                refine ⟨v', lk, ?_⟩
                rw [kinds k v' lk1]
                have hst : static T depth c (kw.filter fun e => (T.slots c).has e.1) k = some (settle sl v) := by
                  cases depth with
                  | zero => omega
                  | succ depth =>
                    rw [static, hhas k hin]
                    simp only [hsl, hg, Option.getD_some]
                obtain ⟨v2, lv2, kv2⟩ := (newObj_static hT hown hn k _).2 hst
                rw [lk1.det lv2]
                exact kv2
            · obtain ⟨sl, v', a1, a2, a3⟩ := law.set k v (List.mem_filter.2 ⟨hk, by simpa using hin⟩)
              refine ⟨(Dict.has_iff _ _).2 ⟨v', (getP k v').2 a2⟩, ?_, ?_⟩
              · intro hne
                rw [(getP k v').2 a2]
                cases v with
                | none => exact absurd rfl hne
                | atom a => exact congrArg some a3
                | ref j => exact congrArg some a3
              · intro sl' hsl'
                exact absurd ((Dict.has_iff _ _).2 ⟨sl', hsl'⟩) hin
          · intro k hk x
            have e1 : (∃ v, P.get? k = some v ∧ kindOf h2 v = some x) ↔ Shows h2 i1 k x := by
              unfold Shows
              simp only [getP]
            rw [e1]
            have e2 : Shows h2 i1 k x ↔ Shows h1 i1 k x := by
              have keep := law.keep k fun y hy => hk y (List.mem_of_mem_filter hy)
              constructor
              · rintro ⟨v, lv, kv⟩
                have lv' := (keep v).1 lv
                exact ⟨v, lv', by rw [← kinds k v lv']; exact kv⟩
              · rintro ⟨v, lv, kv⟩
                exact ⟨v, (keep v).2 lv, by rw [kinds k v lv]; exact kv⟩
            rw [e2, newObj_static hT hown hn]
            have hnone : Dict.get? (kw.filter fun e => (T.slots c).has e.1) (partition k).1 = Option.none := by
              cases hg : Dict.get? (kw.filter fun e => (T.slots c).has e.1) (partition k).1 with
              | none => rfl
              | some v =>
                exfalso
                have hm := List.mem_of_mem_filter (Dict.get?_some_mem _ _ _ hg)
                obtain ⟨n1, n2⟩ := hk _ hm
                cases hp : (partition k).2 with
                | none => exact n1 (of_partition_none (by rw [← hp]))
                | some r => exact n2 r (of_partition_some (by rw [← hp]))
            cases depth with
            | zero => rfl
            | succ depth =>
              rw [static, static, hnone]
              rfl

/-- **C100** (defaults): parameters of a model made without arguments do not depend on when it is made, in
particular not on what was done to the parts of earlier models; a model shares no object with what was there
before. -/
theorem C100_defaults {T : Table A C} (hT : T.Good) {depth : Nat} (c : C) {h1 h1' h2 h2' : Heap A C} {i1 i2 : Nat}
    (e1 : newObj T depth c [] h1 = some (h1', i1)) (e2 : newObj T depth c [] h2 = some (h2', i2)) :
    Alike h1' i1 h2' i2 ∧ ∃ f, Own h2' [.ref i2] f ∧ ∀ x ∈ f, h2.length ≤ x := by
  refine ⟨fun k x => ?_, (newObj_spec hT (by simp [Plain]) e2).1.2.2⟩
  exact (newObj_static hT (by simp [Plain]) e1 k x).trans (newObj_static hT (by simp [Plain]) e2 k x).symm

/-- **C100** (`clone`): the clone of a model is of the same class, with the same parameters and parts of the same
classes with the same parameters; it shares no object with what was there before, which does not change. -/
theorem C100_clone {T : Table A C} (hT : T.Good) {depth fuel : Nat} (hd : 0 < depth) {s : Prog A C}
    (r : Reach T depth s) {m i : Nat} (hm : s.models[m]? = some i) {h' : Heap A C} {i' : Nat}
    (e : clone T depth fuel i s.heap = some (h', i')) :
    (h'[i']?).map Obj.cls = (s.heap[i]?).map Obj.cls ∧ Alike s.heap i h' i' ∧
      (∀ x, x < s.heap.length → h'[x]? = s.heap[x]?) ∧ ∃ f, Own h' [.ref i'] f ∧ ∀ x ∈ f, s.heap.length ≤ x := by
  have inv := r.inv hT hd
  obtain ⟨f, of⟩ := Inv.model inv hm
  obtain ⟨dp, rfl⟩ : ∃ dp, depth = dp + 1 := ⟨depth - 1, by omega⟩
  obtain ⟨⟨⟨ext, rfl⟩, _, fr⟩, cl, al⟩ := clone_spec hT inv.1 of e
  exact ⟨cl, al, fun x hx => getElem?_ext _ hx, fr⟩

/-- **C100** (no endless recursion): if defaults of defaults end, then all calls and `get_params` end. -/
theorem C100_ends {T : Table A C} (hT : T.Good) {rk : C → Nat} (hr : Ranked T rk) {depth : Nat}
    (hd : ∀ c, rk c < depth) {s : Prog A C} (r : Reach T depth s) (hd0 : 0 < depth) (c : Call A C) (hc : c.Plain) :
    ∃ N, ∀ fuel, N ≤ fuel → ∃ s', c.run T depth fuel s = some s' ∧
      ∀ (m i : Nat), s'.models[m]? = some i → ∃ M, ∀ n, M ≤ n → ∃ P, getParams n s'.heap i = some P := by
  have inv := r.inv hT hd0
  have get : ∀ (s' : Prog A C) fuel, c.run T depth fuel s = some s' → ∀ (m i : Nat), s'.models[m]? = some i →
      ∃ M, ∀ n, M ≤ n → ∃ P, getParams n s'.heap i = some P := by
    intro s' fuel e m i hm
    obtain ⟨f, of⟩ := Inv.model (inv.step hT hc hd0 e) hm
    exact ⟨f.length, fun n hn => getParams_total of hn⟩
  have bound : ∀ kw : Dict (Val A), ∃ N, ∀ e ∈ kw, e.1.toList.length < N := by
    intro kw
    induction kw with
    | nil => exact ⟨0, by simp⟩
    | cons e kw ih =>
      obtain ⟨N, hN⟩ := ih
      refine ⟨max N (e.1.toList.length + 1), ?_⟩
      intro x hx
      rcases List.mem_cons.1 hx with rfl | hx
      · omega
      · have := hN x hx; omega
  suffices H : ∃ N, ∀ fuel, N ≤ fuel → ∃ s', c.run T depth fuel s = some s' by
    obtain ⟨N, hN⟩ := H
    refine ⟨N, fun fuel hf => ?_⟩
    obtain ⟨s', hs'⟩ := hN fuel hf
    exact ⟨s', hs', get s' fuel hs'⟩
  cases c with
  | new c kw =>
    obtain ⟨N, hN⟩ := bound kw
    refine ⟨N + 1, fun fuel hf => ?_⟩
    have hown : Plain (kw.filter fun e => (T.slots c).has e.1) := fun x hx => hc.2 x (List.mem_of_mem_filter hx)
    have hrest : Plain (kw.filter fun e => !(T.slots c).has e.1) := fun x hx => hc.2 x (List.mem_of_mem_filter hx)
    have hro : Dict.Ok (kw.filter fun e => !(T.slots c).has e.1) := by
      have := hc.1
      unfold Dict.Ok at *
      exact this.sublist (List.Sublist.map _ List.filter_sublist)
    suffices H : ∃ q, construct T depth fuel c kw s.heap = some q by
      obtain ⟨⟨h1, r1⟩, hq⟩ := H
      rw [Call.run]
      simp only [hq]
      cases r1 with
      | error err => exact ⟨_, rfl⟩
      | ok i => exact ⟨_, rfl⟩
    unfold construct
    simp only
    split
    · exact ⟨_, rfl⟩
    · obtain ⟨⟨h1, i⟩, hn⟩ := newObj_total hr (hd c) (kw.filter fun e => (T.slots c).has e.1) s.heap
      obtain ⟨⟨_, w1, f, o, l⟩, _⟩ := newObj_spec hT hown hn
      obtain ⟨⟨h2, r2⟩, hs⟩ := setParams_total hT hr hd hro hrest (fuel := fuel)
        (fun x hx => by have := hN x (List.mem_of_mem_filter hx); omega) (by omega) (w1 inv.1) o
      simp only [hn, hs]
      cases r2 with
      | error err => exact ⟨_, rfl⟩
      | ok u => exact ⟨_, rfl⟩
  | set m kw =>
    obtain ⟨N, hN⟩ := bound kw
    refine ⟨N + 1, fun fuel hf => ?_⟩
    rw [Call.run]
    cases hm : s.models[m]? with
    | none => exact ⟨_, rfl⟩
    | some i =>
      obtain ⟨f, of⟩ := Inv.model inv hm
      obtain ⟨⟨h2, r2⟩, hs⟩ := setParams_total hT hr hd hc.1 hc.2 (fuel := fuel)
        (fun x hx => by have := hN x hx; omega) (by omega) inv.1 of
      simp only [hs]
      exact ⟨_, rfl⟩
  | clone m =>
    cases hm : s.models[m]? with
    | none =>
      refine ⟨0, fun fuel _ => ?_⟩
      rw [Call.run, hm]
      exact ⟨_, rfl⟩
    | some i =>
      obtain ⟨f, of⟩ := Inv.model inv hm
      refine ⟨f.length, fun fuel hf => ?_⟩
      obtain ⟨dp, rfl⟩ : ∃ dp, depth = dp + 1 := ⟨depth - 1, by omega⟩
      obtain ⟨⟨h1, j⟩, hc⟩ := clone_total hT (depth := dp) inv.1 of hf
      rw [Call.run, hm]
      simp only [hc]
      exact ⟨_, rfl⟩

/-! ## The classes of the package -/

/-- Default arguments are no estimators; the names of the parameters of `LinearRegression` are names. -/
structure Defaults.Ok (d : Defaults A) : Prop where
  arg : ∀ c n j, d.arg c n ≠ .ref j
  linear : d.linear.Ok
  names : ∀ e ∈ d.linear, Good e.1
  values : ∀ e ∈ d.linear, ∀ j, e.2 ≠ .ref j

/-- How deep the defaults of a class go. -/
def rank : Cls → Nat
  | .sample => 2
  | .sampleBeatsDROP => 2
  | .modalModel => 1
  | .sinusoidalModel => 1
  | .decisor => 1
  | .hinge => 1
  | _ => 0

/-- Whether a parameter has a default property, and if that makes an estimator, of which class. -/
inductive Auto (C : Type) where
  | plain
  | value
  | part (c : C)
  deriving DecidableEq

/-- The default property of a parameter. -/
def autoOf (s : Slot A C) : Auto C :=
  match s.auto with
  | some (.make c) => .part c
  | some (.value _) => .value
  | Option.none => .plain

/-- Names of parameters and their defaults. -/
def parts : Cls → List (String × Auto Cls)
  | .sample => [("freq_reduce", .plain), ("max_n_modes", .plain), ("regressor", .part .hinge), ("regressor_k", .plain),
      ("regressor_q", .plain), ("sinusoidal", .part .modalModel)]
  | .sampleBeatsDROP => [("beat_decisor", .part .decisor), ("beatsdrop", .part .dualBeat), ("freq_reduce", .plain),
      ("max_n_modes", .plain), ("regressor", .part .hinge), ("regressor_k", .plain), ("regressor_q", .plain),
      ("sinusoidal", .part .modalModel)]
  | .modalModel => [("intermediate", .part .storage), ("n", .plain), ("padded", .plain), ("t", .plain),
      ("tracker", .part .modalTracker), ("w", .value)]
  | .sinusoidalModel => [("intermediate", .part .storage), ("n", .plain), ("padded", .plain), ("t", .plain),
      ("tracker", .part .sineTracker), ("w", .value)]
  | .modalTracker => [("freq_dev_offset", .plain), ("freq_dev_slope", .plain), ("frequency_bounds", .plain), ("fs", .plain),
      ("h", .plain), ("max_n_sines", .plain), ("merge_strategy", .plain), ("min_sine_dur", .plain), ("peak_threshold", .plain),
      ("reverse", .plain), ("strip_t", .plain)]
  | .sineTracker => [("freq_dev_offset", .plain), ("freq_dev_slope", .plain), ("fs", .plain), ("h", .plain),
      ("max_n_sines", .plain), ("min_sine_dur", .plain)]
  | .storage => [("save", .plain)]
  | .hinge => [("bounds", .value), ("coeffs_init", .value), ("linear_regressor", .part .linear),
      ("linear_regressor_k", .plain), ("linear_regressor_q", .plain), ("method", .plain)]
  | .linear => []
  | .beat => [("bounds", .value), ("fs", .plain), ("linear_regressor", .plain), ("linear_regressor_k", .plain),
      ("linear_regressor_q", .plain), ("lpf", .plain), ("params_init", .value)]
  | .dualBeat => [("amp_loss", .value), ("bounds", .value), ("disambiguate", .plain), ("freq_clip", .plain),
      ("freq_loss", .value), ("freq_w", .plain), ("fs", .plain), ("linear_regressor", .plain), ("linear_regressor_k", .plain),
      ("linear_regressor_q", .plain), ("lpf", .plain), ("params_init", .value)]
  | .decisor => [("intermediate", .part .storage), ("th", .plain)]

theorem slots_parts (d : Defaults A) (c : Cls) (hc : c ≠ .linear) :
    (slots d c).map (fun e => (e.1, autoOf e.2)) = parts c := by
  cases c with
  | linear => exact absurd rfl hc
  | _ => rfl

theorem parts_good : ∀ c ∈ [Cls.sample, .sampleBeatsDROP, .modalModel, .sinusoidalModel, .modalTracker, .sineTracker,
    .storage, .hinge, .linear, .dualBeat, .beat, .decisor], ((parts c).map Prod.fst).Nodup ∧
    ∀ e ∈ parts c, Good e.1 ∧ ∀ c', e.2 = .part c' → rank c' < rank c := by
  have h : ∀ c ∈ [Cls.sample, .sampleBeatsDROP, .modalModel, .sinusoidalModel, .modalTracker, .sineTracker,
      .storage, .hinge, .linear, .dualBeat, .beat, .decisor], ((parts c).map Prod.fst).Nodup ∧
      ∀ e ∈ parts c, Good e.1 ∧ (match e.2 with | .part c' => decide (rank c' < rank c) | _ => true) = true := by decide +kernel
  intro c hc
  refine ⟨(h c hc).1, fun e he => ⟨((h c hc).2 e he).1, ?_⟩⟩
  rintro c' hc'
  have := ((h c hc).2 e he).2
  rw [hc'] at this
  simpa using this

/-- **C100** (tables): the classes of the package meet the hypotheses of the other theorems. -/
theorem C100_package (d : Defaults A) (hd : d.Ok) : (package d).Good ∧ Ranked (package d) rank ∧ ∀ c, rank c < 3 := by
  have hg : ∀ c, ((parts c).map Prod.fst).Nodup ∧ ∀ e ∈ parts c, Good e.1 ∧ ∀ c', e.2 = .part c' → rank c' < rank c :=
    fun c => parts_good c (by cases c <;> simp)
  have hm : ∀ c n s, c ≠ .linear → (n, s) ∈ slots d c → (n, autoOf s) ∈ parts c := by
    intro c n s hc hm
    rw [← slots_parts d c hc]
    exact List.mem_map.2 ⟨(n, s), hm, rfl⟩
  refine ⟨⟨?_, ?_, ?_⟩, ⟨?_⟩, ?_⟩
  · intro c
    by_cases hc : c = .linear
    · subst hc
      have := hd.linear
      simp only [package, slots]
      unfold Dict.Ok at *
      simpa [List.map_map, Function.comp_def] using this
    · have := (hg c).1
      rw [← slots_parts d c hc] at this
      simp only [package]
      unfold Dict.Ok
      simpa [List.map_map, Function.comp_def] using this
  · intro c n s hs
    by_cases hc : c = .linear
    · subst hc
      simp only [package, slots, List.mem_map] at hs
      obtain ⟨e, he, h2⟩ := hs
      rw [← (Prod.mk.inj h2).1]
      exact hd.names e he
    · exact ((hg c).2 _ (hm c n s hc hs)).1
  · have : ∀ c, ∀ e ∈ slots d c, ∀ j, e.2.init ≠ .ref j := by
      intro c
      cases c with
      | linear =>
        intro e he j
        simp only [slots, List.mem_map] at he
        obtain ⟨x, hx, rfl⟩ := he
        exact hd.values x hx j
      | _ => simp [slots, Defaults.plain, Defaults.value, made, hd.arg]
    intro c n s hs
    exact this c _ hs
  · intro c n s c' hs ha
    by_cases hc : c = .linear
    · subst hc
      simp only [package, slots, List.mem_map] at hs
      obtain ⟨e, he, h2⟩ := hs
      rw [← (Prod.mk.inj h2).2] at ha
      simp at ha
    · exact ((hg c).2 _ (hm c n s hc hs)).2 c' (by simp [autoOf, ha])
  · intro c; cases c <;> simp [rank]

/-! ## A program -/

/-- Defaults for the examples: arguments are `0`, default properties `1`. -/
def exD : Defaults Nat := ⟨fun _ _ => .atom 0, fun _ _ => 1, [("fit_intercept", .atom 1)]⟩

theorem exD_ok : exD.Ok :=
  ⟨by intro c n j; simp [exD], by unfold Dict.Ok; decide +kernel,
    by intro e he; simp only [exD, List.mem_singleton] at he; subst he; show Good "fit_intercept"; decide +kernel,
    by intro e he j; simp only [exD, List.mem_singleton] at he; subst he; simp⟩

/-- The calls: two models, a change deep in the first one (and one that raises), and a clone of the first one. -/
def exCalls : List (Call Nat Cls) :=
  [.new .sample [], .new .sampleBeatsDROP [("sinusoidal__n", .atom 7), ("max_n_modes", .atom 4)],
   .set 0 [("sinusoidal__tracker__h", .atom 5), ("regressor__bounds", .none)],
   .set 0 [("sinusoidal__tracker__strategy", .atom 5)], .clone 0]

/-- The state after calls. -/
def runCalls (T : Table Nat Cls) (depth fuel : Nat) : List (Call Nat Cls) → Prog Nat Cls → Option (Prog Nat Cls)
  | [], s => some s
  | c :: cs, s =>
    match c.run T depth fuel s with
    | Option.none => Option.none
    | some s => runCalls T depth fuel cs s

theorem runCalls_reach {T : Table Nat Cls} {depth fuel : Nat} (cs : List (Call Nat Cls)) (hcs : ∀ c ∈ cs, c.Plain)
    {s s' : Prog Nat Cls} (r : Reach T depth s) (e : runCalls T depth fuel cs s = some s') : Reach T depth s' := by
  induction cs generalizing s with
  | nil => simp only [runCalls, Option.some.injEq] at e; exact e ▸ r
  | cons c cs ih =>
    rw [runCalls] at e
    cases hr : c.run T depth fuel s with
    | none => rw [hr] at e; simp at e
    | some s1 =>
      simp only [hr] at e
      exact ih (fun x hx => hcs x (by simp [hx])) (.step r (hcs c (by simp)) hr) e

/-- The example is a program: the hypotheses of C100_independent, C100_set, C100_new, C100_clone are met. -/
theorem exCalls_reach {s : Prog Nat Cls} (e : runCalls (package exD) 3 9 exCalls {} = some s) :
    (package exD).Good ∧ Reach (package exD) 3 s := by
  refine ⟨(C100_package exD exD_ok).1, runCalls_reach _ ?_ .start e⟩
  intro c hc
  simp only [exCalls, List.mem_cons, List.not_mem_nil, or_false] at hc
  rcases hc with rfl | rfl | rfl | rfl | rfl <;>
    simp only [Call.Plain, Est.Plain, List.mem_cons, List.not_mem_nil, or_false, forall_eq_or_imp, forall_eq] <;>
    first
      | trivial
      | refine ⟨by unfold Dict.Ok; decide +kernel, by simp⟩

/-- It ends with three models; the first and the third have the change, the second has its arguments, and all have
the default where nothing was given. -/
example : (runCalls (package exD) 3 9 exCalls {}).map (fun s => (s.models.map fun i =>
      ((getParams 9 s.heap i).getD []).get? "sinusoidal__tracker__h",
      s.models.map fun i => ((getParams 9 s.heap i).getD []).get? "sinusoidal__n",
      s.models.map fun i => ((getParams 9 s.heap i).getD []).get? "regressor__bounds")) =
    some ([some (.atom 5), some (.atom 0), some (.atom 5)], [some (.atom 0), some (.atom 7), some (.atom 0)],
      [some (.atom 1), some (.atom 1), some (.atom 1)]) := by
  decide +kernel

/-- What a call gives, and a parameter of a model after it. -/
def after (cs : List (Call Nat Cls)) (m : Nat) (kw : Dict (Val Nat)) (k : String) :
    Option (Option PyErr × Option (Val Nat)) :=
  match runCalls (package exD) 3 9 cs {} with
  | Option.none => Option.none
  | some s =>
    match s.models[m]? with
    | Option.none => Option.none
    | some i =>
      match setParams (package exD) 3 9 i kw s.heap with
      | Option.none => Option.none
      | some (h, r) =>
        some (match r with | .ok _ => Option.none | .error e => some e, ((getParams 9 h i).getD []).get? k)

/-- `set_params` is not all or nothing: with an argument that is no parameter it raises, and arguments before it have
been stored. -/
theorem set_params_partly : after [.new .sample []] 0 [("max_n_modes", .atom 3), ("nonsense", .atom 1)] "max_n_modes" =
    some (some .valueError, some (.atom 3)) := by
  decide +kernel

/-- In the other order nothing is stored. -/
example : after [.new .sample []] 0 [("nonsense", .atom 1), ("max_n_modes", .atom 3)] "max_n_modes" =
    some (some .valueError, some (.atom 0)) := by
  decide +kernel

/-- `None` for a part restores the default, but not together with a parameter of that part: `AttributeError`, and
the part has been replaced. -/
theorem set_params_none_nested :
    after [.new .sample [("sinusoidal__n", .atom 7)]] 0 [("sinusoidal", .none)] "sinusoidal__n" =
        some (Option.none, some (.atom 0)) ∧
      after [.new .sample [("sinusoidal__n", .atom 7)]] 0 [("sinusoidal", .none), ("sinusoidal__t", .atom 2)] "sinusoidal__n" =
        some (some .attributeError, some (.atom 0)) := by
  decide +kernel

/-- The constructor takes the same arguments. -/
example : (runCalls (package exD) 3 9 [.new .sample [("sinusoidal", .none), ("sinusoidal__t", .atom 2)]] {}).map
    (fun s => s.models.map fun i => ((getParams 9 s.heap i).getD []).get? "sinusoidal__t") = some [some (.atom 2)] := by
  decide +kernel

/-- With estimators as arguments, models are not independent: two models with the same part; the second
constructor changes the parameters of the first model.  (Hence `Call.Plain`.) -/
theorem shared_part : (runCalls (package exD) 3 9
      [.new .modalModel [], .new .sample [("sinusoidal", .ref 2)],
       .new .sample [("sinusoidal", .ref 2), ("sinusoidal__n", .atom 7)]] {}).map
    (fun s => s.models.map fun i => ((getParams 9 s.heap i).getD []).get? "sinusoidal__n") =
    some [Option.none, some (.atom 7), some (.atom 7)] := by
  decide +kernel

end Verif.Est
