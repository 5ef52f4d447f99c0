import Mathlib.Tactic.Linarith
import Mathlib.Tactic.NormNum
import Mathlib.Data.Int.Basic
import Mathlib.Algebra.Order.Floor.Ring
import Verif.Out.TypesSpec
import Verif.Out.Props

/-!
# Lemmas about number types
-/

set_option autoImplicit false
set_option linter.unusedSectionVars false
set_option linter.unusedSimpArgs false

namespace Verif.Out

/-! ## Casts -/

theorem cast_float (c : Cell) : castCell .float c = c := rfl

theorem cast_has {t : NumTy} {z : ℤ} (h : t.Has z) : castCell t (some (z : ℝ)) = some (z : ℝ) := by
  cases t with
  | float => rfl
  | bool =>
    rcases h with rfl | rfl <;> simp [castCell]
  | int w =>
    simp only [castCell, Option.map_some, Int.floor_intCast, Option.some.injEq, Int.cast_inj]
    obtain ⟨h1, h2⟩ := h
    cases w <;> simp only [Width.bits, Int.bmod_def] at * <;> norm_num at * <;> split_ifs <;> omega
  | uint w =>
    simp only [castCell, Option.map_some, Int.floor_intCast, Option.some.injEq, Int.cast_inj]
    obtain ⟨h1, h2⟩ := h
    exact Int.emod_eq_of_lt h1 h2

theorem sameKind_float (t : NumTy) : sameKind t .float = true := by cases t <;> rfl

theorem promote_float (t : NumTy) : promote t .float = .float := by cases t <;> rfl

theorem max_has_left (a b : Width) (z : ℤ) (h : (NumTy.int a).Has z) :
    (NumTy.int (a.max b)).Has z := by
  cases a <;> cases b <;> simp only [Width.max, NumTy.Has, Width.bits] at * <;> norm_num at * <;> omega

theorem max_comm (a b : Width) : a.max b = b.max a := by cases a <;> cases b <;> rfl

theorem max_uhas_left (a b : Width) (z : ℤ) (h : (NumTy.uint a).Has z) :
    (NumTy.uint (a.max b)).Has z := by
  cases a <;> cases b <;> simp only [Width.max, NumTy.Has, Width.bits] at * <;> norm_num at * <;> omega

theorem mixed_has_left (a b : Width) (z : ℤ) (h : (NumTy.int a).Has z) :
    (promoteMixed a b).Has z := by
  cases a <;> cases b <;> simp only [promoteMixed, NumTy.Has, Width.bits] at * <;> norm_num at * <;> omega

theorem mixed_has_right (a b : Width) (z : ℤ) (h : (NumTy.uint b).Has z) :
    (promoteMixed a b).Has z := by
  cases a <;> cases b <;> simp only [promoteMixed, NumTy.Has, Width.bits] at * <;> norm_num at * <;> omega

theorem bool_has (t : NumTy) (z : ℤ) (h : NumTy.bool.Has z) : t.Has z := by
  rcases h with rfl | rfl <;> cases t <;> try cases ‹Width›
  all_goals simp [NumTy.Has, Width.bits]

/-- A common type has the values of both types. -/
theorem promote_has_left (a b : NumTy) (z : ℤ) (h : a.Has z) : (promote a b).Has z := by
  cases a <;> cases b <;> simp only [promote] <;>
    first
      | exact trivial
      | exact h
      | exact bool_has _ _ h
      | exact max_has_left _ _ _ h
      | exact max_uhas_left _ _ _ h
      | exact mixed_has_left _ _ _ h
      | exact mixed_has_right _ _ _ h

theorem promote_has_right (a b : NumTy) (z : ℤ) (h : b.Has z) : (promote a b).Has z := by
  cases a <;> cases b <;> simp only [promote] <;>
    first
      | exact trivial
      | exact h
      | exact bool_has _ _ h
      | (rw [max_comm]; exact max_has_left _ _ _ h)
      | (rw [max_comm]; exact max_uhas_left _ _ _ h)
      | exact mixed_has_left _ _ _ h
      | exact mixed_has_right _ _ _ h

theorem join_float {ts : List NumTy} (h : .float ∈ ts) (hl : ts.length = 2) :
    join ts = .ok .float := by
  obtain ⟨a, b, rfl⟩ := List.length_eq_two.1 hl
  simp only [List.mem_cons, List.not_mem_nil, or_false] at h
  rcases h with rfl | rfl
  · simp [join, promote]
  · simp [join, promote_float]

/-! ## Type of `out` -/

theorem foldl_promote_float (l : List NumTy) : l.foldl promote .float = .float := by
  induction l with
  | nil => rfl
  | cons a l ih => simpa [promote] using ih

theorem foldl_promote_mem : ∀ (l : List NumTy) (t : NumTy), .float ∈ l →
    l.foldl promote t = .float
  | [], _, h => by simp at h
  | a :: l, t, h => by
    rw [List.foldl_cons]
    rcases List.mem_cons.1 h with rfl | h
    · rw [promote_float, foldl_promote_float]
    · exact foldl_promote_mem l _ h

theorem resultTypes_nums : ∀ ts : List NumTy, resultTypes (ts.map .num) = .ok ts
  | [] => rfl
  | t :: ts => by simp [resultTypes, resultOne, resultTypes_nums ts]

theorem resultType_nums (t : NumTy) (ts : List NumTy) :
    resultType ((t :: ts).map .num) = .ok (ts.foldl promote t) := by
  unfold resultType
  rw [resultTypes_nums]

theorem outType_float (xs : List TArr) {user out : Option NumTy} (h : floatOut user out) :
    outType (some .float) true ((xs.map fun x => .num x.ty) ++ ([] : List NumTy).map .num) user out =
      .ok .float := by
  rcases h with ⟨rfl, rfl⟩ | ⟨rfl, rfl⟩ | ⟨rfl, rfl⟩
  · have := resultType_nums .float (xs.map TArr.ty)
    rw [foldl_promote_float, List.map_cons, List.map_map] at this
    simpa [outType, defaultType, Function.comp_def] using this
  · rfl
  · rfl

/-! ## Steps without change of value -/

/-- Variables other than arguments. -/
def Var.inner : Var → Bool
  | .arg _ => false
  | _ => true

/-- A call that changes no value by computing in its type, for given arguments. -/
def StepOk (xs : List TArr) (s : Stmt Cell) (l : Loop) : Prop :=
  s.dst.inner = true ∧
  (l = fl ∨
   ((∀ v ∈ s.args, v.inner = true) ∧ ∃ t, l (s.args.map fun _ => .float) = .ok t ∧
      ∀ ys a, s.op ys = .ok a → ∀ c ∈ a, castCell t c = c) ∨
   ((∀ v ∈ s.args, v.inner = false) ∧ ∃ t,
      l (s.args.map fun v => (tinit xs .float .float v).ty) = .ok t ∧
      ∀ a, s.op (s.args.map fun v => (tinit xs .float .float v).data) = .ok a →
        ∀ c ∈ a, castCell t c = c) ∨
   ((∃ v ∈ s.args, v.inner = true) ∧
      ∀ ts : List NumTy, .float ∈ ts → ts.length = s.args.length → l ts = .ok .float))

theorem tsem_exact {xs : List TArr} : ∀ {p : Prog Cell} {ls : List Loop},
    List.Forall₂ (StepOk xs) p ls → ∀ (e : Var → TArr),
    (∀ v, v.inner = true → (e v).ty = .float) →
    (∀ v, v.inner = false → e v = tinit xs .float .float v) →
    match sem (fun v => (e v).data) p with
    | .error x => tsem e p ls = .error x
    | .ok d => ∃ e', tsem e p ls = .ok e' ∧ (∀ v, (e' v).data = d v) ∧
        ∀ v, v.inner = true → (e' v).ty = .float
  | _, _, .nil, e, he, _ => by
    simp only [sem, tsem]
    exact ⟨e, rfl, fun _ => rfl, he⟩
  | _, _, .cons (a := s) (b := l) (l₁ := p) (l₂ := ls) hs h, e, he, ha => by
    obtain ⟨hd, hs⟩ := hs
    simp only [sem, tsem, texec]
    cases hop : s.op (s.args.map fun v => (e v).data) with
    | error x => simp
    | ok a =>
      simp only
      have key : ∃ t, l (s.args.map fun v => (e v).ty) = .ok t ∧ ∀ c ∈ a, castCell t c = c := by
        rcases hs with rfl | ⟨h1, t, h2, h3⟩ | ⟨h1, t, h2, h3⟩ | ⟨⟨v, hv, hvi⟩, h2⟩
        · exact ⟨.float, rfl, fun _ _ => rfl⟩
        · refine ⟨t, ?_, h3 _ _ hop⟩
          rw [← h2]
          congr 1
          exact List.map_congr_left fun v hv => he v (h1 v hv)
        · refine ⟨t, ?_, ?_⟩
          · rw [← h2]
            congr 1
            exact List.map_congr_left fun v hv => by rw [ha v (h1 v hv)]
          · apply h3 a
            rw [← hop]
            congr 1
            exact List.map_congr_left fun v hv => by rw [ha v (h1 v hv)]
        · exact ⟨.float, h2 _ (List.mem_map.2 ⟨v, hv, he v hvi⟩) (by simp), fun _ _ => rfl⟩
      obtain ⟨t, ht, hc⟩ := key
      rw [ht]
      simp only [he _ hd, sameKind_float, if_true]
      have hm : (a.map fun c => castCell .float (castCell t c)) = a := by
        conv_rhs => rw [← List.map_id a]
        exact List.map_congr_left fun c hcm => by simp [cast_float, hc c hcm]
      rw [hm]
      have ih := tsem_exact h (fun v => if v = s.dst then ⟨.float, a⟩ else e v)
        (by intro v hv; by_cases hvs : v = s.dst <;> simp [hvs, he v hv])
        (by
          intro v hv
          have : v ≠ s.dst := by rintro rfl; rw [hd] at hv; simp at hv
          simp [this, ha v hv])
      have hfun : (fun v => (if v = s.dst then (⟨.float, a⟩ : TArr) else e v).data) =
          fun v => if v = s.dst then a else (e v).data := by
        funext v
        by_cases hvs : v = s.dst <;> simp [hvs]
      rw [hfun] at ih
      exact ih

/-- What a body computes without types. -/
theorem semOut_of_computes {p : Prog Cell} {nt n : Nat} {sh : List Nat}
    {f : List (List Cell) → Except PyErr (List Cell)} (hc : Computes p nt n sh f)
    (hok : ok sh [] p = true) (har : arity n p = true) (hout : Var.out ∈ p.map Stmt.dst)
    (hdst : ∀ v ∈ p.map Stmt.dst, v = .out ∨ ∃ i, i < nt ∧ v = .tmp i)
    (xs : List (List Cell)) (hx : xs.length = n) : semOut xs p = f xs := by
  rw [← ret_of_computes hc xs hx]
  exact ((computes_ret hok har hout hdst).2 xs hx).symm

theorem tbody_exact {p : Prog Cell} {ls : List Loop} {xs : List TArr}
    (h : List.Forall₂ (StepOk xs) p ls) :
    tbody p ls xs .float .float = (semOut (xs.map TArr.data) p).map (TArr.mk .float) := by
  have key := tsem_exact h (tinit xs .float .float)
    (by intro v hv; cases v <;> simp_all [Var.inner, tinit]) (fun _ _ => rfl)
  have hi : (fun v => (tinit xs .float .float v).data) = init (xs.map TArr.data) := by
    funext v
    cases v with
    | arg i => simp only [tinit, init, List.getD_eq_getElem?_getD, List.getElem?_map]
               cases xs[i]? <;> rfl
    | out => rfl
    | tmp i => rfl
  rw [hi] at key
  unfold tbody semOut
  cases hs : sem (init (xs.map TArr.data)) p with
  | error x =>
    rw [hs] at key
    simp only at key
    rw [key]
    rfl
  | ok d =>
    rw [hs] at key
    obtain ⟨e', h1, h2, h3⟩ := key
    rw [h1]
    simp only [Except.map, ← h2, ← h3 .out rfl]

/-- The general argument: types change no value if no call does. -/
theorem exact_of {p : Prog Cell} {ls : List Loop} {nt n : Nat} {sh : List Nat}
    {P : List TArr → Prop}
    {f : List (List Cell) → Except PyErr (List Cell)} (hc : Computes p nt n sh f)
    (hok : ok sh [] p = true) (har : arity n p = true) (hout : Var.out ∈ p.map Stmt.dst)
    (hdst : ∀ v ∈ p.map Stmt.dst, v = .out ∨ ∃ i, i < nt ∧ v = .tmp i)
    (h : ∀ xs : List TArr, xs.length = n → (∀ x ∈ xs, x.Ok) → P xs →
      List.Forall₂ (StepOk xs) p ls) : Exact p ls n P f := by
  intro xs hn hx hP user out ho
  unfold tcall
  rw [outType_float xs ho]
  simp only
  rw [tbody_exact (h xs hn hx hP), semOut_of_computes hc hok har hout hdst _ (by simpa using hn)]

/-! ## Rules -/

theorem nep50_lawful : WeakRule.Lawful nep50 := by
  refine ⟨fun _ => rfl, fun _ => .inr rfl, ?_⟩
  intro t z h1 h2 h3
  refine ⟨t, ?_, h1, fun _ h => h⟩
  cases t <;> simp_all [nep50]

theorem legacy_lawful : WeakRule.Lawful legacy := by
  refine ⟨fun _ => rfl, fun _ => .inr rfl, ?_⟩
  intro t z h1 h2 h3
  cases t with
  | bool => exact absurd rfl h1
  | float => exact absurd rfl h2
  | int w =>
    refine ⟨_, rfl, ?_, ?_⟩
    · unfold minScalarType
      split_ifs <;> simp only [promote] <;> try split_ifs
      all_goals first | (simp; done) | (cases w <;> simp [promoteMixed])
    · intro y hy
      unfold minScalarType
      split_ifs <;> simp only [promote] <;> try split_ifs
      all_goals
        first
          | exact max_has_left _ _ _ hy
          | exact mixed_has_left _ _ _ hy
  | uint w =>
    have h0 : 0 ≤ z := h3.1
    refine ⟨_, rfl, ?_, ?_⟩
    · unfold minScalarType
      rw [if_pos h0]
      split_ifs <;> simp [promote]
    · intro y hy
      unfold minScalarType
      rw [if_pos h0]
      split_ifs <;> exact max_uhas_left _ _ _ hy

end Verif.Out
