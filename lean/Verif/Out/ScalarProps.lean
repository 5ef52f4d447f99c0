import Verif.Out.TypesModel

/-!
# The type of a Python integer in NumPy 1 (C136)
-/

set_option autoImplicit false
set_option linter.unusedSimpArgs false

namespace Verif.Out

/-- C136: the smallest type of an integer holds it, is unsigned iff the integer is not negative, and
no narrower type of that kind holds it. -/
theorem C136_smallest (z : ℤ) (h1 : -2 ^ 63 ≤ z) (h2 : z < 2 ^ 64) :
    (minScalarType z).Has z ∧
      (0 ≤ z → ∃ w, minScalarType z = .uint w ∧
        ∀ v : Width, v.bits < w.bits → ¬(NumTy.uint v).Has z) ∧
      (z < 0 → ∃ w, minScalarType z = .int w ∧
        ∀ v : Width, v.bits < w.bits → ¬(NumTy.int v).Has z) := by
  unfold minScalarType
  refine ⟨?_, ?_, ?_⟩
  · split_ifs <;> simp only [NumTy.Has, Width.bits] <;> omega
  · intro h0
    rw [if_pos h0]
    split_ifs <;> refine ⟨_, rfl, ?_⟩ <;> intro v hv <;> cases v <;>
      simp only [NumTy.Has, Width.bits] at hv ⊢ <;> omega
  · intro h0
    rw [if_neg (by omega)]
    split_ifs <;> refine ⟨_, rfl, ?_⟩ <;> intro v hv <;> cases v <;>
      simp only [NumTy.Has, Width.bits] at hv ⊢ <;> omega

/-- C136: with the rule of NumPy 1, a Python integer (of at most 64 bits) and a number of the type of
the array both fit the common type. -/
theorem C136_legacy (t t' : NumTy) (z y : ℤ) (h1 : -2 ^ 63 ≤ z) (h2 : z < 2 ^ 64)
    (h : legacy t z = .ok t') (hb : t = .bool → z < 2 ^ 63) (hy : t.Has y) : t'.Has z ∧ t'.Has y := by
  have key := (C136_smallest z h1 h2).1
  cases t with
  | float => 
    cases h
    exact ⟨trivial, trivial⟩
  | bool =>
    cases h
    have := hb rfl
    simp only [NumTy.Has, Width.bits] at hy ⊢
    omega
  | int w =>
    simp only [legacy, Except.ok.injEq] at h
    subst h
    revert key
    generalize minScalarType z = m
    intro key
    cases m with
    | bool => cases w <;> simp_all [promote, NumTy.Has, Width.bits] <;> omega
    | float => cases w <;> simp_all [promote, NumTy.Has, Width.bits]
    | int v => cases w <;> cases v <;> simp_all [promote, NumTy.Has, Width.bits, Width.max] <;> omega
    | uint v =>
      simp only
      split_ifs with hc <;> cases w <;> cases v <;>
        simp_all [promote, promoteMixed, NumTy.Has, Width.bits, Width.max] <;> omega
  | uint w =>
    simp only [legacy, Except.ok.injEq] at h
    subst h
    revert key
    generalize minScalarType z = m
    intro key
    cases m with
    | bool => cases w <;> simp_all [promote, NumTy.Has, Width.bits] <;> omega
    | float => cases w <;> simp_all [promote, NumTy.Has, Width.bits]
    | int v =>
      cases w <;> cases v <;>
        simp_all [promote, promoteMixed, NumTy.Has, Width.bits, Width.max] <;> omega
    | uint v =>
      cases w <;> cases v <;>
        simp_all [promote, promoteMixed, NumTy.Has, Width.bits, Width.max] <;> omega

/-- The integer 300 beside 8-bit integers gives 16 bits, 200 beside unsigned ones 8 bits. -/
example : (legacy (.int .w8) 300).toOption = some (.int .w16) ∧
    (legacy (.uint .w8) 200).toOption = some (.uint .w8) ∧
    (legacy (.uint .w32) (-1)).toOption = some (.int .w64) ∧
    minScalarType (2 ^ 32) = .uint .w64 := by
  decide +kernel

end Verif.Out
