import Verif.Out.TypesModel

/-!
# Specification of number types
-/

set_option autoImplicit false

namespace Verif.Out

/-- The contents of an array are values of its type (any contents in a floating-point array). -/
def TArr.Ok (x : TArr) : Prop :=
  match x.ty with
  | .float => True
  | t => ∀ c ∈ x.data, ∃ z : ℤ, c = some (z : ℝ) ∧ t.Has z

/-- What versions of NumPy have in common in the type of an operation with an array and a Python
integer: floating-point arrays stay so; boolean arrays become integers of 32 or 64 bits; beside an
integer array an integer that is a value of its type gives a type with all its values. -/
structure WeakRule.Lawful (W : WeakRule) : Prop where
  float : ∀ z, W .float z = .ok .float
  bool : ∀ z, W .bool z = .ok (.int .w32) ∨ W .bool z = .ok (.int .w64)
  int : ∀ (t : NumTy) (z : ℤ), t ≠ .bool → t ≠ .float → t.Has z →
    ∃ u, W t z = .ok u ∧ u ≠ .bool ∧ ∀ y, t.Has y → u.Has y

/-- The three ways to get a floating-point result: no `out` and no `dtype`, `dtype=float`, or a
floating-point array as `out`. -/
def floatOut (user out : Option NumTy) : Prop :=
  (user = none ∧ out = none) ∨ (user = some .float ∧ out = none) ∨ (user = none ∧ out = some .float)

/-- A function of `n` arrays, decorated with `numpy_out(dtype=float)`, gives for arrays of all number
types the values `f` of the numbers in them, as floating-point numbers, provided the arrays are as
in `P`. -/
def Exact (p : Prog Cell) (ls : List Loop) (n : Nat) (P : List TArr → Prop)
    (f : List (List Cell) → Except PyErr (List Cell)) : Prop :=
  ∀ xs : List TArr, xs.length = n → (∀ x ∈ xs, x.Ok) → P xs → ∀ user out, floatOut user out →
    tcall p ls (some .float) true xs [] user out = (f (xs.map TArr.data)).map (TArr.mk .float)

/-- The integers in the first array, if it is no floating-point array, and the type. -/
def Ints (x : TArr) (P : NumTy → ℤ → Prop) : Prop :=
  x.ty ≠ .float → ∀ z : ℤ, some (z : ℝ) ∈ x.data → P x.ty z

end Verif.Out
