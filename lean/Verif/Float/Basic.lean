import Mathlib.Algebra.Order.Field.Basic
import Verif.Float.Ieee

/-!
# Consequences of the laws of `Arith`
-/

set_option autoImplicit false
set_option linter.unusedSectionVars false

namespace Verif.Float

variable {K : Type} [Field K] [LinearOrder K] [IsStrictOrderedRing K]

namespace Arith

variable (A : Arith K)

/-- A floating-point number. -/
def Rep (x : K) : Prop := A.rnd x = x

/-- `x + y`. -/
def add (x y : K) : K := A.rnd (x + y)

/-- `x - y`. -/
def sub (x y : K) : K := A.rnd (x - y)

/-- `x * y`. -/
def mul (x y : K) : K := A.rnd (x * y)

/-- `x / y`. -/
def div (x y : K) : K := A.rnd (x / y)

variable {A}

theorem rnd_rep (x : K) : A.Rep (A.rnd x) := A.idem x

theorem rnd_of {x : K} (h : A.Rep x) : A.rnd x = x := h

theorem rep_int (n : ℤ) (h : |(n : K)| * A.u ≤ 1) : A.Rep (n : K) := A.int n h

theorem rep_zero : A.Rep (0 : K) := by
  have := A.int 0 (by simp)
  simpa [Rep] using this

theorem rnd_zero : A.rnd 0 = 0 := rep_zero

theorem rep_one : A.Rep (1 : K) := by
  have := A.int 1 (by
    have := A.u_le
    simp
    linarith)
  simpa [Rep] using this

theorem rep_two : A.Rep (2 : K) := by
  have := A.double 1 rep_one
  rwa [mul_one] at this

theorem rep_neg {x : K} (h : A.Rep x) : A.Rep (-x) := by
  unfold Rep
  rw [A.odd, h]

theorem rep_abs {x : K} (h : A.Rep x) : A.Rep |x| := by
  rcases abs_choice x with e | e <;> rw [e]
  · exact h
  · exact rep_neg h

theorem rep_double {x : K} (h : A.Rep x) : A.Rep (2 * x) := A.double x h

theorem rnd_mono {x y : K} (h : x ≤ y) : A.rnd x ≤ A.rnd y := A.mono x y h

theorem rnd_le {x y : K} (h : x ≤ y) (hy : A.Rep y) : A.rnd x ≤ y := by
  have := A.mono x y h
  rwa [hy] at this

theorem le_rnd {x y : K} (h : x ≤ y) (hx : A.Rep x) : x ≤ A.rnd y := by
  have := A.mono x y h
  rwa [hx] at this

theorem rnd_nonneg {x : K} (h : 0 ≤ x) : 0 ≤ A.rnd x := le_rnd h rep_zero

theorem rnd_nonpos {x : K} (h : x ≤ 0) : A.rnd x ≤ 0 := rnd_le h rep_zero

theorem rnd_abs (x : K) : A.rnd |x| = |A.rnd x| := by
  rcases le_total 0 x with h | h
  · rw [abs_of_nonneg h, abs_of_nonneg (rnd_nonneg h)]
  · rw [abs_of_nonpos h, abs_of_nonpos (rnd_nonpos h), A.odd]

theorem rnd_abs_le {x y : K} (h : |x| ≤ y) (hy : A.Rep y) : |A.rnd x| ≤ y := by
  rw [← rnd_abs]
  exact rnd_le h hy

theorem rnd_sub_neg (x y : K) : A.rnd (x - y) = -A.rnd (y - x) := by
  rw [← A.odd]
  congr 1
  ring

theorem errSub {x y : K} (hx : A.Rep x) (hy : A.Rep y) : |A.rnd (x - y) - (x - y)| ≤ A.u * |x - y| := by
  have := A.errAdd x (-y) hx (rep_neg hy)
  rwa [← sub_eq_add_neg] at this

theorem u_nonneg : 0 ≤ A.u := A.u_pos.le

/-- A sum or difference of floating-point numbers is rounded to zero only if it is zero. -/
theorem rnd_add_eq_zero {x y : K} (hx : A.Rep x) (hy : A.Rep y) (h : A.rnd (x + y) = 0) : x + y = 0 := by
  have h1 := A.errAdd x y hx hy
  rw [h, zero_sub, abs_neg] at h1
  have h2 := A.u_le
  have h3 := abs_nonneg (x + y)
  have : |x + y| ≤ 0 := by nlinarith
  exact abs_eq_zero.1 (le_antisymm this h3)

theorem rnd_sub_eq_zero {x y : K} (hx : A.Rep x) (hy : A.Rep y) : A.rnd (x - y) = 0 ↔ x = y := by
  constructor
  · intro h
    have := rnd_add_eq_zero hx (rep_neg hy) (by rwa [← sub_eq_add_neg])
    linarith
  · rintro rfl
    rw [sub_self, rnd_zero]

theorem rnd_sub_pos {x y : K} (hx : A.Rep x) (hy : A.Rep y) : 0 < A.rnd (x - y) ↔ y < x := by
  constructor
  · intro h
    by_contra hc
    have : A.rnd (x - y) ≤ 0 := rnd_nonpos (by linarith)
    linarith
  · intro h
    refine lt_of_le_of_ne (rnd_nonneg (by linarith)) fun e => ?_
    have := (rnd_sub_eq_zero hx hy).1 e.symm
    linarith

end Arith

end Verif.Float
