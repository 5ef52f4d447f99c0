import Mathlib.Algebra.Order.Ring.Abs
import Mathlib.Analysis.SpecialFunctions.Sqrt
import Mathlib.Data.Rat.Floor
import Verif.Float.BeatModel

/-!
# Amplitude and frequency of a beat in floating point (C141)
-/

set_option autoImplicit false
set_option linter.unusedSectionVars false
set_option linter.unusedSimpArgs false

namespace Verif.Float

open Arith

variable {K : Type} [Field K] [LinearOrder K] [IsStrictOrderedRing K] (A : Arith K)

theorem sqF_nonneg (x : K) : 0 ≤ sqF A x := rnd_nonneg (mul_self_nonneg x)

theorem sqF_le_one {c : K} (hc : |c| ≤ 1) : sqF A c ≤ 1 := by
  apply rnd_le _ rep_one
  have := abs_le.1 hc
  nlinarith

/-- A value between two ends, with weights of floating-point numbers. -/
theorem mix_spec {a h m : K} (ra : A.Rep a) (rh : A.Rep h) (a0 : 0 ≤ a) (h0 : 0 ≤ h) (m0 : 0 ≤ m)
    (m1 : m ≤ 1) :
    (h ≤ a → h ≤ A.add (A.mul (A.sub a h) m) h ∧ A.add (A.mul (A.sub a h) m) h ≤ (1 + 3 * A.u) * a) ∧
    (a ≤ h → a - 2 * A.u * h ≤ A.add (A.mul (A.sub a h) m) h ∧
      A.add (A.mul (A.sub a h) m) h ≤ h) ∧ 0 ≤ A.add (A.mul (A.sub a h) m) h := by
  have u0 := A.u_pos
  have u8 := A.u_le
  have e1 := errSub ra rh (A := A)
  have hR : A.Rep (A.sub a h) := rnd_rep _
  refine ⟨?_, ?_, ?_⟩
  · intro hle
    have R0 : 0 ≤ A.sub a h := rnd_nonneg (by linarith)
    have S0 : 0 ≤ A.mul (A.sub a h) m := rnd_nonneg (mul_nonneg R0 m0)
    have S1 : A.mul (A.sub a h) m ≤ A.sub a h :=
      rnd_le (by have := mul_le_mul_of_nonneg_left m1 R0; linarith) hR
    refine ⟨le_rnd (by linarith) rh, ?_⟩
    have e2 := A.errAdd (A.sub a h) h hR rh
    have h1 : A.add (A.mul (A.sub a h) m) h ≤ A.add (A.sub a h) h := rnd_mono (by linarith)
    refine h1.trans ?_
    change |A.add (A.sub a h) h - (A.sub a h + h)| ≤ _ at e2
    change |A.sub a h - (a - h)| ≤ _ at e1
    rw [abs_of_nonneg (show 0 ≤ A.sub a h + h by linarith)] at e2
    rw [abs_of_nonneg (show 0 ≤ a - h by linarith)] at e1
    have q1 := (abs_le.1 e1).2
    have q2 := (abs_le.1 e2).2
    have q3 : A.sub a h + h ≤ (1 + A.u) * a := by
      have : 0 ≤ A.u * h := mul_nonneg u0.le h0
      linarith
    have q4 : A.u * (A.sub a h + h) ≤ A.u * ((1 + A.u) * a) := mul_le_mul_of_nonneg_left q3 u0.le
    have q5 : A.u * (A.u * a) ≤ 1 / 8 * (A.u * a) :=
      mul_le_mul_of_nonneg_right u8 (mul_nonneg u0.le a0)
    have q6 : 0 ≤ A.u * a := mul_nonneg u0.le a0
    linarith
  · intro hle
    have R0 : A.sub a h ≤ 0 := rnd_nonpos (by linarith)
    have S0 : A.mul (A.sub a h) m ≤ 0 := rnd_nonpos (mul_nonpos_of_nonpos_of_nonneg R0 m0)
    have S1 : A.sub a h ≤ A.mul (A.sub a h) m :=
      le_rnd (by have := mul_le_mul_of_nonpos_left m1 R0; linarith) hR
    refine ⟨?_, rnd_le (by linarith) rh⟩
    have e2 := A.errAdd (A.sub a h) h hR rh
    have h1 : A.add (A.sub a h) h ≤ A.add (A.mul (A.sub a h) m) h := rnd_mono (by linarith)
    refine le_trans ?_ h1
    have hs : 0 ≤ A.sub a h + h := by
      have : -h ≤ A.sub a h := le_rnd (by linarith) (rep_neg rh)
      linarith
    change |A.add (A.sub a h) h - (A.sub a h + h)| ≤ _ at e2
    change |A.sub a h - (a - h)| ≤ _ at e1
    rw [abs_of_nonneg hs] at e2
    rw [abs_of_nonpos (show a - h ≤ 0 by linarith)] at e1
    have q1 := (abs_le.1 e1).1
    have q2 := (abs_le.1 e2).1
    have q3 : A.u * (A.sub a h + h) ≤ A.u * h := mul_le_mul_of_nonneg_left (by linarith) u0.le
    have q6 : 0 ≤ A.u * a := mul_nonneg u0.le a0
    linarith
  · apply rnd_nonneg
    rcases le_total 0 (A.sub a h) with hR0 | hR0
    · have : 0 ≤ A.mul (A.sub a h) m := rnd_nonneg (mul_nonneg hR0 m0)
      linarith
    · have S1 : A.sub a h ≤ A.mul (A.sub a h) m :=
        le_rnd (by have := mul_le_mul_of_nonpos_left m1 hR0; linarith) hR
      have : -h ≤ A.sub a h := le_rnd (by linarith) (rep_neg rh)
      linarith

/-- C141: for all amplitudes (of any sign) and any value of the cosine in its range, `alpha2` is not
negative, so `am` is a number and not negative.  `alpha2` lies between the smaller and the larger of the
squares of half the sum and half the difference, up to rounding. -/
theorem C141_am (sqrt : K → K) (hs : ∀ x, 0 ≤ x → 0 ≤ sqrt x) (a0 a1 c : K) (hc : |c| ≤ 1) :
    0 ≤ alpha2F A a0 a1 c ∧ (∃ v, amF A sqrt a0 a1 c = some v ∧ 0 ≤ v) ∧
    ∃ p q, p = A.rnd (A.rnd (A.rnd (a0 + a1) / 2) ^ 2) ∧ q = A.rnd (A.rnd (A.rnd (a0 - a1) / 2) ^ 2) ∧
      min p q - 2 * A.u * max p q ≤ alpha2F A a0 a1 c ∧
      alpha2F A a0 a1 c ≤ (1 + 3 * A.u) * max p q := by
  have u0 := A.u_pos
  obtain ⟨h1, h2, h3⟩ := mix_spec A (rnd_rep (A := A) (semisumF A a0 a1 * semisumF A a0 a1))
    (rnd_rep (A := A) (semidiffF A a0 a1 * semidiffF A a0 a1)) (sqF_nonneg A _) (sqF_nonneg A _)
    (sqF_nonneg A c) (sqF_le_one A hc)
  have e : alpha2F A a0 a1 c = A.add (A.mul (A.sub (A.rnd (semisumF A a0 a1 * semisumF A a0 a1))
    (A.rnd (semidiffF A a0 a1 * semidiffF A a0 a1))) (sqF A c))
    (A.rnd (semidiffF A a0 a1 * semidiffF A a0 a1)) := rfl
  rw [← e] at h1 h2 h3
  have ep : sqF A (semisumF A a0 a1) = A.rnd (A.rnd (A.rnd (a0 + a1) / 2) ^ 2) := by
    rw [sq]
    rfl
  have eq : sqF A (semidiffF A a0 a1) = A.rnd (A.rnd (A.rnd (a0 - a1) / 2) ^ 2) := by
    rw [sq]
    rfl
  refine ⟨h3, ?_, _, _, rfl, rfl, ?_⟩
  · refine ⟨_, ?_, rnd_nonneg (A := A) (mul_nonneg (hs _ h3) two_pos.le)⟩
    simp [amF, not_lt.2 h3, Arith.mul]
  · rw [← ep, ← eq]
    have p0 := sqF_nonneg A (semisumF A a0 a1)
    have q0 := sqF_nonneg A (semidiffF A a0 a1)
    rcases le_total (sqF A (semidiffF A a0 a1)) (sqF A (semisumF A a0 a1)) with h | h
    · obtain ⟨g1, g2⟩ := h1 h
      rw [min_eq_right h, max_eq_left h]
      have := mul_nonneg u0.le p0
      exact ⟨by change sqF A (semidiffF A a0 a1) ≤ _ at g1; linarith, g2⟩
    · obtain ⟨g1, g2⟩ := h2 h
      rw [min_eq_left h, max_eq_right h]
      have := mul_nonneg u0.le q0
      exact ⟨g1, by change _ ≤ sqF A (semidiffF A a0 a1) at g2; linarith⟩

/-- C141: the instantaneous frequency is finite if the amplitudes have the same sign and differ by so
much that the square of half their difference does not underflow. -/
theorem C141_fm (a0 a1 d0 d1 wHat wOln c sn : K) (hc : |c| ≤ 1) (hs : 0 ≤ a0 * a1)
    (hd : 0 < A.rnd (A.rnd (A.rnd (a0 - a1) / 2) ^ 2)) :
    ∃ v, fmF A a0 a1 d0 d1 wHat wOln c sn = some v := by
  obtain ⟨h1, -, -⟩ := mix_spec A (rnd_rep (A := A) (semisumF A a0 a1 * semisumF A a0 a1))
    (rnd_rep (A := A) (semidiffF A a0 a1 * semidiffF A a0 a1)) (sqF_nonneg A _) (sqF_nonneg A _)
    (sqF_nonneg A c) (sqF_le_one A hc)
  have hle : |a0 - a1| ≤ |a0 + a1| := by
    rw [← sq_le_sq]
    nlinarith
  have h2 : |semidiffF A a0 a1| ≤ |semisumF A a0 a1| := by
    unfold semidiffF semisumF Arith.div Arith.add Arith.sub
    rw [← rnd_abs, ← rnd_abs, abs_div, abs_div, abs_two, ← rnd_abs, ← rnd_abs]
    exact rnd_mono (div_le_div_of_nonneg_right (rnd_mono hle) two_pos.le)
  have h3 : sqF A (semidiffF A a0 a1) ≤ sqF A (semisumF A a0 a1) := by
    apply rnd_mono
    rw [← abs_mul_abs_self (semidiffF A a0 a1), ← abs_mul_abs_self (semisumF A a0 a1)]
    exact mul_self_le_mul_self (abs_nonneg _) h2
  rw [sq] at hd
  have h4 : 0 < alpha2F A a0 a1 c := lt_of_lt_of_le hd (h1 h3).1
  exact ⟨_, if_neg h4.ne'⟩

/-! ### Accuracy -/

theorem half_err {s S x : K} (hη : A.eta ≤ A.u * S) (h1 : |s| ≤ S) (h2 : |x - s| ≤ A.u * |s|) :
    |A.div x 2 - s / 2| ≤ 17 / 8 * A.u * S ∧ |A.div x 2| ≤ 25 / 32 * S := by
  have u0 := A.u_pos
  have u8 := A.u_le
  have S0 : 0 ≤ S := (abs_nonneg _).trans h1
  have q0 := mul_nonneg u0.le S0
  have q1 := mul_le_mul_of_nonneg_left h1 u0.le
  have hx : |x| ≤ (1 + A.u) * S := by
    have := abs_add_le (x - s) s
    rw [sub_add_cancel] at this
    linarith
  have e := A.err (x / 2)
  rw [abs_div x 2, abs_two] at e
  have q2 := mul_le_mul_of_nonneg_left hx u0.le
  have q3 : A.u * (A.u * S) ≤ 1 / 8 * (A.u * S) := mul_le_mul_of_nonneg_right u8 q0
  have q4 : A.u * S ≤ 1 / 8 * S := mul_le_mul_of_nonneg_right u8 S0
  have h3 : |A.div x 2 - s / 2| ≤ 17 / 8 * A.u * S := by
    have := abs_add_le (A.rnd (x / 2) - x / 2) ((x - s) / 2)
    rw [abs_div (x - s) 2, abs_two, show A.rnd (x / 2) - x / 2 + (x - s) / 2 = A.div x 2 - s / 2 by
      unfold Arith.div; ring] at this
    linarith
  refine ⟨h3, ?_⟩
  have := abs_add_le (A.div x 2 - s / 2) (s / 2)
  rw [sub_add_cancel, abs_div s 2, abs_two] at this
  linarith

theorem sq_err {x X S : K} (hη : A.eta ≤ A.u * S ^ 2) (h1 : |x| ≤ S / 2)
    (h2 : |X - x| ≤ 17 / 8 * A.u * S) (h3 : |X| ≤ 25 / 32 * S) :
    |sqF A X - x ^ 2| ≤ 5 * A.u * S ^ 2 ∧ sqF A X ≤ S ^ 2 := by
  have u0 := A.u_pos
  have u8 := A.u_le
  have S0 : 0 ≤ S := by
    have := abs_nonneg x
    linarith
  have q0 : 0 ≤ A.u * S ^ 2 := by positivity
  have q1 : A.u * S ^ 2 ≤ 1 / 8 * S ^ 2 := mul_le_mul_of_nonneg_right u8 (by positivity)
  have hXX : |X * X| ≤ 5 / 8 * S ^ 2 := by
    rw [abs_mul]
    have := mul_le_mul h3 h3 (abs_nonneg _) (by positivity)
    have q : 0 ≤ S ^ 2 := by positivity
    linarith [show 25 / 32 * S * (25 / 32 * S) = 625 / 1024 * S ^ 2 by ring]
  have e := A.err (X * X)
  have q2 := mul_le_mul_of_nonneg_left hXX u0.le
  have h4 : |X * X - x ^ 2| ≤ 17 / 8 * A.u * S * (21 / 16 * S) := by
    rw [show X * X - x ^ 2 = (X - x) * (X + x) by ring, abs_mul]
    apply mul_le_mul h2 _ (abs_nonneg _) (by positivity)
    have := abs_add_le X x
    linarith
  have h5 := abs_add_le (A.rnd (X * X) - X * X) (X * X - x ^ 2)
  rw [sub_add_sub_cancel] at h5
  constructor
  · show |A.rnd (X * X) - x ^ 2| ≤ _
    linarith [show 17 / 8 * A.u * S * (21 / 16 * S) = 357 / 128 * (A.u * S ^ 2) by ring]
  · have h6 := (abs_le.1 e).2
    have h7 := (abs_le.1 hXX).2
    show A.rnd (X * X) ≤ _
    linarith

theorem mix_err {a h m p q c S : K} (ra : A.Rep a) (rh : A.Rep h) (rm : 0 ≤ m) (m1 : m ≤ 1)
    (hη : A.eta ≤ A.u * S ^ 2)
    (ha : |a - p| ≤ 5 * A.u * S ^ 2) (ha0 : 0 ≤ a) (ha1 : a ≤ S ^ 2)
    (hh : |h - q| ≤ 5 * A.u * S ^ 2) (hh0 : 0 ≤ h) (hh1 : h ≤ S ^ 2)
    (hm : |m - c| ≤ 2 * A.u) (hpq : |p - q| ≤ S ^ 2 / 4) :
    |A.add (A.mul (A.sub a h) m) h - ((p - q) * c + q)| ≤ 24 * A.u * S ^ 2 := by
  have u0 := A.u_pos
  have u8 := A.u_le
  have T0 : 0 ≤ S ^ 2 := by positivity
  generalize S ^ 2 = T at *
  have q0 : 0 ≤ A.u * T := mul_nonneg u0.le T0
  have q1 : A.u * T ≤ 1 / 8 * T := mul_le_mul_of_nonneg_right u8 T0
  have q2 : A.u * (A.u * T) ≤ 1 / 8 * (A.u * T) := mul_le_mul_of_nonneg_right u8 q0
  have hah : |a - h| ≤ T := by
    rw [abs_le]
    constructor <;> linarith
  have e1 : |A.sub a h - (a - h)| ≤ A.u * T :=
    (errSub ra rh).trans (mul_le_mul_of_nonneg_left hah u0.le)
  have hR : |A.sub a h| ≤ 9 / 8 * T := by
    have := abs_add_le (A.sub a h - (a - h)) (a - h)
    rw [sub_add_cancel] at this
    linarith
  have e2 : |A.sub a h - (p - q)| ≤ 11 * A.u * T := by
    have h1 := abs_add_le (A.sub a h - (a - h)) ((a - p) - (h - q))
    have h2 := abs_sub (a - p) (h - q)
    rw [show A.sub a h - (a - h) + ((a - p) - (h - q)) = A.sub a h - (p - q) by ring] at h1
    linarith
  have hRm : |A.sub a h * m| ≤ 9 / 8 * T := by
    rw [abs_mul, abs_of_nonneg rm]
    have := mul_le_mul_of_nonneg_left m1 (abs_nonneg (A.sub a h))
    linarith
  have e3 : |A.mul (A.sub a h) m - A.sub a h * m| ≤ 17 / 8 * A.u * T := by
    refine (A.err _).trans ?_
    have := mul_le_mul_of_nonneg_left hRm u0.le
    linarith
  have e4 : |A.sub a h * m - (p - q) * c| ≤ 23 / 2 * A.u * T := by
    have h1 := abs_add_le ((A.sub a h - (p - q)) * m) ((p - q) * (m - c))
    rw [show (A.sub a h - (p - q)) * m + (p - q) * (m - c) = A.sub a h * m - (p - q) * c by ring] at h1
    have h2 : |(A.sub a h - (p - q)) * m| ≤ 11 * A.u * T := by
      rw [abs_mul, abs_of_nonneg rm]
      have := mul_le_mul_of_nonneg_left m1 (abs_nonneg (A.sub a h - (p - q)))
      linarith
    have h3 : |(p - q) * (m - c)| ≤ T / 4 * (2 * A.u) := by
      rw [abs_mul]
      exact mul_le_mul hpq hm (abs_nonneg _) (by positivity)
    linarith
  have hS : |A.mul (A.sub a h) m + h| ≤ 5 / 2 * T := by
    have h1 := abs_add_le (A.mul (A.sub a h) m - A.sub a h * m) (A.sub a h * m)
    rw [sub_add_cancel] at h1
    have h2 := abs_add_le (A.mul (A.sub a h) m) h
    rw [abs_of_nonneg hh0] at h2
    linarith
  have e5 : |A.add (A.mul (A.sub a h) m) h - (A.mul (A.sub a h) m + h)| ≤ A.u * (5 / 2 * T) :=
    (A.errAdd _ _ (rnd_rep _) rh).trans (mul_le_mul_of_nonneg_left hS u0.le)
  have f1 := abs_add_le (A.add (A.mul (A.sub a h) m) h - (A.mul (A.sub a h) m + h))
    ((A.mul (A.sub a h) m - A.sub a h * m) + (A.sub a h * m - (p - q) * c) + (h - q))
  have f2 := abs_add_three (A.mul (A.sub a h) m - A.sub a h * m) (A.sub a h * m - (p - q) * c) (h - q)
  rw [show A.add (A.mul (A.sub a h) m) h - (A.mul (A.sub a h) m + h) +
    ((A.mul (A.sub a h) m - A.sub a h * m) + (A.sub a h * m - (p - q) * c) + (h - q)) =
    A.add (A.mul (A.sub a h) m) h - ((p - q) * c + q) by ring] at f1
  linarith

/-- C141: the computed value is near the law of cosines: four times `alpha2` is the squared length of
the sum of two vectors of lengths `a0`, `a1` at twice the angle with cosine `c`; the error is at most
`24 u (|a0| + |a1|) ^ 2`, if this is far above the range of underflow. -/
theorem C141_accuracy (a0 a1 c : K) (r0 : A.rnd a0 = a0) (r1 : A.rnd a1 = a1) (hc : |c| ≤ 1)
    (hη : A.eta ≤ A.u * (|a0| + |a1|)) (hη2 : A.eta ≤ A.u * (|a0| + |a1|) ^ 2) :
    |alpha2F A a0 a1 c - (a0 ^ 2 + a1 ^ 2 + 2 * a0 * a1 * (2 * c ^ 2 - 1)) / 4| ≤
      24 * A.u * (|a0| + |a1|) ^ 2 := by
  set S := |a0| + |a1| with hS
  have u0 := A.u_pos
  have hs : |a0 + a1| ≤ S := abs_add_le _ _
  have hd : |a0 - a1| ≤ S := abs_sub _ _
  obtain ⟨x1, x2⟩ := half_err A hη hs (A.errAdd a0 a1 r0 r1)
  obtain ⟨y1, y2⟩ := half_err A hη hd (errSub r0 r1)
  have hs' : |(a0 + a1) / 2| ≤ S / 2 := by
    rw [abs_div, abs_two]
    linarith
  have hd' : |(a0 - a1) / 2| ≤ S / 2 := by
    rw [abs_div, abs_two]
    linarith
  obtain ⟨p1, p2⟩ := sq_err A hη2 hs' x1 x2
  obtain ⟨q1, q2⟩ := sq_err A hη2 hd' y1 y2
  have hm : |sqF A c - c ^ 2| ≤ 2 * A.u := by
    have e := A.err (c * c)
    have hcc : |c * c| ≤ 1 := by
      rw [abs_mul]
      nlinarith [abs_nonneg c]
    have := mul_le_mul_of_nonneg_left hcc u0.le
    have η := A.eta_le
    rw [← sq] at e
    rw [← sq] at this
    show |A.rnd (c * c) - c ^ 2| ≤ _
    rw [← sq]
    linarith
  have hpq : |((a0 + a1) / 2) ^ 2 - ((a0 - a1) / 2) ^ 2| ≤ S ^ 2 / 4 := by
    rw [show ((a0 + a1) / 2) ^ 2 - ((a0 - a1) / 2) ^ 2 = a0 * a1 by ring, abs_mul, hS]
    nlinarith [sq_nonneg (|a0| - |a1|)]
  have := mix_err A (rnd_rep _) (rnd_rep _) (sqF_nonneg A c) (sqF_le_one A hc) hη2 p1 (sqF_nonneg A _)
    p2 q1 (sqF_nonneg A _) q2 hm hpq
  rw [show (((a0 + a1) / 2) ^ 2 - ((a0 - a1) / 2) ^ 2) * c ^ 2 + ((a0 - a1) / 2) ^ 2 =
    (a0 ^ 2 + a1 ^ 2 + 2 * a0 * a1 * (2 * c ^ 2 - 1)) / 4 by ring] at this
  exact this

/-- C141 for real numbers and the correctly rounded square root. -/
theorem C141_real (A : Arith ℝ) (a0 a1 c : ℝ) (hc : |c| ≤ 1) :
    ∃ v, amF A (fun x => A.rnd (Real.sqrt x)) a0 a1 c = some v ∧ 0 ≤ v :=
  (C141_am A _ (fun x _ => rnd_nonneg (Real.sqrt_nonneg x)) a0 a1 c hc).2.1

/-- C141: for amplitudes of opposite signs the frequency may be lost: here the amplitudes nearly cancel,
`alpha2` should be `2 ^ -82`, but is zero, and the frequency is not finite. -/
theorem C141_cancel : alpha2F (double ℚ) 1 (-1 + 1 / 2 ^ 40) 1 = 0 ∧
    ((1 : ℚ) ^ 2 + (-1 + 1 / 2 ^ 40) ^ 2 + 2 * 1 * (-1 + 1 / 2 ^ 40) * (2 * 1 ^ 2 - 1)) / 4 =
      1 / 2 ^ 82 ∧
    ∀ d0 d1 wHat wOln sn, fmF (double ℚ) 1 (-1 + 1 / 2 ^ 40) d0 d1 wHat wOln 1 sn = none := by
  have h : alpha2F (double ℚ) 1 (-1 + 1 / 2 ^ 40) 1 = 0 := by decide +kernel
  exact ⟨h, by norm_num, fun _ _ _ _ _ => if_pos h⟩

/-- Doubles: a case with a rounding error, and one that meets the hypothesis of `C141_fm`. -/
example : alpha2F (double ℚ) 1 (1 / 2) (1 / 4) = 1 / 32 + 1 / 16 ∧
    alpha2F (double ℚ) 1 (1 / 2) ((double ℚ).rnd (1 / 3)) ≠
      (1 ^ 2 + (1 / 2) ^ 2 + 2 * 1 * (1 / 2) * (2 * ((double ℚ).rnd (1 / 3)) ^ 2 - 1)) / 4 ∧
    0 < (double ℚ).rnd ((double ℚ).rnd ((double ℚ).rnd (1 - 1 / 2) / 2) ^ 2) := by
  decide +kernel

end Verif.Float
