import Mathlib.Data.Rat.Floor
import Verif.Float.BinProps
import Verif.Float.RandomModel

/-!
# The random generator of beats in floating point (C164)
-/

set_option autoImplicit false
set_option linter.unusedSectionVars false
set_option linter.unusedSimpArgs false

namespace Verif.Float

open Arith

variable {K : Type} [Field K] [LinearOrder K] [IsStrictOrderedRing K] [FloorRing K] (A : Arith K)

theorem rnd_sign (v : K) (positive : Bool) (hv : A.Rep v) :
    A.mul v (if positive then 1 else -1) = if positive then v else -v := by
  unfold Arith.mul
  cases positive
  · rw [if_neg (by simp), if_neg (by simp), mul_neg_one, A.odd, A.rnd_of hv]
  · rw [if_pos rfl, if_pos rfl, mul_one, A.rnd_of hv]

/-- C164: the number has the sign that was drawn, its absolute value is never below `left`, exceeds
`right` by at most three rounding errors, and not at all if `right` is at most twice `left`. -/
theorem C164_twosides (x left right : K) (positive : Bool) (rl : A.Rep left)
    (rr : A.Rep right) (x0 : 0 ≤ x) (x1 : x ≤ 1) (l0 : 0 ≤ left) (lr : left ≤ right) :
    (positive = true → twosidesF A x positive left right = |twosidesF A x positive left right|) ∧
      (positive = false → twosidesF A x positive left right = -|twosidesF A x positive left right|) ∧
      left ≤ |twosidesF A x positive left right| ∧
      |twosidesF A x positive left right| ≤ (1 + 3 * A.u) * right ∧
      (right ≤ 2 * left → |twosidesF A x positive left right| ≤ right) := by
  have u0 := A.u_pos
  have u8 := A.u_le
  have D0 : 0 ≤ A.sub right left := rnd_nonneg (by linarith)
  have rD : A.Rep (A.sub right left) := rnd_rep _
  have m0 : 0 ≤ A.mul x (A.sub right left) := rnd_nonneg (mul_nonneg x0 D0)
  have m1 : A.mul x (A.sub right left) ≤ A.sub right left :=
    rnd_le (by nlinarith) rD
  have rm : A.Rep (A.mul x (A.sub right left)) := rnd_rep _
  have v0 : left ≤ A.add (A.mul x (A.sub right left)) left := le_rnd (by linarith) rl
  have rv : A.Rep (A.add (A.mul x (A.sub right left)) left) := rnd_rep _
  have vp : 0 ≤ A.add (A.mul x (A.sub right left)) left := l0.trans v0
  have e : twosidesF A x positive left right =
      if positive then A.add (A.mul x (A.sub right left)) left
      else -A.add (A.mul x (A.sub right left)) left := rnd_sign A _ positive rv
  have ea : |twosidesF A x positive left right| = A.add (A.mul x (A.sub right left)) left := by
    rw [e]
    cases positive
    · rw [if_neg (by simp), abs_neg, abs_of_nonneg vp]
    · rw [if_pos rfl, abs_of_nonneg vp]
  rw [ea]
  refine ⟨fun h => by rw [e, if_pos h], fun h => by rw [e, if_neg (by simp [h])], v0, ?_, ?_⟩
  · have e1 := (abs_le.1 (A.errSub rr rl)).2
    rw [abs_of_nonneg (a := right - left) (by linarith)] at e1
    have e2 := (abs_le.1 (A.errAdd _ _ rm rl)).2
    rw [abs_of_nonneg (a := A.mul x (A.sub right left) + left) (by linarith)] at e2
    have e1' : A.sub right left - (right - left) ≤ A.u * (right - left) := e1
    have e2' : A.add (A.mul x (A.sub right left)) left - (A.mul x (A.sub right left) + left) ≤
      A.u * (A.mul x (A.sub right left) + left) := e2
    have h1 : A.mul x (A.sub right left) + left ≤ (1 + A.u) * right := by nlinarith
    have h2 := mul_le_mul_of_nonneg_left h1 u0.le
    have h3 : A.u * (A.u * right) ≤ 1 / 8 * (A.u * right) :=
      mul_le_mul_of_nonneg_right u8 (by nlinarith)
    have h4 : 0 ≤ A.u * right := mul_nonneg u0.le (by linarith)
    nlinarith
  · intro h
    have s : A.sub right left = right - left := A.sterbenz right left rr rl (by linarith) h
    exact rnd_le (by rw [s] at m1 ⊢; linarith) rr

/-- C164: the beat is between the limits up to eight rounding errors, in absolute value. -/
theorem C164_beat (x beatMin beatMax : K) (positive : Bool) (x0 : 0 ≤ x) (x1 : x ≤ 1)
    (b0 : 0 < beatMin) (b1 : beatMin ≤ beatMax) (h1 : 2 * A.eta ≤ A.u * beatMin)
    (h2 : A.eta * beatMax ≤ A.u) :
    (1 - 8 * A.u) * beatMin ≤ |beatHzF A x positive beatMin beatMax| ∧
      |beatHzF A x positive beatMin beatMax| ≤ (1 + 8 * A.u) * beatMax ∧
      (positive = true ↔ 0 < beatHzF A x positive beatMin beatMax) := by
  have u0 := A.u_pos
  have u8 := A.u_le
  have bM : 0 < beatMax := b0.trans_le b1
  have i0 : 0 < 1 / beatMax := by positivity
  have i1 : 1 / beatMax ≤ 1 / beatMin := one_div_le_one_div_of_le b0 b1
  have hη : A.eta ≤ A.u * (1 / beatMax) := by
    rw [mul_one_div, le_div_iff₀ bM]
    exact h2
  have el := abs_le.1 (rel_err A i0.le hη le_rfl)
  have er := abs_le.1 (rel_err A (i0.le.trans i1) hη i1)
  -- the limits of the inverse
  set l := A.rnd (1 / beatMax) with hl
  set r := A.rnd (1 / beatMin) with hr
  have lr : l ≤ r := A.mono _ _ i1
  have lp : 0 < l := by nlinarith
  have T := C164_twosides A x l r positive (rnd_rep _) (rnd_rep _) x0 x1 lp.le lr
  have hb : beatHzF A x positive beatMin beatMax = A.rnd (1 / twosidesF A x positive l r) := rfl
  rw [hb]
  set w := twosidesF A x positive l r with hw
  have v0 : 0 < |w| := lp.trans_le T.2.2.1
  have ab : |A.rnd (1 / w)| = A.rnd (1 / |w|) := by
    rw [← rnd_abs, abs_div, abs_one]
  rw [ab]
  -- bounds for the inverse
  have up : 1 / |w| * (1 - 2 * A.u) ≤ beatMax := by
    have a1 : (1 - 2 * A.u) * (1 / beatMax) ≤ |w| := by linarith [T.2.2.1]
    rw [one_div_mul_eq_div, div_le_iff₀ v0]
    have := mul_le_mul_of_nonneg_left a1 bM.le
    have e : beatMax * ((1 - 2 * A.u) * (1 / beatMax)) = 1 - 2 * A.u := by
      field_simp
    linarith
  have lo : beatMin ≤ 1 / |w| * (1 + 2 * A.u) * (1 + 3 * A.u) := by
    have a1 : r ≤ (1 + 2 * A.u) * (1 / beatMin) := by linarith
    have a2 : |w| ≤ (1 + 3 * A.u) * ((1 + 2 * A.u) * (1 / beatMin)) :=
      T.2.2.2.1.trans (mul_le_mul_of_nonneg_left a1 (by linarith))
    rw [mul_assoc, one_div_mul_eq_div, le_div_iff₀ v0]
    have := mul_le_mul_of_nonneg_left a2 b0.le
    have e : beatMin * ((1 + 3 * A.u) * ((1 + 2 * A.u) * (1 / beatMin))) =
        (1 + 2 * A.u) * (1 + 3 * A.u) := by
      field_simp
    linarith
  set y := 1 / |w| with hy
  have y0 : 0 < y := by positivity
  have yh : beatMin ≤ 2 * y := by
    have c : (1 + 2 * A.u) * (1 + 3 * A.u) ≤ 2 := by nlinarith
    have := mul_le_mul_of_nonneg_left c y0.le
    linarith
  have ey := abs_le.1 (rel_err A (x := y) (e := beatMin / 2) y0.le (by linarith) (by linarith))
  refine ⟨?_, ?_, ?_⟩
  · have c : (1 - 8 * A.u) * ((1 + 2 * A.u) * (1 + 3 * A.u)) ≤ 1 - 2 * A.u := by
      have : 0 ≤ A.u * A.u := mul_self_nonneg _
      nlinarith
    have c1 := mul_le_mul_of_nonneg_left c y0.le
    have c2 := mul_le_mul_of_nonneg_left lo (by linarith : (0 : K) ≤ 1 - 8 * A.u)
    linarith
  · have c : 1 + 2 * A.u ≤ (1 + 8 * A.u) * (1 - 2 * A.u) := by nlinarith
    have c1 := mul_le_mul_of_nonneg_left c y0.le
    have c2 := mul_le_mul_of_nonneg_left up (by linarith : (0 : K) ≤ 1 + 8 * A.u)
    linarith
  · have py : 0 < A.rnd y := by nlinarith
    constructor
    · intro h
      have : 1 / w = y := by rw [hy, ← T.1 h]
      rw [this]
      exact py
    · intro h
      by_contra hc
      have hf : positive = false := by simpa using hc
      have : 1 / w = -y := by
        rw [hy, T.2.1 hf, abs_neg, abs_abs, one_div, one_div, inv_neg]
      rw [this, A.odd] at h
      linarith

/-- C164: no decay is below the smallest one. -/
theorem C164_decay (d decayMin : K) (d0 : 0 ≤ d) (rm : A.Rep decayMin) :
    decayMin ≤ drawnDecayF A d decayMin := le_rnd (by linarith) rm

/-- C164: the amplitudes of the sinusoids and of the noise are between zero and one, and their sum is
one up to five rounding errors. -/
theorem C164_snr (s : K) (rs : A.Rep s) (s0 : 0 ≤ s) :
    0 ≤ sineAmpF A s ∧ sineAmpF A s ≤ 1 ∧ 0 ≤ noiseAmpF A s ∧ noiseAmpF A s ≤ 1 ∧
      |sineAmpF A s + noiseAmpF A s - 1| ≤ 5 * A.u := by
  have u0 := A.u_pos
  have u8 := A.u_le
  have hη := A.eta_le
  have D1 : 1 ≤ A.add 1 s := le_rnd (by linarith) rep_one
  have Ds : s ≤ A.add 1 s := le_rnd (by linarith) rs
  have eD := abs_le.1 (A.errAdd 1 s rep_one rs)
  rw [abs_of_nonneg (a := 1 + s) (by linarith)] at eD
  have eD' : -(A.u * (1 + s)) ≤ A.add 1 s - (1 + s) ∧ A.add 1 s - (1 + s) ≤ A.u * (1 + s) := eD
  unfold sineAmpF noiseAmpF Arith.div
  generalize A.add 1 s = D at *
  have Dp : 0 < D := by linarith
  have q0 : 0 ≤ s / D := div_nonneg s0 Dp.le
  have q1 : s / D ≤ 1 := (div_le_one Dp).2 Ds
  have p0 : 0 ≤ 1 / D := div_nonneg zero_le_one Dp.le
  have p1 : 1 / D ≤ 1 := (div_le_one Dp).2 D1
  refine ⟨rnd_nonneg q0, rnd_le q1 rep_one, rnd_nonneg p0, rnd_le p1 rep_one, ?_⟩
  have e1 := abs_le.1 (A.err (s / D))
  have e2 := abs_le.1 (A.err (1 / D))
  rw [abs_of_nonneg q0] at e1
  rw [abs_of_nonneg p0] at e2
  have hs : s / D * D = s := div_mul_cancel₀ _ Dp.ne'
  have h1 : 1 / D * D = 1 := div_mul_cancel₀ _ Dp.ne'
  generalize s / D = q at *
  generalize 1 / D = p at *
  have hqp : (q + p) * D = 1 + s := by linarith
  -- the exact quotients sum up to about one
  have a1 : (q + p) * (1 + A.u) ≥ 1 := by
    by_contra hc
    rw [ge_iff_le, not_le] at hc
    have : (q + p) * (1 + A.u) * D < 1 * D := mul_lt_mul_of_pos_right hc Dp
    nlinarith
  have a2 : (q + p) * (1 - A.u) ≤ 1 := by
    by_contra hc
    rw [not_le] at hc
    have : 1 * D < (q + p) * (1 - A.u) * D := mul_lt_mul_of_pos_right hc Dp
    nlinarith
  have a3 : q + p ≤ 8 / 7 := by nlinarith
  have a4 : A.u * (q + p) ≤ A.u * (8 / 7) := mul_le_mul_of_nonneg_left a3 u0.le
  rw [abs_le]
  constructor <;> nlinarith

/-- The products with a factor near `sine / S`, where `S` is near the sum `Z`. -/
theorem scaled_sum {u η Z S q k sine P : K} (u0 : 0 < u) (u8 : u ≤ 1 / 8) (η0 : 0 ≤ η) (h : 0 < Z)
    (Z3 : Z ≤ 3) (b2 : S - Z ≤ 17 / 8 * u * Z) (b3 : -(2 * u * Z) ≤ S - Z) (Slo : 3 / 4 * Z ≤ S)
    (s0 : 0 ≤ sine) (q0 : 0 ≤ q) (hq : q * S = sine) (k1 : -(u * q + η) ≤ k - q)
    (k2 : k - q ≤ u * q + η) (g1 : |P - Z * k| ≤ u * (Z * k) + 3 * η) :
    |P - sine| ≤ 6 * u * sine + 7 * η := by
  have uu : u * u ≤ 1 / 8 * u := mul_le_mul_of_nonneg_right u8 u0.le
  have w1 : q * Z ≤ 4 / 3 * sine := by
    have := mul_le_mul_of_nonneg_left Slo q0
    linarith
  have c3 : u * (q * Z) ≤ u * (4 / 3 * sine) := mul_le_mul_of_nonneg_left w1 u0.le
  have w2 : |Z * q - sine| ≤ 17 / 6 * u * sine := by
    have c1 := mul_le_mul_of_nonneg_left b2 q0
    have c2 := mul_le_mul_of_nonneg_left b3 q0
    have us : 0 ≤ u * sine := mul_nonneg u0.le s0
    rw [abs_le]
    constructor <;> linarith
  have c4 : Z * η ≤ 3 * η := mul_le_mul_of_nonneg_right Z3 η0
  have w3 : |Z * k - Z * q| ≤ 4 / 3 * u * sine + 3 * η := by
    have c1 := mul_le_mul_of_nonneg_left k1 h.le
    have c2 := mul_le_mul_of_nonneg_left k2 h.le
    rw [abs_le]
    constructor <;> linarith
  have us : 0 ≤ u * sine := mul_nonneg u0.le s0
  have w4 : u * (Z * k) ≤ 3 / 2 * u * sine + 3 / 8 * η := by
    have d1 := (abs_le.1 w3).2
    have d2 : Z * k ≤ 4 / 3 * sine + 4 / 3 * u * sine + 3 * η := by linarith
    have d3 := mul_le_mul_of_nonneg_left d2 u0.le
    have d4 : u * u * sine ≤ 1 / 8 * u * sine := mul_le_mul_of_nonneg_right uu s0
    have d5 : u * η ≤ 1 / 8 * η := mul_le_mul_of_nonneg_right u8 η0
    linarith
  have r1 := abs_le.1 g1
  have r2 := abs_le.1 w2
  have r3 := abs_le.1 w3
  rw [abs_le]
  constructor <;> linarith

/-- C164: amplitudes are not negative, keep their order, and sum up to the amplitude of the sinusoids
up to six rounding errors (and underflow). -/
theorem C164_amps (sine a b c : K) (s0 : 0 ≤ sine) (ra : A.Rep a) (rb : A.Rep b) (rc : A.Rep c)
    (a0 : 0 ≤ a) (b0 : 0 ≤ b) (c0 : 0 ≤ c) (a1 : a ≤ 1) (b1 : b ≤ 1) (c1 : c ≤ 1)
    (h : 0 < a + b + c) :
    (∀ x, 0 ≤ x → 0 ≤ ampF A sine a b c x) ∧
      (∀ x y, x ≤ y → ampF A sine a b c x ≤ ampF A sine a b c y) ∧
      |ampF A sine a b c a + ampF A sine a b c b + ampF A sine a b c c - sine| ≤
        6 * A.u * sine + 7 * A.eta := by
  have u0 := A.u_pos
  have u8 := A.u_le
  have hη := A.eta_le
  have η0 := A.eta_nonneg
  -- the sum
  have e1 := abs_le.1 (A.errAdd a b ra rb)
  rw [abs_of_nonneg (a := a + b) (by linarith)] at e1
  have t0 : 0 ≤ A.add a b := rnd_nonneg (by linarith)
  have e2 := abs_le.1 (A.errAdd (A.add a b) c (rnd_rep _) rc)
  rw [abs_of_nonneg (a := A.add a b + c) (by linarith)] at e2
  have e1' : -(A.u * (a + b)) ≤ A.add a b - (a + b) ∧ A.add a b - (a + b) ≤ A.u * (a + b) := e1
  have e2' : -(A.u * (A.add a b + c)) ≤ sum3F A a b c - (A.add a b + c) ∧
    sum3F A a b c - (A.add a b + c) ≤ A.u * (A.add a b + c) := e2
  have S0 : 0 ≤ sum3F A a b c := rnd_nonneg (by linarith)
  unfold ampF
  generalize hS : sum3F A a b c = S at *
  generalize A.add a b = t at *
  set Z := a + b + c with hZ
  have Z3 : Z ≤ 3 := by linarith
  have uu : A.u * A.u ≤ 1 / 8 * A.u := mul_le_mul_of_nonneg_right u8 u0.le
  have uuZ : A.u * A.u * Z ≤ 1 / 8 * A.u * Z := mul_le_mul_of_nonneg_right uu h.le
  have uZ : 0 < A.u * Z := mul_pos u0 h
  have tc : t + c ≤ (1 + A.u) * Z := by nlinarith
  have tc' : (1 - A.u) * Z ≤ t + c := by nlinarith
  have b2 : S - Z ≤ 17 / 8 * A.u * Z := by
    have := mul_le_mul_of_nonneg_left tc u0.le
    nlinarith
  have b3 : -(2 * A.u * Z) ≤ S - Z := by
    have := mul_le_mul_of_nonneg_left tc' (by linarith : (0 : K) ≤ 1 - A.u)
    have := mul_nonneg (mul_nonneg u0.le u0.le) h.le
    nlinarith
  have Slo : 3 / 4 * Z ≤ S := by nlinarith
  have Sp : 0 < S := by linarith
  -- the factor
  have q0 : 0 ≤ sine / S := div_nonneg s0 Sp.le
  have ek := abs_le.1 (A.err (sine / S))
  rw [abs_of_nonneg q0] at ek
  have k0 : 0 ≤ A.div sine S := rnd_nonneg q0
  have ek' : -(A.u * (sine / S) + A.eta) ≤ A.div sine S - sine / S ∧
    A.div sine S - sine / S ≤ A.u * (sine / S) + A.eta := ek
  have hq : sine / S * S = sine := div_mul_cancel₀ _ Sp.ne'
  generalize A.div sine S = k at *
  generalize sine / S = q at *
  refine ⟨fun x hx => rnd_nonneg (mul_nonneg hx k0),
    fun x y hxy => A.mono _ _ (mul_le_mul_of_nonneg_right hxy k0), ?_⟩
  have ex : ∀ x, 0 ≤ x → |A.mul x k - x * k| ≤ A.u * (x * k) + A.eta := by
    intro x hx
    have := A.err (x * k)
    rwa [abs_of_nonneg (mul_nonneg hx k0)] at this
  have fa := abs_le.1 (ex a a0)
  have fb := abs_le.1 (ex b b0)
  have fc := abs_le.1 (ex c c0)
  have hZk : a * k + b * k + c * k = Z * k := by rw [hZ]; ring
  have g1 : |A.mul a k + A.mul b k + A.mul c k - Z * k| ≤ A.u * (Z * k) + 3 * A.eta := by
    rw [← hZk, abs_le]
    constructor <;> linarith
  exact scaled_sum u0 u8 η0 h Z3 b2 b3 Slo s0 q0 hq ek'.1 ek'.2 g1

/-- C164: in doubles the limits may be left by the last bit: with the default limits and the largest
draw the beat is below 1.8 Hz, and between 0.3 and 0.9 the number may exceed 0.9. -/
theorem C164_off :
    0 < beatHzF (double ℚ) 1 true ((double ℚ).rnd (9 / 5)) 18 ∧
      beatHzF (double ℚ) 1 true ((double ℚ).rnd (9 / 5)) 18 < (double ℚ).rnd (9 / 5) ∧
      (double ℚ).rnd (9 / 10) <
        twosidesF (double ℚ) 1 true ((double ℚ).rnd (3 / 10)) ((double ℚ).rnd (9 / 10)) := by
  decide +kernel

/-- Half-way, with the default limits for the difference in Bark. -/
example : twosidesF (double ℚ) (1 / 2) false (3 / 2) 4 = -(11 / 4) := by
  decide +kernel

/-- The hypotheses of `C164_beat` hold in doubles with the default limits. -/
example : (0 : ℚ) < (double ℚ).rnd (9 / 5) ∧ (double ℚ).rnd (9 / 5) ≤ 18 ∧
    2 * (double ℚ).eta ≤ (double ℚ).u * (double ℚ).rnd (9 / 5) ∧
    (double ℚ).eta * 18 ≤ (double ℚ).u := by
  decide +kernel

/-- Three equal amplitudes are not a third each, but add up to one. -/
example : let A := double ℚ
    ampF A 1 1 1 1 1 = A.rnd (1 / 3) ∧ A.rnd (1 / 3) ≠ 1 / 3 ∧
      sum3F A (ampF A 1 1 1 1 1) (ampF A 1 1 1 1 1) (ampF A 1 1 1 1 1) = 1 := by
  decide +kernel

end Verif.Float
