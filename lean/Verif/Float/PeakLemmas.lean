import Mathlib.Tactic.LinearCombination
import Verif.Float.PeakModel
import Verif.Sms.DspLemmas

/-!
# Lemmas on the refinement of peaks in floating point
-/

set_option autoImplicit false
set_option linter.unusedSectionVars false
set_option linter.unusedSimpArgs false

namespace Verif.Float

open Arith

variable {K : Type} [Field K] [LinearOrder K] [IsStrictOrderedRing K] (A : Arith K)

/-- The denominator of the vertex: not zero, and how far it is from the exact one. -/
theorem den_spec (l c r : K) (rl : A.Rep l) (rc : A.Rep c) (rr : A.Rep r) (hl : l < c) (hr : r < c) :
    ∃ den, A.add (A.sub l (A.mul 2 c)) r = den ∧
      den ≤ -((1 - A.u) ^ 2 * max (c - l) (c - r)) ∧
      |den - (l - 2 * c + r)| ≤ 2 * A.u * |c| + 3 * A.u * ((c - l) + (c - r)) := by
  have u0 := A.u_pos
  have u8 := A.u_le
  have sl := A.spacing c l rc rl hl.ne'
  have sr := A.spacing c r rc rr hr.ne'
  rw [abs_of_pos (show 0 < c - l by linarith)] at sl
  rw [abs_of_pos (show 0 < c - r by linarith)] at sr
  have h2 : A.mul 2 c = 2 * c := A.double c rc
  unfold Arith.add Arith.sub
  rw [h2]
  set a := c - l with ha
  set b := c - r with hb
  have a0 : 0 < a := by linarith
  have b0 : 0 < b := by linarith
  set t1 := A.rnd (l - 2 * c) with ht1
  have e1 : |t1 - (l - 2 * c)| ≤ A.u * |c| + A.u * a := by
    refine (errSub rl (rep_double rc)).trans ?_
    have : |l - 2 * c| ≤ |c| + a := by
      rw [show l - 2 * c = -(c + a) by rw [ha]; ring, abs_neg]
      refine (abs_add_le c a).trans ?_
      rw [abs_of_pos a0]
    nlinarith
  have e2 : |A.rnd (t1 + r) - (t1 + r)| ≤ A.u * |t1 + r| := A.errAdd t1 r (rnd_rep _) rr
  set s := t1 + r with hs
  have hsum : s = -(a + b) + (t1 - (l - 2 * c)) := by rw [hs, ha, hb]; ring
  have s1 : s ≤ -((1 - A.u) * max a b) := by
    have := (abs_le.1 e1).2
    rcases le_total a b with h | h
    · rw [max_eq_right h]
      nlinarith
    · rw [max_eq_left h]
      nlinarith
  have M0 : 0 < max a b := lt_max_of_lt_left a0
  have s0 : s < 0 := by nlinarith
  rw [abs_of_neg s0] at e2
  have hc0 := abs_nonneg c
  refine ⟨_, rfl, ?_, ?_⟩
  · have := (abs_le.1 e2).2
    nlinarith
  · have h3 : A.rnd s - (l - 2 * c + r) = (A.rnd s - s) + (t1 - (l - 2 * c)) := by rw [hs]; ring
    rw [h3]
    refine (abs_add_le _ _).trans ?_
    have h4 : -s ≤ (a + b) + (A.u * |c| + A.u * a) := by
      have := (abs_le.1 e1).1
      linarith
    have h5 : A.u * -s ≤ A.u * ((a + b) + (A.u * |c| + A.u * a)) :=
      mul_le_mul_of_nonneg_left h4 u0.le
    have h6 : A.u * (A.u * |c|) ≤ 1 / 8 * (A.u * |c|) :=
      mul_le_mul_of_nonneg_right u8 (by positivity)
    have h7 : A.u * (A.u * a) ≤ 1 / 8 * (A.u * a) :=
      mul_le_mul_of_nonneg_right u8 (by positivity)
    have h8 : 0 ≤ A.u * |c| := by positivity
    have h9 : 0 ≤ A.u * a := by positivity
    have h10 : 0 ≤ A.u * b := by positivity
    nlinarith

/-- Half the difference, rounded. -/
theorem half_spec (x M dmx half : K) (hx : |x| ≤ M) (M0 : 0 < M) (hη : A.eta ≤ A.u * M)
    (e1 : |dmx - x| ≤ A.u * |x|) (e2 : |half - 1 / 2 * dmx| ≤ A.u * |1 / 2 * dmx| + A.eta) :
    |dmx| ≤ (1 + A.u) * M ∧ |half - 1 / 2 * x| ≤ 5 / 2 * A.u * M ∧
      |half| ≤ (1 / 2 + 2 * A.u + 1 / 2 * A.u ^ 2) * M := by
  have u0 := A.u_pos
  have u8 := A.u_le
  have p0 : 0 ≤ A.u * M := by positivity
  have p1 : A.u * |x| ≤ A.u * M := mul_le_mul_of_nonneg_left hx u0.le
  have hd : |dmx| ≤ (1 + A.u) * M := by
    have := abs_add_le (dmx - x) x
    rw [sub_add_cancel] at this
    linarith
  have p2 : A.u * |dmx| ≤ A.u * ((1 + A.u) * M) := mul_le_mul_of_nonneg_left hd u0.le
  have p3 : A.u * (A.u * M) ≤ 1 / 8 * (A.u * M) := mul_le_mul_of_nonneg_right u8 p0
  rw [abs_mul, abs_of_pos (by norm_num : (0 : K) < 1 / 2)] at e2
  refine ⟨hd, ?_, ?_⟩
  · have := abs_add_le (half - 1 / 2 * dmx) (1 / 2 * (dmx - x))
    rw [abs_mul, abs_of_pos (by norm_num : (0 : K) < 1 / 2)] at this
    rw [show half - 1 / 2 * x = (half - 1 / 2 * dmx) + 1 / 2 * (dmx - x) by ring]
    linarith
  · have h2 := abs_add_le (half - 1 / 2 * dmx) (1 / 2 * dmx)
    rw [sub_add_cancel, abs_mul (1 / 2), abs_of_pos (by norm_num : (0 : K) < 1 / 2)] at h2
    linarith [show A.u ^ 2 * M = A.u * (A.u * M) by ring]

/-- The quotient, rounded. -/
theorem quot_spec (x M D C half den d : K) (hx : |x| ≤ M) (M0 : 0 < M) (hMD : M ≤ D) (C0 : 0 ≤ C)
    (hd1 : den ≤ -((1 - A.u) ^ 2 * M)) (hd2 : |den + D| ≤ 2 * A.u * C + 3 * A.u * D)
    (e3 : |half - 1 / 2 * x| ≤ 5 / 2 * A.u * M)
    (hh : |half| ≤ (1 / 2 + 2 * A.u + 1 / 2 * A.u ^ 2) * M)
    (ed : |d - half / den| ≤ A.u * |half / den| + A.eta) :
    |d| ≤ 1 / 2 + 6 * A.u ∧ |d - 1 / 2 * x / -D| * D ≤ A.u * (9 * D + 2 * C) := by
  have u0 := A.u_pos
  have u8 := A.u_le
  have ηu := A.eta_le
  have D0 : 0 < D := M0.trans_le hMD
  have q1 : (3 / 4 : K) ≤ (1 - A.u) ^ 2 := by
    have : (7 / 8 : K) ≤ 1 - A.u := by linarith
    calc (3 / 4 : K) ≤ (7 / 8) ^ 2 := by norm_num
      _ ≤ _ := pow_le_pow_left₀ (by norm_num) this 2
  have hdenM : 3 / 4 * M ≤ -den := by
    have := mul_le_mul_of_nonneg_right q1 M0.le
    linarith
  have hden0 : den < 0 := by linarith
  have hX : |half / den| ≤ 1 / 2 + 4 * A.u := by
    rw [abs_div, abs_of_neg hden0, div_le_iff₀ (by linarith)]
    refine hh.trans ?_
    have h1 : (1 / 2 + 4 * A.u) * ((1 - A.u) ^ 2 * M) ≤ (1 / 2 + 4 * A.u) * -den :=
      mul_le_mul_of_nonneg_left (by linarith) (by positivity)
    refine le_trans ?_ h1
    rw [← mul_assoc]
    apply mul_le_mul_of_nonneg_right _ M0.le
    have p1 : 0 ≤ A.u * (1 - 8 * A.u) := mul_nonneg u0.le (by linarith)
    have p2 : 0 < A.u * A.u * A.u := by positivity
    linarith [show (1 / 2 + 4 * A.u) * (1 - A.u) ^ 2 - (1 / 2 + 2 * A.u + 1 / 2 * A.u ^ 2) =
      A.u * (1 - 8 * A.u) + 4 * (A.u * A.u * A.u) by ring]
  have hXD : |half / den - 1 / 2 * x / -D| * D ≤ A.u * (7 * D + 2 * C) := by
    have e : half / den - 1 / 2 * x / -D =
        ((half - 1 / 2 * x) * D + 1 / 2 * x * (den + D)) / (den * D) := by
      have := hden0.ne
      have := D0.ne'
      field_simp
      ring
    rw [e, abs_div, abs_mul den D, abs_of_pos D0, abs_of_neg hden0, div_mul_eq_mul_div,
      div_le_iff₀ (mul_pos (by linarith) D0)]
    have h1 : |(half - 1 / 2 * x) * D + 1 / 2 * x * (den + D)| ≤
        5 / 2 * A.u * M * D + 1 / 2 * M * (2 * A.u * C + 3 * A.u * D) := by
      refine (abs_add_le _ _).trans ?_
      rw [abs_mul, abs_mul, abs_mul (1 / 2), abs_of_pos D0, abs_of_pos (by norm_num : (0 : K) < 1 / 2)]
      refine add_le_add (mul_le_mul_of_nonneg_right e3 D0.le) ?_
      exact mul_le_mul (by linarith) hd2 (abs_nonneg _) (by positivity)
    have h2 : 3 / 4 * M * (A.u * (7 * D + 2 * C)) ≤ -den * (A.u * (7 * D + 2 * C)) :=
      mul_le_mul_of_nonneg_right hdenM (by positivity)
    have h3 : 0 ≤ A.u * M * D := by positivity
    have h4 : 0 ≤ A.u * M * C := by positivity
    have h5 : |(half - 1 / 2 * x) * D + 1 / 2 * x * (den + D)| ≤ -den * (A.u * (7 * D + 2 * C)) := by
      refine h1.trans (le_trans ?_ h2)
      linarith [show 3 / 4 * M * (A.u * (7 * D + 2 * C)) = 21 / 4 * (A.u * M * D) +
        3 / 2 * (A.u * M * C) by ring, show 5 / 2 * A.u * M * D + 1 / 2 * M * (2 * A.u * C + 3 * A.u * D)
        = 4 * (A.u * M * D) + A.u * M * C by ring]
    calc _ ≤ -den * (A.u * (7 * D + 2 * C)) * D := mul_le_mul_of_nonneg_right h5 D0.le
      _ = _ := by ring
  have e4 : |d - half / den| ≤ 2 * A.u := by
    have h1 : A.u * |half / den| ≤ A.u * 1 := mul_le_mul_of_nonneg_left (by linarith) u0.le
    linarith
  have e5 : |d - half / den| ≤ A.u * (1 / 2 + 4 * A.u) + A.u := by
    have h1 : A.u * |half / den| ≤ A.u * (1 / 2 + 4 * A.u) := mul_le_mul_of_nonneg_left hX u0.le
    linarith
  constructor
  · have := abs_add_le (d - half / den) (half / den)
    rw [sub_add_cancel] at this
    have p1 : 0 ≤ A.u * (1 - 8 * A.u) := mul_nonneg u0.le (by linarith)
    linarith [show A.u * (1 / 2 + 4 * A.u) = A.u - 1 / 2 * (A.u * (1 - 8 * A.u)) by ring]
  · have h1 := abs_add_le (d - half / den) (half / den - 1 / 2 * x / -D)
    rw [sub_add_sub_cancel] at h1
    have h2 := mul_le_mul_of_nonneg_right h1 D0.le
    have h3 := mul_le_mul_of_nonneg_right e4 D0.le
    linarith [add_mul |d - half / den| |half / den - 1 / 2 * x / -D| D]

/-- The height, rounded. -/
theorem height_spec (x M D c dmx g d gd m d₀ : K) (hx : |x| ≤ M) (M0 : 0 < M) (hMD : M ≤ D)
    (hη : A.eta ≤ A.u * M)
    (e1 : |dmx - x| ≤ A.u * M) (hdmx : |dmx| ≤ (1 + A.u) * M)
    (eg : |g - 1 / 4 * dmx| ≤ A.u * |1 / 4 * dmx| + A.eta) (hd : |d| ≤ 1 / 2 + 6 * A.u)
    (hdd : |d - d₀| * D ≤ A.u * (9 * D + 2 * |c|))
    (egd : |gd - g * d| ≤ A.u * |g * d| + A.eta) (em : |m - (c - gd)| ≤ A.u * |c - gd|) :
    |m - (c - 1 / 4 * x * d₀)| ≤ A.u * (8 * M + 2 * |c|) := by
  have u0 := A.u_pos
  have u8 := A.u_le
  have D0 : 0 < D := M0.trans_le hMD
  have c0 := abs_nonneg c
  have p0 : 0 ≤ A.u * M := by positivity
  have p1 : 0 ≤ A.u * |c| := by positivity
  have p3 : A.u * (A.u * M) ≤ 1 / 8 * (A.u * M) := mul_le_mul_of_nonneg_right u8 p0
  have p4 : A.u * M ≤ 1 / 8 * M := mul_le_mul_of_nonneg_right u8 M0.le
  rw [abs_mul, abs_of_pos (by norm_num : (0 : K) < 1 / 4)] at eg
  have q1 : A.u * |dmx| ≤ A.u * ((1 + A.u) * M) := mul_le_mul_of_nonneg_left hdmx u0.le
  have eg' : |g - 1 / 4 * dmx| ≤ 3 / 2 * A.u * M := by linarith
  have hg : |g| ≤ 1 / 2 * M := by
    have h2 := abs_add_le (g - 1 / 4 * dmx) (1 / 4 * dmx)
    rw [sub_add_cancel, abs_mul (1 / 4), abs_of_pos (by norm_num : (0 : K) < 1 / 4)] at h2
    linarith
  have hd' : |d| ≤ 5 / 4 := by linarith
  have hgd : |g * d| ≤ 5 / 8 * M := by
    rw [abs_mul]
    have := mul_le_mul hg hd' (abs_nonneg _) (by positivity)
    linarith
  have q2 : A.u * |g * d| ≤ A.u * (5 / 8 * M) := mul_le_mul_of_nonneg_left hgd u0.le
  have e6 : |gd - g * d| ≤ 13 / 8 * A.u * M := by linarith
  have hgd' : |gd| ≤ M := by
    have h2 := abs_add_le (gd - g * d) (g * d)
    rw [sub_add_cancel] at h2
    linarith
  have e7 : |m - (c - gd)| ≤ A.u * |c| + A.u * M := by
    refine em.trans ?_
    rw [← mul_add]
    apply mul_le_mul_of_nonneg_left _ u0.le
    have := abs_sub c gd
    linarith
  have k1 : |(g - 1 / 4 * dmx) * d| ≤ 3 / 2 * A.u * M * (5 / 4) := by
    rw [abs_mul]
    exact mul_le_mul eg' hd' (abs_nonneg _) (by positivity)
  have k2 : |1 / 4 * (dmx - x) * d| ≤ 1 / 4 * (A.u * M) * (5 / 4) := by
    rw [abs_mul, abs_mul, abs_of_pos (by norm_num : (0 : K) < 1 / 4)]
    exact mul_le_mul (by linarith) hd' (abs_nonneg _) (by positivity)
  have k3 : |1 / 4 * x * (d - d₀)| ≤ 1 / 4 * (A.u * (9 * M + 2 * |c|)) := by
    rw [abs_mul, abs_mul, abs_of_pos (by norm_num : (0 : K) < 1 / 4), mul_assoc]
    apply mul_le_mul_of_nonneg_left _ (by norm_num)
    refine le_of_mul_le_mul_right ?_ D0
    calc |x| * |d - d₀| * D = |x| * (|d - d₀| * D) := by ring
      _ ≤ |x| * (A.u * (9 * D + 2 * |c|)) := mul_le_mul_of_nonneg_left hdd (abs_nonneg _)
      _ ≤ A.u * (9 * M + 2 * |c|) * D := by
        have q1 : |x| * (A.u * D) ≤ M * (A.u * D) := mul_le_mul_of_nonneg_right hx (by positivity)
        have q2 : |x| * (A.u * |c|) ≤ D * (A.u * |c|) :=
          mul_le_mul_of_nonneg_right (hx.trans hMD) (by positivity)
        linarith
  rw [show m - (c - 1 / 4 * x * d₀) = (m - (c - gd)) - (gd - g * d) -
    ((g - 1 / 4 * dmx) * d + 1 / 4 * (dmx - x) * d + 1 / 4 * x * (d - d₀)) by ring]
  have t1 := abs_sub (m - (c - gd) - (gd - g * d))
    ((g - 1 / 4 * dmx) * d + 1 / 4 * (dmx - x) * d + 1 / 4 * x * (d - d₀))
  have t2 := abs_sub (m - (c - gd)) (gd - g * d)
  have t3 := abs_add_three ((g - 1 / 4 * dmx) * d) (1 / 4 * (dmx - x) * d) (1 / 4 * x * (d - d₀))
  linarith

/-- The offset and the height of the vertex. -/
theorem vertexF_spec (l c r : K) (rl : A.Rep l) (rc : A.Rep c) (rr : A.Rep r) (hl : l < c) (hr : r < c)
    (hη : A.eta ≤ A.u * max (c - l) (c - r)) :
    ∃ d m d₀ m₀, vertexF A l c r = some (d, m) ∧ Sms.vertex l c r = some (d₀, m₀) ∧ A.Rep d ∧ A.Rep m ∧
      |d| ≤ 1 / 2 + 6 * A.u ∧ c ≤ m ∧
      |d - d₀| * ((c - l) + (c - r)) ≤ A.u * (9 * ((c - l) + (c - r)) + 2 * |c|) ∧
      |m - m₀| ≤ A.u * (8 * max (c - l) (c - r) + 2 * |c|) := by
  obtain ⟨den, hden, hd1, hd2⟩ := den_spec A l c r rl rc rr hl hr
  have a0 : 0 < c - l := by linarith
  have b0 : 0 < c - r := by linarith
  have M0 : 0 < max (c - l) (c - r) := lt_max_of_lt_left a0
  have hMD : max (c - l) (c - r) ≤ (c - l) + (c - r) := by
    rcases le_total (c - l) (c - r) with h | h
    · rw [max_eq_right h]; linarith
    · rw [max_eq_left h]; linarith
  have hx : |l - r| ≤ max (c - l) (c - r) := by
    rw [abs_le]
    have h1 := le_max_left (c - l) (c - r)
    have h2 := le_max_right (c - l) (c - r)
    constructor <;> linarith
  have hD : l - 2 * c + r = -((c - l) + (c - r)) := by ring
  have hDneg : l - 2 * c + r < 0 := by linarith
  have hden0 : den < 0 := by
    have h1 : 0 < 1 - A.u := by have := A.u_le; linarith
    have : 0 < (1 - A.u) ^ 2 * max (c - l) (c - r) := mul_pos (pow_pos h1 2) M0
    linarith
  have e1 : |A.sub l r - (l - r)| ≤ A.u * |l - r| := errSub rl rr
  have e1' : |A.sub l r - (l - r)| ≤ A.u * max (c - l) (c - r) :=
    e1.trans (mul_le_mul_of_nonneg_left hx u_nonneg)
  obtain ⟨h1, h2, h3⟩ := half_spec A (l - r) _ (A.sub l r) (A.mul (1 / 2) (A.sub l r)) hx M0 hη e1
    (A.err _)
  obtain ⟨h4, h5⟩ := quot_spec A (l - r) _ _ |c| (A.mul (1 / 2) (A.sub l r)) den
    (A.div (A.mul (1 / 2) (A.sub l r)) den) hx M0 hMD (abs_nonneg _) hd1
    (by rw [hD, sub_neg_eq_add] at hd2; exact hd2) h2 h3 (A.err _)
  have hg : A.mul (A.mul (1 / 4) (A.sub l r)) (A.div (A.mul (1 / 2) (A.sub l r)) den) ≤ 0 := by
    apply rnd_nonpos
    rcases le_total 0 (A.sub l r) with h | h
    · exact mul_nonpos_of_nonneg_of_nonpos (rnd_nonneg (by linarith))
        (rnd_nonpos (div_nonpos_of_nonneg_of_nonpos (rnd_nonneg (by linarith)) hden0.le))
    · exact mul_nonpos_of_nonpos_of_nonneg (rnd_nonpos (by linarith))
        (rnd_nonneg (div_nonneg_of_nonpos (rnd_nonpos (by linarith)) hden0.le))
  refine ⟨A.div (A.mul (1 / 2) (A.sub l r)) den,
    A.sub c (A.mul (A.mul (1 / 4) (A.sub l r)) (A.div (A.mul (1 / 2) (A.sub l r)) den)),
    1 / 2 * (l - r) / (l - 2 * c + r), c - 1 / 4 * (l - r) * (1 / 2 * (l - r) / (l - 2 * c + r)),
    ?_, ?_, rnd_rep _, rnd_rep _, h4, ?_, ?_, ?_⟩
  · unfold vertexF
    simp only [hden, if_neg hden0.ne]
  · unfold Sms.vertex
    simp only [if_neg hDneg.ne]
  · exact le_rnd (by linarith) rc
  · rw [hD]
    exact h5
  · have := height_spec A (l - r) _ _ c (A.sub l r) (A.mul (1 / 4) (A.sub l r)) _ _
      (A.sub c (A.mul (A.mul (1 / 4) (A.sub l r)) (A.div (A.mul (1 / 2) (A.sub l r)) den))) _
      hx M0 hMD hη e1' h1 (A.err _) h4 h5 (A.err _) (errSub rc (rnd_rep _))
    rw [hD]
    exact this

/-- One refined peak. -/
theorem refineOneF_spec (mx px : List K) (t : Option K) (hl : px.length = mx.length)
    (hrep : ∀ x ∈ mx, A.Rep x) (hN : (mx.length : K) * A.u ≤ 1 / 16)
    (hη : ∀ (i : Nat) (a b : K), mx[i]? = some a → mx[i + 1]? = some b → a ≠ b → A.eta ≤ A.u * |b - a|)
    (p : Nat) (hp : Sms.IsPeak mx t p) :
    ∃ (loc m a b c loc₀ m₀ ph : K), refineOneF A mx p = .ok (some (loc, m)) ∧
      mx[p - 1]? = some a ∧ mx[p]? = some b ∧ mx[p + 1]? = some c ∧ a < b ∧ c < b ∧
      A.Rep loc ∧ A.Rep m ∧ |loc - (p : K)| ≤ 1 / 2 + A.u * (p + 7) ∧ b ≤ m ∧
      Sms.refineOne mx px p = .ok (some (loc₀, m₀, ph)) ∧
      |loc - loc₀| ≤ A.u * (p + 10 + 2 * |b| / ((b - a) + (b - c))) ∧
      |m - m₀| ≤ A.u * (8 * max (b - a) (b - c) + 2 * |b|) := by
  obtain ⟨l', m', ph, _, hr, -⟩ := Sms.refineOne_spec mx px t hl p hp
  obtain ⟨a, b, c, h1, ha, hb, hc, hab, hcb, _⟩ := hp
  have hη' : A.eta ≤ A.u * max (b - a) (b - c) := by
    have := hη (p - 1) a b ha (by rwa [Nat.sub_add_cancel h1]) hab.ne
    rw [abs_of_pos (sub_pos.2 hab)] at this
    exact this.trans (mul_le_mul_of_nonneg_left (le_max_left _ _) u_nonneg)
  obtain ⟨d, m, d₀, m₀, v1, v2, v3, v4, v5, v6, v7, v8⟩ := vertexF_spec A a b c
    (hrep a (List.mem_of_getElem? ha)) (hrep b (List.mem_of_getElem? hb))
    (hrep c (List.mem_of_getElem? hc)) hab hcb hη'
  have hi1 : Np.index mx (Int.ofNat p - 1) = .ok a := by
    rw [show Int.ofNat p - 1 = Int.ofNat (p - 1) by simp; omega, Np.index_ofNat _ _ _ ha]
  have hi2 : Np.index mx (Int.ofNat p + 1) = .ok c := by
    rw [show Int.ofNat p + 1 = Int.ofNat (p + 1) by simp, Np.index_ofNat _ _ _ hc]
  have hexact : Sms.refineOne mx px p = .ok (some ((p : K) + d₀, m₀, ph)) := by
    rw [hr]
    unfold Sms.refineOne at hr
    rw [hi1, hi2, Np.index_ofNat _ _ _ hb] at hr
    simp only [v2] at hr
    split at hr
    · simp at hr
    · simp only [Except.ok.injEq, Option.some.injEq, Prod.mk.injEq] at hr
      obtain ⟨rfl, rfl, -⟩ := hr
      rfl
  have hlen := Sms.getElem?_lt' hc
  have u0 := A.u_pos
  have u8 := A.u_le
  have hpN : (p : K) ≤ mx.length := by exact_mod_cast (by omega : p ≤ mx.length)
  have h3N : (3 : K) ≤ mx.length := by exact_mod_cast (by omega : 3 ≤ mx.length)
  have hpu : (p : K) * A.u ≤ 1 / 16 := (mul_le_mul_of_nonneg_right hpN u0.le).trans hN
  have h3u : (3 : K) * A.u ≤ 1 / 16 := (mul_le_mul_of_nonneg_right h3N u0.le).trans hN
  have p0 : (0 : K) ≤ p := Nat.cast_nonneg _
  have hrp : A.Rep (p : K) := by
    have := A.int (p : ℤ) (by
      rw [Int.cast_natCast, abs_of_nonneg p0]
      linarith)
    simpa [Rep] using this
  have es : |A.add p d - (p + d)| ≤ A.u * (p + 1) := by
    refine (A.errAdd _ _ hrp v3).trans (mul_le_mul_of_nonneg_left ?_ u0.le)
    have := abs_add_le (p : K) d
    rw [abs_of_nonneg p0] at this
    linarith
  have D0 : 0 < (b - a) + (b - c) := by linarith
  refine ⟨A.add p d, m, a, b, c, p + d₀, m₀, ph, ?_, ha, hb, hc, hab, hcb, rnd_rep _, v4, ?_, v6,
    hexact, ?_, v8⟩
  · unfold refineOneF
    rw [hi1, hi2, Np.index_ofNat _ _ _ hb]
    simp only [v1, rnd_of hrp]
  · have := abs_add_le (A.add p d - (p + d)) d
    rw [show A.add (p : K) d - (p + d) + d = A.add p d - p by ring] at this
    linarith
  · have h := abs_add_le (A.add p d - (p + d)) (d - d₀)
    rw [show A.add (p : K) d - (p + d) + (d - d₀) = A.add p d - (p + d₀) by ring] at h
    have h2 : |d - d₀| ≤ A.u * (9 + 2 * |b| / ((b - a) + (b - c))) := by
      refine le_of_mul_le_mul_right (v7.trans (le_of_eq ?_)) D0
      have := D0.ne'
      field_simp
    calc _ ≤ _ := h
      _ ≤ A.u * (p + 1) + A.u * (9 + 2 * |b| / ((b - a) + (b - c))) := add_le_add es h2
      _ = _ := by ring

theorem peakRefineF_spec (mx : List K) (f : Nat → Option (K × K)) : ∀ (ps : List Nat),
    (∀ p ∈ ps, refineOneF A mx p = .ok (f p)) → peakRefineF A mx ps = .ok (ps.map f) := by
  intro ps
  induction ps with
  | nil => intro _; rfl
  | cons p ps ih =>
    intro h
    rw [peakRefineF, h p (by simp), ih (fun q hq => h q (by simp [hq]))]
    rfl

/-- Two peaks are not adjacent. -/
theorem peaks_apart {mx : List K} {t : Option K} {p q : Nat} (hp : Sms.IsPeak mx t p)
    (hq : Sms.IsPeak mx t q) (h : p < q) : p + 2 ≤ q := by
  by_contra hc
  obtain rfl : q = p + 1 := by omega
  obtain ⟨_, b, c, _, _, h2, h3, _, h5, _⟩ := hp
  obtain ⟨a', b', _, _, g1, g2, _, g4, _⟩ := hq
  rw [Nat.add_sub_cancel, h2] at g1
  rw [h3] at g2
  cases g1
  cases g2
  exact absurd h5 (not_lt.2 g4.le)

theorem rep_pow_two {x : K} (h : A.Rep x) : ∀ k : Nat, A.Rep (2 ^ k * x) := by
  intro k
  induction k with
  | zero => simpa using h
  | succ k ih =>
    have := rep_double ih
    rwa [← mul_assoc, ← pow_succ'] at this

end Verif.Float
