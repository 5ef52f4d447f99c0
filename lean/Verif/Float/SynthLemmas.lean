import Mathlib.Algebra.BigOperators.Group.List.Basic
import Mathlib.Algebra.Order.BigOperators.Group.List
import Mathlib.Analysis.SpecialFunctions.Trigonometric.Bounds
import Mathlib.Analysis.SpecialFunctions.Trigonometric.Deriv
import Verif.Float.SynthModel

/-!
# Error analysis of the additive synthesis
-/

set_option autoImplicit false
set_option linter.unusedSectionVars false
set_option linter.unusedSimpArgs false

namespace Verif.Float

open Arith

section Dot

variable {K : Type} [Field K] [LinearOrder K] [IsStrictOrderedRing K] (A : Arith K)

/-- Sum of the products. -/
def dotSum (l : List (K × K)) : K := (l.map fun p => p.1 * p.2).sum

/-- Sum of the absolute products. -/
def absSum (l : List (K × K)) : K := (l.map fun p => |p.1 * p.2|).sum

theorem absSum_nonneg (l : List (K × K)) : 0 ≤ absSum l := by
  apply List.sum_nonneg
  intro x hx
  obtain ⟨p, -, rfl⟩ := List.mem_map.1 hx
  exact abs_nonneg _

theorem abs_dotSum (l : List (K × K)) : |dotSum l| ≤ absSum l := by
  induction l with
  | nil => simp [dotSum, absSum]
  | cons p l ih =>
    simp only [dotSum, absSum, List.map_cons, List.sum_cons] at ih ⊢
    exact (abs_add_le _ _).trans (by linarith)

theorem one_le_pow (n : Nat) : 1 ≤ (1 + A.u) ^ n := one_le_pow₀ (by linarith [A.u_pos])

theorem dot_err {l : List (K × K)} {s : K} (h : DotF A l s) : A.Rep s ∧
    |s - dotSum l| ≤ ((1 + A.u) ^ l.length - 1) * absSum l + l.length * (1 + A.u) ^ l.length * A.eta := by
  have u0 := A.u_pos
  have η0 := A.eta_nonneg
  induction h with
  | nil => exact ⟨rep_zero, by simp [dotSum, absSum]⟩
  | mul a b =>
    refine ⟨rnd_rep _, ?_⟩
    have := A.err (a * b)
    have h2 := mul_nonneg u0.le η0
    simp only [dotSum, absSum, List.map_cons, List.map_nil, List.sum_cons, List.sum_nil, add_zero,
      List.length_cons, List.length_nil, zero_add, pow_one, Nat.cast_one, one_mul, add_sub_cancel_left]
    show |A.rnd (a * b) - _| ≤ _
    linarith
  | @fma a b l s _ ih =>
    refine ⟨rnd_rep _, ?_⟩
    obtain ⟨-, ih⟩ := ih
    have hT := absSum_nonneg l
    have hS := abs_dotSum l
    have hp := one_le_pow A l.length
    have e1 := A.err (a * b + s)
    have hn : (0 : K) ≤ l.length := Nat.cast_nonneg _
    simp only [dotSum, absSum, List.map_cons, List.sum_cons, List.length_cons, Nat.cast_add,
      Nat.cast_one, pow_succ] at ih hT hS ⊢
    generalize (l.map fun p => p.1 * p.2).sum = S at *
    generalize (l.map fun p => |p.1 * p.2|).sum = T at *
    generalize (1 + A.u) ^ l.length = p at *
    generalize (l.length : K) = n at *
    generalize a * b = ab at *
    have h1 : |ab + s| ≤ |ab| + T + |s - S| := by
      have := abs_add_le (ab + S) (s - S)
      rw [show ab + S + (s - S) = ab + s by ring] at this
      linarith [abs_add_le ab S]
    have h2 : |A.rnd (ab + s) - (ab + S)| ≤ A.u * |ab + s| + A.eta + |s - S| := by
      have := abs_add_le (A.rnd (ab + s) - (ab + s)) (s - S)
      rw [show A.rnd (ab + s) - (ab + s) + (s - S) = A.rnd (ab + s) - (ab + S) by ring] at this
      linarith
    have h3 := mul_le_mul_of_nonneg_left h1 u0.le
    have h4 := mul_le_mul_of_nonneg_left ih (by linarith : (0 : K) ≤ 1 + A.u)
    have h5 : A.u * |ab| ≤ (p * (1 + A.u) - 1) * |ab| := by
      apply mul_le_mul_of_nonneg_right _ (abs_nonneg _)
      nlinarith
    have h6 : A.eta ≤ p * (1 + A.u) * A.eta := by
      have : 1 ≤ p * (1 + A.u) := by nlinarith
      have := mul_le_mul_of_nonneg_right this η0
      linarith
    linarith
  | @add l l' s s' _ _ ih ih' =>
    refine ⟨rnd_rep _, ?_⟩
    obtain ⟨r, ih⟩ := ih
    obtain ⟨r', ih'⟩ := ih'
    by_cases hl : l = []
    · subst hl
      have : s = 0 := by simpa [dotSum, absSum] using ih
      subst this
      have : A.add 0 s' = s' := by
        show A.rnd (0 + s') = s'
        rw [zero_add, r']
      rw [this]
      exact ih'
    by_cases hl' : l' = []
    · subst hl'
      have : s' = 0 := by simpa [dotSum, absSum] using ih'
      subst this
      have : A.add s 0 = s := by
        show A.rnd (s + 0) = s
        rw [add_zero, r]
      rw [this, List.append_nil]
      exact ih
    have hT := absSum_nonneg l
    have hT' := absSum_nonneg l'
    have hS := abs_dotSum l
    have hS' := abs_dotSum l'
    have hpow : ∀ m : List (K × K), m ≠ [] → 1 + A.u ≤ (1 + A.u) ^ m.length := by
      intro m hm
      obtain ⟨k, hk⟩ := Nat.exists_eq_succ_of_ne_zero (by simpa using hm : m.length ≠ 0)
      rw [hk, pow_succ]
      nlinarith [one_le_pow A k]
    have hp := hpow l hl
    have hp' := hpow l' hl'
    have e1 := A.errAdd s s' r r'
    have hn : (0 : K) ≤ l.length := Nat.cast_nonneg _
    have hn' : (0 : K) ≤ l'.length := Nat.cast_nonneg _
    have eS : dotSum (l ++ l') = dotSum l + dotSum l' := by simp [dotSum]
    have eT : absSum (l ++ l') = absSum l + absSum l' := by simp [absSum]
    rw [eS, eT, List.length_append, pow_add, Nat.cast_add]
    show |A.rnd (s + s') - _| ≤ _
    generalize dotSum l = S at *
    generalize dotSum l' = S' at *
    generalize absSum l = T at *
    generalize absSum l' = T' at *
    generalize (1 + A.u) ^ l.length = p at *
    generalize (1 + A.u) ^ l'.length = p' at *
    generalize (l.length : K) = n at *
    generalize (l'.length : K) = n' at *
    have h1 : |s + s'| ≤ T + T' + |s - S| + |s' - S'| := by
      have := abs_add_le (S + S') ((s - S) + (s' - S'))
      rw [show S + S' + ((s - S) + (s' - S')) = s + s' by ring] at this
      linarith [abs_add_le S S', abs_add_le (s - S) (s' - S')]
    have h2 : |A.rnd (s + s') - (S + S')| ≤ A.u * |s + s'| + |s - S| + |s' - S'| := by
      have := abs_add_le (A.rnd (s + s') - (s + s')) ((s - S) + (s' - S'))
      rw [show A.rnd (s + s') - (s + s') + ((s - S) + (s' - S')) = A.rnd (s + s') - (S + S') by ring]
        at this
      linarith [abs_add_le (s - S) (s' - S')]
    have h3 := mul_le_mul_of_nonneg_left h1 u0.le
    have h4 := mul_le_mul_of_nonneg_left ih (by linarith : (0 : K) ≤ 1 + A.u)
    have h4' := mul_le_mul_of_nonneg_left ih' (by linarith : (0 : K) ≤ 1 + A.u)
    have p0 : 0 ≤ p := by linarith
    have p0' : 0 ≤ p' := by linarith
    have h5 : (1 + A.u) * p ≤ p * p' := by nlinarith
    have h5' : (1 + A.u) * p' ≤ p * p' := by nlinarith
    have h6 := mul_le_mul_of_nonneg_right h5 hT
    have h6' := mul_le_mul_of_nonneg_right h5' hT'
    have h7 := mul_le_mul_of_nonneg_right h5 (mul_nonneg hn η0)
    have h7' := mul_le_mul_of_nonneg_right h5' (mul_nonneg hn' η0)
    linarith
  | @perm l l' s hp _ ih =>
    have e1 : dotSum l = dotSum l' := (hp.map _).sum_eq
    have e2 : absSum l = absSum l' := (hp.map _).sum_eq
    rw [← e1, ← e2, ← hp.length_eq]
    exact ih

theorem pow_le {n : Nat} (h : (n : K) * A.u ≤ 1 / 2) : (1 + A.u) ^ n ≤ 1 + 2 * n * A.u := by
  have u0 := A.u_pos
  induction n with
  | zero => simp
  | succ n ih =>
    push_cast at h ⊢
    have h1 : (n : K) * A.u ≤ 1 / 2 := by linarith
    have := mul_le_mul_of_nonneg_right (ih h1) (by linarith : (0 : K) ≤ 1 + A.u)
    have h2 := mul_le_mul_of_nonneg_right h1 u0.le
    rw [pow_succ]
    linarith

/-- Error of a dot product of up to `1 / (2 u)` elements, in any order. -/
theorem dot_bound {l : List (K × K)} {s : K} (h : DotF A l s) (hn : (l.length : K) * A.u ≤ 1 / 2) :
    |s - dotSum l| ≤ 2 * l.length * A.u * absSum l + 2 * l.length * A.eta := by
  have h1 := (dot_err A h).2
  have h2 := pow_le A hn
  have h3 := mul_le_mul_of_nonneg_right h2 (absSum_nonneg l)
  have h4 : (l.length : K) * A.eta * (1 + A.u) ^ l.length ≤ l.length * A.eta * 2 :=
    mul_le_mul_of_nonneg_left (by linarith) (mul_nonneg (Nat.cast_nonneg _) A.eta_nonneg)
  linarith

end Dot

/-! ### One mode -/

variable (A : Arith ℝ)

/-- Rounded product of an inexact factor. -/
theorem mul_err {x x₀ y e : ℝ} (h : |x - x₀| ≤ e) :
    |A.mul x y - x₀ * y| ≤ A.u * (|x₀ * y| + e * |y|) + A.eta + e * |y| := by
  have h1 := A.err (x * y)
  have h2 : |x * y - x₀ * y| ≤ e * |y| := by
    rw [← sub_mul, abs_mul]
    exact mul_le_mul_of_nonneg_right h (abs_nonneg _)
  have h3 := abs_add_le (A.rnd (x * y) - x * y) (x * y - x₀ * y)
  rw [sub_add_sub_cancel] at h3
  have h4 := abs_add_le (x * y - x₀ * y) (x₀ * y)
  rw [sub_add_cancel] at h4
  have h5 := mul_le_mul_of_nonneg_left (h4.trans (add_le_add_left h2 _)) A.u_pos.le
  show |A.rnd (x * y) - _| ≤ _
  linarith

theorem phase_err {twoPi t : ℝ} (hpi : |twoPi - 2 * Real.pi| ≤ A.u * (2 * Real.pi)) (m : ModeF)
    (hphi : ∀ p, m.phi = some p → A.rnd p = p) :
    |phaseF A twoPi t m - (2 * Real.pi * t * m.f + m.phi.getD 0)| ≤
      A.u * (5 * (|2 * Real.pi * t * m.f|) + |m.phi.getD 0|) + 2 * A.eta * (1 + 2 * |m.f|) := by
  have u0 := A.u_pos
  have u8 := A.u_le
  have η0 := A.eta_nonneg
  have e1 := mul_err A (y := t) hpi
  have hP : A.u * (2 * Real.pi) * |t| = A.u * |2 * Real.pi * t| := by
    rw [abs_mul, abs_of_pos Real.two_pi_pos, mul_assoc]
  rw [hP] at e1
  have hQ : 0 ≤ A.u * |2 * Real.pi * t| := mul_nonneg u0.le (abs_nonneg _)
  have e1' : |A.mul twoPi t - 2 * Real.pi * t| ≤ (17 / 8) * (A.u * |2 * Real.pi * t|) + A.eta := by
    have := mul_le_mul_of_nonneg_right u8 hQ
    linarith
  have e2 := mul_err A (y := m.f) e1'
  have hR : 0 ≤ A.u * |2 * Real.pi * t * m.f| := mul_nonneg u0.le (abs_nonneg _)
  have hF := abs_nonneg m.f
  have e3 : (17 / 8 * (A.u * |2 * Real.pi * t|) + A.eta) * |m.f| =
      17 / 8 * (A.u * |2 * Real.pi * t * m.f|) + A.eta * |m.f| := by
    rw [abs_mul (2 * Real.pi * t) m.f]
    ring
  rw [e3] at e2
  have h1 := mul_le_mul_of_nonneg_right u8 hR
  have h2 : A.u * (A.eta * |m.f|) ≤ 1 / 8 * (A.eta * |m.f|) :=
    mul_le_mul_of_nonneg_right u8 (mul_nonneg η0 hF)
  have hηF := mul_nonneg η0 hF
  have e4 : |A.mul (A.mul twoPi t) m.f - 2 * Real.pi * t * m.f| ≤
      7 / 2 * (A.u * |2 * Real.pi * t * m.f|) + A.eta * (1 + 9 / 8 * |m.f|) := by linarith
  unfold phaseF
  cases h : m.phi with
  | none =>
    simp only [Option.getD_none, add_zero, abs_zero]
    linarith
  | some p =>
    simp only [Option.getD_some]
    have e5 := A.errAdd (A.mul (A.mul twoPi t) m.f) p (rnd_rep _) (hphi p h)
    generalize A.mul (A.mul twoPi t) m.f = w at *
    generalize 2 * Real.pi * t * m.f = P at *
    have h3 := abs_add_le (A.rnd (w + p) - (w + p)) (w - P)
    rw [show A.rnd (w + p) - (w + p) + (w - P) = A.rnd (w + p) - (P + p) by ring] at h3
    have h4 : |w + p| ≤ |P| + |p| + |w - P| := by
      have := abs_add_le (P + p) (w - P)
      rw [show P + p + (w - P) = w + p by ring] at this
      linarith [abs_add_le P p]
    have h5 := mul_le_mul_of_nonneg_left h4 u0.le
    have h6 := mul_le_mul_of_nonneg_right u8 (abs_nonneg (w - P))
    show |A.rnd (w + p) - _| ≤ _
    linarith

theorem exponent_err (t : ℝ) (m : ModeF) :
    |A.mul t (A.div (-2) m.d) - t * (-2 / m.d)| ≤
      3 * A.u * (|t * (-2 / m.d)|) + A.eta * (1 + 2 * |t|) := by
  have u0 := A.u_pos
  have u8 := A.u_le
  have η0 := A.eta_nonneg
  have e1 := mul_err A (y := t) (A.err (-2 / m.d))
  rw [show A.mul (A.rnd (-2 / m.d)) t = A.mul t (A.div (-2) m.d) by
    show A.rnd (A.rnd (-2 / m.d) * t) = A.rnd (t * A.rnd (-2 / m.d))
    rw [mul_comm], mul_comm (-2 / m.d) t] at e1
  have e3 : (A.u * |-2 / m.d| + A.eta) * |t| = A.u * |t * (-2 / m.d)| + A.eta * |t| := by
    rw [abs_mul t]
    ring
  rw [e3] at e1
  have hR : 0 ≤ A.u * |t * (-2 / m.d)| := mul_nonneg u0.le (abs_nonneg _)
  have h1 := mul_le_mul_of_nonneg_right u8 hR
  have h2 := mul_nonneg η0 (abs_nonneg t)
  have h3 := mul_le_mul_of_nonneg_right u8 h2
  linarith

/-- The exponential of a slightly wrong number. -/
theorem exp_near {s s₀ e : ℝ} (h : |s - s₀| ≤ e) (he : e ≤ 1) :
    |Real.exp s - Real.exp s₀| ≤ 2 * e * Real.exp s₀ := by
  have e0 : Real.exp s - Real.exp s₀ = Real.exp s₀ * (Real.exp (s - s₀) - 1) := by
    rw [mul_sub, ← Real.exp_add, mul_one]
    congr 2
    ring
  have h1 := Real.abs_exp_sub_one_le (h.trans he)
  rw [e0, abs_mul, abs_of_pos (Real.exp_pos _)]
  have := mul_le_mul_of_nonneg_left (h1.trans (mul_le_mul_of_nonneg_left h two_pos.le))
    (Real.exp_pos s₀).le
  linarith

theorem cos_near (x y : ℝ) : |Real.cos x - Real.cos y| ≤ |x - y| := by
  rw [Real.cos_sub_cos, abs_mul, abs_mul, abs_neg, abs_two]
  have h1 := Real.abs_sin_le_one ((x + y) / 2)
  have h2 : |Real.sin ((x - y) / 2)| ≤ |(x - y) / 2| := Real.abs_sin_le_abs
  rw [abs_div, abs_two] at h2
  have h3 := abs_nonneg (Real.sin ((x - y) / 2))
  have h4 := mul_le_mul_of_nonneg_right h1 h3
  linarith

/-- The computed cosine and exponential: `κ` unit round-offs. -/
structure FunErr (cosF expF : ℝ → ℝ) (κ : ℝ) : Prop where
  kappa_nonneg : 0 ≤ κ
  cos_le : ∀ x, |cosF x| ≤ 1
  cos_err : ∀ x, |cosF x - Real.cos x| ≤ κ * A.u
  exp_err : ∀ x, |expF x - Real.exp x| ≤ κ * A.u * Real.exp x + A.eta

theorem mode_err {cosF expF : ℝ → ℝ} {κ twoPi t : ℝ} (hF : FunErr A cosF expF κ)
    (hpi : |twoPi - 2 * Real.pi| ≤ A.u * (2 * Real.pi)) (m : ModeF)
    (hphi : ∀ p, m.phi = some p → A.rnd p = p)
    (ht : 3 * A.u * (|t * (-2 / m.d)|) + A.eta * (1 + 2 * |t|) ≤ 1) :
    |modeF A cosF expF twoPi t m -
        Real.exp (t * (-2 / m.d)) * Real.cos (2 * Real.pi * t * m.f + m.phi.getD 0)| ≤
      Real.exp (t * (-2 / m.d)) * (A.u * (1 + 7 * κ + 5 * (|2 * Real.pi * t * m.f|) +
        12 * (|t * (-2 / m.d)|) + |m.phi.getD 0|) + A.eta * (6 + 8 * |t| + 4 * |m.f|)) + 3 * A.eta := by
  have u0 := A.u_pos
  have u8 := A.u_le
  have η0 := A.eta_nonneg
  have κ0 := hF.kappa_nonneg
  have p1 := phase_err A (t := t) hpi m hphi
  have p2 := cos_near (phaseF A twoPi t m) (2 * Real.pi * t * m.f + m.phi.getD 0)
  have p3 := hF.cos_err (phaseF A twoPi t m)
  have p4 := hF.cos_le (phaseF A twoPi t m)
  have d1 := exponent_err A t m
  have d2 := exp_near d1 ht
  have d3 := hF.exp_err (A.mul t (A.div (-2) m.d))
  have hE := Real.exp_pos (t * (-2 / m.d))
  unfold modeF decayF
  set s := A.mul t (A.div (-2) m.d)
  set s₀ := t * (-2 / m.d)
  set E := Real.exp s₀
  set es := 3 * A.u * |s₀| + A.eta * (1 + 2 * |t|)
  set θ := phaseF A twoPi t m
  set θ₀ := 2 * Real.pi * t * m.f + m.phi.getD 0
  set c := cosF θ
  set x := expF s
  -- the cosine
  have q1 : |c - Real.cos θ₀| ≤ κ * A.u + |θ - θ₀| := by
    have := abs_add_le (c - Real.cos θ) (Real.cos θ - Real.cos θ₀)
    rw [sub_add_sub_cancel] at this
    linarith
  -- the exponential
  have q2 : Real.exp s ≤ 3 * E := by
    have h1 := (abs_le.1 d2).2
    have h2 := mul_le_mul_of_nonneg_right ht hE.le
    linarith
  have q3 : |x - E| ≤ E * (2 * es + 3 * κ * A.u) + A.eta := by
    have h1 := abs_add_le (x - Real.exp s) (Real.exp s - E)
    rw [sub_add_sub_cancel] at h1
    have h2 := mul_le_mul_of_nonneg_left q2 (mul_nonneg κ0 u0.le)
    linarith
  -- the product
  have q4 : |x * c - E * Real.cos θ₀| ≤ |x - E| + E * (|c - Real.cos θ₀|) := by
    rw [show x * c - E * Real.cos θ₀ = (x - E) * c + E * (c - Real.cos θ₀) by ring]
    refine (abs_add_le _ _).trans ?_
    rw [abs_mul, abs_mul, abs_of_pos hE]
    have := mul_le_mul_of_nonneg_left p4 (abs_nonneg (x - E))
    linarith
  have q5 : |x * c| ≤ E + |x - E| := by
    rw [abs_mul]
    have h1 := mul_le_mul_of_nonneg_left p4 (abs_nonneg x)
    have h2 := abs_add_le (x - E) E
    rw [sub_add_cancel, abs_of_pos hE] at h2
    linarith
  have q6 := A.err (x * c)
  have q7 := mul_le_mul_of_nonneg_left q5 u0.le
  have q8 := mul_le_mul_of_nonneg_right u8 (abs_nonneg (x - E))
  have q9 := abs_add_le (A.rnd (x * c) - x * c) (x * c - E * Real.cos θ₀)
  rw [sub_add_sub_cancel] at q9
  have q10 := mul_le_mul_of_nonneg_left (q1.trans (add_le_add_right p1 _)) hE.le
  have es0 : 0 ≤ es := (abs_nonneg _).trans d1
  have q11 : 0 ≤ E * (2 * es + 3 * κ * A.u) := by positivity
  have q12 : |A.rnd (x * c) - E * Real.cos θ₀| ≤
      2 * (E * (2 * es + 3 * κ * A.u)) + 3 * A.eta + A.u * E + E * (|c - Real.cos θ₀|) := by
    linarith
  show |A.rnd (x * c) - _| ≤ _
  refine q12.trans ?_
  have e1 : E * (κ * A.u + (A.u * (5 * (|2 * Real.pi * t * m.f|) + |m.phi.getD 0|) +
      2 * A.eta * (1 + 2 * |m.f|))) + A.u * E + 2 * (E * (2 * es + 3 * κ * A.u)) =
      E * (A.u * (1 + 7 * κ + 5 * (|2 * Real.pi * t * m.f|) +
        12 * (|s₀|) + |m.phi.getD 0|) + A.eta * (6 + 8 * |t| + 4 * |m.f|)) := by
    simp only [es]
    ring
  linarith

end Verif.Float
