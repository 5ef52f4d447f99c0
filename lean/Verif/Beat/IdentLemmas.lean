import Mathlib.Algebra.Polynomial.Roots
import Mathlib.Analysis.SpecialFunctions.Complex.Log
import Mathlib.Data.Finsupp.Basic
import Mathlib.LinearAlgebra.Finsupp.LSum

/-!
# Sums of powers determine their terms

A finite sum of powers of complex numbers, known for as many exponents as there are terms, and the case of
the squared modulus of the sum of two damped oscillations.
-/

set_option autoImplicit false
set_option linter.unusedSectionVars false
set_option linter.unusedSimpArgs false

namespace Verif.Beat

open Polynomial in
/-- Coefficients on at most `N` points are zero if their first `N` moments are. -/
theorem moments_zero (D : ℂ →₀ ℂ) (N : Nat) (hN : D.support.card ≤ N)
    (h : ∀ n < N, (D.sum fun x c => c * x ^ n) = 0) : D = 0 := by
  ext x0
  by_contra hx
  have hx' : D x0 ≠ 0 := hx
  have hm : x0 ∈ D.support := Finsupp.mem_support_iff.2 hx'
  set P : ℂ[X] := ∏ x ∈ D.support.erase x0, (X - C x) with hP
  have hdeg : P.natDegree < N := by
    rw [hP, natDegree_prod_of_monic _ _ fun x _ => monic_X_sub_C x]
    simp only [natDegree_X_sub_C, Finset.sum_const, smul_eq_mul, mul_one]
    rw [Finset.card_erase_of_mem hm]
    have : 0 < D.support.card := Finset.card_pos.2 ⟨x0, hm⟩
    omega
  have h0 : ∑ x ∈ D.support, D x * P.eval x = 0 := by
    have : ∀ x, P.eval x = ∑ n ∈ Finset.range N, P.coeff n * x ^ n := fun x =>
      eval_eq_sum_range' hdeg x
    simp only [this, Finset.mul_sum]
    rw [Finset.sum_comm]
    apply Finset.sum_eq_zero
    intro n hn
    have := h n (Finset.mem_range.1 hn)
    simp only [Finsupp.sum] at this
    calc ∑ x ∈ D.support, D x * (P.coeff n * x ^ n) = P.coeff n * ∑ x ∈ D.support, D x * x ^ n := by
          rw [Finset.mul_sum]
          exact Finset.sum_congr rfl fun x _ => by ring
      _ = 0 := by rw [this, mul_zero]
  rw [← Finset.add_sum_erase _ _ hm] at h0
  have hz : ∑ x ∈ D.support.erase x0, D x * P.eval x = 0 := by
    apply Finset.sum_eq_zero
    intro x hx
    have : P.eval x = 0 := by
      rw [hP, eval_prod]
      exact Finset.prod_eq_zero hx (by simp)
    rw [this, mul_zero]
  rw [hz, add_zero] at h0
  rcases mul_eq_zero.1 h0 with h1 | h1
  · exact hx' h1
  · rw [hP, eval_prod, Finset.prod_eq_zero_iff] at h1
    obtain ⟨x, hx, h2⟩ := h1
    simp only [eval_sub, eval_X, eval_C, sub_eq_zero] at h2
    exact (Finset.mem_erase.1 hx).1 h2.symm

/-- Four points with coefficients: two on the real line and two conjugate ones. -/
noncomputable def points (x y : ℝ) (w : ℂ) (a b : ℝ) (c : ℂ) : ℂ →₀ ℂ :=
  Finsupp.single (x : ℂ) (a : ℂ) + Finsupp.single (y : ℂ) (b : ℂ) + Finsupp.single w c +
    Finsupp.single ((starRingEnd ℂ) w) ((starRingEnd ℂ) c)

theorem points_card (x y : ℝ) (w : ℂ) (a b : ℝ) (c : ℂ) : (points x y w a b c).support.card ≤ 4 := by
  have h1 : ∀ (u v : ℂ →₀ ℂ), (u + v).support.card ≤ u.support.card + v.support.card := fun u v =>
    (Finset.card_le_card Finsupp.support_add).trans (Finset.card_union_le _ _)
  have h2 : ∀ u v : ℂ, (Finsupp.single u v).support.card ≤ 1 := fun u v =>
    (Finset.card_le_card Finsupp.support_single_subset).trans (by simp)
  unfold points
  have := h1 (Finsupp.single (x : ℂ) (a : ℂ) + Finsupp.single (y : ℂ) (b : ℂ) + Finsupp.single w c)
    (Finsupp.single ((starRingEnd ℂ) w) ((starRingEnd ℂ) c))
  have := h1 (Finsupp.single (x : ℂ) (a : ℂ) + Finsupp.single (y : ℂ) (b : ℂ)) (Finsupp.single w c)
  have := h1 (Finsupp.single (x : ℂ) (a : ℂ)) (Finsupp.single (y : ℂ) (b : ℂ))
  have := h2 (x : ℂ) (a : ℂ)
  have := h2 (y : ℂ) (b : ℂ)
  have := h2 w c
  have := h2 ((starRingEnd ℂ) w) ((starRingEnd ℂ) c)
  omega

theorem points_sum (x y : ℝ) (w : ℂ) (a b : ℝ) (c : ℂ) (n : Nat) :
    ((points x y w a b c).sum fun z k => k * z ^ n) =
      ((a * x ^ n + b * y ^ n + 2 * (c * w ^ n).re : ℝ) : ℂ) := by
  have hadd : ∀ u v : ℂ →₀ ℂ, ((u + v).sum fun z k => k * z ^ n) =
      (u.sum fun z k => k * z ^ n) + v.sum fun z k => k * z ^ n := fun u v =>
    Finsupp.sum_add_index' (by simp) (by intros; ring)
  have hs : ∀ u v : ℂ, ((Finsupp.single u v).sum fun z k => k * z ^ n) = v * u ^ n := fun u v =>
    Finsupp.sum_single_index (by simp)
  unfold points
  rw [hadd, hadd, hadd, hs, hs, hs, hs]
  rw [← map_pow, ← map_mul]
  have : c * w ^ n + (starRingEnd ℂ) (c * w ^ n) = ((2 * (c * w ^ n).re : ℝ) : ℂ) := Complex.add_conj _
  push_cast at this ⊢
  linear_combination this

/-- Sums that agree for eight exponents have the same points. -/
theorem points_eq (x y x' y' : ℝ) (w w' : ℂ) (a b a' b' : ℝ) (c c' : ℂ) (N : Nat) (hN : 8 ≤ N)
    (h : ∀ n < N, a * x ^ n + b * y ^ n + 2 * (c * w ^ n).re =
      a' * x' ^ n + b' * y' ^ n + 2 * (c' * w' ^ n).re) :
    points x y w a b c = points x' y' w' a' b' c' := by
  rw [← sub_eq_zero]
  apply moments_zero _ N
  · have := Finset.card_le_card
      (Finsupp.support_sub (f := points x y w a b c) (g := points x' y' w' a' b' c'))
    have := Finset.card_union_le (points x y w a b c).support (points x' y' w' a' b' c').support
    have := points_card x y w a b c
    have := points_card x' y' w' a' b' c'
    omega
  · intro n hn
    rw [Finsupp.sum_sub_index (by intros; ring), points_sum, points_sum, h n hn, sub_self]

/-- The coefficient at a point of the upper half plane. -/
theorem points_upper (x y : ℝ) (w z : ℂ) (a b : ℝ) (c : ℂ) (hw : 0 < w.im) (hz : 0 < z.im) :
    points x y w a b c z = if w = z then c else 0 := by
  have h1 : (x : ℂ) ≠ z := by rintro rfl; simp at hz
  have h2 : (y : ℂ) ≠ z := by rintro rfl; simp at hz
  have h3 : (starRingEnd ℂ) w ≠ z := by
    rintro rfl
    simp only [Complex.conj_im] at hz
    linarith
  simp only [points, Finsupp.add_apply, Finsupp.single_apply, h1, h2, h3, if_false, zero_add, add_zero]

/-- The coefficient at a real point. -/
theorem points_real (x y u : ℝ) (w : ℂ) (a b : ℝ) (c : ℂ) (hw : 0 < w.im) :
    points x y w a b c (u : ℂ) = (((if x = u then a else 0) + if y = u then b else 0 : ℝ) : ℂ) := by
  have h1 : w ≠ (u : ℂ) := by rintro rfl; simp at hw
  have h2 : (starRingEnd ℂ) w ≠ (u : ℂ) := by
    intro h
    have := congrArg Complex.im h
    simp only [Complex.conj_im, Complex.ofReal_im] at this
    linarith
  simp only [points, Finsupp.add_apply, Finsupp.single_apply, h1, h2, if_false, add_zero,
    Complex.ofReal_inj]
  push_cast
  split_ifs <;> simp

/-- Equal points: the same one in the upper half plane, with the same coefficient, and the same
coefficients on the real line. -/
theorem points_inj (x y x' y' : ℝ) (w w' : ℂ) (a b a' b' : ℝ) (c c' : ℂ) (hw : 0 < w.im)
    (hw' : 0 < w'.im) (hc : c ≠ 0) (h : points x y w a b c = points x' y' w' a' b' c') :
    w = w' ∧ c = c' ∧ ∀ u : ℝ, ((if x = u then a else 0) + if y = u then b else 0) =
      ((if x' = u then a' else 0) + if y' = u then b' else 0) := by
  have h1 := DFunLike.congr_fun h w
  rw [points_upper _ _ _ _ _ _ _ hw hw, points_upper _ _ _ _ _ _ _ hw' hw, if_pos rfl] at h1
  by_cases hww : w' = w
  · rw [if_pos hww] at h1
    refine ⟨hww.symm, h1, fun u => ?_⟩
    have h2 := DFunLike.congr_fun h (u : ℂ)
    rw [points_real _ _ _ _ _ _ _ hw, points_real _ _ _ _ _ _ _ hw'] at h2
    exact_mod_cast h2
  · rw [if_neg hww] at h1
    exact absurd h1 hc

/-- A point of the upper half plane in polar form. -/
theorem polar_inj (r r' θ θ' : ℝ) (hr : 0 < r) (hr' : 0 < r') (h0 : 0 < θ) (hπ : θ < Real.pi)
    (h0' : 0 < θ') (hπ' : θ' < Real.pi)
    (h : (r : ℂ) * Complex.exp (θ * Complex.I) = r' * Complex.exp (θ' * Complex.I)) :
    r = r' ∧ θ = θ' := by
  constructor
  · have := congrArg norm h
    rw [norm_mul, norm_mul, Complex.norm_exp_ofReal_mul_I, Complex.norm_exp_ofReal_mul_I,
      Complex.norm_real, Complex.norm_real, mul_one, mul_one, Real.norm_of_nonneg hr.le,
      Real.norm_of_nonneg hr'.le] at this
    exact this
  · have := congrArg Complex.arg h
    rw [Complex.exp_mul_I, Complex.exp_mul_I,
      Complex.arg_mul_cos_add_sin_mul_I hr ⟨by linarith, hπ.le⟩,
      Complex.arg_mul_cos_add_sin_mul_I hr' ⟨by linarith, hπ'.le⟩] at this
    exact this

/-- The imaginary part in polar form. -/
theorem polar_im (r θ : ℝ) (hr : 0 < r) (h0 : 0 < θ) (hπ : θ < Real.pi) :
    0 < ((r : ℂ) * Complex.exp (θ * Complex.I)).im := by
  rw [Complex.im_ofReal_mul, Complex.exp_ofReal_mul_I_im]
  exact mul_pos hr (Real.sin_pos_of_pos_of_lt_pi h0 hπ)

/-- The squared modulus of two damped oscillations at time `n`: `A`, `B` are the amplitudes, `r`, `s` the
ratios of successive amplitudes, `θ` and `φ` the step and the start of the phase difference. -/
noncomputable def energySeq (A B r s θ φ : ℝ) (n : Nat) : ℝ :=
  A ^ 2 * (r ^ 2) ^ n + B ^ 2 * (s ^ 2) ^ n +
    2 * (((A * B : ℝ) : ℂ) * Complex.exp (φ * Complex.I) *
      (((r * s : ℝ) : ℂ) * Complex.exp (θ * Complex.I)) ^ n).re

/-- The imaginary part of the derivative times the conjugate, with the angular frequencies `g`, `k` and the
coefficient `κ` of the difference of phases. -/
noncomputable def turnSeq (A B r s θ φ g k : ℝ) (κ : ℂ) (n : Nat) : ℝ :=
  g * A ^ 2 * (r ^ 2) ^ n + k * B ^ 2 * (s ^ 2) ^ n +
    2 * (((A * B : ℝ) : ℂ) * Complex.exp (φ * Complex.I) * κ *
      (((r * s : ℝ) : ℂ) * Complex.exp (θ * Complex.I)) ^ n).re

variable {A B r s θ φ A' B' r' s' θ' φ' : ℝ}

theorem sq_eq_of_pos {x y : ℝ} (hx : 0 < x) (hy : 0 < y) : x ^ 2 = y ^ 2 ↔ x = y :=
  ⟨fun h => by nlinarith, fun h => by rw [h]⟩

/-- Eight values of the energy determine the amplitudes and their ratios, up to their order, the step and
the start of the phase difference. -/
theorem energy_inj (hA : 0 < A) (hB : 0 < B) (hr : 0 < r) (hs : 0 < s) (h0 : 0 < θ) (hπ : θ < Real.pi)
    (hA' : 0 < A') (hB' : 0 < B') (hr' : 0 < r') (hs' : 0 < s') (h0' : 0 < θ') (hπ' : θ' < Real.pi)
    (N : Nat) (hN : 8 ≤ N) (h : ∀ n < N, energySeq A B r s θ φ n = energySeq A' B' r' s' θ' φ' n) :
    θ = θ' ∧ Complex.exp (φ * Complex.I) = Complex.exp (φ' * Complex.I) ∧
      (A = A' ∧ B = B' ∧ r = r' ∧ s = s' ∨ A = B' ∧ B = A' ∧ r = s' ∧ s = r') := by
  have hP := points_eq _ _ _ _ _ _ _ _ _ _ _ _ N hN h
  have hAB := mul_pos hA hB
  have hAB' := mul_pos hA' hB'
  have hrs := mul_pos hr hs
  have hrs' := mul_pos hr' hs'
  obtain ⟨hw, hc, hu⟩ := points_inj _ _ _ _ _ _ _ _ _ _ _ _ (polar_im _ _ hrs h0 hπ)
    (polar_im _ _ hrs' h0' hπ')
    (mul_ne_zero (by exact_mod_cast hAB.ne') (Complex.exp_ne_zero _)) hP
  obtain ⟨e1, e2⟩ := polar_inj _ _ _ _ hrs hrs' h0 hπ h0' hπ' hw
  have e3 : A * B = A' * B' := by
    have := congrArg norm hc
    rw [norm_mul, norm_mul, Complex.norm_exp_ofReal_mul_I, Complex.norm_exp_ofReal_mul_I,
      Complex.norm_real, Complex.norm_real, mul_one, mul_one, Real.norm_of_nonneg hAB.le,
      Real.norm_of_nonneg hAB'.le] at this
    exact this
  have e4 : Complex.exp (φ * Complex.I) = Complex.exp (φ' * Complex.I) := by
    rw [e3] at hc
    exact mul_left_cancel₀ (by exact_mod_cast hAB'.ne') hc
  refine ⟨e2, e4, ?_⟩
  have pA := pow_pos hA 2
  have pB := pow_pos hB 2
  have pA' := pow_pos hA' 2
  have pB' := pow_pos hB' 2
  -- the ratios
  have k1 := hu (r' ^ 2)
  have k2 := hu (s' ^ 2)
  have k3 := hu (r ^ 2)
  have k4 := hu (s ^ 2)
  simp only [sq_eq_of_pos, hr, hs, hr', hs', if_true] at k1 k2 k3 k4
  by_cases hrs0 : r = s
  · subst hrs0
    have : r' = r := by
      by_contra hne
      have hne' : ¬ r = r' := fun e => hne e.symm
      rw [if_neg hne'] at k1
      split_ifs at k1 <;> linarith
    subst this
    have : s' = r' := by
      by_contra hne
      have hne' : ¬ r' = s' := fun e => hne e.symm
      simp only [hne', if_false] at k2
      linarith
    subst this
    simp only [if_true] at k1
    have : (A - A') * (A - B') = 0 := by nlinarith
    rcases mul_eq_zero.1 this with h | h
    · have : A = A' := by linarith
      subst this
      exact Or.inl ⟨rfl, mul_left_cancel₀ hA.ne' e3, rfl, rfl⟩
    · have : A = B' := by linarith
      subst this
      exact Or.inr ⟨rfl, mul_left_cancel₀ hA.ne' (by linarith), rfl, rfl⟩
  · have hsr : ¬ s = r := fun e => hrs0 e.symm
    by_cases h1 : r = r'
    · subst h1
      have : s = s' := mul_left_cancel₀ hr.ne' e1
      subst this
      simp only [hsr, if_false, if_true] at k1
      have : A ^ 2 = A' ^ 2 := by linarith
      have : A = A' := (sq_eq_of_pos hA hA').1 this
      subst this
      exact Or.inl ⟨rfl, mul_left_cancel₀ hA.ne' e3, rfl, rfl⟩
    · have h2 : s = r' := by
        by_contra hne
        rw [if_neg h1, if_neg hne] at k1
        split_ifs at k1 <;> linarith
      subst h2
      have : r = s' := mul_right_cancel₀ hs.ne' (by linarith)
      subst this
      simp only [hrs0, if_false, if_true] at k1
      have : B ^ 2 = A' ^ 2 := by linarith
      have : B = A' := (sq_eq_of_pos hB hA').1 this
      subst this
      exact Or.inr ⟨mul_right_cancel₀ hB.ne' (by linarith), rfl, rfl, rfl⟩

/-- With eight values of both sequences also the angular frequencies are determined, and the order of the
oscillations. -/
theorem turn_inj (hA : 0 < A) (hB : 0 < B) (hr : 0 < r) (hs : 0 < s) (h0 : 0 < θ) (hπ : θ < Real.pi)
    (hA' : 0 < A') (hB' : 0 < B') (hr' : 0 < r') (hs' : 0 < s') (h0' : 0 < θ') (hπ' : θ' < Real.pi)
    (g k g' k' δ δ' : ℝ) (hgk : k < g) (hd : g - k = g' - k')
    (hδ : r = s' → s = r' → δ = -δ' ∧ (δ = 0 → r = s))
    (N : Nat) (hN : 8 ≤ N) (h : ∀ n < N, energySeq A B r s θ φ n = energySeq A' B' r' s' θ' φ' n)
    (hg : ∀ n < N, turnSeq A B r s θ φ g k ⟨(g + k) / 2, δ⟩ n =
      turnSeq A' B' r' s' θ' φ' g' k' ⟨(g' + k') / 2, δ'⟩ n) :
    θ = θ' ∧ Complex.exp (φ * Complex.I) = Complex.exp (φ' * Complex.I) ∧
      A = A' ∧ B = B' ∧ r = r' ∧ s = s' ∧ g = g' ∧ k = k' := by
  obtain ⟨e1, e2, e3⟩ := energy_inj hA hB hr hs h0 hπ hA' hB' hr' hs' h0' hπ' N hN h
  have hP := points_eq _ _ _ _ _ _ _ _ _ _ _ _ N hN hg
  have hrs : r * s = r' * s' := by
    rcases e3 with ⟨-, -, a, b⟩ | ⟨-, -, a, b⟩ <;> rw [a, b]
    ring
  have hAB : A * B = A' * B' := by
    rcases e3 with ⟨a, b, -, -⟩ | ⟨a, b, -, -⟩ <;> rw [a, b]
    ring
  rw [← e1, ← e2, ← hrs, ← hAB] at hP
  have him := polar_im _ _ (mul_pos hr hs) h0 hπ
  have h1 := DFunLike.congr_fun hP (((r * s : ℝ) : ℂ) * Complex.exp (θ * Complex.I))
  rw [points_upper _ _ _ _ _ _ _ him him, points_upper _ _ _ _ _ _ _ him him, if_pos rfl,
    if_pos rfl] at h1
  have h2 := mul_left_cancel₀ (mul_ne_zero (by exact_mod_cast (mul_pos hA hB).ne')
    (Complex.exp_ne_zero _)) h1
  have h3 : (g + k) / 2 = (g' + k') / 2 := congrArg Complex.re h2
  have h4 : δ = δ' := congrArg Complex.im h2
  have hgg : g = g' := by linarith
  have hkk : k = k' := by linarith
  refine ⟨e1, e2, ?_⟩
  rcases e3 with ⟨a, b, c, d⟩ | ⟨a, b, c, d⟩
  · exact ⟨a, b, c, d, hgg, hkk⟩
  · obtain ⟨h5, h6⟩ := hδ c d
    have hrs0 : r = s := h6 (by linarith)
    have h7 := DFunLike.congr_fun hP ((r ^ 2 : ℝ) : ℂ)
    rw [points_real _ _ _ _ _ _ _ him, points_real _ _ _ _ _ _ _ him] at h7
    have h8 : r' = r := by rw [← d, hrs0]
    have h9 : s' = r := c.symm
    rw [h8, h9, ← hrs0, if_pos rfl, if_pos rfl, if_pos rfl, if_pos rfl, ← a, ← b, ← hgg, ← hkk] at h7
    have h10 : g * A ^ 2 + k * B ^ 2 = g * B ^ 2 + k * A ^ 2 := by exact_mod_cast h7
    have h11 : (g - k) * (A ^ 2 - B ^ 2) = 0 := by linarith
    rcases mul_eq_zero.1 h11 with h12 | h12
    · linarith
    · have : A = B := (sq_eq_of_pos hA hB).1 (by linarith)
      exact ⟨by rw [← b, this], by rw [← a, this], h8.symm, by rw [h9, hrs0], hgg, hkk⟩

end Verif.Beat
