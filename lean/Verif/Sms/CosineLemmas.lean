import Verif.Sms.CosineSpec
import Verif.Sms.DampedProps
import Mathlib.Algebra.Order.Ring.Pow

/-!
# Lemmas: spectra of damped sinusoids through windows with one cosine
-/

set_option autoImplicit false
set_option linter.unusedSectionVars false
set_option linter.unusedSimpArgs false

namespace Verif.Sms

open Verif.Tracker Verif.Learn Complex

/-- Sum of the powers of a root of unity. -/
theorem root_sum (n : Nat) (hn : 0 < n) (d : ℤ) (hd : ¬ (n : ℤ) ∣ d) :
    ∑ i ∈ Finset.range n, exp (2 * Real.pi * I * d * i / n) = 0 := by
  have hn' : (n : ℂ) ≠ 0 := by exact_mod_cast hn.ne'
  have h1 : ∀ i : Nat, exp (2 * Real.pi * I * d * i / n) = exp (2 * Real.pi * I * d / n) ^ i := by
    intro i
    rw [← Complex.exp_nat_mul]
    congr 1
    ring
  rw [Finset.sum_congr rfl fun i _ => h1 i]
  have hne : exp (2 * Real.pi * I * d / n) ≠ 1 := by
    intro h
    obtain ⟨m, hm⟩ := Complex.exp_eq_one_iff.1 h
    apply hd
    refine ⟨m, ?_⟩
    have h2 : (d : ℂ) = n * m := by
      have h3 : (2 * Real.pi * I : ℂ) ≠ 0 := Complex.two_pi_I_ne_zero
      field_simp at hm
      linear_combination hm
    exact_mod_cast h2
  rw [geom_sum_eq hne, ← Complex.exp_nat_mul]
  have : exp ((n : ℂ) * (2 * Real.pi * I * d / n)) = 1 := by
    rw [Complex.exp_eq_one_iff]
    exact ⟨d, by field_simp⟩
  rw [this]
  simp

theorem root_sum_zero (n : Nat) : ∑ i ∈ Finset.range n, exp (2 * Real.pi * I * (0 : ℤ) * i / n) = n := by
  simp

/-- The spectrum of a window with one cosine, at integer frequencies. -/
theorem cosine_sum (a c : ℝ) (n : Nat) (d : ℤ) :
    ∑ i ∈ Finset.range n, ((a - c * Real.cos (2 * Real.pi * i / n) : ℝ) : ℂ) * exp (2 * Real.pi * I * d * i / n) =
      a * ∑ i ∈ Finset.range n, exp (2 * Real.pi * I * d * i / n) -
      c / 2 * ∑ i ∈ Finset.range n, exp (2 * Real.pi * I * ((d + 1 : ℤ) : ℂ) * i / n) -
      c / 2 * ∑ i ∈ Finset.range n, exp (2 * Real.pi * I * ((d - 1 : ℤ) : ℂ) * i / n) := by
  rw [Finset.mul_sum, Finset.mul_sum, Finset.mul_sum, ← Finset.sum_sub_distrib, ← Finset.sum_sub_distrib]
  refine Finset.sum_congr rfl fun i _ => ?_
  have h1 : exp (2 * Real.pi * I * ((d + 1 : ℤ) : ℂ) * i / n) =
      exp (2 * Real.pi * I * d * i / n) * exp (2 * Real.pi * i / n * I) := by
    rw [← Complex.exp_add]; congr 1; push_cast; ring
  have h2 : exp (2 * Real.pi * I * ((d - 1 : ℤ) : ℂ) * i / n) =
      exp (2 * Real.pi * I * d * i / n) * exp (-(2 * Real.pi * i / n) * I) := by
    rw [← Complex.exp_add]; congr 1; push_cast; ring
  rw [h1, h2]
  push_cast
  rw [Complex.cos]
  ring

theorem cosineWindow_getD (a c : ℝ) (n i : Nat) (hi : i < n) :
    (cosineWindow a c n).getD i 0 = a - c * Real.cos (2 * Real.pi * i / n) := by
  simp [cosineWindow, List.getD_eq_getElem?_getD, hi]

theorem cosineWindow_length (a c : ℝ) (n : Nat) : (cosineWindow a c n).length = n := by simp [cosineWindow]

theorem cosineWindow_sum (a c : ℝ) (n : Nat) (hn : 2 ≤ n) : (cosineWindow a c n).sum = a * n := by
  have h0 := cosine_sum a c n 0
  rw [root_sum_zero, root_sum n (by omega) _ (by
    rw [zero_add]; intro h; have := Int.le_of_dvd one_pos h; omega),
    root_sum n (by omega) _ (by
    intro h; rw [zero_sub, Int.dvd_neg] at h; have := Int.le_of_dvd one_pos h; omega)] at h0
  have h1 : (cosineWindow a c n).sum = ∑ i ∈ Finset.range n, (a - c * Real.cos (2 * Real.pi * i / n)) := by
    unfold cosineWindow
    rw [Finset.sum_range, ← List.sum_ofFn, List.ofFn_eq_map, ← List.map_coe_finRange_eq_range, List.map_map]
    rfl
  rw [h1]
  have h2 : ((∑ i ∈ Finset.range n, (a - c * Real.cos (2 * Real.pi * i / n)) : ℝ) : ℂ) = ((a * n : ℝ) : ℂ) := by
    simp only [Int.cast_zero, mul_zero, zero_mul, zero_div, Complex.exp_zero, mul_one, sub_zero] at h0
    rw [Complex.ofReal_sum, h0]
    push_cast
    ring
  exact_mod_cast h2

/-- The normalised window with one cosine, at integer frequencies. -/
theorem cosine_spectrum (a c : ℝ) (n : Nat) (ha : 0 < a) (hc : 0 ≤ c) (hn : 4 ≤ n) (d : ℤ) (V : ℝ)
    (hV : V = ‖∑ i ∈ Finset.range n, (((cosineWindow a c n).getD i 0 / (cosineWindow a c n).sum : ℝ) : ℂ) *
      exp (2 * Real.pi * I * d * i / n)‖) :
    (d = 0 → V = 1) ∧ (d = 1 ∨ d = -1 → V = c / (2 * a)) ∧ (2 ≤ |d| → |d| ≤ n - 2 → V = 0) := by
  have hn' : (n : ℂ) ≠ 0 := by exact_mod_cast (by omega : n ≠ 0)
  have ha' : (a : ℂ) ≠ 0 := by exact_mod_cast ha.ne'
  have h1 : ∑ i ∈ Finset.range n, (((cosineWindow a c n).getD i 0 / (cosineWindow a c n).sum : ℝ) : ℂ) *
      exp (2 * Real.pi * I * d * i / n) = (1 / (a * n)) * ∑ i ∈ Finset.range n,
        ((a - c * Real.cos (2 * Real.pi * i / n) : ℝ) : ℂ) * exp (2 * Real.pi * I * d * i / n) := by
    rw [Finset.mul_sum, cosineWindow_sum a c n (by omega)]
    refine Finset.sum_congr rfl fun i hi => ?_
    rw [cosineWindow_getD a c n i (Finset.mem_range.1 hi)]
    push_cast
    ring
  rw [h1, cosine_sum] at hV
  have hnd : ∀ e : ℤ, e ≠ 0 → |e| < n → ¬ (n : ℤ) ∣ e := by
    intro e he h2 h3
    have := Int.le_of_dvd (abs_pos.2 he) ((dvd_abs _ _).2 h3)
    omega
  refine ⟨?_, ?_, ?_⟩
  · rintro rfl
    rw [root_sum_zero, root_sum n (by omega) _ (hnd _ (by norm_num) (by norm_num; omega)),
      root_sum n (by omega) _ (hnd _ (by norm_num) (by norm_num; omega))] at hV
    rw [hV]
    have : (1 / ((a : ℂ) * n)) * (a * n - c / 2 * 0 - c / 2 * 0) = 1 := by
      field_simp; ring
    rw [this, norm_one]
  · intro h
    have key : ‖(1 / ((a : ℂ) * n)) * -(c / 2 * n)‖ = c / (2 * a) := by
      have : (1 / ((a : ℂ) * n)) * -(c / 2 * n) = ((-(c / (2 * a)) : ℝ) : ℂ) := by
        push_cast; field_simp
      rw [this, Complex.norm_real, Real.norm_eq_abs, abs_neg, abs_of_nonneg (by positivity)]
    rcases h with rfl | rfl
    · rw [root_sum n (by omega) _ (hnd _ (by norm_num) (by norm_num; omega)),
        root_sum n (by omega) _ (hnd _ (by norm_num) (by norm_num; omega)), show (1 - 1 : ℤ) = 0 by norm_num,
        root_sum_zero] at hV
      rw [hV, ← key]
      congr 1
      ring
    · rw [root_sum n (by omega) _ (hnd _ (by norm_num) (by norm_num; omega)), show (-1 + 1 : ℤ) = 0 by norm_num,
        root_sum_zero, root_sum n (by omega) _ (hnd _ (by norm_num) (by norm_num; omega))] at hV
      rw [hV, ← key]
      congr 1
      ring
  · intro h2 h3
    have b1 : |d + 1| < n ∧ d + 1 ≠ 0 := by
      rcases abs_cases d with ⟨g1, g2⟩ | ⟨g1, g2⟩ <;> rw [abs_lt] <;> omega
    have b2 : |d - 1| < n ∧ d - 1 ≠ 0 := by
      rcases abs_cases d with ⟨g1, g2⟩ | ⟨g1, g2⟩ <;> rw [abs_lt] <;> omega
    have b3 : |d| < n ∧ d ≠ 0 := by
      rcases abs_cases d with ⟨g1, g2⟩ | ⟨g1, g2⟩ <;> rw [abs_lt] <;> omega
    rw [root_sum n (by omega) _ (hnd _ b3.2 b3.1), root_sum n (by omega) _ (hnd _ b1.2 b1.1),
      root_sum n (by omega) _ (hnd _ b2.2 b2.1)] at hV
    rw [hV]
    simp

/-- The spectrum of a damped sinusoid at the centre of a bin, through such a window. -/
theorem response_cosine (p : Params ℝ) (a c s γ : ℝ) (b k : Nat) (hw : p.w = cosineWindow a c p.n) (ha : 0 < a)
    (hc : 0 ≤ c) (hca : c ≤ a) (hn : 4 ≤ p.n) (hs0 : 0 ≤ s) (hs1 : s ≤ 1) (hγ : (p.n - 1) * (1 - s) ≤ γ) :
    (k = b → |‖response p (binPole p.n b s) k‖ - 1| ≤ γ) ∧
    (k = b + 1 ∨ k + 1 = b → |‖response p (binPole p.n b s) k‖ - c / (2 * a)| ≤ γ) ∧
    (k + 2 ≤ b ∧ b ≤ k + p.n - 2 ∨ b + 2 ≤ k ∧ k ≤ b + p.n - 2 → ‖response p (binPole p.n b s) k‖ ≤ γ) ∧
    ‖response p (binPole p.n b s) k‖ ≤ 1 := by
  obtain ⟨u, hu, h1⟩ := response_centred p s b k (by omega)
  have hlen : p.w.length = p.n := by rw [hw, cosineWindow_length]
  have hsum : p.w.sum = a * p.n := by rw [hw, cosineWindow_sum a c p.n (by omega)]
  have hnp : (4 : ℝ) ≤ p.n := by exact_mod_cast hn
  set j : Nat → Nat := fun i => if p.reverse then p.w.length - 1 - i else i with hj
  have hjle : ∀ i, i < p.n → j i ≤ p.n - 1 := by
    intro i hi
    simp only [hj, hlen]
    split <;> omega
  set W : Nat → ℝ := fun i => p.w.getD i 0 / p.w.sum with hW
  have hWnn : ∀ i, i < p.n → 0 ≤ W i := by
    intro i hi
    simp only [hW]
    rw [hsum, hw, cosineWindow_getD a c p.n i hi]
    apply div_nonneg _ (by positivity)
    have := Real.cos_le_one (2 * Real.pi * i / p.n)
    have := mul_le_mul_of_nonneg_left this hc
    linarith
  have hW1 : ∑ i ∈ Finset.range p.n, W i = 1 := by
    simp only [hW]
    rw [← Finset.sum_div, hsum]
    have : ∑ i ∈ Finset.range p.n, p.w.getD i 0 = a * p.n := by
      rw [← hsum, hw]
      have h2 : ∀ i ∈ Finset.range p.n, (cosineWindow a c p.n).getD i 0 = a - c * Real.cos (2 * Real.pi * i / p.n) :=
        fun i hi => cosineWindow_getD a c p.n i (Finset.mem_range.1 hi)
      rw [Finset.sum_congr rfl h2]
      unfold cosineWindow
      rw [Finset.sum_range, ← List.sum_ofFn, List.ofFn_eq_map, ← List.map_coe_finRange_eq_range, List.map_map]
      rfl
    rw [this, div_self (by positivity)]
  set E : Nat → ℂ := fun i => exp (2 * Real.pi * I * (((b : ℤ) - (k : ℤ) : ℤ) : ℂ) * i / p.n) with hE
  have hEn : ∀ i, ‖E i‖ = 1 := by
    intro i
    have : 2 * Real.pi * I * (((b : ℤ) - (k : ℤ) : ℤ) : ℂ) * i / p.n =
        ((2 * Real.pi * (((b : ℤ) - (k : ℤ) : ℤ) : ℝ) * i / p.n : ℝ) : ℂ) * I := by
      push_cast; ring
    simp only [hE, this, Complex.norm_exp_ofReal_mul_I]
  have hR : ‖response p (binPole p.n b s) k‖ = ‖∑ i ∈ Finset.range p.n, ((W i * s ^ j i : ℝ) : ℂ) * E i‖ := by
    unfold binPole
    rw [h1, norm_mul, hu, one_mul, hlen]
    congr 1
    refine Finset.sum_congr rfl fun i _ => ?_
    simp only [hE, hW, hj, hlen]
    push_cast
    rfl
  have hV := cosine_spectrum a c p.n ha hc hn ((b : ℤ) - (k : ℤ)) _ rfl
  have hVe : ∑ i ∈ Finset.range p.n, (((cosineWindow a c p.n).getD i 0 / (cosineWindow a c p.n).sum : ℝ) : ℂ) *
      exp (2 * Real.pi * I * (((b : ℤ) - (k : ℤ) : ℤ) : ℂ) * i / p.n) =
      ∑ i ∈ Finset.range p.n, ((W i : ℝ) : ℂ) * E i := by
    rw [← hw]
  rw [hVe] at hV
  have hdiff : |‖response p (binPole p.n b s) k‖ - ‖∑ i ∈ Finset.range p.n, ((W i : ℝ) : ℂ) * E i‖| ≤ γ := by
    rw [hR]
    refine (abs_norm_sub_norm_le _ _).trans ?_
    rw [← Finset.sum_sub_distrib]
    refine (norm_sum_le _ _).trans ?_
    have h2 : ∀ i ∈ Finset.range p.n, ‖((W i * s ^ j i : ℝ) : ℂ) * E i - ((W i : ℝ) : ℂ) * E i‖ ≤ W i * γ := by
      intro i hi
      have hi := Finset.mem_range.1 hi
      rw [← sub_mul, norm_mul, hEn, mul_one, ← Complex.ofReal_sub, Complex.norm_real, Real.norm_eq_abs,
        show W i * s ^ j i - W i = -(W i * (1 - s ^ j i)) by ring, abs_neg, abs_mul, abs_of_nonneg (hWnn i hi),
        abs_of_nonneg (sub_nonneg.2 (pow_le_one₀ hs0 hs1))]
      refine mul_le_mul_of_nonneg_left ?_ (hWnn i hi)
      have h3 := one_add_mul_le_pow (show (-2 : ℝ) ≤ s - 1 by linarith) (j i)
      rw [show 1 + (s - 1) = s by ring] at h3
      have h4 : (j i : ℝ) ≤ p.n - 1 := by
        have : ((j i : Nat) : ℝ) ≤ ((p.n - 1 : Nat) : ℝ) := by exact_mod_cast hjle i hi
        rwa [Nat.cast_sub (by omega), Nat.cast_one] at this
      have h5 := mul_le_mul_of_nonneg_right h4 (sub_nonneg.2 hs1)
      linarith
    refine (Finset.sum_le_sum h2).trans ?_
    rw [← Finset.sum_mul, hW1, one_mul]
  refine ⟨?_, ?_, ?_, ?_⟩
  · intro h
    rw [← hV.1 (by omega)]
    exact hdiff
  · intro h
    rw [← hV.2.1 (by omega)]
    exact hdiff
  · intro h
    have := hV.2.2 (by rcases abs_cases ((b : ℤ) - (k : ℤ)) with g | g <;> omega)
      (by rcases abs_cases ((b : ℤ) - (k : ℤ)) with g | g <;> omega)
    rw [this, sub_zero] at hdiff
    exact (le_abs_self _).trans hdiff
  · rw [hR, ← hW1]
    refine (norm_sum_le _ _).trans (Finset.sum_le_sum fun i hi => ?_)
    have hi := Finset.mem_range.1 hi
    rw [norm_mul, hEn, mul_one, Complex.norm_real, Real.norm_eq_abs, abs_of_nonneg
      (mul_nonneg (hWnn i hi) (pow_nonneg hs0 _))]
    exact mul_le_of_le_one_right (hWnn i hi) (pow_le_one₀ hs0 hs1)

theorem binPole_conj (n b : Nat) (s : ℝ) (hn : 0 < n) (hb : b ≤ n) :
    (starRingEnd ℂ) (binPole n b s) = binPole n (n - b) s := by
  have hn' : (n : ℂ) ≠ 0 := by exact_mod_cast hn.ne'
  unfold binPole
  rw [map_mul, Complex.conj_ofReal, ← Complex.exp_conj]
  congr 1
  rw [Complex.exp_eq_exp_iff_exists_int]
  refine ⟨-1, ?_⟩
  have h2 : (starRingEnd ℂ) 2 = 2 := map_ofNat (starRingEnd ℂ) 2
  rw [Nat.cast_sub hb]
  simp [h2]
  field_simp
  ring

theorem norm_binPole (n b : Nat) (s : ℝ) (hs : 0 ≤ s) : ‖binPole n b s‖ = s := by
  unfold binPole
  have : 2 * Real.pi * I * b / n = ((2 * Real.pi * b / n : ℝ) : ℂ) * I := by push_cast; ring
  rw [norm_mul, this, Complex.norm_exp_ofReal_mul_I, mul_one, Complex.norm_real, Real.norm_of_nonneg hs]

end Verif.Sms
