import Verif.Sms.DampedSpec
import Verif.Sms.PartialProps

/-!
# Lemmas: spectra of sums of damped sinusoids
-/

set_option autoImplicit false
set_option linter.unusedSectionVars false
set_option linter.unusedSimpArgs false

namespace Verif.Sms

open Verif.Tracker Verif.Learn Complex

theorem frame_inside (p : Params ℝ) (x : List ℝ) (h : Usable p x) (e : Nat) (he : e < frameCount p x) :
    frameStart p x e + p.w.length ≤ x.length := by
  unfold frameStart
  unfold frameCount at he
  have h1 := Nat.mod_add_div (x.length - p.w.length) p.hop
  have h2 : e * p.hop ≤ p.hop * ((x.length - p.w.length) / p.hop) := by
    rw [mul_comm]; exact Nat.mul_le_mul_left _ (by omega)
  have h3 := h.long
  have h4 := Nat.mod_lt (x.length - p.w.length) h.hop
  split <;> omega

/-- The samples of a frame. -/
theorem timeFrame_getD (p : Params ℝ) (x : List ℝ) (h : Usable p x) (e : Nat) (he : e < frameCount p x) (i : Nat)
    (hi : i < p.w.length) : (timeFrame p.reverse x p.w.length p.hop e).getD i 0 =
      x.getD (frameStart p x e + if p.reverse then p.w.length - 1 - i else i) 0 := by
  have hin := frame_inside p x h e he
  unfold timeFrame frameStart
  unfold frameStart at hin
  generalize p.reverse = r at hin ⊢
  cases r with
  | false =>
    simp only [Bool.false_eq_true, if_false, Nat.zero_add] at hin ⊢
    simp only [List.getD_eq_getElem?_getD]
    rw [List.getElem?_take_of_lt hi, List.getElem?_drop]
  | true =>
    simp only [if_true] at hin ⊢
    have hlen : ((x.drop ((x.length - p.w.length) % p.hop + e * p.hop)).take p.w.length).length = p.w.length := by
      simp; omega
    simp only [List.getD_eq_getElem?_getD]
    rw [List.getElem?_reverse (by omega), hlen, List.getElem?_take_of_lt (by omega), List.getElem?_drop]

/-- The spectrum of a frame of a sum of damped sinusoids. -/
theorem frame_sum (p : Params ℝ) (x : List ℝ) (h : Usable p x) (S : List Nat) (A z : Nat → ℂ) (ν : ℝ)
    (hx : ∀ m, m < x.length → |x.getD m 0 - (S.map fun b => (A b * z b ^ m).re).sum| ≤ ν)
    (e : Nat) (he : e < frameCount p x) (k : Nat) :
    ‖centredBin (timeFrame p.reverse x p.w.length p.hop e) (p.w.map fun a => a / p.w.sum) p.n k -
      (S.map fun b => turned p (A b) / 2 * turned p (z b) ^ frameStart p x e * response p (z b) k +
        turned p ((starRingEnd ℂ) (A b)) / 2 * turned p ((starRingEnd ℂ) (z b)) ^ frameStart p x e *
          response p ((starRingEnd ℂ) (z b)) k).sum‖ ≤ hiss p ν := by
  have hin := frame_inside p x h e he
  set o := frameStart p x e with ho
  set j : Nat → Nat := fun i => if p.reverse then p.w.length - 1 - i else i with hj
  have hjlt : ∀ i, i < p.w.length → j i < p.w.length := by
    intro i hi
    simp only [hj]
    split <;> omega
  set E : Nat → ℂ := fun i => exp (-(2 * Real.pi * I) * k * ((i : ℂ) - (p.w.length / 2 : Nat)) / p.n) with hE
  have hEn : ∀ i, ‖E i‖ = 1 := by
    intro i
    have : -(2 * Real.pi * I) * k * ((i : ℂ) - (p.w.length / 2 : Nat)) / p.n =
        ((-(2 * Real.pi) * k * ((i : ℝ) - (p.w.length / 2 : Nat)) / p.n : ℝ) : ℂ) * I := by
      push_cast; ring
    simp only [hE, this, Complex.norm_exp_ofReal_mul_I]
  set W : Nat → ℝ := fun i => p.w.getD i 0 / p.w.sum with hW
  have h1 : centredBin (timeFrame p.reverse x p.w.length p.hop e) (p.w.map fun a => a / p.w.sum) p.n k =
      ∑ i ∈ Finset.range p.w.length, ((x.getD (o + j i) 0 : ℝ) : ℂ) * ((W i : ℝ) : ℂ) * E i := by
    unfold centredBin
    rw [List.length_map]
    refine Finset.sum_congr rfl fun i hi => ?_
    have hi := Finset.mem_range.1 hi
    rw [timeFrame_getD p x h e he i hi]
    have : (p.w.map fun a => a / p.w.sum).getD i 0 = W i := by
      simp only [hW, List.getD_eq_getElem?_getD, List.getElem?_map]
      rw [List.getElem?_eq_getElem hi]
      simp
    rw [this]
    push_cast
    rfl
  have h2 : (S.map fun b => turned p (A b) / 2 * turned p (z b) ^ o * response p (z b) k +
        turned p ((starRingEnd ℂ) (A b)) / 2 * turned p ((starRingEnd ℂ) (z b)) ^ o * response p ((starRingEnd ℂ) (z b)) k).sum =
      ∑ i ∈ Finset.range p.w.length,
        (((S.map fun b => (A b * z b ^ (o + j i)).re).sum : ℝ) : ℂ) * ((W i : ℝ) : ℂ) * E i := by
    clear hx
    induction S with
    | nil => simp
    | cons b S ih =>
      rw [List.map_cons, List.sum_cons, ih]
      simp only [List.map_cons, List.sum_cons]
      have : ∀ i, ((((A b * z b ^ (o + j i)).re + (S.map fun b => (A b * z b ^ (o + j i)).re).sum : ℝ)) : ℂ) *
          ((W i : ℝ) : ℂ) * E i =
          (turned p (A b) / 2 * turned p (z b) ^ o * (((W i : ℝ) : ℂ) * turned p (z b) ^ j i * E i) +
            turned p ((starRingEnd ℂ) (A b)) / 2 * turned p ((starRingEnd ℂ) (z b)) ^ o *
              (((W i : ℝ) : ℂ) * turned p ((starRingEnd ℂ) (z b)) ^ j i * E i)) +
          (((S.map fun b => (A b * z b ^ (o + j i)).re).sum : ℝ) : ℂ) * ((W i : ℝ) : ℂ) * E i := by
        intro i
        have hre : (((A b * z b ^ (o + j i)).re : ℝ) : ℂ) =
            (A b * z b ^ (o + j i) + (starRingEnd ℂ) (A b * z b ^ (o + j i))) / 2 := by
          rw [Complex.add_conj]; push_cast; ring
        push_cast
        rw [hre, map_mul, map_pow, pow_add, pow_add]
        unfold turned
        split
        · rw [Complex.conj_conj, Complex.conj_conj]; ring
        · ring
      rw [Finset.sum_congr rfl fun i _ => this i, Finset.sum_add_distrib, Finset.sum_add_distrib,
        ← Finset.mul_sum, ← Finset.mul_sum]
      rfl
  rw [h1, h2, ← Finset.sum_sub_distrib]
  refine (norm_sum_le _ _).trans ?_
  unfold hiss
  rw [Finset.mul_sum]
  refine Finset.sum_le_sum fun i hi => ?_
  have hi := Finset.mem_range.1 hi
  rw [← sub_mul, ← sub_mul, norm_mul, norm_mul, hEn, mul_one, ← Complex.ofReal_sub, Complex.norm_real,
    Complex.norm_real, Real.norm_eq_abs, Real.norm_eq_abs]
  exact mul_le_mul_of_nonneg_right (hx _ (by have := hjlt i hi; omega)) (abs_nonneg _)

theorem norm_turned (p : Params ℝ) (z : ℂ) : ‖turned p z‖ = ‖z‖ := by
  unfold turned
  split
  · exact Complex.norm_conj z
  · rfl

theorem norm_term (p : Params ℝ) (x : List ℝ) (A z : ℂ) (e k : Nat) :
    ‖turned p A / 2 * turned p z ^ frameStart p x e * response p z k‖ = strength p x A z e k := by
  unfold strength
  rw [norm_mul, norm_mul, norm_div, norm_pow, norm_turned, norm_turned]
  norm_num

theorem norm_term_conj (p : Params ℝ) (x : List ℝ) (A z : ℂ) (e k : Nat) :
    ‖turned p ((starRingEnd ℂ) A) / 2 * turned p ((starRingEnd ℂ) z) ^ frameStart p x e *
      response p ((starRingEnd ℂ) z) k‖ = strength p x A ((starRingEnd ℂ) z) e k := by
  unfold strength
  rw [norm_mul, norm_mul, norm_div, norm_pow, norm_turned, norm_turned, Complex.norm_conj A]
  norm_num

theorem strength_nonneg (p : Params ℝ) (x : List ℝ) (A z : ℂ) (e k : Nat) : 0 ≤ strength p x A z e k := by
  unfold strength; positivity

theorem norm_list_sum_le (l : List ℂ) : ‖l.sum‖ ≤ (l.map fun c => ‖c‖).sum := by
  induction l with
  | nil => simp
  | cons a l ih =>
    simp only [List.map_cons, List.sum_cons]
    exact (norm_add_le _ _).trans (by linarith)

/-- The whole spectrum is at most the sum of everything. -/
theorem frame_le (p : Params ℝ) (x : List ℝ) (h : Usable p x) (S : List Nat) (A z : Nat → ℂ) (ν : ℝ)
    (hx : ∀ m, m < x.length → |x.getD m 0 - (S.map fun b => (A b * z b ^ m).re).sum| ≤ ν)
    (e : Nat) (he : e < frameCount p x) (k : Nat) :
    frameSpectrum p x e k ≤ everything p x S A z ν e k := by
  have h1 := frame_sum p x h S A z ν hx e he k
  have h2 := norm_sub_norm_le (centredBin (timeFrame p.reverse x p.w.length p.hop e)
    (p.w.map fun a => a / p.w.sum) p.n k) (S.map fun b => turned p (A b) / 2 * turned p (z b) ^ frameStart p x e * response p (z b) k +
        turned p ((starRingEnd ℂ) (A b)) / 2 * turned p ((starRingEnd ℂ) (z b)) ^ frameStart p x e *
          response p ((starRingEnd ℂ) (z b)) k).sum
  have h3 : ‖(S.map fun b => turned p (A b) / 2 * turned p (z b) ^ frameStart p x e * response p (z b) k +
        turned p ((starRingEnd ℂ) (A b)) / 2 * turned p ((starRingEnd ℂ) (z b)) ^ frameStart p x e *
          response p ((starRingEnd ℂ) (z b)) k).sum‖ ≤ (S.map fun b => bothSides p x (A b) (z b) e k).sum := by
    refine (norm_list_sum_le _).trans ?_
    rw [List.map_map]
    apply List.sum_le_sum
    intro b _
    refine (norm_add_le _ _).trans ?_
    rw [norm_term, norm_term_conj]
    exact le_refl _
  unfold frameSpectrum everything
  linarith

/-- The spectrum around a partial is the one of the partial, up to the rest. -/
theorem frame_near (p : Params ℝ) (x : List ℝ) (h : Usable p x) (S : List Nat) (A z : Nat → ℂ) (ν : ℝ)
    (hS : S.Nodup)
    (hx : ∀ m, m < x.length → |x.getD m 0 - (S.map fun b => (A b * z b ^ m).re).sum| ≤ ν)
    (e : Nat) (he : e < frameCount p x) (k b : Nat) (hb : b ∈ S) :
    |frameSpectrum p x e k - strength p x (A b) (z b) e k| ≤ rest p x S A z ν b e k := by
  have h1 := frame_sum p x h S A z ν hx e he k
  set f : Nat → ℂ := fun b => turned p (A b) / 2 * turned p (z b) ^ frameStart p x e * response p (z b) k +
        turned p ((starRingEnd ℂ) (A b)) / 2 * turned p ((starRingEnd ℂ) (z b)) ^ frameStart p x e *
          response p ((starRingEnd ℂ) (z b)) k with hf
  have hperm : S.Perm (b :: S.filter (· ≠ b)) := by
    rw [List.perm_ext_iff_of_nodup hS (List.nodup_cons.2 ⟨by simp, hS.filter _⟩)]
    intro c
    simp only [List.mem_cons, List.mem_filter, decide_eq_true_eq, ne_eq, decide_not, Bool.not_eq_true',
      decide_eq_false_iff_not]
    by_cases hc : c = b
    · simp [hc, hb]
    · simp [hc]
  have h2 : (S.map f).sum = f b + ((S.filter (· ≠ b)).map f).sum := by
    rw [(hperm.map f).sum_eq, List.map_cons, List.sum_cons]
  have h3 : ‖((S.filter (· ≠ b)).map f).sum‖ ≤
      ((S.filter (· ≠ b)).map fun b => bothSides p x (A b) (z b) e k).sum := by
    refine (norm_list_sum_le _).trans ?_
    rw [List.map_map]
    apply List.sum_le_sum
    intro c _
    refine (norm_add_le _ _).trans ?_
    rw [norm_term, norm_term_conj]
    exact le_refl _
  rw [← norm_term]
  unfold frameSpectrum rest
  refine (abs_norm_sub_norm_le _ _).trans ?_
  rw [h2] at h1
  have h4 : centredBin (timeFrame p.reverse x p.w.length p.hop e) (p.w.map fun a => a / p.w.sum) p.n k -
      turned p (A b) / 2 * turned p (z b) ^ frameStart p x e * response p (z b) k =
      (centredBin (timeFrame p.reverse x p.w.length p.hop e) (p.w.map fun a => a / p.w.sum) p.n k -
        (f b + ((S.filter (· ≠ b)).map f).sum)) +
      (turned p ((starRingEnd ℂ) (A b)) / 2 * turned p ((starRingEnd ℂ) (z b)) ^ frameStart p x e *
          response p ((starRingEnd ℂ) (z b)) k + ((S.filter (· ≠ b)).map f).sum) := by
    simp only [hf]; ring
  rw [h4]
  refine (norm_add_le _ _).trans ?_
  have h5 := norm_add_le (turned p ((starRingEnd ℂ) (A b)) / 2 * turned p ((starRingEnd ℂ) (z b)) ^ frameStart p x e *
          response p ((starRingEnd ℂ) (z b)) k) ((S.filter (· ≠ b)).map f).sum
  rw [norm_term_conj] at h5
  linarith

/-- The strength falls by the same factor in every frame. -/
theorem strength_frame (p : Params ℝ) (x : List ℝ) (A z : ℂ) (e k : Nat) :
    strength p x A z e k = (‖z‖ ^ p.hop) ^ e * strength p x A z 0 k := by
  unfold strength frameStart
  rw [zero_mul, add_zero, pow_add, mul_comm e, pow_mul]
  ring

end Verif.Sms
