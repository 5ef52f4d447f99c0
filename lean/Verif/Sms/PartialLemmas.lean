import Verif.Sms.PartialSpec
import Verif.Sms.LastProps

/-!
# Lemmas: how much disturbances move the vertex of a parabola
-/

set_option autoImplicit false
set_option linter.unusedSectionVars false
set_option linter.unusedSimpArgs false

namespace Verif.Sms

/-- The height of the vertex is the largest of these linear expressions. -/
theorem vertexHeight_ge (l c r v : ℝ) (hl : l < c) (hr : r < c) :
    c + (2 * (l - r) * v - v ^ 2 * (2 * c - l - r)) / 8 ≤ vertexHeight l c r := by
  have hD : 0 < 2 * c - l - r := by linarith
  have e : vertexHeight l c r = c + (l - r) ^ 2 / (2 * c - l - r) / 8 := by
    unfold vertexHeight
    rw [show 8 * (l - 2 * c + r) = -(8 * (2 * c - l - r)) by ring, div_neg, sub_neg_eq_add, div_div, mul_comm (8 : ℝ)]
  rw [e]
  have : 2 * (l - r) * v - v ^ 2 * (2 * c - l - r) ≤ (l - r) ^ 2 / (2 * c - l - r) := by
    rw [le_div_iff₀ hD]
    nlinarith [sq_nonneg ((l - r) - v * (2 * c - l - r))]
  linarith

theorem vertexHeight_le {l c r l' c' r' δ : ℝ} (hl : l < c) (hr : r < c) (hl' : l' < c') (hr' : r' < c')
    (h1 : |l' - l| ≤ δ) (h2 : |c' - c| ≤ δ) (h3 : |r' - r| ≤ δ) :
    vertexHeight l c r ≤ vertexHeight l' c' r' + 5 / 4 * δ := by
  have hD : 0 < 2 * c - l - r := by linarith
  set v := (l - r) / (2 * c - l - r) with hv
  have hv1 : |v| ≤ 1 := by
    rw [hv, abs_div, abs_of_pos hD, div_le_one hD, abs_le]
    constructor <;> linarith
  have e : vertexHeight l c r = c + (2 * (l - r) * v - v ^ 2 * (2 * c - l - r)) / 8 := by
    unfold vertexHeight
    rw [show 8 * (l - 2 * c + r) = -(8 * (2 * c - l - r)) by ring, div_neg, sub_neg_eq_add, hv]
    field_simp
    ring
  have hge := vertexHeight_ge l' c' r' v hl' hr'
  rw [e]
  rw [abs_le] at hv1 h1 h2 h3
  have hv2 : v ^ 2 ≤ 1 := by nlinarith
  have hδ : 0 ≤ δ := by linarith
  rcases le_total 0 v with hv0 | hv0
  · have k1 : 0 ≤ 1 - v ^ 2 / 4 := by linarith
    have k2 : 0 ≤ v / 4 + v ^ 2 / 8 := by positivity
    have k3 : 0 ≤ v / 4 - v ^ 2 / 8 := by nlinarith
    have m1 := mul_le_mul_of_nonneg_left h2.1 k1
    have m2 := mul_le_mul_of_nonneg_left h1.1 k2
    have m3 := mul_le_mul_of_nonneg_left h3.2 k3
    have m4 : δ * (1 - v ^ 2 / 4 + v / 2) ≤ δ * (5 / 4) := by
      apply mul_le_mul_of_nonneg_left _ hδ
      nlinarith
    nlinarith
  · have k1 : 0 ≤ 1 - v ^ 2 / 4 := by linarith
    have k2 : 0 ≤ -v / 4 - v ^ 2 / 8 := by nlinarith
    have k3 : 0 ≤ -v / 4 + v ^ 2 / 8 := by nlinarith
    have m1 := mul_le_mul_of_nonneg_left h2.1 k1
    have m2 := mul_le_mul_of_nonneg_left h1.2 k2
    have m3 := mul_le_mul_of_nonneg_left h3.1 k3
    have m4 : δ * (1 - v ^ 2 / 4 - v / 2) ≤ δ * (5 / 4) := by
      apply mul_le_mul_of_nonneg_left _ hδ
      nlinarith
    nlinarith

/-- Disturbances of the levels by at most `δ` move the height of the vertex by at most `5 δ / 4`. -/
theorem vertexHeight_near {l c r l' c' r' δ : ℝ} (hl : l < c) (hr : r < c) (hl' : l' < c') (hr' : r' < c')
    (h1 : |l' - l| ≤ δ) (h2 : |c' - c| ≤ δ) (h3 : |r' - r| ≤ δ) :
    |vertexHeight l' c' r' - vertexHeight l c r| ≤ 5 / 4 * δ := by
  have g1 := vertexHeight_le hl hr hl' hr' h1 h2 h3
  have g2 := vertexHeight_le (δ := δ) hl' hr' hl hr (by rwa [abs_sub_comm]) (by rwa [abs_sub_comm]) (by rwa [abs_sub_comm])
  rw [abs_le]
  constructor <;> linarith

/-- ... and its place by at most `3 δ / (2 c - l - r)`. -/
theorem vertexPlace_near {l c r l' c' r' δ : ℝ} (hl : l < c) (hr : r < c) (hl' : l' < c') (hr' : r' < c')
    (h1 : |l' - l| ≤ δ) (h2 : |c' - c| ≤ δ) (h3 : |r' - r| ≤ δ) :
    |vertexPlace l' c' r' - vertexPlace l c r| ≤ 3 * δ / (2 * c - l - r) := by
  have hD : 0 < 2 * c - l - r := by linarith
  have hD' : 0 < 2 * c' - l' - r' := by linarith
  set D := 2 * c - l - r with hDd
  set D' := 2 * c' - l' - r' with hDd'
  have e : vertexPlace l' c' r' - vertexPlace l c r =
      ((l - l') - (r - r') + (l' - r') / D' * (D' - D)) / (2 * D) := by
    unfold vertexPlace
    rw [show l' - 2 * c' + r' = -D' by rw [hDd']; ring, show l - 2 * c + r = -D by rw [hDd]; ring]
    field_simp
    ring
  rw [e, abs_div, abs_of_pos (by linarith : 0 < 2 * D), div_le_div_iff₀ (by linarith) hD]
  have hu : |(l' - r') / D'| ≤ 1 := by
    rw [abs_div, abs_of_pos hD', div_le_one hD', abs_le]
    constructor <;> linarith
  have hδ : 0 ≤ δ := le_trans (abs_nonneg _) h1
  have hDD : |D' - D| ≤ 4 * δ := by
    rw [abs_le] at h1 h2 h3 ⊢
    constructor <;> linarith
  have hm : |(l' - r') / D' * (D' - D)| ≤ 4 * δ := by
    rw [abs_mul]
    calc |(l' - r') / D'| * |D' - D| ≤ 1 * (4 * δ) := mul_le_mul hu hDD (abs_nonneg _) zero_le_one
      _ = 4 * δ := one_mul _
  have hs : |(l - l') - (r - r') + (l' - r') / D' * (D' - D)| ≤ 6 * δ := by
    rw [abs_le] at h1 h3 hm ⊢
    constructor <;> linarith
  nlinarith

theorem dB_le {a b : ℝ} (ha : 0 < a) (hb : 0 < b) : dB a ≤ dB b ↔ a ≤ b := by
  unfold dB
  rw [mul_le_mul_iff_right₀ (by norm_num), Real.logb_le_logb (by norm_num) ha hb]

theorem dB_mul {a b : ℝ} (ha : 0 < a) (hb : 0 < b) : dB (a * b) = dB a + dB b := by
  unfold dB
  rw [Real.logb_mul ha.ne' hb.ne']; ring

theorem wobble_nonneg {ρ : ℝ} (h0 : 0 ≤ ρ) (h1 : ρ < 1) : 0 ≤ wobble ρ := by
  have : dB (1 - ρ) ≤ dB 1 := (dB_le (by linarith) one_pos).2 (by linarith)
  unfold wobble
  simp only [dB, Real.logb_one, mul_zero] at this ⊢
  linarith

/-- The level of an amplitude that is disturbed by at most the part `ρ`. -/
theorem dB_near {ρ a b : ℝ} (h0 : 0 ≤ ρ) (h1 : ρ < 1) (ha : 0 < a) (h : |b - a| ≤ ρ * a) :
    0 < b ∧ |dB b - dB a| ≤ wobble ρ := by
  rw [abs_le] at h
  have hl : (1 - ρ) * a ≤ b := by linarith
  have hu : b ≤ (1 + ρ) * a := by linarith
  have hp : 0 < (1 - ρ) * a := mul_pos (by linarith) ha
  have hb : 0 < b := lt_of_lt_of_le hp hl
  refine ⟨hb, ?_⟩
  have e1 := (dB_le hp hb).2 hl
  have e2 := (dB_le hb (mul_pos (by linarith) ha)).2 hu
  rw [dB_mul (by linarith) ha] at e1 e2
  have e3 : dB (1 + ρ) + dB (1 - ρ) ≤ 0 := by
    rw [← dB_mul (by linarith) (by linarith)]
    have : dB ((1 + ρ) * (1 - ρ)) ≤ dB 1 :=
      (dB_le (mul_pos (by linarith) (by linarith)) one_pos).2 (by nlinarith)
    simpa [dB] using this
  unfold wobble
  rw [abs_le]
  constructor <;> linarith

/-- The refined values of a maximum of a disturbed spectrum, and of the spectrum without disturbances. -/
theorem refined_disturbed (A B : Nat → ℝ) (fs ρ s : ℝ) (n b e : Nat) (hfs : 0 < fs) (hn : 0 < n) (h0 : 0 ≤ ρ)
    (h1 : ρ < 1) (hs : 0 < s) (hl : 0 < A (b - 1)) (hr : 0 < A (b + 1)) (hlc : A (b - 1) < A b)
    (hrc : A (b + 1) < A b) (hB : PeakBin B n b)
    (hAB : ∀ k, b - 1 ≤ k → k ≤ b + 1 → |B k - s ^ e * A k| ≤ ρ * (s ^ e * A k)) :
    |refinedFreq B fs n b - refinedFreq A fs n b| ≤ freqSlack A fs n ρ b ∧
      |refinedLevel B b - (refinedLevel A b + e * dB s)| ≤ 5 / 4 * wobble ρ := by
  have hse : 0 < s ^ e := pow_pos hs e
  have hc : 0 < A b := hl.trans hlc
  obtain ⟨p1, d1⟩ := dB_near h0 h1 (mul_pos hse hl) (hAB (b - 1) (le_refl _) (by omega))
  obtain ⟨p2, d2⟩ := dB_near h0 h1 (mul_pos hse hc) (hAB b (by omega) (by omega))
  obtain ⟨p3, d3⟩ := dB_near h0 h1 (mul_pos hse hr) (hAB (b + 1) (by omega) (le_refl _))
  rw [dB_pow_mul hs hl] at d1
  rw [dB_pow_mul hs hc] at d2
  rw [dB_pow_mul hs hr] at d3
  have l1 : dB (A (b - 1)) < dB (A b) := (dB_lt hl hc).2 hlc
  have l2 : dB (A (b + 1)) < dB (A b) := (dB_lt hr hc).2 hrc
  have l1' : dB (B (b - 1)) < dB (B b) := (dB_lt p1 p2).2 hB.left
  have l2' : dB (B (b + 1)) < dB (B b) := (dB_lt p3 p2).2 hB.right
  have hn' : (0 : ℝ) < n := by exact_mod_cast hn
  constructor
  · have h := vertexPlace_near (by linarith) (by linarith) l1' l2' d1 d2 d3
    rw [vertexPlace_shift] at h
    have e1 : refinedFreq B fs n b - refinedFreq A fs n b =
        (vertexPlace (dB (B (b - 1))) (dB (B b)) (dB (B (b + 1))) -
          vertexPlace (dB (A (b - 1))) (dB (A b)) (dB (A (b + 1)))) * (fs / n) := by
      unfold refinedFreq; ring
    have e2 : freqSlack A fs n ρ b = 3 * wobble ρ / (2 * (dB (A b) + e * dB s) - (dB (A (b - 1)) + e * dB s) -
        (dB (A (b + 1)) + e * dB s)) * (fs / n) := by
      unfold freqSlack curvature
      rw [show 2 * (dB (A b) + e * dB s) - (dB (A (b - 1)) + e * dB s) - (dB (A (b + 1)) + e * dB s) =
        2 * dB (A b) - dB (A (b - 1)) - dB (A (b + 1)) by ring, mul_div_assoc]
    rw [e1, e2, abs_mul, abs_of_pos (div_pos hfs hn')]
    exact mul_le_mul_of_nonneg_right h (div_pos hfs hn').le
  · have h := vertexHeight_near (by linarith) (by linarith) l1' l2' d1 d2 d3
    rw [vertexHeight_shift] at h
    exact h

end Verif.Sms
