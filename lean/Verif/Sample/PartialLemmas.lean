import Verif.Sample.NoiseProps
import Verif.Sms.PartialProps

/-!
# Lemmas: least-squares lines and mean frequencies of disturbed tracks
-/

set_option autoImplicit false
set_option linter.unusedSectionVars false
set_option linter.unusedSimpArgs false

namespace Verif.Sample

open Verif.Tracker Verif.Sms

/-- The mean of numbers near `f` is near `f`. -/
theorem mean_near (F : Nat → ℝ) (f s : ℝ) (N : Nat) (hN : 0 < N) (h : ∀ e, e < N → |F e - f| ≤ s) :
    |((List.range N).map F).sum / N - f| ≤ s := by
  have hNp : (0 : ℝ) < N := by exact_mod_cast hN
  have key : ∀ M, M ≤ N → |((List.range M).map F).sum - M * f| ≤ M * s := by
    intro M
    induction M with
    | zero => simp
    | succ M ih =>
      intro hM
      have h1 := abs_le.1 (ih (by omega))
      have h2 := abs_le.1 (h M (by omega))
      rw [List.range_succ, List.map_append, List.sum_append, List.map_singleton, List.sum_singleton, abs_le]
      push_cast
      constructor <;> linarith
  have := key N (le_refl _)
  have e : ((List.range N).map F).sum / N - f = (((List.range N).map F).sum - N * f) / N := by
    field_simp
  rw [e, abs_div, abs_of_pos hNp, div_le_iff₀ hNp, mul_comm s]
  exact this

/-- The least-squares line through points near a line. -/
theorem line_near (M : Nat → ℝ) (G q₀ s : ℝ) (N : Nat) (hN : 2 ≤ N) (hs : 0 ≤ s)
    (h : ∀ e, e < N → |M e - (q₀ + e * G)| ≤ s) :
    ∃ k q, LeastSquares ((List.range N).map fun (e : Nat) => ((e : ℝ), M e)) k q ∧
      |k - G| * (N - 1) ≤ 7 * s ∧ |q - q₀| ≤ 6 * s := by
  have hNp : (2 : ℝ) ≤ N := by exact_mod_cast hN
  set xs := (List.range N).map fun (e : Nat) => (e : ℝ) with hxs
  set ys := (List.range N).map M with hys
  have hz : xs.zip ys = (List.range N).map fun (e : Nat) => ((e : ℝ), M e) := by
    rw [hxs, hys, List.zip_map']
  have hpos : 0 < (xs.map fun x => (x - mean xs) ^ 2).sum := by
    apply sum_sq_pos _ _ (0 : ℝ) 1
    · exact List.mem_map.2 ⟨0, List.mem_range.2 (by omega), by simp⟩
    · exact List.mem_map.2 ⟨1, List.mem_range.2 (by omega), by simp⟩
    · norm_num
  have hls := (leastSquares_iff xs ys (by simp [hxs, hys]) hpos (olsSlope xs ys) (olsIntercept xs ys)).2 ⟨rfl, rfl⟩
  rw [hz] at hls
  generalize olsSlope xs ys = k at hls
  generalize olsIntercept xs ys = q at hls
  refine ⟨k, q, hls, ?_⟩
  have hssr : ∀ k' q', ssr ((List.range N).map fun (e : Nat) => ((e : ℝ), M e)) k' q' =
      ∑ e ∈ Finset.range N, (M e - (k' * e + q')) ^ 2 := by
    intro k' q'
    unfold ssr
    rw [List.map_map, Finset.sum_range, ← List.sum_ofFn, List.ofFn_eq_map, ← List.map_coe_finRange_eq_range,
      List.map_map]
    rfl
  have h1 := hls G q₀
  rw [hssr, hssr] at h1
  have h2 : ∑ e ∈ Finset.range N, (M e - (G * e + q₀)) ^ 2 ≤ N * s ^ 2 := by
    have : ∀ e ∈ Finset.range N, (M e - (G * e + q₀)) ^ 2 ≤ s ^ 2 := by
      intro e he
      have := h e (Finset.mem_range.1 he)
      rw [show M e - (G * e + q₀) = M e - (q₀ + e * G) by ring]
      exact sq_le_sq' (by linarith [(abs_le.1 this).1]) (abs_le.1 this).2
    have := Finset.sum_le_sum this
    simpa using this
  have h3 : ∑ e ∈ Finset.range N, ((k - G) * (e : ℝ) + (q - q₀)) ^ 2 ≤ 4 * N * s ^ 2 := by
    have : ∀ e ∈ Finset.range N, ((k - G) * (e : ℝ) + (q - q₀)) ^ 2 ≤
        2 * (M e - (k * e + q)) ^ 2 + 2 * (M e - (G * e + q₀)) ^ 2 := by
      intro e _
      nlinarith [sq_nonneg ((M e - (k * e + q)) + (M e - (G * e + q₀)))]
    have := Finset.sum_le_sum this
    rw [Finset.sum_add_distrib, ← Finset.mul_sum, ← Finset.mul_sum] at this
    linarith
  rw [sum_sq_line] at h3
  have h4 : 0 ≤ (N : ℝ) * (q - q₀ + (k - G) * (N - 1) / 2) ^ 2 := by positivity
  have h5 : 0 ≤ (k - G) ^ 2 * ((N : ℝ) ^ 3 - N) / 12 := by
    have : 0 ≤ (N : ℝ) ^ 3 - N := by nlinarith [mul_nonneg (by linarith : (0 : ℝ) ≤ N) (by nlinarith : (0 : ℝ) ≤ (N : ℝ) ^ 2 - 1)]
    positivity
  have hN0 : (0 : ℝ) < N := by linarith
  have g1 : |(k - G) * (N - 1)| ≤ 7 * s := by
    apply abs_le_of_sq_le_sq _ (by positivity)
    have e1 : (k - G) ^ 2 * ((N : ℝ) ^ 3 - N) = N * ((k - G) ^ 2 * ((N : ℝ) ^ 2 - 1)) := by ring
    have e2 : N * ((k - G) ^ 2 * ((N : ℝ) ^ 2 - 1)) ≤ N * (48 * s ^ 2) := by linarith
    have e3 := le_of_mul_le_mul_left e2 hN0
    have e4 : (k - G) ^ 2 * ((N : ℝ) - 1) ^ 2 ≤ (k - G) ^ 2 * ((N : ℝ) ^ 2 - 1) :=
      mul_le_mul_of_nonneg_left (by nlinarith) (sq_nonneg _)
    nlinarith [sq_nonneg s]
  have g2 : |q - q₀ + (k - G) * (N - 1) / 2| ≤ 2 * s := by
    apply abs_le_of_sq_le_sq _ (by positivity)
    have e2 : N * (q - q₀ + (k - G) * (N - 1) / 2) ^ 2 ≤ N * (4 * s ^ 2) := by linarith
    have := le_of_mul_le_mul_left e2 hN0
    nlinarith
  refine ⟨?_, ?_⟩
  · rw [abs_mul, abs_of_nonneg (by linarith : (0 : ℝ) ≤ N - 1)] at g1
    exact g1
  · rw [abs_le] at g1 g2 ⊢
    constructor <;> linarith

/-- The level of a decay by the factor `exp(-2 h / (d fs))` per frame. -/
theorem dB_decay (h fs d : ℝ) (hfs : 0 < fs) (hd : 0 < d) (e : ℝ) :
    e * dB (Real.exp (-(2 * h) / (d * fs))) = 20 * Real.logb 10 (Real.exp (-2 * (e * h / fs) / d)) := by
  unfold dB
  rw [← Real.exp_one_rpow (-(2 * h) / (d * fs)), ← Real.exp_one_rpow (-2 * (e * h / fs) / d),
    Real.logb_rpow_eq_mul_logb_of_pos (Real.exp_pos 1), Real.logb_rpow_eq_mul_logb_of_pos (Real.exp_pos 1)]
  field_simp

/-- The centre of the earliest frame of a track that begins with the sound. -/
theorem centre_earliest (p : Sms.Params ℝ) (x : List ℝ) (N : Nat) (h : Usable p x) (hN : 0 < N)
    (hL : N ≤ frameCount p x) :
    centreTime p x.length (earliest p (if p.reverse then frameCount p x - N else 0) N) =
      earliestTime p x.length := by
  unfold centreTime earliest earliestTime frameCount at *
  rw [h.unpadded]
  cases p.reverse with
  | false => simp
  | true =>
    simp only [if_true, Bool.false_eq_true, if_false]
    rw [show 1 + (x.length - p.w.length) / p.hop - N + N - 1 = (x.length - p.w.length) / p.hop by omega]
    congr 1
    have h1 := Nat.mod_add_div (x.length - p.w.length) p.hop
    have h2 : ((x.length - p.w.length) % p.hop : Nat) + (p.hop : ℝ) * ((x.length - p.w.length) / p.hop : Nat) =
        (x.length : ℝ) - p.w.length := by
      rw [← Nat.cast_sub h.long]
      exact_mod_cast h1
    linarith

/-- The centres of the frames of a track. -/
theorem centre_step (p : Sms.Params ℝ) (n s N i : Nat) (hi : i < N) :
    centreTime p n (s + i) - centreTime p n (earliest p s N) =
      (timeIndex p.reverse N i : ℝ) * p.hop / p.tracker.fs := by
  unfold centreTime earliest timeIndex
  cases p.reverse with
  | false =>
    simp only [Bool.false_eq_true, if_false]
    push_cast
    ring
  | true =>
    simp only [if_true]
    have : ((s + N - 1 : Nat) : ℝ) = ((s + i : Nat) : ℝ) + ((N - 1 - i : Nat) : ℝ) := by
      rw [← Nat.cast_add]; congr 1; omega
    rw [this]
    ring

end Verif.Sample
