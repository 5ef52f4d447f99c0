import Verif.Sample.DecayLemmas
import Verif.Sample.NoiseSpec
import Mathlib.Tactic.Positivity
import Mathlib.Algebra.BigOperators.Intervals

/-!
# Lemmas for C128: regression of levels near a falling line
-/

set_option autoImplicit false
set_option linter.unusedSectionVars false
set_option linter.unusedSimpArgs false

namespace Verif.Sample

open Verif.Tracker Verif.Sms

/-! ## Sums of squares on a regular grid -/

theorem sum_sq_line (α β : ℝ) (M : Nat) : ∑ i ∈ Finset.range M, (α * i + β) ^ 2 =
    M * (β + α * (M - 1) / 2) ^ 2 + α ^ 2 * ((M : ℝ) ^ 3 - M) / 12 := by
  induction M with
  | zero => simp
  | succ M ih =>
    rw [Finset.sum_range_succ, ih]
    push_cast
    ring

/-- Among `N` points, at least half on one side: a line through them with slope `α` has squares of at least this
sum. -/
theorem half_sq (α : ℝ) (N M : Nat) (hN : 3 ≤ N) (hM : N ≤ 2 * M) :
    α ^ 2 * N * ((N : ℝ) - 1) ^ 2 / 96 ≤ α ^ 2 * ((M : ℝ) ^ 3 - M) / 12 := by
  have h3 : (3 : ℝ) ≤ N := by exact_mod_cast hN
  have h2 : (N : ℝ) ≤ 2 * M := by exact_mod_cast hM
  have hm : (N : ℝ) / 2 ≤ M := by linarith
  have e1 : ((N : ℝ) / 2) ^ 3 - N / 2 ≤ (M : ℝ) ^ 3 - M := by
    nlinarith [mul_nonneg (sub_nonneg.2 hm) (by positivity : (0:ℝ) ≤ (M : ℝ) ^ 2), mul_self_nonneg ((M : ℝ) - N / 2),
      mul_nonneg (sub_nonneg.2 hm) (by nlinarith : (0 : ℝ) ≤ (N : ℝ) / 2 * (N / 2) + (M : ℝ) * (N / 2) - 1)]
  have e2 : (N : ℝ) * (N - 1) ^ 2 / 8 ≤ ((N : ℝ) / 2) ^ 3 - N / 2 := by nlinarith
  have := mul_le_mul_of_nonneg_left (e2.trans e1) (sq_nonneg α)
  nlinarith

theorem sq_bound (α s : ℝ) (N : Nat) (hN : 3 ≤ N) (hs : 0 ≤ s)
    (h : α ^ 2 * N * ((N : ℝ) - 1) ^ 2 / 96 ≤ 6 * N * s ^ 2) : |α * (N - 1)| ≤ 24 * s := by
  have hNp : (0 : ℝ) < N := by exact_mod_cast (by omega : 0 < N)
  apply abs_le_of_sq_le_sq _ (by positivity)
  have : (N : ℝ) * ((α * (N - 1)) ^ 2) ≤ N * ((24 * s) ^ 2) := by
    have e1 : (N : ℝ) * ((α * (N - 1)) ^ 2) = 96 * (α ^ 2 * N * ((N : ℝ) - 1) ^ 2 / 96) := by ring
    have e2 : (N : ℝ) * ((24 * s) ^ 2) = 96 * (6 * N * s ^ 2) := by ring
    rw [e1, e2]
    linarith
  exact le_of_mul_le_mul_left this hNp

/-- The points of an increasing grid up to the knee. -/
theorem knee_split (t Δ a : ℝ) (hΔ : 0 < Δ) (N : Nat) : ∃ J, J ≤ N ∧ (∀ i, i < J → t + i * Δ ≤ a) ∧
    ∀ i, J ≤ i → i < N → a < t + i * Δ := by
  induction N with
  | zero => exact ⟨0, le_refl _, by simp, by simp⟩
  | succ N ih =>
    obtain ⟨J, h1, h2, h3⟩ := ih
    by_cases h : t + N * Δ ≤ a
    · refine ⟨N + 1, le_refl _, ?_, by intro i h1 h2; omega⟩
      intro i hi
      have : (i : ℝ) ≤ N := by exact_mod_cast (by omega : i ≤ N)
      nlinarith
    · refine ⟨J, by omega, h2, ?_⟩
      intro i hi hi'
      by_cases hN : i = N
      · subst hN; linarith
      · exact h3 i hi (by omega)

/-- A hinge that is near a falling line on a regular grid, in the sense of squares, has almost the slope and
the height of the line. -/
theorem hinge_near (t Δ k q a k' q' s : ℝ) (hΔ : 0 < Δ) (N : Nat) (hN : 3 ≤ N) (hs : 0 ≤ s)
    (hsum : ∑ i ∈ Finset.range N, (k' * min (t + i * Δ) a + q' - (k * (t + i * Δ) + q)) ^ 2 ≤ 6 * N * s ^ 2)
    (hk : 24 * s < -k * Δ * (N - 1)) :
    |k' - k| * Δ * (N - 1) ≤ 24 * s ∧ |k' * t + q' - (k * t + q)| ≤ 16 * s := by
  have h3 : (3 : ℝ) ≤ N := by exact_mod_cast hN
  obtain ⟨J, hJ, hlo, hhi⟩ := knee_split t Δ a hΔ N
  have hsplit := Finset.sum_range_add_sum_Ico
    (fun i : Nat => (k' * min (t + i * Δ) a + q' - (k * (t + i * Δ) + q)) ^ 2) hJ
  have h1 : ∑ i ∈ Finset.range J, (k' * min (t + (i : ℝ) * Δ) a + q' - (k * (t + i * Δ) + q)) ^ 2 =
      ∑ i ∈ Finset.range J, ((k' - k) * Δ * i + (k' * t + q' - (k * t + q))) ^ 2 := by
    apply Finset.sum_congr rfl
    intro i hi
    rw [min_eq_left (hlo i (Finset.mem_range.1 hi))]
    ring
  have h2 : ∑ i ∈ Finset.Ico J N, (k' * min (t + (i : ℝ) * Δ) a + q' - (k * (t + i * Δ) + q)) ^ 2 =
      ∑ i ∈ Finset.range (N - J), (-k * Δ * i + (k' * a + q' - (k * (t + J * Δ) + q))) ^ 2 := by
    rw [Finset.sum_Ico_eq_sum_range]
    apply Finset.sum_congr rfl
    intro i hi
    rw [Finset.mem_range] at hi
    have := (hhi (J + i) (by omega) (by omega)).le
    rw [min_eq_right this]
    push_cast
    ring
  rw [h1, h2, sum_sq_line, sum_sq_line] at hsplit
  rw [← hsplit] at hsum
  clear hsplit h1 h2
  set β := k' * t + q' - (k * t + q) with hβ
  have p0 : ∀ (c z : ℝ) (n : Nat), 0 ≤ (n : ℝ) * (c + z) ^ 2 := fun c z n =>
    mul_nonneg (Nat.cast_nonneg n) (sq_nonneg _)
  have p1 : ∀ (α : ℝ) (n : Nat), 0 ≤ α ^ 2 * ((n : ℝ) ^ 3 - n) / 12 := by
    intro α n
    have : (0 : ℝ) ≤ (n : ℝ) ^ 3 - n := by
      rcases Nat.eq_zero_or_pos n with h | h
      · subst h; simp
      · have : (1 : ℝ) ≤ n := by exact_mod_cast h
        nlinarith [mul_nonneg (by linarith : (0 : ℝ) ≤ n) (by nlinarith : (0 : ℝ) ≤ (n : ℝ) ^ 2 - 1)]
    positivity
  have hmain : N < 2 * J := by
    by_contra h0
    have hM : N ≤ 2 * (N - J) := by omega
    have e1 := half_sq (-k * Δ) N (N - J) hN hM
    have e2 : (-k * Δ) ^ 2 * N * ((N : ℝ) - 1) ^ 2 / 96 ≤ 6 * N * s ^ 2 := by
      have := p0 β ((k' - k) * Δ * (J - 1) / 2) J
      have := p1 ((k' - k) * Δ) J
      have := p0 (k' * a + q' - (k * (t + J * Δ) + q)) (-k * Δ * (((N - J : Nat) : ℝ) - 1) / 2) (N - J)
      linarith
    have e4 := sq_bound _ s N hN hs e2
    rw [abs_le] at e4
    linarith [e4.2]
  have hJN : (J : ℝ) ≤ N := by exact_mod_cast hJ
  have hJ2 : (N : ℝ) ≤ 2 * J := by exact_mod_cast hmain.le
  have hNp : (0 : ℝ) < N := by linarith
  have hJp : (0 : ℝ) < J := by linarith
  have f1 : |(k' - k) * Δ * (N - 1)| ≤ 24 * s := by
    have e1 := half_sq ((k' - k) * Δ) N J hN hmain.le
    have := p0 β ((k' - k) * Δ * (J - 1) / 2) J
    have := p1 (-k * Δ) (N - J)
    have := p0 (k' * a + q' - (k * (t + J * Δ) + q)) (-k * Δ * (((N - J : Nat) : ℝ) - 1) / 2) (N - J)
    have e2 : ((k' - k) * Δ) ^ 2 * N * ((N : ℝ) - 1) ^ 2 / 96 ≤ 6 * N * s ^ 2 := by linarith
    exact sq_bound _ s N hN hs e2
  have f2 : |β + (k' - k) * Δ * (J - 1) / 2| ≤ 4 * s := by
    apply abs_le_of_sq_le_sq _ (by positivity)
    have := p1 ((k' - k) * Δ) J
    have := p1 (-k * Δ) (N - J)
    have := p0 (k' * a + q' - (k * (t + J * Δ) + q)) (-k * Δ * (((N - J : Nat) : ℝ) - 1) / 2) (N - J)
    have e2 : (J : ℝ) * (β + (k' - k) * Δ * (J - 1) / 2) ^ 2 ≤ 6 * N * s ^ 2 := by linarith
    have e3 : (J : ℝ) * (β + (k' - k) * Δ * (J - 1) / 2) ^ 2 ≤ J * (4 * s) ^ 2 := by
      have g1 := mul_le_mul_of_nonneg_right hJ2 (sq_nonneg s)
      have g2 := mul_nonneg hJp.le (sq_nonneg s)
      have g3 : (J : ℝ) * (4 * s) ^ 2 = 16 * (J * s ^ 2) := by ring
      rw [g3]
      linarith
    exact le_of_mul_le_mul_left e3 hJp
  have f1' : |k' - k| * Δ * (N - 1) ≤ 24 * s := by
    rwa [abs_mul, abs_mul, abs_of_pos hΔ, abs_of_pos (by linarith : (0 : ℝ) < (N : ℝ) - 1)] at f1
  refine ⟨f1', ?_⟩
  have hJ1 : (1 : ℝ) ≤ J := by exact_mod_cast (by omega : 1 ≤ J)
  have f3 : |(k' - k) * Δ * (J - 1) / 2| ≤ 12 * s := by
    rw [abs_div, abs_mul, abs_mul, abs_of_pos hΔ, abs_of_nonneg (by linarith : (0 : ℝ) ≤ (J : ℝ) - 1),
      abs_of_pos (by norm_num : (0 : ℝ) < 2)]
    have : |k' - k| * Δ * (J - 1) ≤ |k' - k| * Δ * (N - 1) :=
      mul_le_mul_of_nonneg_left (by linarith) (by positivity)
    linarith
  calc |β| = |(β + (k' - k) * Δ * (J - 1) / 2) - (k' - k) * Δ * (J - 1) / 2| := by ring_nf
    _ ≤ |β + (k' - k) * Δ * (J - 1) / 2| + |(k' - k) * Δ * (J - 1) / 2| := abs_sub _ _
    _ ≤ 16 * s := by linarith

/-! ## The regressor -/

theorem sum_map_le_length {α : Type*} (l : List α) (g : α → ℝ) (c : ℝ) (h : ∀ a ∈ l, g a ≤ c) :
    (l.map g).sum ≤ l.length * c := by
  induction l with
  | nil => simp
  | cons a l ih =>
    have h1 := h a (by simp)
    have h2 := ih (fun b hb => h b (by simp [hb]))
    simp only [List.map_cons, List.sum_cons, List.length_cons]
    push_cast
    linarith

theorem sum_map_le {α : Type*} (l : List α) (g g' : α → ℝ) (h : ∀ a ∈ l, g a ≤ g' a) :
    (l.map g).sum ≤ (l.map g').sum := by
  induction l with
  | nil => simp
  | cons a l ih =>
    have h1 := h a (by simp)
    have h2 := ih (fun b hb => h b (by simp [hb]))
    simp only [List.map_cons, List.sum_cons]
    linarith

/-- The default regressor on points near a falling line, on a regular grid. -/
theorem near_hinge (η : ℝ) (solve : (Hinge.Coeffs ℝ → List ℝ) → Hinge.Coeffs ℝ → Hinge.Coeffs ℝ →
      Hinge.Coeffs ℝ → Except PyErr (Hinge.Coeffs ℝ)) (hsolve : SolverNear η solve) (x y : List ℝ)
    (t Δ k q s : ℝ) (N : Nat) (hN : 3 ≤ N) (hΔ : 0 < Δ) (hs : 0 ≤ s) (hη : η ≤ N * s ^ 2)
    (hx : x.Perm ((List.range N).map fun (i : Nat) => t + i * Δ)) (hxy : y.length = x.length)
    (hnear : ∀ e ∈ x.zip y, |e.2 - (k * e.1 + q)| ≤ s) (hk : 24 * s < -k * Δ * (N - 1)) :
    ∃ r, Hinge.fit linearRegression Hinge.defaultCoeffsInit Hinge.defaultBounds solve x y = .ok r ∧
      |r.k - k| * Δ * (N - 1) ≤ 24 * s ∧ |r.k * t + r.q - (k * t + q)| ≤ 16 * s := by
  have hxl : x.length = N := by rw [hx.length_eq]; simp
  have hmem : ∀ i : Nat, i < N → t + i * Δ ∈ x := by
    intro i hi
    rw [hx.mem_iff, List.mem_map]
    exact ⟨i, List.mem_range.2 hi, rfl⟩
  have hne : t + (0 : Nat) * Δ ≠ t + (1 : Nat) * Δ := by
    push_cast
    intro h
    linarith
  set k' := olsSlope x y with hk'
  set q' := olsIntercept x y with hq'
  have hls : LeastSquares (x.zip y) k' q' :=
    (leastSquares_iff x y hxy.symm (sum_sq_pos x _ _ _ (hmem 0 (by omega)) (hmem 1 (by omega)) hne) k' q').2
      ⟨rfl, rfl⟩
  have hy0 : y ≠ [] := by
    intro h
    rw [h] at hxy
    simp at hxy
    omega
  obtain ⟨lo, hi, x0, h1, h2, h3, h4, h5, h6, h7, h8, h9, h10, h11, h12, h13, h14, h15, _⟩ :=
    Hinge.C28_feasible x y k' q' (by omega) hy0
  set f := Hinge.residuals x y with hf
  have hfit : Hinge.fit linearRegression Hinge.defaultCoeffsInit Hinge.defaultBounds solve x y =
      solve f x0 lo hi := by
    simp only [Hinge.fit, linearRegression, ← hk', ← hq', h1, h2, Hinge.leastSquares, h3, h4, h5, h6, h7, h8,
      h9, h10, h11, and_self, not_true, if_false, hf]
  have hcost : ∀ r : Hinge.Coeffs ℝ, cost f r =
      ((x.zip y).map fun e => (r.k * min e.1 r.a + r.q - e.2) ^ 2).sum := by
    intro r
    unfold cost
    rw [hf, Hinge.residuals, ← List.map_uncurry_zip_eq_zipWith, List.map_map]
    congr 1
    apply List.map_congr_left
    intro e _
    simp only [Function.comp, Function.uncurry, Hinge.hingeFunction]
    ring
  obtain ⟨r, hr, hbr, hmr⟩ := hsolve f x0 lo hi ⟨⟨h6, h7⟩, ⟨h8, h9⟩, h10, h11⟩
  have hzl : (x.zip y).length = N := by simp [hxy, hxl]
  have hline : ((x.zip y).map fun e => (e.2 - (k * e.1 + q)) ^ 2).sum ≤ N * s ^ 2 := by
    have := sum_map_le_length (x.zip y) (fun e => (e.2 - (k * e.1 + q)) ^ 2) (s ^ 2) (by
      intro e he
      exact sq_le_sq' (abs_le.1 (hnear e he)).1 (abs_le.1 (hnear e he)).2)
    rwa [hzl] at this
  have hols : cost f ⟨hi.a, k', q'⟩ ≤ N * s ^ 2 := by
    rw [hcost]
    refine le_trans (le_of_eq ?_) ((hls k q).trans hline)
    unfold ssr
    congr 1
    apply List.map_congr_left
    intro e he
    have : e.1 ∈ x := (List.of_mem_zip he).1
    rw [min_eq_left (h14 _ this).2]
    ring
  have hr2 : cost f r ≤ 2 * (N * s ^ 2) := by
    have := hmr ⟨hi.a, k', q'⟩ ⟨⟨h3.le, le_refl _⟩, by rw [← h12]; exact ⟨h8, h9⟩, by rw [← h13]; exact ⟨h10, h11⟩⟩
    linarith
  refine ⟨r, by rw [hfit, hr], ?_⟩
  apply hinge_near t Δ k q r.a r.k r.q s hΔ N hN hs ?_ hk
  have e1 : ∑ i ∈ Finset.range N, (r.k * min (t + i * Δ) r.a + r.q - (k * (t + i * Δ) + q)) ^ 2 =
      (x.map fun u => (r.k * min u r.a + r.q - (k * u + q)) ^ 2).sum := by
    rw [(hx.map _).sum_eq, List.map_map, Finset.sum_range]
    rw [← List.sum_ofFn]
    congr 1
    apply List.ext_getElem
    · simp
    · intro i _ _; simp
  have e2 : (x.map fun u => (r.k * min u r.a + r.q - (k * u + q)) ^ 2).sum =
      ((x.zip y).map fun e => (r.k * min e.1 r.a + r.q - (k * e.1 + q)) ^ 2).sum := by
    conv_lhs => rw [← List.map_fst_zip (l₁ := x) (l₂ := y) (by omega), List.map_map]
    rfl
  have e3 : ((x.zip y).map fun e => (r.k * min e.1 r.a + r.q - (k * e.1 + q)) ^ 2).sum ≤
      ((x.zip y).map fun e => 2 * (r.k * min e.1 r.a + r.q - e.2) ^ 2 + 2 * (e.2 - (k * e.1 + q)) ^ 2).sum := by
    apply sum_map_le
    intro e _
    nlinarith [sq_nonneg ((r.k * min e.1 r.a + r.q - e.2) - (e.2 - (k * e.1 + q)))]
  rw [e1, e2]
  refine e3.trans ?_
  rw [List.sum_map_add, List.sum_map_mul_left, List.sum_map_mul_left, ← hcost]
  linarith

end Verif.Sample
