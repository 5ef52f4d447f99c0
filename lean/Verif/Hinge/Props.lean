import Mathlib.Tactic.Ring
import Mathlib.Tactic.Linarith
import Mathlib.Tactic.Positivity
import Mathlib.Algebra.Order.Group.MinMax
import Mathlib.Algebra.Order.Field.Basic
import Verif.Hinge.Model

/-!
# Properties of the hinge regression (C27, C28, C65)
-/

set_option autoImplicit false
set_option linter.unusedSectionVars false
set_option linter.unusedSimpArgs false

namespace Verif.Hinge

variable {K : Type*} [Field K] [LinearOrder K] [IsStrictOrderedRing K]

/-! ## C27 -/

/-- C27: a line up to the knee, a constant after it; no jump (changes are at most the slope times
the distance); monotone in the direction of the slope. -/
theorem C27_hinge (a k q : K) :
    (∀ x, x ≤ a → hingeFunction x a k q = k * x + q) ∧
    (∀ x, a ≤ x → hingeFunction x a k q = k * a + q) ∧
    (∀ x y, |hingeFunction x a k q - hingeFunction y a k q| ≤ |k| * |x - y|) ∧
    (∀ x y, x ≤ y → 0 ≤ k → hingeFunction x a k q ≤ hingeFunction y a k q) ∧
    (∀ x y, x ≤ y → k ≤ 0 → hingeFunction y a k q ≤ hingeFunction x a k q) := by
  refine ⟨?_, ?_, ?_, ?_, ?_⟩
  · intro x h; rw [hingeFunction, min_eq_left h]; ring
  · intro x h; rw [hingeFunction, min_eq_right h]; ring
  · intro x y
    have e : hingeFunction x a k q - hingeFunction y a k q = k * (min x a - min y a) := by
      simp only [hingeFunction]; ring
    rw [e, abs_mul]
    apply mul_le_mul_of_nonneg_left _ (abs_nonneg k)
    have := abs_min_sub_min_le_max x a y a
    simpa using this
  · intro x y h hk
    simp only [hingeFunction]
    have := mul_le_mul_of_nonneg_left (min_le_min_right a h) hk
    linarith
  · intro x y h hk
    simp only [hingeFunction]
    have := mul_le_mul_of_nonpos_left (min_le_min_right a h) hk
    linarith

/-- C27 for the learned function: one value per input, on the line or on the plateau. -/
theorem C27_predict (p : Coeffs K) (x : List K) :
    (predict p x).length = x.length ∧
    ∀ (i : Nat) (v w : K), x[i]? = some v → (predict p x)[i]? = some w →
      (v ≤ p.a → w = p.k * v + p.q) ∧ (p.a ≤ v → w = p.k * p.a + p.q) := by
  refine ⟨by simp [predict], ?_⟩
  intro i v w hv hw
  simp only [predict, List.getElem?_map, hv, Option.map_some, Option.some.injEq] at hw
  subst hw
  exact ⟨(C27_hinge p.a p.k p.q).1 v, (C27_hinge p.a p.k p.q).2.1 v⟩

example : predict (⟨2, -3, 1⟩ : Coeffs ℚ) [0, 1, 2, 3, 10] = [1, -2, -5, -5, -5] := by
  decide +kernel

/-! ## C28 -/

theorem foldl_min_le (l : List K) : ∀ a : K, (l.foldl min a ≤ a) ∧ ∀ b ∈ l, l.foldl min a ≤ b := by
  induction l with
  | nil => intro a; simp
  | cons b l ih =>
    intro a
    obtain ⟨h1, h2⟩ := ih (min a b)
    simp only [List.foldl_cons, List.mem_cons]
    refine ⟨h1.trans (min_le_left _ _), ?_⟩
    rintro c (rfl | hc)
    · exact h1.trans (min_le_right _ _)
    · exact h2 c hc

theorem le_foldl_max (l : List K) : ∀ a : K, (a ≤ l.foldl max a) ∧ ∀ b ∈ l, b ≤ l.foldl max a := by
  induction l with
  | nil => intro a; simp
  | cons b l ih =>
    intro a
    obtain ⟨h1, h2⟩ := ih (max a b)
    simp only [List.foldl_cons, List.mem_cons]
    refine ⟨(le_max_left _ _).trans h1, ?_⟩
    rintro c (rfl | hc)
    · exact (le_max_right _ _).trans h1
    · exact h2 c hc

theorem npMin_ok (x : List K) (h : x ≠ []) : ∃ m, npMin x = .ok m ∧ ∀ v ∈ x, m ≤ v := by
  cases x with
  | nil => exact absurd rfl h
  | cons a l =>
    refine ⟨l.foldl min a, rfl, ?_⟩
    intro v hv
    rcases List.mem_cons.1 hv with rfl | hv
    · exact (foldl_min_le l v).1
    · exact (foldl_min_le l a).2 v hv

theorem npMax_ok (x : List K) (h : x ≠ []) : ∃ m, npMax x = .ok m ∧ ∀ v ∈ x, v ≤ m := by
  cases x with
  | nil => exact absurd rfl h
  | cons a l =>
    refine ⟨l.foldl max a, rfl, ?_⟩
    intro v hv
    rcases List.mem_cons.1 hv with rfl | hv
    · exact (le_foldl_max l v).1
    · exact (le_foldl_max l a).2 v hv

/-- C28: for every data set with more than one point the bounds are proper, contain the starting
point, all knees of the data and all intercepts as far from the line's as any value; the slope
bounds keep the sign of the slope of the line. -/
theorem C28_feasible (x y : List K) (k q : K) (hx : 2 ≤ x.length) (hy : y ≠ []) :
    ∃ lo hi x0, defaultBounds x y k q = .ok (lo, hi) ∧ defaultCoeffsInit x y k q = .ok x0 ∧
      lo.a < hi.a ∧ lo.k < hi.k ∧ lo.q < hi.q ∧
      lo.a ≤ x0.a ∧ x0.a ≤ hi.a ∧ lo.k ≤ x0.k ∧ x0.k ≤ hi.k ∧ lo.q ≤ x0.q ∧ x0.q ≤ hi.q ∧
      x0.k = k ∧ x0.q = q ∧
      (∀ v ∈ x, lo.a ≤ v ∧ v ≤ hi.a) ∧ (∀ v ∈ y, lo.q ≤ q - |v - q| ∧ q + |v - q| ≤ hi.q) ∧
      (k < 0 → hi.k < 0) ∧ (0 < k → 0 < lo.k) := by
  have hxn : x ≠ [] := by intro h; simp [h] at hx
  obtain ⟨m, hm, hm'⟩ := npMin_ok x hxn
  obtain ⟨M, hM, hM'⟩ := npMax_ok x hxn
  obtain ⟨v0, hv0⟩ := List.exists_mem_of_ne_nil x hxn
  have hmM : m ≤ M := (hm' v0 hv0).trans (hM' v0 hv0)
  have hyn : y.map (fun v => |v - q|) ≠ [] := by simpa using hy
  obtain ⟨D, hD, hD'⟩ := npMax_ok _ hyn
  have hD0 : 0 ≤ D := by
    obtain ⟨w, hw⟩ := List.exists_mem_of_ne_nil y hy
    exact (abs_nonneg _).trans (hD' _ (List.mem_map.2 ⟨w, hw, rfl⟩))
  -- knee
  obtain ⟨al, ah, ha, ha1, ha2, ha3⟩ : ∃ al ah, kneeBounds x = .ok (al, ah) ∧ al < ah ∧ al ≤ m ∧
      M ≤ ah := by
    by_cases h : m = M
    · exact ⟨m - 1, M + 1, by simp [kneeBounds, hm, hM, h]; omega, by linarith, by linarith,
        by linarith⟩
    · exact ⟨m, M, by simp [kneeBounds, hm, hM, h]; omega, lt_of_le_of_ne hmM h, le_rfl, le_rfl⟩
  -- intercept
  obtain ⟨dq, hq, hq0, hqD⟩ : ∃ dq, interceptBounds y q = .ok (q - dq, q + dq) ∧ 0 < dq ∧ D ≤ dq := by
    by_cases h : D = 0
    · exact ⟨1, by simp [interceptBounds, hD, h], one_pos, by rw [h]; exact zero_le_one⟩
    · exact ⟨D, by simp [interceptBounds, hD, h], lt_of_le_of_ne hD0 (Ne.symm h), le_rfl⟩
  -- slope
  obtain ⟨kl, kh, hk, hk1, hk2, hk3, hk4, hk5⟩ : ∃ kl kh, slopeBounds k = (kl, kh) ∧ kl < kh ∧
      kl ≤ k ∧ k ≤ kh ∧ (k < 0 → kh < 0) ∧ (0 < k → 0 < kl) := by
    rcases lt_trichotomy k 0 with h | h | h
    · exact ⟨8 * k, k, by simp [slopeBounds, h, h.ne], by linarith, by linarith, le_rfl,
        fun _ => h, fun h' => absurd h (not_lt.2 h'.le)⟩
    · subst h
      exact ⟨-1, 1, by simp [slopeBounds], by linarith, by linarith, by linarith,
        fun h => absurd h (lt_irrefl _), fun h => absurd h (lt_irrefl _)⟩
    · exact ⟨k, 8 * k, by simp [slopeBounds, h.ne', not_lt.2 h.le], by linarith, le_rfl,
        by linarith, fun h' => absurd h' (not_lt.2 h.le), fun _ => h⟩
  refine ⟨⟨al, kl, q - dq⟩, ⟨ah, kh, q + dq⟩, ⟨(m + M) / 2, k, q⟩, ?_, ?_, ha1, hk1, by
    show q - dq < q + dq
    linarith, ?_, ?_, hk2, hk3, by show q - dq ≤ q; linarith, by show q ≤ q + dq; linarith, rfl, rfl, ?_, ?_,
    hk4, hk5⟩
  · simp [defaultBounds, ha, hq, hk]
  · simp [defaultCoeffsInit, hm, hM]
  · show al ≤ (m + M) / 2; linarith
  · show (m + M) / 2 ≤ ah; linarith
  · intro v hv
    exact ⟨ha2.trans (hm' v hv), (hM' v hv).trans ha3⟩
  · intro v hv
    have := (hD' _ (List.mem_map.2 ⟨v, hv, rfl⟩)).trans hqD
    constructor
    · show q - dq ≤ _; linarith
    · show _ ≤ q + dq; linarith

/-- C28: with one point or none, `ValueError`. -/
theorem C28_short (x y : List K) (k q : K) (hx : x.length ≤ 1) :
    defaultBounds x y k q = .error .valueError := by
  simp [defaultBounds, kneeBounds, hx]

/-- C28: so the optimiser's own checks never fail: `fit` gives exactly what the search gives. -/
theorem C28_fit (lin : List K → List K → Except PyErr (K × K))
    (solve : (Coeffs K → List K) → Coeffs K → Coeffs K → Coeffs K → Except PyErr (Coeffs K))
    (x y : List K) (k q : K) (hlin : lin x y = .ok (k, q)) (hx : 2 ≤ x.length) (hy : y ≠ []) :
    ∃ x0 lo hi, fit lin defaultCoeffsInit defaultBounds solve x y = solve
      (fun p => List.zipWith (fun u v => p.k * min u p.a + p.q - v) x y) x0 lo hi ∧
      lo.k ≤ k ∧ k ≤ hi.k ∧ x0.k = k ∧ x0.q = q := by
  obtain ⟨lo, hi, x0, h1, h2, h3, h4, h5, h6, h7, h8, h9, h10, h11, h12, h13, _⟩ :=
    C28_feasible x y k q hx hy
  refine ⟨x0, lo, hi, ?_, by rw [← h12]; exact h8, by rw [← h12]; exact h9, h12, h13⟩
  simp only [fit, hlin, h1, h2, leastSquares, h3, h4, h5, h6, h7, h8, h9, h10, h11, and_self,
    not_true, if_false]
  congr 1
  funext p
  simp only [residuals, hingeFunction, add_comm]

example : (defaultBounds [(0 : ℚ), 1, 2] [-1, -3, -8] (-7 / 2) (-1 / 2)).toOption =
    some (⟨0, -28, -8⟩, ⟨2, -7 / 2, 7⟩) := by decide +kernel

/-- Equal times and values on the line: the degenerate ranges are widened. -/
example : (defaultBounds [(5 : ℚ), 5] [2, 2] 0 2).toOption = some (⟨4, -1, 1⟩, ⟨6, 1, 3⟩) := by
  decide +kernel

/-! ## C65 -/

/-- C65: whenever the search respects its bounds, the slope of the fitted hinge has the sign of the
slope of the line and is between it and 8 times it. -/
theorem C65_slope_sign (lin : List K → List K → Except PyErr (K × K))
    (solve : (Coeffs K → List K) → Coeffs K → Coeffs K → Coeffs K → Except PyErr (Coeffs K))
    (hsolve : ∀ f x0 lo hi r, lo.k ≤ x0.k → x0.k ≤ hi.k → solve f x0 lo hi = .ok r →
      lo.k ≤ r.k ∧ r.k ≤ hi.k)
    (x y : List K) (k q : K) (hlin : lin x y = .ok (k, q)) (r : Coeffs K)
    (hr : fit lin defaultCoeffsInit defaultBounds solve x y = .ok r) :
    (k < 0 → 8 * k ≤ r.k ∧ r.k ≤ k) ∧ (0 < k → k ≤ r.k ∧ r.k ≤ 8 * k) ∧ (k = 0 → |r.k| ≤ 1) := by
  simp only [fit, hlin] at hr
  split at hr
  · simp at hr
  · split at hr
    · simp at hr
    · rename_i lo hi hb
      unfold leastSquares at hr
      split at hr
      · simp at hr
      · split at hr
        · simp at hr
        · rename_i hfeas
          rw [not_not] at hfeas
          obtain ⟨h1, h2⟩ := hsolve _ _ _ _ _ hfeas.2.2.1 hfeas.2.2.2.1 hr
          simp only [defaultBounds] at hb
          split at hb
          · simp at hb
          · split at hb
            · simp at hb
            · simp only [Except.ok.injEq, Prod.mk.injEq] at hb
              obtain ⟨rfl, rfl⟩ := hb
              simp only [slopeBounds] at h1 h2
              refine ⟨?_, ?_, ?_⟩
              · intro hk
                simpa [hk, hk.ne] using And.intro h1 h2
              · intro hk
                simpa [hk.ne', not_lt.2 hk.le] using And.intro h1 h2
              · rintro rfl
                simp only [if_true] at h1 h2
                exact abs_le.2 ⟨h1, h2⟩

/-- A search that stays at the starting point respects its bounds. -/
example : ((fit (fun _ _ => .ok (-7 / 2, -1 / 2)) defaultCoeffsInit defaultBounds
      (fun _ x0 _ _ => .ok x0) [(0 : ℚ), 1, 2] [-1, -3, -8]).toOption = some ⟨1, -7 / 2, -1 / 2⟩) ∧
    ∀ (f : Coeffs ℚ → List ℚ) (x0 lo hi r : Coeffs ℚ), lo.k ≤ x0.k → x0.k ≤ hi.k →
      (Except.ok x0 : Except PyErr (Coeffs ℚ)) = .ok r → lo.k ≤ r.k ∧ r.k ≤ hi.k := by
  refine ⟨by decide +kernel, ?_⟩
  intro _ x0 lo hi r h1 h2 h
  cases h
  exact ⟨h1, h2⟩

end Verif.Hinge
