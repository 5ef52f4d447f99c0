import Verif.Float.HingeModel
import Verif.Float.BisectProps
import Verif.Hinge.Props

/-!
# Default start and bounds of the hinge regression in floating point (C140)
-/

set_option autoImplicit false
set_option linter.unusedSectionVars false
set_option linter.unusedSimpArgs false

namespace Verif.Float

open Arith
open Verif.Hinge (Coeffs npMin npMax)

variable {K : Type} [Field K] [LinearOrder K] [IsStrictOrderedRing K] (A : Arith K)

/-- One less and one more than a number differ. -/
theorem one_step {q : K} (rq : A.Rep q) (h : |q| * A.u < 1) : A.sub q 1 < A.add q 1 := by
  refine lt_of_le_of_ne (rnd_mono (by linarith)) fun e => ?_
  have e1 := errSub rq (A := A) rep_one
  have e2 := A.errAdd q 1 rq rep_one
  have u0 := A.u_pos
  have u8 := A.u_le
  change A.rnd (q - 1) = A.rnd (q + 1) at e
  rw [e] at e1
  have h1 := (abs_le.1 e1).2
  have h2 := (abs_le.1 e2).1
  rcases le_total 1 |q| with hq | hq
  · have h3 : |q - 1| + |q + 1| = 2 * |q| := by
      rcases le_total 0 q with h0 | h0
      · rw [abs_of_nonneg h0] at hq ⊢
        rw [abs_of_nonneg (by linarith), abs_of_nonneg (by linarith)]
        ring
      · rw [abs_of_nonpos h0] at hq ⊢
        rw [abs_of_nonpos (by linarith), abs_of_nonpos (by linarith)]
        ring
    have : 2 ≤ A.u * (2 * |q|) := by
      rw [← h3]
      linarith
    linarith
  · have h3 : |q - 1| ≤ 2 := by
      rw [abs_le] at hq ⊢
      constructor <;> linarith [hq.1, hq.2]
    have h4 : |q + 1| ≤ 2 := by
      rw [abs_le] at hq ⊢
      constructor <;> linarith [hq.1, hq.2]
    have h5 := mul_le_mul_of_nonneg_left h3 u0.le
    have h6 := mul_le_mul_of_nonneg_left h4 u0.le
    linarith

/-- Subtracting and adding a rounded distance to another number gives different results. -/
theorem dist_step {q y : K} (rq : A.Rep q) (ry : A.Rep y) (h : y ≠ q) :
    A.sub q |A.sub y q| < A.add q |A.sub y q| := by
  have u0 := A.u_pos
  have u8 := A.u_le
  have d0 : 0 ≤ |A.sub y q| := abs_nonneg _
  refine lt_of_le_of_ne (rnd_mono (by linarith)) fun e => ?_
  change A.rnd _ = A.rnd _ at e
  have rd : A.Rep |A.sub y q| := rep_abs (rnd_rep _)
  -- both are `q`
  have hq1 : A.rnd (q - |A.sub y q|) ≤ q := rnd_le (by linarith) rq
  have hq2 : q ≤ A.rnd (q + |A.sub y q|) := le_rnd (by linarith) rq
  have e1 : A.rnd (q - |A.sub y q|) = q := le_antisymm hq1 (e ▸ hq2)
  have e2 : A.rnd (q + |A.sub y q|) = q := e ▸ e1
  have hd0 : 0 < |y - q| := abs_pos.2 (sub_ne_zero.2 h)
  by_cases hs : |A.sub y q| = |y - q|
  · rw [hs] at e1 e2
    rcases lt_or_gt_of_ne h with hlt | hlt
    · rw [abs_of_neg (by linarith), sub_neg_eq_add, add_sub_cancel, ry] at e1
      exact h e1
    · rw [abs_of_pos (by linarith), add_sub_cancel, ry] at e2
      exact h e2
  · -- the distance was rounded, so it is large
    have hfar : ¬ (|q| / 2 ≥ |y - q|) := by
      intro hc
      apply hs
      have hdab := abs_le.1 (show |y - q| ≤ |q| / 2 from hc)
      have : A.sub y q = y - q := by
        rcases le_total 0 q with h0 | h0
        · rw [abs_of_nonneg h0] at hdab
          exact A.sterbenz y q ry rq (by linarith [hdab.1]) (by linarith [hdab.2])
        · rw [abs_of_nonpos h0] at hdab
          have := A.sterbenz (-y) (-q) (rep_neg ry) (rep_neg rq) (by linarith [hdab.2])
            (by linarith [hdab.1])
          rw [show -y - -q = -(y - q) by ring, A.odd] at this
          exact neg_injective this
      rw [this]
    rw [ge_iff_le, not_le] at hfar
    have h1 : (1 - A.u) * |y - q| ≤ |A.sub y q| := by
      have := errSub ry rq (A := A)
      have h2 := abs_add_le (y - q - A.sub y q) (A.sub y q)
      rw [sub_add_cancel, abs_sub_comm (y - q)] at h2
      change |A.sub y q - (y - q)| ≤ _ at this
      linarith
    have h2 : |A.sub y q| ≤ A.u * |q + (|A.sub y q|)| := by
      have := A.errAdd q |A.sub y q| rq rd
      rw [e2, show q - (q + |A.sub y q|) = -|A.sub y q| by ring, abs_neg, abs_abs] at this
      exact this
    have h3 : |q + (|A.sub y q|)| ≤ |q| + |A.sub y q| := by
      have := abs_add_le q |A.sub y q|
      rwa [abs_abs] at this
    have h4 := mul_le_mul_of_nonneg_left h3 u0.le
    have h5 : 7 / 8 * |y - q| ≤ (1 - A.u) * |y - q| :=
      mul_le_mul_of_nonneg_right (by linarith) hd0.le
    have h6 : A.u * (|q| + |A.sub y q|) ≤ 1 / 8 * (|q| + |A.sub y q|) :=
      mul_le_mul_of_nonneg_right u8 (by positivity)
    linarith

theorem npMin_mem (x : List K) (m : K) (h : npMin x = .ok m) : m ∈ x := by
  cases x with
  | nil => simp [npMin] at h
  | cons a l =>
    simp only [npMin, Except.ok.injEq] at h
    subst h
    induction l generalizing a with
    | nil => simp
    | cons b l ih =>
      have := ih (min a b)
      simp only [List.foldl_cons, List.mem_cons] at this ⊢
      rcases this with h | h
      · rcases min_choice a b with e | e <;> rw [e] at h ⊢ <;> simp [h]
      · exact Or.inr (Or.inr h)

theorem npMax_mem (x : List K) (m : K) (h : npMax x = .ok m) : m ∈ x := by
  cases x with
  | nil => simp [npMax] at h
  | cons a l =>
    simp only [npMax, Except.ok.injEq] at h
    subst h
    induction l generalizing a with
    | nil => simp
    | cons b l ih =>
      have := ih (max a b)
      simp only [List.foldl_cons, List.mem_cons] at this ⊢
      rcases this with h | h
      · rcases max_choice a b with e | e <;> rw [e] at h ⊢ <;> simp [h]
      · exact Or.inr (Or.inr h)

/-- C140: in floating point too the default bounds are proper and contain the default start, for any
data of more than one point, as long as the points do not all have one abscissa (or all the ordinate
`q`) of `1 / u` or more.  The checks of `least_squares` then pass, whatever the solver. -/
theorem C140_feasible (x y : List K) (k q : K) (hx : 2 ≤ x.length) (hy : y ≠ [])
    (rx : ∀ v ∈ x, A.rnd v = v) (ry : ∀ v ∈ y, A.rnd v = v) (rk : A.rnd k = k) (rq : A.rnd q = q)
    (ha : ∀ v, (∀ w ∈ x, w = v) → |v| * A.u < 1) (hq : (∀ w ∈ y, w = q) → |q| * A.u < 1) :
    ∃ lo hi x0, defaultBoundsF A x y k q = .ok (lo, hi) ∧ defaultCoeffsInitF A x y k q = .ok x0 ∧
      lo.a < hi.a ∧ lo.k < hi.k ∧ lo.q < hi.q ∧
      lo.a ≤ x0.a ∧ x0.a ≤ hi.a ∧ lo.k ≤ x0.k ∧ x0.k ≤ hi.k ∧ lo.q ≤ x0.q ∧ x0.q ≤ hi.q ∧
      x0.k = k ∧ x0.q = q ∧ (∀ v ∈ x, lo.a ≤ v ∧ v ≤ hi.a) ∧
      (k < 0 → hi.k < 0) ∧ (0 < k → 0 < lo.k) ∧
      ∀ solve f, Hinge.leastSquares solve f x0 lo hi = solve f x0 lo hi := by
  have hxn : x ≠ [] := by intro h; simp [h] at hx
  obtain ⟨m, hm, hm'⟩ := Hinge.npMin_ok x hxn
  obtain ⟨M, hM, hM'⟩ := Hinge.npMax_ok x hxn
  have mm := npMin_mem x m hm
  have mM := npMax_mem x M hM
  have rm : A.Rep m := rx m mm
  have rM : A.Rep M := rx M mM
  have hmM : m ≤ M := hm' M mM
  have hmid := midF_mem_le A rm rM hmM
  have hyn : y.map (fun v => |A.sub v q|) ≠ [] := by simpa using hy
  obtain ⟨D, hD, hD'⟩ := Hinge.npMax_ok _ hyn
  obtain ⟨w, hw, hwD⟩ := List.mem_map.1 (npMax_mem _ _ hD)
  have hD0 : 0 ≤ D := by rw [← hwD]; exact abs_nonneg _
  obtain ⟨al, ah, hab, ha1, ha2, ha3⟩ : ∃ al ah, kneeBoundsF A x = .ok (al, ah) ∧ al < ah ∧ al ≤ m ∧
      M ≤ ah := by
    by_cases h : m = M
    · have hall : ∀ v ∈ x, v = M := fun v hv => le_antisymm (hM' v hv) (h ▸ hm' v hv)
      refine ⟨A.sub m 1, A.add M 1, by simp [kneeBoundsF, hm, hM, h]; omega, ?_,
        rnd_le (by linarith) rm, le_rnd (by linarith) rM⟩
      rw [h]
      exact one_step A rM (ha M hall)
    · exact ⟨m, M, by simp [kneeBoundsF, hm, hM, h]; omega, lt_of_le_of_ne hmM h, le_rfl, le_rfl⟩
  obtain ⟨dq, hqb, hq0, hq1⟩ : ∃ dq, interceptBoundsF A y q = .ok (A.sub q dq, A.add q dq) ∧ 0 ≤ dq ∧
      A.sub q dq < A.add q dq := by
    by_cases h : D = 0
    · refine ⟨1, by simp [interceptBoundsF, hD, h], zero_le_one, one_step A rq (hq fun v hv => ?_)⟩
      have := hD' _ (List.mem_map.2 ⟨v, hv, rfl⟩)
      rw [h] at this
      have h0 := abs_eq_zero.1 (le_antisymm this (abs_nonneg _))
      exact (rnd_sub_eq_zero (ry v hv) rq).1 h0
    · refine ⟨D, by simp [interceptBoundsF, hD, h], hD0, ?_⟩
      rw [← hwD]
      apply dist_step A rq (ry w hw)
      rintro rfl
      apply h
      rw [← hwD]
      simp [Arith.sub, rnd_zero]
  have h8 : A.mul 8 k = 8 * k := by
    have := rep_double (rep_double (rep_double (A := A) rk))
    rw [show 2 * (2 * (2 * k)) = 8 * k by ring] at this
    exact this
  obtain ⟨kl, kh, hk, hk1, hk2, hk3, hk4, hk5⟩ : ∃ kl kh, slopeBoundsF A k = (kl, kh) ∧ kl < kh ∧
      kl ≤ k ∧ k ≤ kh ∧ (k < 0 → kh < 0) ∧ (0 < k → 0 < kl) := by
    rcases lt_trichotomy k 0 with h | h | h
    · exact ⟨8 * k, k, by simp [slopeBoundsF, h, h.ne, h8], by linarith, by linarith, le_rfl,
        fun _ => h, fun h' => absurd h (not_lt.2 h'.le)⟩
    · subst h
      exact ⟨-1, 1, by simp [slopeBoundsF], by linarith, by linarith, by linarith,
        fun h => absurd h (lt_irrefl _), fun h => absurd h (lt_irrefl _)⟩
    · exact ⟨k, 8 * k, by simp [slopeBoundsF, h.ne', not_lt.2 h.le, h8], by linarith, le_rfl,
        by linarith, fun h' => absurd h' (not_lt.2 h.le), fun _ => h⟩
  have q1 : A.sub q dq ≤ q := rnd_le (by linarith) rq
  have q2 : q ≤ A.add q dq := le_rnd (by linarith) rq
  have a1 : al ≤ midF A m M := ha2.trans hmid.1
  have a2 : midF A m M ≤ ah := hmid.2.trans ha3
  refine ⟨⟨al, kl, A.sub q dq⟩, ⟨ah, kh, A.add q dq⟩, ⟨midF A m M, k, q⟩, ?_, ?_, ha1, hk1, hq1, a1,
    a2, hk2, hk3, q1, q2, rfl, rfl, ?_, hk4, hk5, ?_⟩
  · simp [defaultBoundsF, hab, hqb, hk]
  · simp [defaultCoeffsInitF, hm, hM, midF]
  · intro v hv
    exact ⟨ha2.trans (hm' v hv), (hM' v hv).trans ha3⟩
  · intro solve f
    unfold Hinge.leastSquares
    rw [if_neg (not_not.2 ⟨ha1, hk1, hq1⟩), if_neg (not_not.2 ⟨a1, a2, hk2, hk3, q1, q2⟩)]

/-- C140: the condition is needed: two points at the time `2 ^ 54`, and two equal values of `2 ^ 54`
(in doubles), give a lower bound equal to the upper bound, which `least_squares` refuses. -/
theorem C140_infeasible :
    ((defaultBoundsF (double ℚ) [2 ^ 54, 2 ^ 54] [1, 2] 1 1).toOption.map fun b =>
      decide (b.1.a < b.2.a)) = some false ∧
    ((defaultBoundsF (double ℚ) [0, 1] [2 ^ 54, 2 ^ 54] 0 (2 ^ 54)).toOption.map fun b =>
      decide (b.1.q < b.2.q)) = some false := by
  decide +kernel

/-- A track of three points in doubles. -/
example : (defaultBoundsF (double ℚ) [0, 1 / 64, 1 / 32] [-20, -23, -26] (-192) (-20)).toOption.map
      (fun b => decide (b.1.a < b.2.a ∧ b.1.k < b.2.k ∧ b.1.q < b.2.q)) = some true ∧
    ∀ v ∈ ([0, 1 / 64, 1 / 32, -20, -23, -26, -192] : List ℚ), (double ℚ).rnd v = v := by
  decide +kernel

end Verif.Float
