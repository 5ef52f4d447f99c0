import Verif.Sample.FloorSpec
import Verif.Sample.NoiseProps
import Mathlib.Tactic.FieldSimp
import Mathlib.Tactic.Linarith

/-!
# Lemmas for C157: regression of levels that fall and then stay constant
-/

set_option autoImplicit false
set_option linter.unusedSectionVars false
set_option linter.unusedSimpArgs false

namespace Verif.Sample

open Verif.Tracker Verif.Sms

/-! ## Sums over the points -/

theorem sum_id (N : Nat) : (((List.range N).map fun (i : Nat) => (i : ℝ))).sum = N * (N - 1) / 2 := by
  induction N with
  | zero => simp
  | succ N ih =>
    rw [List.range_succ, List.map_append, List.sum_append, ih]
    simp only [List.map_cons, List.map_nil, List.sum_cons, List.sum_nil]
    push_cast; ring

theorem sum_sq_id (N : Nat) : (((List.range N).map fun (i : Nat) => (i : ℝ) ^ 2)).sum =
    N * (N - 1) * (2 * N - 1) / 6 := by
  induction N with
  | zero => simp
  | succ N ih =>
    rw [List.range_succ, List.map_append, List.sum_append, ih]
    simp only [List.map_cons, List.map_nil, List.sum_cons, List.sum_nil]
    push_cast; ring

theorem sum_min (m N : Nat) (h : m ≤ N) : (((List.range N).map fun (i : Nat) => min (i : ℝ) m)).sum =
    m * (2 * N - m - 1) / 2 := by
  induction N, h using Nat.le_induction with
  | base =>
    have : ((List.range m).map fun (i : Nat) => min (i : ℝ) m) = (List.range m).map fun (i : Nat) => (i : ℝ) := by
      apply List.map_congr_left
      intro i hi
      exact min_eq_left (by exact_mod_cast (List.mem_range.1 hi).le)
    rw [this, sum_id]; ring
  | succ N h ih =>
    rw [List.range_succ, List.map_append, List.sum_append, ih]
    have : (m : ℝ) ≤ N := by exact_mod_cast h
    simp only [List.map_cons, List.map_nil, List.sum_cons, List.sum_nil, min_eq_right this]
    push_cast; ring

theorem sum_mul_min (m N : Nat) (h : m ≤ N) :
    (((List.range N).map fun (i : Nat) => (i : ℝ) * min (i : ℝ) m)).sum =
      m * (m - 1) * (2 * m - 1) / 6 + m * (N * (N - 1) - m * (m - 1)) / 2 := by
  induction N, h using Nat.le_induction with
  | base =>
    have : ((List.range m).map fun (i : Nat) => (i : ℝ) * min (i : ℝ) m) =
        (List.range m).map fun (i : Nat) => (i : ℝ) ^ 2 := by
      apply List.map_congr_left
      intro i hi
      have : (i : ℝ) ≤ m := by exact_mod_cast (List.mem_range.1 hi).le
      rw [min_eq_left this]; ring
    rw [this, sum_sq_id]; ring
  | succ N h ih =>
    rw [List.range_succ, List.map_append, List.sum_append, ih]
    have : (m : ℝ) ≤ N := by exact_mod_cast h
    simp only [List.map_cons, List.map_nil, List.sum_cons, List.sum_nil, min_eq_right this]
    push_cast; ring

theorem sum_map_lin {α : Type*} (l : List α) (f g h u : α → ℝ) (a b c d e : ℝ) :
    (l.map fun i => a * f i + b * g i + c * h i + d * u i + e).sum =
      a * (l.map f).sum + b * (l.map g).sum + c * (l.map h).sum + d * (l.map u).sum + l.length * e := by
  induction l with
  | nil => simp
  | cons x l ih =>
    simp only [List.map_cons, List.sum_cons, ih, List.length_cons]
    push_cast; ring

/-! ## The shares -/

theorem share_pos (N m : Nat) (hm : 1 ≤ m) (hN : m < N) : 0 < share N m := by
  have h1 : (1 : ℝ) ≤ m := by exact_mod_cast hm
  have h2 : (m : ℝ) + 1 ≤ N := by exact_mod_cast hN
  unfold share
  apply div_pos
  · exact mul_pos (by positivity) (by linarith)
  · exact mul_pos (by linarith) (by nlinarith)

theorem one_sub_share (N m : ℝ) (h : N * (N ^ 2 - 1) ≠ 0) :
    1 - share N m = (N - m) * (N - 1 - m) * (N + 1 + 2 * m) / (N * (N ^ 2 - 1)) := by
  rw [share, eq_div_iff h, sub_mul, div_mul_cancel₀ _ h]
  ring

theorem share_le (N m : Nat) (hm : 1 ≤ m) (hN : m < N) : share N m ≤ 1 := by
  have h1 : (1 : ℝ) ≤ m := by exact_mod_cast hm
  have h2 : (m : ℝ) + 1 ≤ N := by exact_mod_cast hN
  have hp : (0 : ℝ) < N * ((N : ℝ) ^ 2 - 1) := mul_pos (by linarith) (by nlinarith)
  have := one_sub_share N m hp.ne'
  have h3 : 0 ≤ 1 - share (N : ℝ) m := by
    rw [this]
    apply div_nonneg _ hp.le
    exact mul_nonneg (mul_nonneg (by linarith) (by linarith)) (by linarith)
  linarith

theorem miss_nonneg (N m : Nat) (hN : m < N) : 0 ≤ miss N m := by
  have h2 : (m : ℝ) + 1 ≤ N := by exact_mod_cast hN
  have h0 : (0 : ℝ) ≤ m := Nat.cast_nonneg _
  unfold miss
  apply div_nonneg
  · exact mul_nonneg (mul_nonneg h0 (by linarith)) (by linarith)
  · nlinarith

/-! ## The least-squares line -/

/-- The line of the linear regression of a hinge with its knee at a point. -/
theorem floor_line (x : List ℝ) (t Δ k q : ℝ) (N m : Nat) (hm : 1 ≤ m) (hN : m < N) (hΔ : 0 < Δ)
    (hx : x.Perm ((List.range N).map fun (i : Nat) => t + i * Δ)) :
    linearRegression x (x.map fun u => k * min u (t + m * Δ) + q) =
      .ok (share N m * k, q + k * ((1 - share N m) * t + Δ * miss N m)) := by
  have h1 : (1 : ℝ) ≤ m := by exact_mod_cast hm
  have h2 : (m : ℝ) + 1 ≤ N := by exact_mod_cast hN
  have hN0 : (N : ℝ) ≠ 0 := by linarith
  have hN1 : (N : ℝ) + 1 ≠ 0 := by linarith
  have hN2 : (N : ℝ) - 1 ≠ 0 := by linarith
  have hsq : (N : ℝ) ^ 2 - 1 ≠ 0 := by
    have : (N : ℝ) ^ 2 - 1 = (N - 1) * (N + 1) := by ring
    rw [this]; exact mul_ne_zero hN2 hN1
  have hxl : x.length = N := by rw [hx.length_eq]; simp
  have hmap : ∀ g : ℝ → ℝ, (x.map g).sum = ((List.range N).map fun (i : Nat) => g (t + i * Δ)).sum := by
    intro g
    rw [(hx.map g).sum_eq, List.map_map]
    rfl
  have hmin : ∀ i : Nat, min (t + i * Δ) (t + m * Δ) = t + Δ * min (i : ℝ) m := by
    intro i
    rw [min_add_add_left, ← min_mul_of_nonneg _ _ hΔ.le, mul_comm]
  have hmx : mean x = t + Δ * ((N - 1) / 2) := by
    have := hmap id
    simp only [List.map_id, id] at this
    rw [mean, this, hxl]
    have e := sum_map_lin (List.range N) (fun i : Nat => (i : ℝ)) (fun _ => 0) (fun _ => 0) (fun _ => 0) Δ 0 0 0 t
    rw [sum_id, List.length_range] at e
    have e' : (fun i : Nat => t + (i : ℝ) * Δ) = fun i : Nat => Δ * (i : ℝ) + 0 * 0 + 0 * 0 + 0 * 0 + t := by
      funext i; ring
    rw [e', e]
    field_simp
    ring
  set y := x.map fun u => k * min u (t + m * Δ) + q with hy
  have hmy : mean y = q + k * (t + Δ * (m * (2 * N - m - 1) / (2 * N))) := by
    rw [mean, hy, hmap, List.length_map, hxl]
    have e := sum_map_lin (List.range N) (fun i : Nat => min (i : ℝ) m) (fun _ => 0) (fun _ => 0) (fun _ => 0)
      (k * Δ) 0 0 0 (k * t + q)
    rw [sum_min m N hN.le, List.length_range] at e
    have e' : (fun i : Nat => k * min (t + (i : ℝ) * Δ) (t + m * Δ) + q) =
        fun i : Nat => k * Δ * min (i : ℝ) m + 0 * 0 + 0 * 0 + 0 * 0 + (k * t + q) := by
      funext i; rw [hmin]; ring
    rw [e', e]
    field_simp
    ring
  have hden : (x.map fun v => (v - mean x) ^ 2).sum = Δ ^ 2 * (N * (N ^ 2 - 1) / 12) := by
    rw [hmap, hmx]
    have e := sum_map_lin (List.range N) (fun i : Nat => (i : ℝ) ^ 2) (fun i : Nat => (i : ℝ)) (fun _ => 0)
      (fun _ => 0) (Δ ^ 2) (-(Δ ^ 2) * (N - 1)) 0 0 (Δ ^ 2 * ((N - 1) / 2) ^ 2)
    rw [sum_id, sum_sq_id, List.length_range] at e
    have e' : (fun i : Nat => (t + (i : ℝ) * Δ - (t + Δ * ((N - 1) / 2))) ^ 2) = fun i : Nat =>
        Δ ^ 2 * (i : ℝ) ^ 2 + -(Δ ^ 2) * (N - 1) * (i : ℝ) + 0 * 0 + 0 * 0 + Δ ^ 2 * ((N - 1) / 2) ^ 2 := by
      funext i; ring
    rw [e', e]
    ring
  have hnum : ((x.zip y).map fun p => (p.1 - mean x) * (p.2 - mean y)).sum =
      k * Δ ^ 2 * (m * (m + 1) * (3 * N - 2 * m - 1) / 12) := by
    rw [hmx, hmy, hy, zip_map_self, List.map_map]
    simp only [Function.comp_def]
    rw [hmap]
    have e := sum_map_lin (List.range N) (fun i : Nat => (i : ℝ) * min (i : ℝ) m) (fun i : Nat => (i : ℝ))
      (fun i : Nat => min (i : ℝ) m) (fun _ => 0) (k * Δ ^ 2) (-(k * Δ ^ 2) * (m * (2 * N - m - 1) / (2 * N)))
      (-(k * Δ ^ 2) * ((N - 1) / 2)) 0 (k * Δ ^ 2 * ((N - 1) / 2) * (m * (2 * N - m - 1) / (2 * N)))
    rw [sum_id, sum_min m N hN.le, sum_mul_min m N hN.le, List.length_range] at e
    have e' : (fun i : Nat => (t + (i : ℝ) * Δ - (t + Δ * ((N - 1) / 2))) *
        (k * min (t + (i : ℝ) * Δ) (t + m * Δ) + q - (q + k * (t + Δ * (m * (2 * N - m - 1) / (2 * N)))))) =
        fun i : Nat => k * Δ ^ 2 * ((i : ℝ) * min (i : ℝ) m) +
          -(k * Δ ^ 2) * (m * (2 * N - m - 1) / (2 * N)) * (i : ℝ) +
          -(k * Δ ^ 2) * ((N - 1) / 2) * min (i : ℝ) m + 0 * 0 +
          k * Δ ^ 2 * ((N - 1) / 2) * (m * (2 * N - m - 1) / (2 * N)) := by
      funext i; rw [hmin]; ring
    rw [e', e]
    field_simp
    ring
  have hk : olsSlope x y = share N m * k := by
    rw [olsSlope, hnum, hden, share]
    field_simp
  have hq : olsIntercept x y = q + k * ((1 - share N m) * t + Δ * miss N m) := by
    rw [olsIntercept, hk, hmx, hmy]
    have : share (N : ℝ) m * (N - 1) = m * (m + 1) * (3 * N - 2 * m - 1) / (N * (N + 1)) := by
      rw [share, show (N : ℝ) ^ 2 - 1 = (N - 1) * (N + 1) by ring]
      field_simp
    have e1 : q + k * (t + Δ * (m * (2 * N - m - 1) / (2 * N))) -
        share N m * k * (t + Δ * ((N - 1) / 2)) = q + k * ((1 - share N m) * t +
          Δ * (m * (2 * N - m - 1) / (2 * N) - share N m * (N - 1) / 2)) := by ring
    rw [e1, this, miss]
    congr 4
    field_simp
    ring
  rw [linearRegression, hk, hq]

/-! ## The bounds -/

theorem npMax_spec (l : List ℝ) (h : l ≠ []) : ∃ M, Hinge.npMax l = .ok M ∧ M ∈ l ∧ ∀ v ∈ l, v ≤ M := by
  cases l with
  | nil => exact absurd rfl h
  | cons a l =>
    have hf : ∀ (l : List ℝ) (a : ℝ), l.foldl max a ∈ a :: l := by
      intro l
      induction l with
      | nil => intro a; simp
      | cons b l ih =>
        intro a
        rw [List.foldl_cons]
        have := ih (max a b)
        rcases List.mem_cons.1 this with h | h
        · rw [h]
          rcases max_choice a b with h | h <;> simp [h]
        · simp [h]
    obtain ⟨M, h1, h2⟩ := Hinge.npMax_ok (a :: l) h
    have : M = l.foldl max a := by
      simp only [Hinge.npMax, Except.ok.injEq] at h1
      exact h1.symm
    exact ⟨M, h1, by rw [this]; exact hf l a, h2⟩

/-- The default bounds for a hinge with its knee at a point. -/
theorem floor_bounds (x : List ℝ) (t Δ k q : ℝ) (N m : Nat) (hm : 1 ≤ m) (hN : m < N) (hΔ : 0 < Δ) (hk : k < 0)
    (ht : 0 ≤ t) (hx : x.Perm ((List.range N).map fun (i : Nat) => t + i * Δ)) :
    ∃ lo hi x0, Hinge.defaultBounds x (x.map fun u => k * min u (t + m * Δ) + q) (share N m * k)
        (q + k * ((1 - share N m) * t + Δ * miss N m)) = .ok (lo, hi) ∧
      Hinge.defaultCoeffsInit x (x.map fun u => k * min u (t + m * Δ) + q) (share N m * k)
        (q + k * ((1 - share N m) * t + Δ * miss N m)) = .ok x0 ∧
      lo.a < hi.a ∧ lo.k < hi.k ∧ lo.q < hi.q ∧ InBox lo hi x0 ∧
      (∀ v ∈ x, lo.a ≤ v ∧ v ≤ hi.a) ∧ lo.k = 8 * (share N m * k) ∧ hi.k = share N m * k ∧ lo.q ≤ q ∧
      hi.q = q + k * shortage t Δ N m := by
  set y := x.map fun u => k * min u (t + m * Δ) + q with hy
  set ρ := share (N : ℝ) m with hρ
  set δ := miss (N : ℝ) m with hδ
  set q₀ := q + k * ((1 - ρ) * t + Δ * δ) with hq₀
  have hxl : x.length = N := by rw [hx.length_eq]; simp
  have hρ0 := share_pos N m hm hN
  have hρ1 := share_le N m hm hN
  have hδ0 := miss_nonneg N m hN
  rw [← hρ] at hρ0 hρ1
  rw [← hδ] at hδ0
  have hm1 : (1 : ℝ) ≤ m := by exact_mod_cast hm
  have hyn : y ≠ [] := by
    intro h
    have := congrArg List.length h
    rw [hy, List.length_map, hxl] at this
    simp at this
    omega
  obtain ⟨lo, hi, x0, h1, h2, h3, h4, h5, h6, h7, h8, h9, h10, h11, h12, h13, h14, h15, _⟩ :=
    Hinge.C28_feasible x y (ρ * k) q₀ (by omega) hyn
  have hkl : ρ * k < 0 := mul_neg_of_pos_of_neg hρ0 hk
  obtain ⟨s1, s2⟩ := slope_box x y (ρ * k) q₀ hkl lo hi h1
  have hmin : ∀ i : Nat, min (t + i * Δ) (t + m * Δ) = t + Δ * min (i : ℝ) m := by
    intro i
    rw [min_add_add_left, ← min_mul_of_nonneg _ _ hΔ.le, mul_comm]
  have hmemy : ∀ v, v ∈ y ↔ ∃ i : Nat, i < N ∧ v = q + k * (t + Δ * min (i : ℝ) m) := by
    intro v
    rw [hy, List.mem_map]
    constructor
    · rintro ⟨u, hu, rfl⟩
      rw [hx.mem_iff, List.mem_map] at hu
      obtain ⟨i, hi, rfl⟩ := hu
      exact ⟨i, List.mem_range.1 hi, by rw [hmin]; ring⟩
    · rintro ⟨i, hi, rfl⟩
      refine ⟨t + i * Δ, ?_, by rw [hmin]; ring⟩
      rw [hx.mem_iff, List.mem_map]
      exact ⟨i, List.mem_range.2 hi, rfl⟩
  -- the distance of the intercept bounds
  obtain ⟨D, d1, d2, d3⟩ := npMax_spec (y.map fun v => |v - q₀|) (by simpa using hyn)
  have habs : ∀ i : Nat, |q + k * (t + Δ * min (i : ℝ) m) - q₀| = -k * |ρ * t + Δ * (min (i : ℝ) m - δ)| := by
    intro i
    rw [← abs_of_neg hk, ← abs_mul, hq₀]
    congr 1
    ring
  have hDval : D = -k * max (ρ * t + Δ * (m - δ)) (Δ * δ - ρ * t) := by
    apply le_antisymm
    · obtain ⟨v, hv, rfl⟩ := List.mem_map.1 d2
      obtain ⟨i, hi, rfl⟩ := (hmemy v).1 hv
      rw [habs]
      apply mul_le_mul_of_nonneg_left _ (by linarith)
      have hi1 : min (i : ℝ) m ≤ m := min_le_right _ _
      have hi0 : 0 ≤ min (i : ℝ) m := le_min (Nat.cast_nonneg _) (Nat.cast_nonneg _)
      apply abs_le'.2 ⟨le_max_of_le_left _, le_max_of_le_right _⟩
      · have := mul_le_mul_of_nonneg_left hi1 hΔ.le
        linarith [mul_sub Δ (min (i : ℝ) m) δ, mul_sub Δ (m : ℝ) δ]
      · have := mul_nonneg hΔ.le hi0
        linarith [mul_sub Δ (min (i : ℝ) m) δ]
    · rw [mul_max_of_nonneg _ _ (by linarith)]
      apply max_le
      · have := d3 _ (List.mem_map.2 ⟨_, (hmemy _).2 ⟨m, hN, rfl⟩, rfl⟩)
        rw [habs, min_self] at this
        exact le_trans (mul_le_mul_of_nonneg_left (le_abs_self _) (by linarith)) this
      · have := d3 _ (List.mem_map.2 ⟨_, (hmemy _).2 ⟨0, by omega, rfl⟩, rfl⟩)
        rw [habs] at this
        refine le_trans (mul_le_mul_of_nonneg_left ?_ (by linarith)) this
        have e : min ((0 : Nat) : ℝ) m = 0 := by
          rw [Nat.cast_zero]; exact min_eq_left (Nat.cast_nonneg _)
        rw [e]
        have := neg_le_abs (ρ * t + Δ * (0 - δ))
        linarith
  have hD0 : 0 < D := by
    rw [hDval]
    apply mul_pos (by linarith)
    by_contra h
    rw [not_lt] at h
    have h1 := le_trans (le_max_left _ _) h
    have h2 := le_trans (le_max_right _ _) h
    have := mul_pos hΔ (by linarith : (0 : ℝ) < m)
    linarith [mul_sub Δ (m : ℝ) δ]
  have hqb : lo.q = q₀ - D ∧ hi.q = q₀ + D := by
    have hh := h1
    unfold Hinge.defaultBounds at hh
    split at hh
    · simp at hh
    · split at hh
      · simp at hh
      · rename_i e
        rw [Hinge.interceptBounds, d1] at e
        simp only [hD0.ne', if_false, Except.ok.injEq, Prod.mk.injEq] at e
        simp only [Except.ok.injEq, Prod.mk.injEq] at hh
        rw [← hh.1, ← hh.2]
        exact ⟨e.1.symm, e.2.symm⟩
  refine ⟨lo, hi, x0, h1, h2, h3, h4, h5, ⟨⟨h6, h7⟩, ⟨h8, h9⟩, h10, h11⟩, h14, s1, s2, ?_, ?_⟩
  · rw [hqb.1, hq₀]
    have h0 : 0 ≤ (1 - ρ) * t + Δ * δ := add_nonneg (mul_nonneg (by linarith) ht) (mul_nonneg hΔ.le hδ0)
    have := mul_nonpos_of_nonpos_of_nonneg hk.le h0
    linarith
  · rw [hqb.2, hDval, hq₀, shortage, ← hρ, ← hδ]
    have e : min t ((1 - 2 * ρ) * t - Δ * (m - 2 * δ)) =
        (1 - ρ) * t + Δ * δ - max (ρ * t + Δ * (m - δ)) (Δ * δ - ρ * t) := by
      rw [← min_sub_sub_left, min_comm]
      congr 1 <;> ring
    rw [e]
    ring

/-! ## What the data determine -/

/-- A hinge through the points of a hinge with two points before its knee and one more after them is that hinge. -/
theorem hinge_determined (a k q a' k' q' u v w : ℝ) (hk : k ≠ 0) (huv : u < v) (hva : v < a) (hvw : v < w)
    (e1 : k' * min u a' + q' = k * min u a + q) (e2 : k' * min v a' + q' = k * min v a + q)
    (e3 : k' * min w a' + q' = k * min w a + q) : k' = k ∧ q' = q ∧ min w a' = min w a := by
  have hvm : v < min w a := lt_min hvw hva
  have ha : v < a' := by
    by_contra h
    rw [not_lt] at h
    rw [min_eq_right h, min_eq_left hva.le] at e2
    rw [min_eq_right (h.trans hvw.le)] at e3
    have : k * (min w a - v) = 0 := by linarith
    rcases mul_eq_zero.1 this with h | h
    · exact hk h
    · linarith
  rw [min_eq_left ha.le, min_eq_left hva.le] at e2
  rw [min_eq_left (huv.le.trans ha.le), min_eq_left (huv.le.trans hva.le)] at e1
  have hz : (k' - k) * (v - u) = 0 := by linarith
  have hkk : k' = k := by
    rcases mul_eq_zero.1 hz with h | h
    · linarith
    · linarith
  subst hkk
  have hqq : q' = q := by linarith
  subst hqq
  refine ⟨rfl, rfl, ?_⟩
  exact mul_left_cancel₀ hk (by linarith)

/-! ## From the track to the regressor -/

/-- The parameters of a track without gaps, from the regression of its levels. -/
theorem whole_params (solve : (Hinge.Coeffs ℝ → List ℝ) → Hinge.Coeffs ℝ → Hinge.Coeffs ℝ →
      Hinge.Coeffs ℝ → Except PyErr (Hinge.Coeffs ℝ)) (p : Sms.Params ℝ)
    (hfs : 0 < p.tracker.fs) (n s N : Nat) (F M Φ : Nat → ℝ) (t₀ : ℝ) (hN : 2 ≤ N)
    (ht : t₀ = centreTime p n (earliest p s N)) :
    ((List.range N).map fun i => centreTime p n (s + i)).Perm
        ((List.range N).map fun (i : Nat) => t₀ + i * ((p.hop : ℝ) / p.tracker.fs)) ∧
    ∀ c : Hinge.Coeffs ℝ, c.k ≠ 0 →
      Hinge.fit linearRegression Hinge.defaultCoeffsInit Hinge.defaultBounds solve
        ((List.range N).map fun i => centreTime p n (s + i))
        ((List.range N).map fun i => M i + 20 * Real.logb 10 2) = .ok c →
      trackParams (hingeRegressor solve) npMean p n (wholeTrack s N F M Φ) =
        .ok [[some (((List.range N).map F).sum / N), some (d2kConst / c.k), some (Dsp.db2a c.q)]] := by
  set Δ := (p.hop : ℝ) / p.tracker.fs with hΔ
  set u := wholeTrack s N F M Φ with hu
  have hul : u.mag.length = N := by simp [hu, wholeTrack]
  obtain ⟨r, kp, e0, e1, e2, e3, e4, _⟩ := C20_times (analysis p) n u (by simp [hu, wholeTrack])
    (by simp [hu, wholeTrack]) (by
      intro j
      by_cases hj : j < N
      · simp [hu, wholeTrack, hj]
      · simp [hu, wholeTrack, hj]) (by omega)
  have e1' : kp = kept u := e1
  rw [hu, whole_kept] at e1'
  set E : Nat → Nat := fun i => if p.reverse then N - 1 - i else i with hE
  have htimeE : ∀ i, i < N → centreTime p n (s + i) = t₀ + (E i : ℝ) * Δ := by
    intro i hi
    rw [ht, hΔ]
    simp only [centreTime, earliest, hE]
    cases hr : p.reverse with
    | false =>
      simp only [Bool.false_eq_true, if_false]
      push_cast
      field_simp
      ring
    | true =>
      simp only [if_true]
      have : ((s + N - 1 : Nat) : ℝ) = ((s + i : Nat) : ℝ) + ((N - 1 - i : Nat) : ℝ) := by
        rw [← Nat.cast_add]; congr 1; omega
      rw [this]
      field_simp
      ring
  have htime : r.time = (List.range N).map fun i => centreTime p n (s + i) := by
    rw [e2, e1', List.map_map]
    apply List.map_congr_left
    intro i _
    simp only [Function.comp, analysis, centreTime]
    show (if p.reverse = true then (n : ℝ) / p.tracker.fs - (((s + i : Nat) : ℝ) * (p.hop : ℝ) / p.tracker.fs +
        (if p.padded then 0 else (p.w.length : ℝ) / 2 / p.tracker.fs)) else
        ((s + i : Nat) : ℝ) * (p.hop : ℝ) / p.tracker.fs + (if p.padded then 0 else
        (p.w.length : ℝ) / 2 / p.tracker.fs)) = _
    generalize p.reverse = rv
    cases rv <;> cases p.padded <;> simp <;> ring
  set ys := (List.range N).map fun i => M i + 20 * Real.logb 10 2 with hys
  have hmag : r.mag = ys.map some := by
    rw [e4, e1', hys, List.map_map, List.map_map]
    rfl
  have hfreq : npMean r.freq = some (((List.range N).map F).sum / N) := by
    have : r.freq = ((List.range N).map F).map some := by
      rw [e3, e1', List.map_map, List.map_map]
      rfl
    rw [this, npMean_map _ (by
      intro h
      have := congrArg List.length h
      rw [List.length_map, List.length_range, List.length_nil] at this
      omega)]
    unfold mean
    simp
  refine ⟨?_, ?_⟩
  · have h1 : ((List.range N).map fun i => centreTime p n (s + i)) =
        ((List.range N).map E).map fun (i : Nat) => t₀ + i * Δ := by
      rw [List.map_map]
      apply List.map_congr_left
      intro i hi
      exact htimeE i (List.mem_range.1 hi)
    rw [h1]
    apply List.Perm.map
    rw [hE]
    cases p.reverse with
    | false => simp
    | true =>
      simp only [if_true]
      have : (List.range N).map (fun i => N - 1 - i) = (List.range N).reverse := by
        apply List.ext_getElem
        · simp
        · intro i h1 h2
          simp
      rw [this]
      exact List.reverse_perm _
  · intro c hc g1
    have hreg : hingeRegressor solve r.time r.mag = .ok (c.k, c.q) := by
      rw [hmag, htime]
      simp only [hingeRegressor, allSome_map, g1]
    simp only [trackParams, e0, fitTrack, hreg, hfreq, slopeToDecay, if_neg hc]

end Verif.Sample
