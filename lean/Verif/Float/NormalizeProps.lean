import Mathlib.Algebra.Order.Ring.Abs
import Mathlib.Data.Rat.Floor
import Verif.Float.NormalizeModel

/-!
# Normalisation in floating point (C138)
-/

set_option autoImplicit false
set_option linter.unusedSectionVars false
set_option linter.unusedSimpArgs false

namespace Verif.Float

open Arith

variable {K : Type} [Field K] [LinearOrder K] [IsStrictOrderedRing K] (A : Arith K)

theorem maxL_spec (l : List K) (a : K) : maxL a l ∈ a :: l ∧ ∀ v ∈ a :: l, v ≤ maxL a l := by
  induction l generalizing a with
  | nil => simp [maxL]
  | cons b l ih =>
    obtain ⟨h1, h2⟩ := ih (max a b)
    have e : maxL a (b :: l) = maxL (max a b) l := rfl
    rw [e]
    constructor
    · rcases List.mem_cons.1 h1 with h | h
      · rw [h]
        rcases max_choice a b with h' | h' <;> simp [h']
      · simp [h]
    · intro v hv
      have h0 := h2 (max a b) (by simp)
      rcases List.mem_cons.1 hv with rfl | hv
      · exact (le_max_left _ _).trans h0
      · rcases List.mem_cons.1 hv with rfl | hv
        · exact (le_max_right _ _).trans h0
        · exact h2 v (by simp [hv])

theorem minL_spec (l : List K) (a : K) : minL a l ∈ a :: l ∧ ∀ v ∈ a :: l, minL a l ≤ v := by
  induction l generalizing a with
  | nil => simp [minL]
  | cons b l ih =>
    obtain ⟨h1, h2⟩ := ih (min a b)
    have e : minL a (b :: l) = minL (min a b) l := rfl
    rw [e]
    constructor
    · rcases List.mem_cons.1 h1 with h | h
      · rw [h]
        rcases min_choice a b with h' | h' <;> simp [h']
      · simp [h]
    · intro v hv
      have h0 := h2 (min a b) (by simp)
      rcases List.mem_cons.1 hv with rfl | hv
      · exact h0.trans (min_le_left _ _)
      · rcases List.mem_cons.1 hv with rfl | hv
        · exact h0.trans (min_le_right _ _)
        · exact h2 v (by simp [hv])

theorem maxL_eq {l : List K} {a m : K} (h1 : m ∈ a :: l) (h2 : ∀ v ∈ a :: l, v ≤ m) : maxL a l = m :=
  le_antisymm (h2 _ (maxL_spec l a).1) ((maxL_spec l a).2 _ h1)

theorem minL_eq {l : List K} {a m : K} (h1 : m ∈ a :: l) (h2 : ∀ v ∈ a :: l, m ≤ v) : minL a l = m :=
  le_antisymm ((minL_spec l a).2 _ h1) (h2 _ (minL_spec l a).1)

theorem normalizePeakF_eq (l : List K) (m : K) (h1 : ∃ x ∈ l, |x| = m) (h2 : ∀ x ∈ l, |x| ≤ m) :
    normalizePeakF A l = .ok (l.map fun x => divN A x m) := by
  cases l with
  | nil => simp at h1
  | cons a l =>
    have : maxL |a| (l.map abs) = m := by
      apply maxL_eq
      · rw [← List.map_cons (f := abs), List.mem_map]
        exact h1
      · rw [← List.map_cons (f := abs)]
        intro v hv
        obtain ⟨x, hx, rfl⟩ := List.mem_map.1 hv
        exact h2 x hx
    simp only [normalizePeakF, this]

theorem normalizeRangeF_eq (l : List K) (lo hi : K) (h1 : lo ∈ l) (h2 : ∀ x ∈ l, lo ≤ x) (h3 : hi ∈ l)
    (h4 : ∀ x ∈ l, x ≤ hi) :
    normalizeRangeF A l = .ok (l.map fun x => divN A (A.sub x lo) (A.sub hi lo)) := by
  cases l with
  | nil => simp at h1
  | cons a l =>
    have e1 : minL a l = lo := minL_eq h1 h2
    have e2 : maxL (A.sub a lo) (l.map fun x => A.sub x lo) = A.sub hi lo := by
      apply maxL_eq
      · rw [← List.map_cons (f := fun x => A.sub x lo), List.mem_map]
        exact ⟨hi, h3, rfl⟩
      · rw [← List.map_cons (f := fun x => A.sub x lo)]
        intro v hv
        obtain ⟨x, hx, rfl⟩ := List.mem_map.1 hv
        exact rnd_mono (by linarith [h4 x hx])
    simp only [normalizeRangeF, e1, e2, List.map_cons, List.map_map, Function.comp_def]

theorem exists_max (l : List K) (hl : l ≠ []) : ∃ m, (∃ x ∈ l, x = m) ∧ ∀ x ∈ l, x ≤ m := by
  cases l with
  | nil => exact absurd rfl hl
  | cons a l => exact ⟨maxL a l, ⟨_, (maxL_spec l a).1, rfl⟩, (maxL_spec l a).2⟩

theorem exists_min (l : List K) (hl : l ≠ []) : ∃ m, (∃ x ∈ l, x = m) ∧ ∀ x ∈ l, m ≤ x := by
  cases l with
  | nil => exact absurd rfl hl
  | cons a l => exact ⟨minL a l, ⟨_, (minL_spec l a).1, rfl⟩, (minL_spec l a).2⟩

theorem exists_absmax (l : List K) (hl : l ≠ []) : ∃ m, (∃ x ∈ l, |x| = m) ∧ ∀ x ∈ l, |x| ≤ m := by
  obtain ⟨m, ⟨x, hx, e⟩, h⟩ := exists_max (l.map abs) (by simpa using hl)
  obtain ⟨y, hy, rfl⟩ := List.mem_map.1 hx
  exact ⟨m, ⟨y, hy, e⟩, fun z hz => h _ (List.mem_map.2 ⟨z, hz, rfl⟩)⟩

/-- C138, mode `"peak"`: an array with an element that is not zero is normalised to finite values, none
beyond one in absolute value, the element of the peak to exactly `1` or `-1`; signs and order are kept;
each value is within rounding of the exact one; a second normalisation changes nothing. -/
theorem C138_peak (l : List K) (h0 : ∃ x ∈ l, x ≠ 0) :
    ∃ ys : List K, normalizePeakF A l = .ok (ys.map some) ∧ ys.length = l.length ∧
      (∀ y ∈ ys, A.rnd y = y ∧ |y| ≤ 1) ∧ (∃ y ∈ ys, |y| = 1) ∧
      (∀ (i : Nat) (x y : K), l[i]? = some x → ys[i]? = some y →
        ((∀ z ∈ l, |z| ≤ |x|) → |y| = 1) ∧ (0 ≤ x → 0 ≤ y) ∧ (x ≤ 0 → y ≤ 0) ∧
        ∃ p ∈ l, (∀ z ∈ l, |z| ≤ |p|) ∧ |y - x / (|p|)| ≤ A.u * |x / (|p|)| + A.eta) ∧
      (∀ (i j : Nat) (x x' y y' : K), l[i]? = some x → l[j]? = some x' → ys[i]? = some y →
        ys[j]? = some y' → x ≤ x' → y ≤ y') ∧
      normalizePeakF A ys = .ok (ys.map some) := by
  obtain ⟨x0, hx0, hne⟩ := h0
  obtain ⟨m, ⟨p, hp, hpm⟩, hm⟩ := exists_absmax l (by rintro rfl; simp at hx0)
  have m0 : 0 < m := (abs_pos.2 hne).trans_le (hm x0 hx0)
  have hrep : ∀ y ∈ l.map fun x => A.div x m, A.rnd y = y ∧ |y| ≤ 1 := by
    intro y hy
    obtain ⟨x, hx, rfl⟩ := List.mem_map.1 hy
    refine ⟨A.idem _, rnd_abs_le ?_ rep_one⟩
    rw [abs_div, abs_of_pos m0, div_le_one m0]
    exact hm x hx
  have hone : ∀ x, |x| = m → |A.div x m| = 1 := by
    intro x hx
    unfold Arith.div
    rw [← rnd_abs, abs_div, hx, abs_of_pos m0, div_self m0.ne', rnd_of rep_one]
  have hex : ∃ y ∈ l.map fun x => A.div x m, |y| = 1 :=
    ⟨_, List.mem_map.2 ⟨p, hp, rfl⟩, hone p hpm⟩
  refine ⟨l.map fun x => A.div x m, ?_, by simp, hrep, hex, ?_, ?_, ?_⟩
  · rw [normalizePeakF_eq A l m ⟨p, hp, hpm⟩ hm]
    simp [divN, m0.ne', List.map_map, Function.comp_def]
  · intro i x y hx hy
    rw [List.getElem?_map, hx] at hy
    simp only [Option.map_some, Option.some.injEq] at hy
    subst hy
    refine ⟨?_, fun h => rnd_nonneg (div_nonneg h m0.le),
      fun h => rnd_nonpos (div_nonpos_of_nonpos_of_nonneg h m0.le), p, hp, ?_, ?_⟩
    · intro h
      exact hone x (le_antisymm (hm x (List.mem_of_getElem? hx)) (hpm ▸ h p hp))
    · rw [hpm]
      exact hm
    · rw [hpm]
      exact A.err _
  · intro i j x x' y y' hx hx' hy hy' h
    rw [List.getElem?_map, hx] at hy
    rw [List.getElem?_map, hx'] at hy'
    simp only [Option.map_some, Option.some.injEq] at hy hy'
    subst hy hy'
    exact rnd_mono (div_le_div_of_nonneg_right h m0.le)
  · rw [normalizePeakF_eq A _ 1 hex fun y hy => (hrep y hy).2]
    congr 1
    apply List.map_congr_left
    intro y hy
    simp [divN, Arith.div, (hrep y hy).1]

/-- C138, mode `"range"`: an array of floating-point numbers that are not all equal is normalised to
values between zero and one, the smallest elements to exactly zero, the largest ones to exactly one;
the order is kept; a second normalisation changes nothing. -/
theorem C138_range (l : List K) (hrep : ∀ x ∈ l, A.rnd x = x) (h0 : ∃ x ∈ l, ∃ x' ∈ l, x ≠ x') :
    ∃ ys : List K, normalizeRangeF A l = .ok (ys.map some) ∧ ys.length = l.length ∧
      (∀ y ∈ ys, A.rnd y = y ∧ 0 ≤ y ∧ y ≤ 1) ∧ 0 ∈ ys ∧ 1 ∈ ys ∧
      (∀ (i : Nat) (x y : K), l[i]? = some x → ys[i]? = some y →
        ((∀ z ∈ l, x ≤ z) → y = 0) ∧ ((∀ z ∈ l, z ≤ x) → y = 1)) ∧
      (∀ (i j : Nat) (x x' y y' : K), l[i]? = some x → l[j]? = some x' → ys[i]? = some y →
        ys[j]? = some y' → x ≤ x' → y ≤ y') ∧
      normalizeRangeF A ys = .ok (ys.map some) := by
  obtain ⟨x0, hx0, x1, hx1, hne⟩ := h0
  have hl : l ≠ [] := by rintro rfl; simp at hx0
  obtain ⟨_, ⟨hi, hhi, rfl⟩, hi'⟩ := exists_max l hl
  obtain ⟨_, ⟨lo, hlo, rfl⟩, lo'⟩ := exists_min l hl
  have hlt : lo < hi := by
    rcases lt_or_gt_of_ne hne with h | h
    · exact (lo' _ hx0).trans_lt (h.trans_le (hi' _ hx1))
    · exact (lo' _ hx1).trans_lt (h.trans_le (hi' _ hx0))
  have m0 : 0 < A.sub hi lo := (rnd_sub_pos (hrep hi hhi) (hrep lo hlo)).2 hlt
  have hy : ∀ y ∈ l.map fun x => A.div (A.sub x lo) (A.sub hi lo),
      A.rnd y = y ∧ 0 ≤ y ∧ y ≤ 1 := by
    intro y hy
    obtain ⟨x, hx, rfl⟩ := List.mem_map.1 hy
    refine ⟨A.idem _, rnd_nonneg (div_nonneg (rnd_nonneg (by linarith [lo' x hx])) m0.le),
      rnd_le ?_ rep_one⟩
    rw [div_le_one m0]
    exact rnd_mono (by linarith [hi' x hx])
  have e0 : A.div (A.sub lo lo) (A.sub hi lo) = 0 := by
    unfold Arith.div
    rw [show A.sub lo lo = 0 by unfold Arith.sub; rw [sub_self, rnd_zero], zero_div, rnd_zero]
  have e1 : A.div (A.sub hi lo) (A.sub hi lo) = 1 := by
    unfold Arith.div
    rw [div_self m0.ne', rnd_of rep_one]
  have m0' : (0 : K) ∈ l.map fun x => A.div (A.sub x lo) (A.sub hi lo) :=
    List.mem_map.2 ⟨lo, hlo, e0⟩
  have m1' : (1 : K) ∈ l.map fun x => A.div (A.sub x lo) (A.sub hi lo) :=
    List.mem_map.2 ⟨hi, hhi, e1⟩
  refine ⟨l.map fun x => A.div (A.sub x lo) (A.sub hi lo), ?_, by simp, hy, m0', m1', ?_, ?_, ?_⟩
  · rw [normalizeRangeF_eq A l lo hi hlo lo' hhi hi']
    simp [divN, m0.ne', List.map_map, Function.comp_def]
  · intro i x y hx hy
    rw [List.getElem?_map, hx] at hy
    simp only [Option.map_some, Option.some.injEq] at hy
    subst hy
    have hm := List.mem_of_getElem? hx
    constructor
    · intro h
      rw [show x = lo from le_antisymm (h lo hlo) (lo' x hm)]
      exact e0
    · intro h
      rw [show x = hi from le_antisymm (hi' x hm) (h hi hhi)]
      exact e1
  · intro i j x x' y y' hx hx' hy hy' h
    rw [List.getElem?_map, hx] at hy
    rw [List.getElem?_map, hx'] at hy'
    simp only [Option.map_some, Option.some.injEq] at hy hy'
    subst hy hy'
    exact rnd_mono (div_le_div_of_nonneg_right (rnd_mono (by linarith)) m0.le)
  · rw [normalizeRangeF_eq A _ 0 1 m0' (fun y h => (hy y h).2.1) m1' (fun y h => (hy y h).2.2)]
    congr 1
    apply List.map_congr_left
    intro y h
    simp [divN, Arith.div, Arith.sub, (hy y h).1, rnd_of (A := A) rep_one]

/-- C138: what is left: empty arrays are errors in both modes; silence and constant arrays give only
NaN; mode `"rms"` gives finite values in the same order, whatever mean and standard deviation were
computed. -/
theorem C138_rest :
    normalizePeakF A [] = .error .valueError ∧ normalizeRangeF A [] = .error .valueError ∧
    (∀ l : List K, l ≠ [] → (∀ x ∈ l, x = 0) → normalizePeakF A l = .ok (l.map fun _ => none)) ∧
    (∀ (c : K) (l : List K), l ≠ [] → (∀ x ∈ l, x = c) →
      normalizeRangeF A l = .ok (l.map fun _ => none)) ∧
    (∀ (mean std : K) (l : List K), 0 ≤ std → ∃ ys : List K, normalizeRmsF A mean std l = ys.map some ∧
      ∀ (i j : Nat) (x x' y y' : K), l[i]? = some x → l[j]? = some x' → ys[i]? = some y →
        ys[j]? = some y' → x ≤ x' → y ≤ y') := by
  refine ⟨rfl, rfl, ?_, ?_, ?_⟩
  · intro l hl h
    obtain ⟨a, ha⟩ := List.exists_mem_of_ne_nil l hl
    rw [normalizePeakF_eq A l 0 ⟨a, ha, by simp [h a ha]⟩ (fun x hx => by simp [h x hx])]
    simp [divN]
  · intro c l hl h
    obtain ⟨a, ha⟩ := List.exists_mem_of_ne_nil l hl
    have hc : c ∈ l := h a ha ▸ ha
    rw [normalizeRangeF_eq A l c c hc (fun x hx => (h x hx).ge) hc (fun x hx => (h x hx).le)]
    simp [divN, Arith.sub, rnd_zero]
  · intro mean std l hs
    have h0 : 0 < (if std = 0 then 1 else std) := by
      split_ifs with h
      · exact one_pos
      · exact lt_of_le_of_ne hs (Ne.symm h)
    refine ⟨l.map fun x => A.div (A.sub x mean) (if std = 0 then 1 else std), ?_, ?_⟩
    · simp [normalizeRmsF, divN, h0.ne', List.map_map, Function.comp_def]
    · intro i j x x' y y' hx hx' hy hy' h
      rw [List.getElem?_map, hx] at hy
      rw [List.getElem?_map, hx'] at hy'
      simp only [Option.map_some, Option.some.injEq] at hy hy'
      subst hy hy'
      exact rnd_mono (div_le_div_of_nonneg_right (rnd_mono (by linarith)) h0.le)

/-- Doubles: a third of the peak is not a double, the peak is exact. -/
example : (normalizePeakF (double ℚ) [1, -3, 2]).toOption.map (·.map fun y => y == some (-1)) =
      some [false, true, false] ∧
    (normalizePeakF (double ℚ) [1, -3, 2]).toOption.map (·.map fun y => y == some (1 / 3)) =
      some [false, false, false] ∧
    (normalizeRangeF (double ℚ) [1, -3, 2]).toOption.map (·.map fun y => y == some 1) =
      some [false, false, true] ∧
    (normalizeRangeF (double ℚ) [1, -3, 2]).toOption.map (·.map fun y => y == some 0) =
      some [false, true, false] := by
  decide +kernel

end Verif.Float
