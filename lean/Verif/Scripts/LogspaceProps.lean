import Verif.Scripts.LogspaceModel
import Mathlib.Analysis.SpecialFunctions.Pow.Real
import Mathlib.Tactic.Ring
import Mathlib.Tactic.FieldSimp
import Mathlib.Tactic.Linarith
import Mathlib.Tactic.NormNum
import Mathlib.Tactic.Positivity

/-!
# C115: logarithmically spaced values
-/

set_option autoImplicit false
set_option linter.unusedSectionVars false
set_option linter.unusedSimpArgs false

namespace Verif.Logspace

open Verif.Psycho

/-- Spec: the point at fraction `p` on the geometric path from `a` to `b`. -/
noncomputable def geo (a b p : ℝ) : ℝ := a * (b / a) ^ p

theorem logspaceP_eq {start stop offset : ℝ} (ha : 0 < start + offset) (hb : 0 < stop + offset) (p : ℝ) :
    logspaceP start stop offset p = some (geo (start + offset) (stop + offset) p - offset) := by
  unfold logspaceP
  rw [if_neg (by push Not; exact ⟨ha, hb.le⟩), if_neg hb.ne']
  congr 2
  rw [geo, Real.rpow_def_of_pos (div_pos hb ha), Real.log_div hb.ne' ha.ne', Real.exp_add, Real.exp_log ha]

theorem linspace_nat (n : Nat) :
    (linspace (0 : ℝ) 1 (n : Int)) = .ok ((List.range n).map fun (i : Nat) => (i : ℝ) / ((n : ℝ) - 1)) := by
  unfold linspace
  rw [if_neg (by omega)]
  simp only [Int.toNat_natCast, Except.ok.injEq]
  apply List.map_congr_left
  intro i _
  push_cast
  ring

theorem logspace_get {start stop offset : ℝ} (n : Nat) :
    logspace start stop offset (n : Int) =
      .ok ((List.range n).map fun (i : Nat) => logspaceP start stop offset ((i : ℝ) / ((n : ℝ) - 1))) := by
  unfold logspace
  rw [linspace_nat]
  simp [Function.comp_def]

/-- **C115.** The value at a fraction: with the offset added it is on the geometric path between the ends; at 0 and 1 it
is the start and the end. -/
theorem C115_path (start stop offset : ℝ) (ha : 0 < start + offset) (hb : 0 < stop + offset) :
    (∀ p, ∃ y, logspaceP start stop offset p = some y ∧ 0 < y + offset ∧
      y + offset = (start + offset) * ((stop + offset) / (start + offset)) ^ p) ∧
    logspaceP start stop offset 0 = some start ∧ logspaceP start stop offset 1 = some stop := by
  refine ⟨fun p => ⟨_, logspaceP_eq ha hb p, ?_, ?_⟩, ?_, ?_⟩
  · have : 0 < geo (start + offset) (stop + offset) p := mul_pos ha (Real.rpow_pos_of_pos (div_pos hb ha) p)
    linarith
  · rw [geo]; ring
  · rw [logspaceP_eq ha hb, geo, Real.rpow_zero]; congr 1; ring
  · rw [logspaceP_eq ha hb, geo, Real.rpow_one, mul_div_cancel₀ _ ha.ne']; congr 1; ring

/-- **C115.** The values go from the start towards the end: strictly up if the end is greater, strictly down if it is
smaller. -/
theorem C115_monotone (start stop offset : ℝ) (ha : 0 < start + offset) (hb : 0 < stop + offset) (p q x y : ℝ) (hpq : p < q)
    (hx : logspaceP start stop offset p = some x) (hy : logspaceP start stop offset q = some y) :
    (start < stop → x < y) ∧ (stop < start → y < x) ∧ (start = stop → x = start ∧ y = start) := by
  rw [logspaceP_eq ha hb, Option.some.injEq] at hx hy
  subst hx hy
  have hr := div_pos hb ha
  refine ⟨fun h => ?_, fun h => ?_, ?_⟩
  · have h1 : 1 < (stop + offset) / (start + offset) := by rw [lt_div_iff₀ ha]; linarith
    have := mul_lt_mul_of_pos_left (Real.rpow_lt_rpow_of_exponent_lt h1 hpq) ha
    simp only [geo]; linarith
  · have h1 : (stop + offset) / (start + offset) < 1 := by rw [div_lt_iff₀ ha]; linarith
    have := mul_lt_mul_of_pos_left (Real.rpow_lt_rpow_of_exponent_gt hr h1 hpq) ha
    simp only [geo]; linarith
  · rintro rfl
    simp [geo, div_self ha.ne']

/-- **C115.** A list of `n` values: that many, each a number; the first is the start, the last the end (for two or
more), and with the offset added the quotient of neighbours is always the same. -/
theorem C115_list (start stop offset : ℝ) (ha : 0 < start + offset) (hb : 0 < stop + offset) (n : Nat) :
    ∃ l : List ℝ, logspace start stop offset (n : Int) = .ok (l.map some) ∧ l.length = n ∧
      (0 < n → l[0]? = some start) ∧ (2 ≤ n → l[n - 1]? = some stop) ∧
      (∀ (i : Nat) (x y z : ℝ), l[i]? = some x → l[i + 1]? = some y → l[i + 2]? = some z →
        (y + offset) / (x + offset) = (z + offset) / (y + offset)) ∧
      (start < stop → l.Pairwise (· < ·)) ∧ (stop < start → l.Pairwise (· > ·)) := by
  have hr := div_pos hb ha
  refine ⟨(List.range n).map fun (i : Nat) => geo (start + offset) (stop + offset) ((i : ℝ) / ((n : ℝ) - 1)) - offset, ?_, by simp,
    ?_, ?_, ?_, ?_, ?_⟩
  · rw [logspace_get]
    simp only [List.map_map, Function.comp_def, logspaceP_eq ha hb]
  · intro hn
    simp [List.getElem?_map, List.getElem?_range hn, geo]
  · intro hn
    have h1 : (((n - 1 : Nat) : ℝ)) / ((n : ℝ) - 1) = 1 := by
      rw [Nat.cast_sub (by omega)]
      have : (2 : ℝ) ≤ n := by exact_mod_cast hn
      push_cast
      exact div_self (by linarith)
    rw [List.getElem?_map, List.getElem?_range (by omega)]
    simp only [Option.map_some, h1, geo, Real.rpow_one, Option.some.injEq]
    rw [mul_div_cancel₀ _ ha.ne']
    ring
  · intro i x y z hx hy hz
    have hi : i + 2 < n := by
      by_contra hc
      rw [List.getElem?_eq_none (by simp; omega)] at hz
      simp at hz
    rw [List.getElem?_map, List.getElem?_range (by omega), Option.map_some, Option.some.injEq] at hx hy hz
    subst hx hy hz
    have hd : ∀ k : Nat, geo (start + offset) (stop + offset) (((k + 1 : Nat) : ℝ) / ((n : ℝ) - 1)) =
        geo (start + offset) (stop + offset) ((k : ℝ) / ((n : ℝ) - 1)) *
          ((stop + offset) / (start + offset)) ^ (1 / ((n : ℝ) - 1)) := by
      intro k
      rw [geo, geo]
      push_cast
      rw [add_div (k : ℝ) 1, Real.rpow_add hr]
      ring
    have hpos : ∀ p, 0 < geo (start + offset) (stop + offset) p := fun p => mul_pos ha (Real.rpow_pos_of_pos hr p)
    simp only [sub_add_cancel]
    rw [hd (i + 1), hd i]
    have h1 := (hpos ((i : ℝ) / ((n : ℝ) - 1))).ne'
    have h2 := (Real.rpow_pos_of_pos hr (1 / ((n : ℝ) - 1))).ne'
    field_simp
  all_goals
    intro h
    rw [List.pairwise_map]
    refine List.Pairwise.imp_of_mem ?_ (List.pairwise_lt_range (n := n))
    intro i j hi hj hij
    have hn : (0 : ℝ) < (n : ℝ) - 1 := by
      have : (1 : ℝ) < n := by exact_mod_cast (by have := List.mem_range.1 hj; omega : 1 < n)
      linarith
    have hlt : (i : ℝ) / ((n : ℝ) - 1) < (j : ℝ) / ((n : ℝ) - 1) := by
      apply div_lt_div_of_pos_right _ hn
      exact_mod_cast hij
    have := C115_monotone start stop offset ha hb _ _ _ _ hlt (logspaceP_eq ha hb _) (logspaceP_eq ha hb _)
  · exact this.1 h
  · exact this.2.1 h

/-- **C115.** The tick at case number `i` is labelled with the value of that case. -/
theorem C115_ticks (start stop offset : ℝ) (n i : Nat) (hn : 2 ≤ n) (hi : i < n) (l : List (Option ℝ))
    (h : logspace start stop offset (n : Int) = .ok l) : l[i]? = some (tick start stop offset n i) := by
  rw [logspace_get, Except.ok.injEq] at h
  subst h
  rw [List.getElem?_map, List.getElem?_range hi, tick, if_neg (by omega)]
  rfl

/-- **C115.** Negative numbers of values are a `ValueError`; if the start with the offset is not positive, or the end
with the offset is negative, no value is a number. -/
theorem C115_errors (start stop offset : ℝ) :
    (∀ num : Int, num < 0 → logspace start stop offset num = .error .valueError) ∧
    (start + offset ≤ 0 ∨ stop + offset < 0 → ∀ p, logspaceP start stop offset p = none) := by
  refine ⟨fun num h => by simp [logspace, linspace, h], fun h p => by rw [logspaceP, if_pos h]⟩

/-- From 1 to 100 without offset: half way it is 10. -/
example : logspaceP 1 100 0 (1 / 2) = some 10 := by
  rw [logspaceP_eq (by norm_num) (by norm_num), geo]
  have : (100 : ℝ) ^ (1 / 2 : ℝ) = 10 := by
    rw [show (100 : ℝ) = 10 ^ (2 : ℝ) by norm_num, ← Real.rpow_mul (by norm_num)]
    norm_num
  norm_num [this]

end Verif.Logspace
