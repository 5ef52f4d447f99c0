import Verif.Sms.WindowModel
import Mathlib.Tactic

/-! # Lemmas about framing -/

set_option autoImplicit false
set_option linter.unusedSectionVars false
set_option linter.unusedSimpArgs false

namespace Verif.Sms

theorem sequence_map {α β : Type*} (l : List α) (f : α → Except PyErr β) (g : α → β)
    (h : ∀ a ∈ l, f a = .ok (g a)) : sequence (l.map f) = .ok (l.map g) := by
  induction l with
  | nil => rfl
  | cons a l ih =>
    simp only [List.map_cons, sequence]
    rw [h a (by simp), ih (fun b hb => h b (by simp [hb]))]

theorem nWindows_nat (len w hop : Nat) (hh : 1 ≤ hop) (hw : w ≤ len) :
    nWindows len w (some hop) = .ok ((1 + (len - w) / hop : Nat) : Int) := by
  unfold nWindows
  simp only [Option.getD_some]
  rw [if_neg (by omega)]
  congr 1
  rw [Int.fdiv_eq_ediv_of_nonneg _ (by omega), ← Nat.cast_sub hw]
  push_cast
  rfl

theorem nWindows_short (len w hop : Nat) (hh : 1 ≤ hop) (hw : len < w) :
    ∃ n : Int, nWindows len w (some hop) = .ok n ∧ (w ≤ len + hop → n = 0) ∧
      (len + hop < w → n < 0) := by
  unfold nWindows
  simp only [Option.getD_some]
  rw [if_neg (by omega)]
  refine ⟨_, rfl, ?_, ?_⟩
  · intro h
    rw [Int.fdiv_eq_ediv_of_nonneg _ (by omega)]
    have : ((len : Int) - w) / hop = -1 := by
      rw [Int.ediv_eq_iff_of_pos (by omega)]
      constructor <;> omega
    omega
  · intro h
    rw [Int.fdiv_eq_ediv_of_nonneg _ (by omega)]
    have : ((len : Int) - w) / hop < -1 := by
      rw [Int.ediv_lt_iff_lt_mul (by omega)]
      omega
    omega

theorem frame_row {α : Type*} (a : List α) (w s : Nat) (h : s + w ≤ a.length) :
    sequence ((List.range w).map fun j => getE a (s + j)) = .ok ((a.drop s).take w) := by
  have hne : ∀ j, j < w → s + j < a.length := by intros; omega
  have key : ∀ w, s + w ≤ a.length →
      sequence ((List.range w).map fun j => getE a (s + j)) = .ok ((a.drop s).take w) := by
    intro w h
    cases hw : w with
    | zero => simp [sequence]
    | succ w' =>
      have hpos : 0 < a.length := by omega
      have : Inhabited α := ⟨a[0]⟩
      rw [sequence_map _ _ (fun j => a[s + j]!)]
      · congr 1
        apply List.ext_getElem?
        intro i
        by_cases hi : i < w' + 1
        · rw [List.getElem?_map, List.getElem?_range hi, List.getElem?_take, if_pos hi,
            List.getElem?_drop]
          rw [List.getElem?_eq_getElem (by omega)]
          simp only [Option.map_some, Option.some.injEq]
          rw [getElem!_pos a _ (by omega)]
        · rw [List.getElem?_eq_none (by simp; omega), List.getElem?_eq_none (by simp; omega)]
      · intro j hj
        rw [List.mem_range] at hj
        unfold getE
        rw [List.getElem?_eq_getElem (by omega)]
        simp only
        rw [getElem!_pos a _ (by omega)]
  exact key w h

theorem overlappingWindows_eq {α : Type*} (a : List α) (w hop : Nat) (hh : 1 ≤ hop)
    (hw : w ≤ a.length) :
    overlappingWindows a w (some hop) = .ok ((List.range (1 + (a.length - w) / hop)).map
      fun i => (a.drop (i * hop)).take w) := by
  unfold overlappingWindows
  rw [nWindows_nat _ _ _ hh hw]
  simp only [Option.getD_some]
  rw [if_neg (not_lt.2 (Int.natCast_nonneg _)), Int.toNat_natCast]
  apply sequence_map
  intro i hi
  rw [List.mem_range] at hi
  apply frame_row
  have h1 : i ≤ (a.length - w) / hop := by omega
  have h2 : i * hop ≤ a.length - w := le_trans (Nat.mul_le_mul_right _ h1) (Nat.div_mul_le_self _ _)
  omega

theorem padInput_true {α : Type*} [Zero α] (w : Nat) (x : List α) :
    padInput true w x = .ok (List.replicate ((w + 1) / 2) 0 ++ x ++ List.replicate (w / 2) 0,
      (w + 1) / 2) := by
  unfold padInput
  simp only [Bool.not_true, Bool.false_eq_true, if_false]
  have b : ∀ k, k ≤ x.length + (w + 1) / 2 + w / 2 →
      Np.bound (x.length + (w + 1) / 2 + w / 2) (Int.ofNat k) = k := by
    intro k hk
    unfold Np.bound
    rw [if_neg (by simp)]
    simp [hk]
  unfold Np.assign
  simp only [Np.lower, Np.upper, List.length_replicate]
  rw [b _ (by omega), b _ (by omega), if_pos (by omega)]
  simp only [List.take_replicate, List.drop_replicate]
  congr 5
  · omega
  · omega

end Verif.Sms
