import Mathlib.Algebra.Order.Field.Basic
import Mathlib.Data.List.Basic
import Mathlib.Data.List.Perm.Basic
import Verif.Sample.Model

/-!
# Lemmas about masks, fancy indexing and slices
-/

set_option autoImplicit false
set_option linter.unusedSectionVars false
set_option linter.unusedSimpArgs false

namespace Verif.Sample

open Verif.Tracker

theorem mask_map {ι α : Type*} (l : List ι) (f : ι → α) (g : ι → Bool) :
    mask (l.map f) (l.map g) = .ok ((l.filter g).map f) := by
  have : ((l.map f).zip (l.map g)).filterMap (fun e => if e.2 then some e.1 else none) =
      (l.filter g).map f := by
    induction l with
    | nil => rfl
    | cons a l ih =>
      simp only [List.map_cons, List.zip_cons_cons, List.filterMap_cons, List.filter_cons, ih]
      cases g a <;> simp
  simp [mask, this]

theorem eq_map_range {α : Type*} (l : List α) (d : α) :
    l = (List.range l.length).map fun i => l.getD i d := by
  apply List.ext_getElem?
  intro i
  simp only [List.getElem?_map, List.getD_eq_getElem?_getD]
  by_cases h : i < l.length
  · simp [List.getElem?_range h, h]
  · simp [h]

theorem fancy_ok {α : Type*} (l : List α) (d : α) (idx : List Nat) (h : ∀ i ∈ idx, i < l.length) :
    fancy l idx = .ok (idx.map fun i => l.getD i d) := by
  unfold fancy
  induction idx with
  | nil => rfl
  | cons i is ih =>
    have hi : i < l.length := h i (by simp)
    have := ih (fun j hj => h j (by simp [hj]))
    simp only [List.map_cons, Np.take, this]
    have : Np.index l (Int.ofNat i) = .ok (l.getD i d) := by
      simp [Np.index, getE, hi]
    rw [this]

theorem slice_prefix {α : Type*} (l : List α) (n : Int) :
    Np.slice l none (some n) =
      l.take (if 0 ≤ n then n.toNat else ((l.length : Int) + n).toNat) := by
  simp only [Np.slice, Np.lower, Np.upper, Np.bound, List.drop_zero, Nat.sub_zero]
  by_cases h : 0 ≤ n
  · rw [if_neg (by omega), if_pos h]
    rcases le_total n.toNat l.length with h1 | h1
    · rw [min_eq_left h1]
    · rw [min_eq_right h1, List.take_length, List.take_of_length_le h1]
  · rw [if_pos (by omega), if_neg h]; rfl

end Verif.Sample
