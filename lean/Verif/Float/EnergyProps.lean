import Mathlib.Algebra.BigOperators.Group.Finset.Basic
import Mathlib.Algebra.Order.BigOperators.Group.Finset
import Mathlib.Algebra.BigOperators.Ring.Finset
import Mathlib.Data.Rat.Floor
import Verif.Float.EnergyModel
import Verif.Sample.Props

/-!
# Selection of modes with computed energies (C144)
-/

set_option autoImplicit false
set_option linter.unusedSectionVars false
set_option linter.unusedSimpArgs false

namespace Verif.Float

open Arith
open Verif.Sample (Fitted IsArgsortAsc)

variable {K : Type} [Field K] [LinearOrder K] [IsStrictOrderedRing K] (A : Arith K)

/-- Rounding without underflow. -/
theorem rel_of {x : K} (h : A.eta ≤ A.u * |x|) : |A.rnd x - x| ≤ 2 * A.u * |x| := by
  have := A.err x
  linarith

/-- C144: the relative error of a computed energy. -/
theorem C144_energy (a d : K) (hd : 0 ≤ d)
    (h : a = 0 ∨ d = 0 ∨ A.eta ≤ A.u * a ^ 2 ∧ A.eta ≤ A.u * (a ^ 2 * d / 4)) :
    |energyF A a d - a ^ 2 * d / 4| ≤ 8 * A.u * (a ^ 2 * d / 4) := by
  have u0 := A.u_pos
  have u8 := A.u_le
  rcases h with rfl | rfl | ⟨h1, h2⟩
  · simp [energyF, Arith.mul, Arith.div, rnd_zero]
  · simp [energyF, Arith.mul, Arith.div, rnd_zero]
  have ha : 0 ≤ a ^ 2 := sq_nonneg a
  set e := a ^ 2 * d / 4 with he
  have he0 : 0 ≤ e := by positivity
  have hue := mul_nonneg u0.le he0
  have huue := mul_le_mul_of_nonneg_right u8 hue
  -- square
  have s1 : |A.mul a a - a ^ 2| ≤ 2 * A.u * a ^ 2 := by
    have := A.err (a * a)
    rw [← sq, abs_of_nonneg ha] at this
    show |A.rnd (a * a) - _| ≤ _
    rw [← sq]
    linarith
  -- product
  have s2 : |A.mul a a * d - 4 * e| ≤ 2 * A.u * (4 * e) := by
    have := mul_le_mul_of_nonneg_right s1 hd
    rw [← abs_of_nonneg hd, ← abs_mul, abs_of_nonneg hd, sub_mul] at this
    rw [show 4 * e = a ^ 2 * d by rw [he]; ring]
    linarith
  have s3 := A.err (A.mul a a * d)
  show |A.rnd (A.rnd (A.mul a a * d) / 4) - e| ≤ _
  generalize A.mul a a * d = p at *
  have s4 : |p| ≤ 4 * e + |p - 4 * e| := by
    have := abs_add_le (p - 4 * e) (4 * e)
    rw [sub_add_cancel, abs_of_nonneg (by linarith : (0 : K) ≤ 4 * e)] at this
    linarith
  have s5 := mul_le_mul_of_nonneg_left (s4.trans (add_le_add_right s2 _)) u0.le
  have s6 : |A.rnd p - 4 * e| ≤ 17 * (A.u * e) := by
    have := abs_add_le (A.rnd p - p) (p - 4 * e)
    rw [sub_add_sub_cancel] at this
    linarith
  have s7 : |A.rnd p / 4 - e| ≤ 17 / 4 * (A.u * e) := by
    rw [show A.rnd p / 4 - e = (A.rnd p - 4 * e) / 4 by ring, abs_div, abs_of_pos (by norm_num : (0 : K) < 4)]
    linarith
  have s8 := A.err (A.rnd p / 4)
  generalize A.rnd p / 4 = q at *
  have s9 : |q| ≤ e + 17 / 4 * (A.u * e) := by
    have := abs_add_le (q - e) e
    rw [sub_add_cancel, abs_of_nonneg he0] at this
    linarith
  have s10 := mul_le_mul_of_nonneg_left s9 u0.le
  have := abs_add_le (A.rnd q - q) (q - e)
  rw [sub_add_sub_cancel] at this
  linarith

/-- Two selections of the same size. -/
theorem selection_sum {ι : Type} [DecidableEq ι] (S T : Finset ι) (e : ι → K) (α β : K)
    (hα : 0 ≤ α) (hαβ : α ≤ β) (he : ∀ i, 0 ≤ e i) (hc : T.card ≤ S.card)
    (h : ∀ i ∈ S, ∀ j, j ∉ S → j ∈ T → α * e j ≤ β * e i) :
    α * ∑ j ∈ T, e j ≤ β * ∑ i ∈ S, e i := by
  rw [← Finset.sum_inter_add_sum_sdiff T S, ← Finset.sum_inter_add_sum_sdiff S T,
    Finset.inter_comm S T, mul_add, mul_add]
  apply add_le_add
  · exact mul_le_mul_of_nonneg_right hαβ (Finset.sum_nonneg fun i _ => he i)
  · have hcard : (T \ S).card ≤ (S \ T).card := by
      have h1 := Finset.card_sdiff_add_card_inter T S
      have h2 := Finset.card_sdiff_add_card_inter S T
      rw [Finset.inter_comm] at h2
      omega
    rcases (T \ S).eq_empty_or_nonempty with h0 | h0
    · rw [h0, Finset.sum_empty, mul_zero]
      exact mul_nonneg (hα.trans hαβ) (Finset.sum_nonneg fun i _ => he i)
    · obtain ⟨j, hj, hmax⟩ := Finset.exists_max_image (T \ S) e h0
      have h1 : ∑ i ∈ T \ S, e i ≤ (T \ S).card • e j := Finset.sum_le_card_nsmul _ _ _ hmax
      have h2 : (S \ T).card • (α * e j) ≤ ∑ i ∈ S \ T, β * e i := by
        apply Finset.card_nsmul_le_sum
        intro i hi
        exact h i (Finset.mem_sdiff.1 hi).1 j (Finset.mem_sdiff.1 hj).2 (Finset.mem_sdiff.1 hj).1
      rw [← Finset.mul_sum, nsmul_eq_mul] at h2
      rw [nsmul_eq_mul] at h1
      have h3 := mul_le_mul_of_nonneg_left h1 hα
      have h4 : ((T \ S).card : K) * (α * e j) ≤ (S \ T).card * (α * e j) :=
        mul_le_mul_of_nonneg_right (by exact_mod_cast hcard) (mul_nonneg hα (he j))
      linarith

/-- The energy of mode `i` (zero if there is none). -/
def exactEnergy (s : Fitted K) (i : Nat) : K := s.amps.getD i 0 ^ 2 * s.decays.getD i 0 / 4

/-- C144: `predict` with `n` modes uses `min n N` different modes; none of the others has noticeably
more energy, nor have any `n` modes together. -/
theorem C144_select (argsort : List K → List Nat) (hsort : ∀ keys, IsArgsortAsc keys (argsort keys))
    (s : Fitted K) (nModes : Option Int) (n : Nat) (hl : s.amps.length = s.decays.length)
    (hn : s.nModes nModes = n) (hd : ∀ d ∈ s.decays, 0 ≤ d)
    (hη : ∀ (i : Nat) (a d : K), s.amps[i]? = some a → s.decays[i]? = some d →
      a = 0 ∨ d = 0 ∨ A.eta ≤ A.u * a ^ 2 ∧ A.eta ≤ A.u * (a ^ 2 * d / 4)) :
    (selectModesF A argsort s nModes).Nodup ∧
    (selectModesF A argsort s nModes).length = min n s.amps.length ∧
    (∀ i ∈ selectModesF A argsort s nModes, i < s.amps.length) ∧
    (∀ i ∈ selectModesF A argsort s nModes, ∀ j, j < s.amps.length →
      j ∉ selectModesF A argsort s nModes →
      (1 - 8 * A.u) * exactEnergy s j ≤ (1 + 8 * A.u) * exactEnergy s i) ∧
    ∀ T : Finset Nat, (∀ j ∈ T, j < s.amps.length) → T.card ≤ n →
      (1 - 8 * A.u) * ∑ j ∈ T, exactEnergy s j ≤
        (1 + 8 * A.u) * ∑ i ∈ (selectModesF A argsort s nModes).toFinset, exactEnergy s i := by
  have u0 := A.u_pos
  have u8 := A.u_le
  set keys := energiesF A s with hkeys
  have hlen : keys.length = s.amps.length := by simp [hkeys, energiesF, hl]
  obtain ⟨hp, hs⟩ := hsort keys
  rw [hlen] at hp
  set o := argsort keys with ho
  have hol : o.length = s.amps.length := by rw [hp.length_eq, List.length_range]
  have hsel : selectModesF A argsort s nModes = o.reverse.take n := by
    unfold selectModesF
    rw [Sample.slice_prefix, hn, if_pos (by omega), Int.toNat_natCast]
  have hnd : o.Nodup := hp.nodup_iff.2 List.nodup_range
  have hpair : o.reverse.Pairwise fun i j => ∀ a b : K, keys[j]? = some a → keys[i]? = some b → a ≤ b := by
    rw [List.pairwise_reverse]
    exact hs
  rw [hsel]
  have hmem : ∀ i, i ∈ o ↔ i < s.amps.length := fun i => by rw [hp.mem_iff, List.mem_range]
  have c1 : (o.reverse.take n).Nodup := (List.nodup_reverse.2 hnd).sublist (List.take_sublist _ _)
  have c2 : (o.reverse.take n).length = min n s.amps.length := by simp [hol]
  have c3 : ∀ i ∈ o.reverse.take n, i < s.amps.length := fun i hi =>
    (hmem i).1 (List.mem_reverse.1 (List.mem_of_mem_take hi))
  -- the computed energies
  have henergy : ∀ i, i < s.amps.length → ∃ k, keys[i]? = some k ∧
      |k - exactEnergy s i| ≤ 8 * A.u * exactEnergy s i := by
    intro i hi
    have hi' : i < s.decays.length := by omega
    refine ⟨energyF A s.amps[i] s.decays[i], by simp [hkeys, energiesF, hi, hi'], ?_⟩
    have := C144_energy A s.amps[i] s.decays[i] (hd _ (List.getElem_mem hi'))
      (hη i _ _ (List.getElem?_eq_getElem hi) (List.getElem?_eq_getElem hi'))
    simpa [exactEnergy, List.getD_eq_getElem?_getD, hi, hi'] using this
  have hnn : ∀ i, 0 ≤ exactEnergy s i := by
    intro i
    unfold exactEnergy
    have : 0 ≤ s.decays.getD i 0 := by
      rw [List.getD_eq_getElem?_getD]
      cases h : s.decays[i]? with
      | none => simp
      | some d => simpa using hd d (List.mem_of_getElem? h)
    positivity
  have c4 : ∀ i ∈ o.reverse.take n, ∀ j, j < s.amps.length → j ∉ o.reverse.take n →
      (1 - 8 * A.u) * exactEnergy s j ≤ (1 + 8 * A.u) * exactEnergy s i := by
    intro i hi j hj hji
    obtain ⟨ki, g1, g2⟩ := henergy i (c3 i hi)
    obtain ⟨kj, g3, g4⟩ := henergy j hj
    have hjd : j ∈ o.reverse.drop n := by
      have : j ∈ o.reverse := List.mem_reverse.2 ((hmem j).2 hj)
      rw [← List.take_append_drop n o.reverse, List.mem_append] at this
      exact this.resolve_left hji
    rw [← List.take_append_drop n o.reverse, List.pairwise_append] at hpair
    have g5 := hpair.2.2 i hi j hjd kj ki g3 g1
    linarith [(abs_le.1 g2).2, (abs_le.1 g4).1]
  refine ⟨c1, c2, c3, c4, ?_⟩
  intro T hT hTn
  apply selection_sum _ _ _ _ _ (by linarith) (by linarith) hnn
  · rw [List.toFinset_card_of_nodup c1, c2]
    refine le_min hTn ?_
    have : T ⊆ Finset.range s.amps.length := fun j hj => Finset.mem_range.2 (hT j hj)
    simpa using Finset.card_le_card this
  · intro i hi j hj hjT
    exact c4 i (List.mem_toFinset.1 hi) j (hT j hjT) fun h => hj (List.mem_toFinset.2 h)

/-- C144: equality is not to be had: computed energies may order two modes (about 0.193 and 1.6 both)
differently from exact ones, in doubles. -/
theorem C144_order : ∃ a d a' d' : ℚ, (∀ x ∈ [a, d, a', d'], (double ℚ).rnd x = x ∧ 0 < x) ∧
    a ^ 2 * d / 4 < a' ^ 2 * d' / 4 ∧ energyF (double ℚ) a' d' < energyF (double ℚ) a d := by
  refine ⟨3476778912330023 / 2 ^ 54, 3602879701896397 / 2 ^ 51, 6953557824660047 / 2 ^ 55,
    900719925474099 / 2 ^ 49, ?_⟩
  decide +kernel

/-- Three modes in doubles that meet the hypotheses of `C144_select`; two of them are selected. -/
example : (energiesF (double ℚ) ⟨[440, 880, 1320], [1 / 2, 1 / 4, 1], [1, 1 / 10, 1 / 2], none⟩).length = 3 ∧
    selectModesF (double ℚ) (fun _ => [1, 2, 0]) ⟨[440, 880, 1320], [1 / 2, 1 / 4, 1], [1, 1 / 8, 1 / 4], none⟩
      (some 2) = [0, 2] ∧
    energiesF (double ℚ) ⟨[440, 880, 1320], [1 / 2, 1 / 4, 1], [1, 1 / 8, 1 / 4], none⟩ =
      [1 / 8, 1 / 1024, 1 / 64] ∧
    (double ℚ).eta ≤ (double ℚ).u * ((1 / 8) ^ 2 * (1 / 4) / 4) := by
  decide +kernel

end Verif.Float
