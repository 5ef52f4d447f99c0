import Mathlib.Topology.Order.IntermediateValue
import Mathlib.Topology.Instances.Real.Lemmas
import Mathlib.Tactic.Linarith
import Mathlib.Tactic.Ring
import Mathlib.Tactic.FieldSimp
import Mathlib.Tactic.NormNum
import Mathlib.Algebra.Order.Field.Rat
import Verif.Dsp.BisectModel

/-!
# Bisection (C39)
-/

set_option autoImplicit false
set_option linter.unusedSectionVars false
set_option linter.unusedSimpArgs false

namespace Verif.Dsp

open Set

section field
variable {K : Type} [Field K] [LinearOrder K] [IsStrictOrderedRing K]

theorem mid_mem (a b : K) : (a + b) / 2 ∈ uIcc a b := by
  rcases le_total a b with h | h
  · rw [uIcc_of_le h]; constructor <;> linarith
  · rw [uIcc_of_ge h]; constructor <;> linarith

theorem abs_mid (a b : K) : |(a + b) / 2 - a| = |a - b| / 2 ∧ |(a + b) / 2 - b| = |a - b| / 2 := by
  have h1 : (a + b) / 2 - a = -((a - b) / 2) := by ring
  have h2 : (a + b) / 2 - b = (a - b) / 2 := by ring
  rw [h1, h2, abs_neg, abs_div, abs_two]
  exact ⟨rfl, rfl⟩

/-- The loop keeps a bracket: the result is the midpoint of a bracket whose width has been halved
`n` times, or an exact zero. -/
theorem bisectLoop_bracket (f : K → K) : ∀ (n : Nat) (lo hi : K), f lo ≤ 0 → 0 ≤ f hi →
    ∃ lo' hi', lo' ∈ uIcc lo hi ∧ hi' ∈ uIcc lo hi ∧ f lo' ≤ 0 ∧ 0 ≤ f hi' ∧
      ((bisectLoop f n lo hi ((lo + hi) / 2) = (lo' + hi') / 2 ∧
          |lo' - hi'| = |lo - hi| / 2 ^ n) ∨
        (bisectLoop f n lo hi ((lo + hi) / 2) ∈ uIcc lo hi ∧
          f (bisectLoop f n lo hi ((lo + hi) / 2)) = 0))
  | 0, lo, hi, h1, h2 =>
    ⟨lo, hi, left_mem_uIcc, right_mem_uIcc, h1, h2, Or.inl ⟨rfl, by simp⟩⟩
  | n + 1, lo, hi, h1, h2 => by
    have hm := mid_mem lo hi
    simp only [bisectLoop]
    by_cases c1 : f ((lo + hi) / 2) < 0
    · simp only [c1, if_true]
      have hsub : uIcc ((lo + hi) / 2) hi ⊆ uIcc lo hi := uIcc_subset_uIcc hm right_mem_uIcc
      obtain ⟨lo', hi', a1, a2, a3, a4, a5⟩ := bisectLoop_bracket f n _ hi c1.le h2
      refine ⟨lo', hi', hsub a1, hsub a2, a3, a4, ?_⟩
      rcases a5 with ⟨b1, b2⟩ | ⟨b1, b2⟩
      · left
        refine ⟨b1, ?_⟩
        rw [b2, (abs_mid lo hi).2, pow_succ]
        rw [div_div, mul_comm]
      · exact Or.inr ⟨hsub b1, b2⟩
    · by_cases c2 : 0 < f ((lo + hi) / 2)
      · simp only [c1, c2, if_true, if_false]
        have hsub : uIcc lo ((lo + hi) / 2) ⊆ uIcc lo hi := uIcc_subset_uIcc left_mem_uIcc hm
        obtain ⟨lo', hi', a1, a2, a3, a4, a5⟩ := bisectLoop_bracket f n lo _ h1 c2.le
        refine ⟨lo', hi', hsub a1, hsub a2, a3, a4, ?_⟩
        rcases a5 with ⟨b1, b2⟩ | ⟨b1, b2⟩
        · left
          refine ⟨b1, ?_⟩
          rw [b2, abs_sub_comm, (abs_mid lo hi).1, pow_succ]
          rw [div_div, mul_comm]
        · exact Or.inr ⟨hsub b1, b2⟩
      · simp only [c1, c2, if_false]
        refine ⟨lo, hi, left_mem_uIcc, right_mem_uIcc, h1, h2, Or.inr ⟨hm, ?_⟩⟩
        exact le_antisymm (not_lt.1 c2) (not_lt.1 c1)

theorem bisectLoop_local (f g : K → K) : ∀ (n : Nat) (lo hi : K),
    (∀ x ∈ uIcc lo hi, f x = g x) →
    bisectLoop f n lo hi ((lo + hi) / 2) = bisectLoop g n lo hi ((lo + hi) / 2)
  | 0, _, _, _ => rfl
  | n + 1, lo, hi, h => by
    have hm := mid_mem lo hi
    simp only [bisectLoop, ← h _ hm]
    have h1 := bisectLoop_local f g n ((lo + hi) / 2) hi
      (fun x hx => h x (uIcc_subset_uIcc hm right_mem_uIcc hx))
    have h2 := bisectLoop_local f g n lo ((lo + hi) / 2)
      (fun x hx => h x (uIcc_subset_uIcc left_mem_uIcc hm hx))
    rw [h1, h2]

/-- C39: `ValueError` exactly if the function has the same (strict) sign at both boundaries. -/
theorem C39_error (f : K → K) (lo hi : K) (steps : Int) :
    ((0 < f lo ∧ 0 < f hi) ∨ (f lo < 0 ∧ f hi < 0) → bisect f lo hi steps = .error .valueError) ∧
    (¬ ((0 < f lo ∧ 0 < f hi) ∨ (f lo < 0 ∧ f hi < 0)) → ∃ a, bisect f lo hi steps = .ok a) := by
  constructor
  · intro h
    have : 0 < f lo * f hi := mul_pos_iff.2 h
    simp [bisect, this]
  · intro h
    have : ¬ 0 < f lo * f hi := fun h' => h (mul_pos_iff.1 h')
    exact ⟨_, by simp only [bisect, this, if_false]; rfl⟩

/-- C39: the function is used only between the two boundaries. -/
theorem C39_local (f g : K → K) (lo hi : K) (steps : Int) (h : ∀ x ∈ uIcc lo hi, f x = g x) :
    bisect f lo hi steps = bisect g lo hi steps := by
  unfold bisect
  rw [← h lo left_mem_uIcc, ← h hi right_mem_uIcc]
  by_cases c : f hi < f lo
  · simp only [c, if_true]
    rw [bisectLoop_local f g _ hi lo (by rw [uIcc_comm]; exact h)]
  · simp only [c, if_false]
    rw [bisectLoop_local f g _ lo hi h]

theorem bisect_bracket (f : K → K) (lo hi : K) (steps : Int) (a : K)
    (hr : bisect f lo hi steps = .ok a) :
    ∃ lo' hi', lo' ∈ uIcc lo hi ∧ hi' ∈ uIcc lo hi ∧ f lo' ≤ 0 ∧ 0 ≤ f hi' ∧
      ((a = (lo' + hi') / 2 ∧ |lo' - hi'| = |lo - hi| / 2 ^ steps.toNat) ∨
        (a ∈ uIcc lo hi ∧ f a = 0)) := by
  unfold bisect at hr
  by_cases hp : 0 < f lo * f hi
  · simp [hp] at hr
  · simp only [hp, if_false, Except.ok.injEq] at hr
    rw [not_lt] at hp
    by_cases c : f hi < f lo
    · simp only [c, if_true] at hr
      have h1 : f hi ≤ 0 := by
        by_contra h'
        rw [not_le] at h'
        have := mul_pos (h'.trans c) h'
        linarith
      have h2 : 0 ≤ f lo := by
        by_contra h'
        rw [not_le] at h'
        have := mul_pos_of_neg_of_neg h' (c.trans h')
        linarith
      obtain ⟨lo', hi', a1, a2, a3, a4, a5⟩ := bisectLoop_bracket f steps.toNat hi lo h1 h2
      rw [hr] at a5
      rw [uIcc_comm hi lo] at a1 a2 a5
      rw [abs_sub_comm hi lo] at a5
      exact ⟨lo', hi', a1, a2, a3, a4, a5⟩
    · simp only [c, if_false] at hr
      rw [not_lt] at c
      have h1 : f lo ≤ 0 := by
        by_contra h'
        rw [not_le] at h'
        have := mul_pos h' (lt_of_lt_of_le h' c)
        linarith
      have h2 : 0 ≤ f hi := by
        by_contra h'
        rw [not_le] at h'
        have := mul_pos_of_neg_of_neg (lt_of_le_of_lt c h') h'
        linarith
      obtain ⟨lo', hi', a1, a2, a3, a4, a5⟩ := bisectLoop_bracket f steps.toNat lo hi h1 h2
      rw [hr] at a5
      exact ⟨lo', hi', a1, a2, a3, a4, a5⟩

end field

/-- C39: for every continuous function with a change of sign (or a zero) at the boundaries, in
either order, the result lies between the boundaries and within `|hi - lo| / 2^(steps + 1)` of a
zero that lies between the boundaries. -/
theorem C39_bisection (f : ℝ → ℝ) (lo hi : ℝ) (steps : ℕ) (hc : ContinuousOn f (uIcc lo hi))
    (hs : f lo ≤ 0 ∧ 0 ≤ f hi ∨ f hi ≤ 0 ∧ 0 ≤ f lo) :
    ∃ a z, bisect f lo hi steps = .ok a ∧ a ∈ uIcc lo hi ∧ z ∈ uIcc lo hi ∧ f z = 0 ∧
      |a - z| ≤ |hi - lo| / 2 ^ (steps + 1) := by
  obtain ⟨a, ha⟩ := (C39_error f lo hi steps).2 (by
    rintro (⟨h1, h2⟩ | ⟨h1, h2⟩) <;> rcases hs with ⟨h3, h4⟩ | ⟨h3, h4⟩ <;> linarith)
  obtain ⟨lo', hi', h1, h2, h3, h4, h5⟩ := bisect_bracket f lo hi steps a ha
  rcases h5 with ⟨e1, e2⟩ | ⟨e1, e2⟩
  · have hsub : uIcc lo' hi' ⊆ uIcc lo hi := uIcc_subset_uIcc h1 h2
    have hivt := intermediate_value_uIcc (hc.mono hsub)
    have h0 : (0 : ℝ) ∈ uIcc (f lo') (f hi') := by
      rw [uIcc_of_le (h3.trans h4)]
      exact ⟨h3, h4⟩
    obtain ⟨z, hz, hz0⟩ := hivt h0
    refine ⟨a, z, ha, hsub (e1 ▸ mid_mem lo' hi'), hsub hz, hz0, ?_⟩
    have h6 : |a - z| ≤ |lo' - hi'| / 2 := by
      rw [e1]
      rcases le_total lo' hi' with h | h
      · rw [uIcc_of_le h] at hz
        rw [abs_of_nonpos (by linarith : lo' - hi' ≤ 0), abs_le]
        obtain ⟨z1, z2⟩ := hz
        constructor <;> linarith
      · rw [uIcc_of_ge h] at hz
        rw [abs_of_nonneg (by linarith : 0 ≤ lo' - hi'), abs_le]
        obtain ⟨z1, z2⟩ := hz
        constructor <;> linarith
    rw [e2] at h6
    rw [abs_sub_comm hi lo, pow_succ, ← div_div]
    simpa using h6
  · exact ⟨a, a, ha, e1, e1, e2, by rw [sub_self, abs_zero]; positivity⟩

/-- Two steps for the zero of `x - 1/3` between 1 and 0. -/
example : bisect (fun x : ℚ => x - 1 / 3) 1 0 2 = .ok (3 / 8) := by
  have h : Int.toNat 2 = 2 := rfl
  norm_num [bisect, bisectLoop, h]

end Verif.Dsp
