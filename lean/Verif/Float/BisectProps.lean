import Mathlib.Data.Rat.Floor
import Mathlib.Topology.Order.IntermediateValue
import Mathlib.Topology.Instances.Real.Lemmas
import Mathlib.Data.Set.Operations
import Verif.Float.BisectModel

/-!
# Bisection in floating point (C139)
-/

set_option autoImplicit false
set_option linter.unusedSectionVars false
set_option linter.unusedSimpArgs false

namespace Verif.Float

open Arith Set

variable {K : Type} [Field K] [LinearOrder K] [IsStrictOrderedRing K] (A : Arith K)

theorem midF_comm (a b : K) : midF A a b = midF A b a := by
  unfold midF Arith.add
  rw [add_comm]

theorem midF_mem_le {a b : K} (ra : A.Rep a) (rb : A.Rep b) (h : a ≤ b) :
    a ≤ midF A a b ∧ midF A a b ≤ b := by
  have h1 : 2 * a ≤ A.rnd (a + b) := le_rnd (by linarith) (rep_double ra)
  have h2 : A.rnd (a + b) ≤ 2 * b := rnd_le (by linarith) (rep_double rb)
  exact ⟨le_rnd (by show a ≤ A.rnd (a + b) / 2; linarith) ra,
    rnd_le (by show A.rnd (a + b) / 2 ≤ b; linarith) rb⟩

theorem midF_mem {a b : K} (ra : A.Rep a) (rb : A.Rep b) : midF A a b ∈ uIcc a b := by
  rcases le_total a b with h | h
  · rw [uIcc_of_le h]
    exact midF_mem_le A ra rb h
  · rw [uIcc_of_ge h, midF_comm]
    exact midF_mem_le A rb ra h

/-- Distance of the computed midpoint to the ends. -/
theorem midF_dist {a b B : K} (ra : A.Rep a) (rb : A.Rep b) (ha : |a| ≤ B) (hb : |b| ≤ B) :
    |midF A a b - (a + b) / 2| ≤ 2 * A.u * B + A.eta := by
  have u0 := A.u_pos
  have hab : |a + b| ≤ 2 * B := (abs_add_le a b).trans (by linarith)
  have e1 : |A.rnd (a + b) - (a + b)| ≤ A.u * (2 * B) :=
    (A.errAdd a b ra rb).trans (mul_le_mul_of_nonneg_left hab u0.le)
  have hr' : |A.rnd (a + b) / 2| ≤ B := by
    have h1 : A.rnd (a + b) ∈ uIcc (2 * a) (2 * b) := by
      rcases le_total a b with h | h
      · rw [uIcc_of_le (by linarith)]
        exact ⟨le_rnd (by linarith) (rep_double ra), rnd_le (by linarith) (rep_double rb)⟩
      · rw [uIcc_of_ge (by linarith)]
        exact ⟨le_rnd (by linarith) (rep_double rb), rnd_le (by linarith) (rep_double ra)⟩
    rw [abs_le] at ha hb ⊢
    rw [mem_uIcc] at h1
    rcases h1 with h | h <;> constructor <;> linarith [h.1, h.2, ha.1, ha.2, hb.1, hb.2]
  have e2 : |midF A a b - A.rnd (a + b) / 2| ≤ A.u * B + A.eta := by
    refine (A.err _).trans ?_
    exact add_le_add_left (mul_le_mul_of_nonneg_left hr' u0.le) _
  have := abs_add_le (midF A a b - A.rnd (a + b) / 2) ((A.rnd (a + b) - (a + b)) / 2)
  rw [abs_div _ (2 : K), abs_two] at this
  rw [show midF A a b - (a + b) / 2 =
    (midF A a b - A.rnd (a + b) / 2) + (A.rnd (a + b) - (a + b)) / 2 by ring]
  linarith

theorem mid_width {a b m e : K} (h : |m - (a + b) / 2| ≤ e) :
    |m - b| ≤ |a - b| / 2 + e ∧ |a - m| ≤ |a - b| / 2 + e := by
  constructor
  · have := abs_add_le (m - (a + b) / 2) ((a - b) / 2)
    rw [abs_div _ (2 : K), abs_two] at this
    rw [show m - b = m - (a + b) / 2 + (a - b) / 2 by ring]
    linarith
  · have := abs_add_le ((a - b) / 2) (-(m - (a + b) / 2))
    rw [abs_div _ (2 : K), abs_two, abs_neg] at this
    rw [show a - m = (a - b) / 2 + -(m - (a + b) / 2) by ring]
    linarith

theorem abs_le_of_mem {a b x B : K} (ha : |a| ≤ B) (hb : |b| ≤ B) (h : x ∈ uIcc a b) : |x| ≤ B := by
  rw [abs_le] at ha hb ⊢
  rw [mem_uIcc] at h
  rcases h with h | h <;> constructor <;> linarith [h.1, h.2, ha.1, ha.2, hb.1, hb.2]

theorem bisectLoopF_bracket (f : K → K) (B : K) : ∀ (n : Nat) (lo hi : K), A.Rep lo → A.Rep hi →
    |lo| ≤ B → |hi| ≤ B → f lo ≤ 0 → 0 ≤ f hi →
    ∃ lo' hi', lo' ∈ uIcc lo hi ∧ hi' ∈ uIcc lo hi ∧ f lo' ≤ 0 ∧ 0 ≤ f hi' ∧ A.Rep lo' ∧ A.Rep hi' ∧
      A.Rep (bisectLoopF A f n lo hi (midF A lo hi)) ∧
      ((bisectLoopF A f n lo hi (midF A lo hi) = midF A lo' hi' ∧
          |lo' - hi'| ≤ |lo - hi| / 2 ^ n + 2 * (1 - 1 / 2 ^ n) * (2 * A.u * B + A.eta)) ∨
        (bisectLoopF A f n lo hi (midF A lo hi) ∈ uIcc lo hi ∧
          f (bisectLoopF A f n lo hi (midF A lo hi)) = 0))
  | 0, lo, hi, r1, r2, _, _, h1, h2 =>
    ⟨lo, hi, left_mem_uIcc, right_mem_uIcc, h1, h2, r1, r2, rnd_rep _, Or.inl ⟨rfl, by simp⟩⟩
  | n + 1, lo, hi, r1, r2, b1, b2, h1, h2 => by
    have hm := midF_mem A r1 r2
    have hw := mid_width (midF_dist A r1 r2 b1 b2)
    have rm : A.Rep (midF A lo hi) := rnd_rep _
    have bm := abs_le_of_mem b1 b2 hm
    simp only [bisectLoopF]
    have hcalc : ∀ w : K, w ≤ |lo - hi| / 2 + (2 * A.u * B + A.eta) →
        w / 2 ^ n + 2 * (1 - 1 / 2 ^ n) * (2 * A.u * B + A.eta) ≤
          |lo - hi| / 2 ^ (n + 1) + 2 * (1 - 1 / 2 ^ (n + 1)) * (2 * A.u * B + A.eta) := by
      intro w hw
      have := div_le_div_of_nonneg_right hw (show (0 : K) ≤ 2 ^ n by positivity)
      refine (add_le_add_left this _).trans (le_of_eq ?_)
      have : (2 : K) ^ n ≠ 0 := by positivity
      rw [pow_succ]
      field_simp
      ring
    by_cases c1 : f (midF A lo hi) < 0
    · simp only [c1, if_true]
      have hsub : uIcc (midF A lo hi) hi ⊆ uIcc lo hi := uIcc_subset_uIcc hm right_mem_uIcc
      obtain ⟨lo', hi', a1, a2, a3, a4, a5, a6, a7, a8⟩ :=
        bisectLoopF_bracket f B n _ hi rm r2 bm b2 c1.le h2
      refine ⟨lo', hi', hsub a1, hsub a2, a3, a4, a5, a6, a7, ?_⟩
      rcases a8 with ⟨q1, q2⟩ | ⟨q1, q2⟩
      · exact Or.inl ⟨q1, q2.trans (hcalc _ hw.1)⟩
      · exact Or.inr ⟨hsub q1, q2⟩
    · by_cases c2 : 0 < f (midF A lo hi)
      · simp only [c1, c2, if_true, if_false]
        have hsub : uIcc lo (midF A lo hi) ⊆ uIcc lo hi := uIcc_subset_uIcc left_mem_uIcc hm
        obtain ⟨lo', hi', a1, a2, a3, a4, a5, a6, a7, a8⟩ :=
          bisectLoopF_bracket f B n lo _ r1 rm b1 bm h1 c2.le
        refine ⟨lo', hi', hsub a1, hsub a2, a3, a4, a5, a6, a7, ?_⟩
        rcases a8 with ⟨q1, q2⟩ | ⟨q1, q2⟩
        · exact Or.inl ⟨q1, q2.trans (hcalc _ hw.2)⟩
        · exact Or.inr ⟨hsub q1, q2⟩
      · simp only [c1, c2, if_false]
        exact ⟨lo, hi, left_mem_uIcc, right_mem_uIcc, h1, h2, r1, r2, rm,
          Or.inr ⟨hm, le_antisymm (not_lt.1 c2) (not_lt.1 c1)⟩⟩

/-- C139: with signs at the boundaries that differ (or a zero) there is no error.  The result is a
floating-point number between the boundaries: a zero of the computed function, or the midpoint of a
bracket inside the boundaries over which the computed function still changes sign, of a width halved in
each step up to rounding. -/
theorem C139_bracket (f : K → K) (lo hi B : K) (steps : Nat) (r1 : A.rnd lo = lo) (r2 : A.rnd hi = hi)
    (b1 : |lo| ≤ B) (b2 : |hi| ≤ B) (hs : f lo ≤ 0 ∧ 0 ≤ f hi ∨ f hi ≤ 0 ∧ 0 ≤ f lo) :
    ∃ a, bisectF A f lo hi steps = .ok a ∧ A.rnd a = a ∧ a ∈ uIcc lo hi ∧
      (f a = 0 ∨ ∃ lo' hi', lo' ∈ uIcc lo hi ∧ hi' ∈ uIcc lo hi ∧ A.rnd lo' = lo' ∧ A.rnd hi' = hi' ∧
        f lo' ≤ 0 ∧ 0 ≤ f hi' ∧ a ∈ uIcc lo' hi' ∧
        |lo' - hi'| ≤ |lo - hi| / 2 ^ steps + 4 * A.u * B + 2 * A.eta) := by
  have hp : ¬ 0 < A.mul (f lo) (f hi) := by
    rw [not_lt]
    apply rnd_nonpos
    rcases hs with ⟨h1, h2⟩ | ⟨h1, h2⟩
    · exact mul_nonpos_of_nonpos_of_nonneg h1 h2
    · exact mul_nonpos_of_nonneg_of_nonpos h2 h1
  have u0 := A.u_pos
  have η0 := A.eta_nonneg
  have B0 : 0 ≤ B := (abs_nonneg _).trans b1
  have hfin : ∀ l h : K, A.Rep l → A.Rep h → |l| ≤ B → |h| ≤ B → f l ≤ 0 → 0 ≤ f h →
      ∃ a, bisectLoopF A f steps l h (midF A l h) = a ∧ A.rnd a = a ∧ a ∈ uIcc l h ∧
      (f a = 0 ∨ ∃ lo' hi', lo' ∈ uIcc l h ∧ hi' ∈ uIcc l h ∧ A.rnd lo' = lo' ∧ A.rnd hi' = hi' ∧
        f lo' ≤ 0 ∧ 0 ≤ f hi' ∧ a ∈ uIcc lo' hi' ∧
        |lo' - hi'| ≤ |l - h| / 2 ^ steps + 4 * A.u * B + 2 * A.eta) := by
    intro l h rl rh bl bh fl fh
    obtain ⟨lo', hi', a1, a2, a3, a4, a5, a6, a7, a8⟩ :=
      bisectLoopF_bracket A f B steps l h rl rh bl bh fl fh
    refine ⟨_, rfl, a7, ?_⟩
    rcases a8 with ⟨q1, q2⟩ | ⟨q1, q2⟩
    · rw [q1]
      have hm := midF_mem A a5 a6
      refine ⟨uIcc_subset_uIcc a1 a2 hm, Or.inr ⟨lo', hi', a1, a2, a5, a6, a3, a4, hm, q2.trans ?_⟩⟩
      have e0 : 0 ≤ 2 * A.u * B + A.eta := by positivity
      have : 2 * (1 - 1 / 2 ^ steps) * (2 * A.u * B + A.eta) ≤ 2 * (2 * A.u * B + A.eta) := by
        apply mul_le_mul_of_nonneg_right _ e0
        have : (0 : K) < 1 / 2 ^ steps := by positivity
        linarith
      linarith
    · exact ⟨q1, Or.inl q2⟩
  unfold bisectF
  simp only [hp, if_false, Except.ok.injEq, Int.toNat_natCast]
  by_cases c : f hi < f lo
  · simp only [c, if_true]
    have h1 : f hi ≤ 0 := by
      rcases hs with ⟨h1, h2⟩ | ⟨h1, h2⟩ <;> linarith
    have h2 : 0 ≤ f lo := by
      rcases hs with ⟨h1, h2⟩ | ⟨h1, h2⟩ <;> linarith
    obtain ⟨a, g1, g2, g3, g4⟩ := hfin hi lo r2 r1 b2 b1 h1 h2
    rw [uIcc_comm hi lo, abs_sub_comm hi lo] at g4
    rw [uIcc_comm hi lo] at g3
    exact ⟨a, g1.symm ▸ rfl, g2, g3, g4⟩
  · simp only [c, if_false]
    rw [not_lt] at c
    have h1 : f lo ≤ 0 := by
      rcases hs with ⟨h1, h2⟩ | ⟨h1, h2⟩ <;> linarith
    have h2 : 0 ≤ f hi := by
      rcases hs with ⟨h1, h2⟩ | ⟨h1, h2⟩ <;> linarith
    obtain ⟨a, g1, g2, g3, g4⟩ := hfin lo hi r1 r2 b1 b2 h1 h2
    exact ⟨a, g1.symm ▸ rfl, g2, g3, g4⟩

/-- C139: if the values computed for floating-point arguments between the boundaries are within `ε` of
a continuous function `g`, then the result is near a point where `g` is zero up to `ε`. -/
theorem C139_zero (A : Arith ℝ) (f g : ℝ → ℝ) (lo hi B ε : ℝ) (steps : Nat) (r1 : A.rnd lo = lo)
    (r2 : A.rnd hi = hi) (b1 : |lo| ≤ B) (b2 : |hi| ≤ B)
    (hs : f lo ≤ 0 ∧ 0 ≤ f hi ∨ f hi ≤ 0 ∧ 0 ≤ f lo) (hc : ContinuousOn g (uIcc lo hi))
    (hfg : ∀ x ∈ uIcc lo hi, A.rnd x = x → |f x - g x| ≤ ε) :
    ∃ a z, bisectF A f lo hi steps = .ok a ∧ a ∈ uIcc lo hi ∧ z ∈ uIcc lo hi ∧ |g z| ≤ ε ∧
      |a - z| ≤ |lo - hi| / 2 ^ steps + 4 * A.u * B + 2 * A.eta := by
  obtain ⟨a, h1, h2, h3, h4⟩ := C139_bracket A f lo hi B steps r1 r2 b1 b2 hs
  have u0 := A.u_pos
  have η0 := A.eta_nonneg
  have B0 : 0 ≤ B := (abs_nonneg _).trans b1
  rcases h4 with h4 | ⟨lo', hi', g1, g2, g3, g4, g5, g6, g7, g8⟩
  · refine ⟨a, a, h1, h3, h3, ?_, ?_⟩
    · have := hfg a h3 h2
      rwa [h4, zero_sub, abs_neg] at this
    · rw [sub_self, abs_zero]
      positivity
  · have hsub : uIcc lo' hi' ⊆ uIcc lo hi := uIcc_subset_uIcc g1 g2
    have e1 := abs_le.1 (hfg lo' g1 g3)
    have e2 := abs_le.1 (hfg hi' g2 g4)
    have ε0 : 0 ≤ ε := (abs_nonneg _).trans (hfg lo' g1 g3)
    obtain ⟨z, hz, hz0⟩ : ∃ z ∈ uIcc lo' hi', |g z| ≤ ε := by
      by_cases hlo : -ε ≤ g lo'
      · exact ⟨lo', left_mem_uIcc, abs_le.2 ⟨hlo, by linarith [e1.1]⟩⟩
      · have hivt := intermediate_value_uIcc (hc.mono hsub)
        have : -ε ∈ uIcc (g lo') (g hi') := by
          rw [uIcc_of_le (by linarith [e2.2])]
          exact ⟨(not_le.1 hlo).le, by linarith [e2.2]⟩
        obtain ⟨z, hz, hz0⟩ := hivt this
        exact ⟨z, hz, by rw [hz0, abs_neg, abs_of_nonneg ε0]⟩
    refine ⟨a, z, h1, h3, hsub hz, hz0, le_trans ?_ g8⟩
    rw [mem_uIcc] at g7 hz
    rw [abs_le]
    rcases le_total lo' hi' with h | h
    · rw [abs_of_nonpos (by linarith)]
      rcases g7 with q | q <;> rcases hz with w | w <;> constructor <;> linarith [q.1, q.2, w.1, w.2]
    · rw [abs_of_nonneg (by linarith)]
      rcases g7 with q | q <;> rcases hz with w | w <;> constructor <;> linarith [q.1, q.2, w.1, w.2]

/-- C139: equal signs are reported if the product of the two values does not underflow, that is if it
reaches some positive floating-point number. -/
theorem C139_error (f : K → K) (lo hi : K) (steps : Int) (r : K) (hr : A.rnd r = r) (r0 : 0 < r)
    (h : r ≤ f lo * f hi) : bisectF A f lo hi steps = .error .valueError := by
  have : 0 < A.mul (f lo) (f hi) := r0.trans_le (le_rnd h hr)
  simp [bisectF, this]

/-- C139: the exception to C39: if the product of two values of the same sign underflows, no error is
raised, and the result is close to a boundary although there is no zero. -/
theorem C139_underflow : ∃ f : ℚ → ℚ, (∀ x, (double ℚ).rnd (f x) = f x ∧ 0 < f x) ∧
    (bisectF (double ℚ) f 0 1 16).toOption = some (1 / 2 ^ 17) := by
  have h : (double ℚ).rnd (1 / 2 ^ 600) = 1 / 2 ^ 600 := by decide +kernel
  exact ⟨fun _ => 1 / 2 ^ 600, fun _ => ⟨h, by positivity⟩, by decide +kernel⟩

/-- Two steps for the zero of `x - 1/3` between 1 and 0. -/
example : (bisectF (double ℚ) (fun x : ℚ => x - 1 / 3) 1 0 2).toOption = some (3 / 8) := by
  decide +kernel

end Verif.Float
