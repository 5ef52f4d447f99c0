import Mathlib.Analysis.Real.Pi.Bounds
import Verif.Float.SynthLemmas

/-!
# Additive synthesis in floating point (C143)
-/

set_option autoImplicit false
set_option linter.unusedSectionVars false
set_option linter.unusedSimpArgs false

namespace Verif.Float

open Arith

variable (A : Arith ℝ)

theorem sum_err {α : Type} (l : List α) (g g₀ B : α → ℝ) (h : ∀ a ∈ l, |g a - g₀ a| ≤ B a) :
    |(l.map g).sum - (l.map g₀).sum| ≤ (l.map B).sum := by
  induction l with
  | nil => simp
  | cons a l ih =>
    simp only [List.map_cons, List.sum_cons]
    have h1 := ih fun b hb => h b (List.mem_cons_of_mem _ hb)
    have h2 := h a List.mem_cons_self
    rw [show g a + (l.map g).sum - (g₀ a + (l.map g₀).sum) =
      (g a - g₀ a) + ((l.map g).sum - (l.map g₀).sum) by ring]
    exact (abs_add_le _ _).trans (add_le_add h2 h1)

/-- C143: error of an output sample. -/
theorem C143_synth (cosF expF : ℝ → ℝ) (κ twoPi t y : ℝ) (ms : List ModeF) (hκ : 0 ≤ κ)
    (hcl : ∀ x, |cosF x| ≤ 1) (hc : ∀ x, |cosF x - Real.cos x| ≤ κ * A.u)
    (he : ∀ x, |expF x - Real.exp x| ≤ κ * A.u * Real.exp x + A.eta)
    (hpi : |twoPi - 2 * Real.pi| ≤ A.u * (2 * Real.pi))
    (hphi : ∀ m ∈ ms, ∀ p, m.phi = some p → A.rnd p = p)
    (ht : ∀ m ∈ ms, 3 * A.u * (2 * |t / m.d|) + A.eta * (1 + 2 * |t|) ≤ 1)
    (hn : (ms.length : ℝ) * A.u ≤ 1 / 2) (hy : SynthF A cosF expF twoPi t ms y) :
    |y - (ms.map fun m =>
        m.a * Real.exp (-2 * t / m.d) * Real.cos (2 * Real.pi * m.f * t + m.phi.getD 0)).sum| ≤
      A.u * (ms.map fun m => |m.a| * Real.exp (-2 * t / m.d) * (2 * ms.length + 2 + 14 * κ +
        20 * Real.pi * |m.f * t| + 48 * |t / m.d| + 2 * |m.phi.getD 0|)).sum +
      A.eta * (2 * ms.length + (ms.map fun m => |m.a| * (6 + Real.exp (-2 * t / m.d) *
        (12 + 16 * |t| + 8 * |m.f|))).sum) := by
  have u0 := A.u_pos
  have η0 := A.eta_nonneg
  have hF : FunErr A cosF expF κ := ⟨hκ, hcl, hc, he⟩
  have h1 := dot_bound A hy (by simpa using hn)
  rw [List.length_map] at h1
  have hN0 : (0 : ℝ) ≤ ms.length := Nat.cast_nonneg _
  generalize (ms.length : ℝ) = N at *
  -- one mode
  set δ : ModeF → ℝ := fun m => Real.exp (-2 * t / m.d) * (A.u * (1 + 7 * κ +
    10 * Real.pi * |m.f * t| + 24 * |t / m.d| + |m.phi.getD 0|) +
    A.eta * (6 + 8 * |t| + 4 * |m.f|)) + 3 * A.eta with hδ
  have hm : ∀ m ∈ ms, |modeF A cosF expF twoPi t m -
      Real.exp (-2 * t / m.d) * Real.cos (2 * Real.pi * m.f * t + m.phi.getD 0)| ≤ δ m := by
    intro m hm
    have e1 : t * (-2 / m.d) = -2 * t / m.d := by ring
    have e2 : |-2 * t / m.d| = 2 * |t / m.d| := by
      rw [mul_div_assoc, abs_mul, abs_neg, abs_two]
    have e3 : |2 * Real.pi * m.f * t| = 2 * Real.pi * |m.f * t| := by
      rw [mul_assoc, abs_mul, abs_of_pos Real.two_pi_pos]
    have := mode_err A (t := t) hF hpi m (hphi m hm) (by
      rw [e1, e2]
      exact ht m hm)
    rw [e1, e2, show 2 * Real.pi * t * m.f = 2 * Real.pi * m.f * t by ring, e3] at this
    refine this.trans (le_of_eq ?_)
    simp only [hδ]
    ring
  -- sums
  have h2 := sum_err ms (fun m => modeF A cosF expF twoPi t m * m.a)
    (fun m => m.a * Real.exp (-2 * t / m.d) * Real.cos (2 * Real.pi * m.f * t + m.phi.getD 0))
    (fun m => |m.a| * δ m) (by
      intro m hm'
      rw [show modeF A cosF expF twoPi t m * m.a - m.a * Real.exp (-2 * t / m.d) *
        Real.cos (2 * Real.pi * m.f * t + m.phi.getD 0) = m.a * (modeF A cosF expF twoPi t m -
        Real.exp (-2 * t / m.d) * Real.cos (2 * Real.pi * m.f * t + m.phi.getD 0)) by ring, abs_mul]
      exact mul_le_mul_of_nonneg_left (hm m hm') (abs_nonneg _))
  have h3 : absSum (ms.map fun m => (modeF A cosF expF twoPi t m, m.a)) ≤
      (ms.map fun m => |m.a| * Real.exp (-2 * t / m.d) + |m.a| * δ m).sum := by
    unfold absSum
    rw [List.map_map]
    apply List.sum_le_sum
    intro m hm'
    simp only [Function.comp_apply]
    have g1 := hm m hm'
    have g2 := Real.abs_cos_le_one (2 * Real.pi * m.f * t + m.phi.getD 0)
    have g3 := abs_add_le (modeF A cosF expF twoPi t m -
      Real.exp (-2 * t / m.d) * Real.cos (2 * Real.pi * m.f * t + m.phi.getD 0))
      (Real.exp (-2 * t / m.d) * Real.cos (2 * Real.pi * m.f * t + m.phi.getD 0))
    rw [sub_add_cancel, abs_mul (Real.exp _), abs_of_pos (Real.exp_pos _)] at g3
    have g4 := mul_le_mul_of_nonneg_left g2 (Real.exp_pos (-2 * t / m.d)).le
    have g5 : |modeF A cosF expF twoPi t m| ≤ Real.exp (-2 * t / m.d) + δ m := by linarith
    have g6 := mul_le_mul_of_nonneg_left g5 (abs_nonneg m.a)
    rw [abs_mul]
    linarith
  rw [List.sum_map_add] at h3
  have hd : dotSum (ms.map fun m => (modeF A cosF expF twoPi t m, m.a)) =
      (ms.map fun m => modeF A cosF expF twoPi t m * m.a).sum := by
    unfold dotSum
    rw [List.map_map]
    rfl
  rw [hd] at h1
  have hB : 0 ≤ (ms.map fun m => |m.a| * δ m).sum := (abs_nonneg _).trans h2
  -- the right side
  have hR : A.u * (ms.map fun m => |m.a| * Real.exp (-2 * t / m.d) * (2 * N + 2 + 14 * κ +
        20 * Real.pi * |m.f * t| + 48 * |t / m.d| + 2 * |m.phi.getD 0|)).sum +
      A.eta * (2 * N + (ms.map fun m => |m.a| * (6 + Real.exp (-2 * t / m.d) *
        (12 + 16 * |t| + 8 * |m.f|))).sum) =
      2 * N * A.u * (ms.map fun m => |m.a| * Real.exp (-2 * t / m.d)).sum +
        2 * (ms.map fun m => |m.a| * δ m).sum + 2 * N * A.eta := by
    rw [mul_add, ← List.sum_map_mul_left, ← List.sum_map_mul_left, ← List.sum_map_mul_left,
      ← List.sum_map_mul_left, add_left_comm, ← List.sum_map_add, ← List.sum_map_add, add_comm]
    congr 1
    · congr 1
      apply List.map_congr_left
      intro m _
      simp only [hδ]
      ring
    · ring
  rw [hR]
  generalize (ms.map fun m => |m.a| * δ m).sum = SB at *
  generalize (ms.map fun m => |m.a| * Real.exp (-2 * t / m.d)).sum = SE at *
  have h4 := abs_add_le (y - (ms.map fun m => modeF A cosF expF twoPi t m * m.a).sum)
    ((ms.map fun m => modeF A cosF expF twoPi t m * m.a).sum - (ms.map fun m =>
      m.a * Real.exp (-2 * t / m.d) * Real.cos (2 * Real.pi * m.f * t + m.phi.getD 0)).sum)
  rw [sub_add_sub_cancel] at h4
  have h5 := mul_le_mul_of_nonneg_left h3 (mul_nonneg (mul_nonneg two_pos.le hN0) u0.le)
  have h6 := mul_le_mul_of_nonneg_right hn hB
  linarith

/-- C143: no modes, no sound. -/
theorem C143_empty (cosF expF : ℝ → ℝ) (twoPi t y : ℝ) (hy : SynthF A cosF expF twoPi t [] y) :
    y = 0 := by
  have := (dot_err A hy).2
  simpa [dotSum, absSum] using this

/-- Correctly rounded functions meet the assumptions with two unit round-offs. -/
theorem correctly_rounded (x : ℝ) : |A.rnd (Real.cos x)| ≤ 1 ∧
    |A.rnd (Real.cos x) - Real.cos x| ≤ 2 * A.u ∧
    |A.rnd (Real.exp x) - Real.exp x| ≤ 2 * A.u * Real.exp x + A.eta := by
  have u0 := A.u_pos
  have h1 := Real.abs_cos_le_one x
  refine ⟨rnd_abs_le h1 rep_one, ?_, ?_⟩
  · have := A.err (Real.cos x)
    have := mul_le_mul_of_nonneg_left h1 u0.le
    linarith [A.eta_le]
  · have := A.err (Real.exp x)
    rw [abs_of_pos (Real.exp_pos x)] at this
    have := mul_pos u0 (Real.exp_pos x)
    linarith

/-- Doubles: `np.pi` is close enough, and two modes at one second meet the hypotheses. -/
example : |2 * (884279719003555 / 2 ^ 48) - 2 * Real.pi| ≤ (double ℝ).u * (2 * Real.pi) ∧
    (∀ m ∈ ([⟨440, 1 / 2, 1, none⟩, ⟨441, 1 / 4, 1 / 2, some 0⟩] : List ModeF),
      (∀ p, m.phi = some p → (double ℝ).rnd p = p) ∧
      3 * (double ℝ).u * (2 * |1 / m.d|) + (double ℝ).eta * (1 + 2 * |1|) ≤ 1) ∧
    ∃ y, SynthF (double ℝ) (fun x => (double ℝ).rnd (Real.cos x)) (fun x => (double ℝ).rnd (Real.exp x))
      (2 * (884279719003555 / 2 ^ 48)) 1 [⟨440, 1 / 2, 1, none⟩, ⟨441, 1 / 4, 1 / 2, some 0⟩] y := by
  have hu : (double ℝ).u = (2 ^ 53)⁻¹ := rfl
  refine ⟨?_, ?_, _, DotF.fma _ _ (DotF.mul _ _)⟩
  · have h1 := Real.pi_gt_d20
    have h2 := Real.pi_lt_d20
    rw [hu, abs_le]
    constructor <;> norm_num at * <;> linarith
  · have hη : (double ℝ).eta ≤ (2 ^ 53)⁻¹ := (double ℝ).eta_le
    intro m hm
    simp only [List.mem_cons, List.not_mem_nil, or_false] at hm
    rcases hm with rfl | rfl
    · refine ⟨by simp, ?_⟩
      rw [hu]
      norm_num at *
      linarith
    · refine ⟨?_, ?_⟩
      · intro p hp
        obtain rfl := Option.some.inj hp
        exact rnd_zero
      · rw [hu]
        norm_num at *
        linarith

end Verif.Float
