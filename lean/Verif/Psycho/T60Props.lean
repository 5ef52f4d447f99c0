import Mathlib.Analysis.SpecialFunctions.Log.Base
import Mathlib.Analysis.Complex.ExponentialBounds
import Mathlib.Analysis.SpecialFunctions.Pow.Real
import Verif.Psycho.GammatoneProps

/-!
# C74: the decay time of a gammatone filter and the size of its impulse response
-/

set_option autoImplicit false
set_option linter.unusedSectionVars false
set_option linter.unusedSimpArgs false

namespace Verif.Psycho

open Set Verif.Dsp

variable (g : Gammatone)

theorem ratio_pos (floor : ℝ) : 0 < (10 : ℝ) ^ (floor / 20) := Real.rpow_pos_of_pos (by norm_num) _

theorem ratio_lt_one (floor : ℝ) (h : floor < 0) : (10 : ℝ) ^ (floor / 20) < 1 :=
  Real.rpow_lt_one_of_one_lt_of_neg (by norm_num) (by linarith)

/-- What the loop of `t60` does, in terms of the time `z` at which the level is reached. -/
theorem loop_spec (hn : 1 ≤ g.n) (hb : 0 < g.bandwidth) (steps starts : ℕ) (R floor : ℝ) (hR : 0 < R)
    (hf : floor < 0) (z : ℝ) (hz : g.groupDelay < z)
    (hl : g.envelope z = (10 : ℝ) ^ (floor / 20) * g.envelope g.groupDelay) :
    (z ≤ g.groupDelay + R * (2 ^ starts - 1) →
      ∃ t, t60Loop (fun t => g.envelope t - (10 : ℝ) ^ (floor / 20) * g.envelope g.groupDelay) steps
        starts g.groupDelay R = .ok t ∧ g.groupDelay ≤ t ∧
        |t - z| ≤ (z - g.groupDelay + R) / 2 ^ (steps + 1)) ∧
    (g.groupDelay + R * (2 ^ starts - 1) < z →
      t60Loop (fun t => g.envelope t - (10 : ℝ) ^ (floor / 20) * g.envelope g.groupDelay) steps
        starts g.groupDelay R = .error .value) := by
  apply t60Loop_ok (fun t => g.envelope t - (10 : ℝ) ^ (floor / 20) * g.envelope g.groupDelay) steps z
    (by simp [hl]) starts g.groupDelay R hR hz
  · exact (env_continuousOn g hn hb).sub continuousOn_const
  · intro t h1 h2
    have := env_decreasing g hn hb t z h1 h2
    linarith
  · intro t h
    have := env_decreasing g hn hb z t hz.le h
    linarith

/-- C74: for a floor below the peak there is exactly one time after the peak at which the envelope has
fallen to the floor.  The search returns a time after the peak that is near it, if it is inside the
ranges that are searched; otherwise a `ValueError` is raised. -/
theorem C74_search (hn : 1 ≤ g.n) (hb : 0 < g.bandwidth) (steps starts : ℕ) (R floor : ℝ) (hR : 0 < R)
    (hf : floor < 0) :
    ∃ z, g.groupDelay < z ∧ g.envelope z = (10 : ℝ) ^ (floor / 20) * g.envelope g.groupDelay ∧
      (∀ t, g.groupDelay ≤ t → g.envelope t = (10 : ℝ) ^ (floor / 20) * g.envelope g.groupDelay →
        t = z) ∧
      (z ≤ g.groupDelay + R * (2 ^ starts - 1) →
        ∃ t, g.t60 steps starts (some R) floor none = .ok t ∧ g.groupDelay ≤ t ∧
          |t - z| ≤ (z - g.groupDelay + R) / 2 ^ (steps + 1)) ∧
      (g.groupDelay + R * (2 ^ starts - 1) < z →
        ∀ th, g.t60 steps starts (some R) floor th = .error .value) := by
  obtain ⟨z, h1, h2, h3, h4⟩ := exists_unique_time g hn hb _ (ratio_pos floor) (ratio_lt_one floor hf)
  obtain ⟨l1, l2⟩ := loop_spec g hn hb steps starts R floor hR hf z h1 h2
  refine ⟨z, h1, h2, ?_, ?_, ?_⟩
  · intro t ht he
    rcases lt_trichotomy t z with h | h | h
    · have := h3 t ht h; linarith
    · exact h
    · have := h4 t h; linarith
  · intro h
    obtain ⟨t, t1, t2, t3⟩ := l1 h
    refine ⟨t, ?_, t2, t3⟩
    simp only [Gammatone.t60, Option.getD_some, t1]
  · intro h th
    simp only [Gammatone.t60, Option.getD_some, l2 h]

/-- C74: a time that `t60` returns with a tolerance is the time that it returns without one, and the
level there is within the tolerance; if it is not, the exception for no convergence is raised. -/
theorem C74_tolerance (hn : 1 ≤ g.n) (hb : 0 < g.bandwidth) (steps : Int) (starts : ℕ)
    (R : Option ℝ) (floor th t : ℝ)
    (hgd : g.groupDelay ≤ t) (ht : g.t60 steps starts R floor none = .ok t) :
    (|20 * Real.logb 10 (g.envelope t / g.envelope g.groupDelay) - floor| ≤ th →
      g.t60 steps starts R floor (some th) = .ok t) ∧
    (th < |20 * Real.logb 10 (g.envelope t / g.envelope g.groupDelay) - floor| →
      g.t60 steps starts R floor (some th) = .error .convergence) := by
  have hp := env_peak_pos g hn hb
  have hne : 0 < g.envelope t := by
    have h1 := env_decreasing g hn hb t (t + 1) hgd (by linarith)
    have h2 : 0 ≤ g.envelope (t + 1) := by
      have := gd_tc g
      have := raw_nonneg g hn hb
      rw [env_of_nonneg g _ (by linarith)]
      have : 0 ≤ t + 1 + g.tc := by linarith
      positivity
    linarith
  have hr : g.envelope t / g.envelope g.groupDelay ≠ 0 := (div_pos hne hp).ne'
  simp only [Gammatone.t60] at ht ⊢
  split at ht
  · cases ht
  · rename_i t' e
    have : t' = t := by simpa using ht
    subst this
    simp only [levelOf, hr, if_false, tooFar]
    exact ⟨fun h => if_neg (not_lt.2 h), fun h => if_pos h⟩

/-- C74: a filter of order one has a search range of zero by default, so `t60` always fails. -/
theorem C74_order_one (hn : g.n = 1) (hb : 0 < g.bandwidth) (steps : Int) (starts : ℕ) (floor : ℝ)
    (hf : floor < 0) (th : Option ℝ) :
    g.t60 steps starts none floor th = .error .value := by
  have hp := env_peak_pos g (by omega) hb
  have hr : 2 * (g.groupDelay + g.tc) = 0 := by
    rw [gd_tc, Gammatone.rawGroupDelay, hn]; simp
  have key : ∀ (k : Nat),
      t60Loop (fun t => g.envelope t - (10 : ℝ) ^ (floor / 20) * g.envelope g.groupDelay) steps k
        g.groupDelay 0 = .error .value := by
    intro k
    induction k with
    | zero => rfl
    | succ k ih =>
      have h1 := ratio_lt_one floor hf
      have h2 : 0 < g.envelope g.groupDelay - (10 : ℝ) ^ (floor / 20) * g.envelope g.groupDelay := by
        nlinarith
      have h3 := (C39_error (fun t => g.envelope t -
        (10 : ℝ) ^ (floor / 20) * g.envelope g.groupDelay) (g.groupDelay + 0) g.groupDelay steps).1
        (Or.inl ⟨by simpa using h2, h2⟩)
      simp only [t60Loop, h3]
      rw [add_zero, zero_mul]
      exact ih
  simp only [Gammatone.t60, Option.getD_none, hr, key]

/-- `log (1 + x) - x` does not change faster than `x`. -/
theorem log_lipschitz (x y : ℝ) (hx : 0 ≤ x) (hy : 0 ≤ y) :
    |(Real.log (1 + x) - x) - (Real.log (1 + y) - y)| ≤ |x - y| := by
  have key : ∀ a b : ℝ, 0 ≤ a → a ≤ b → 0 ≤ Real.log (1 + b) - Real.log (1 + a) ∧
      Real.log (1 + b) - Real.log (1 + a) ≤ b - a := by
    intro a b ha hab
    have e : Real.log (1 + b) - Real.log (1 + a) = Real.log ((1 + b) / (1 + a)) := by
      rw [Real.log_div (by linarith) (by linarith)]
    rw [e]
    constructor
    · exact Real.log_nonneg ((one_le_div (by linarith)).2 (by linarith))
    · have h := Real.log_le_sub_one_of_pos (show 0 < (1 + b) / (1 + a) from
        div_pos (by linarith) (by linarith))
      have h2 : (1 + b) / (1 + a) - 1 ≤ b - a := by
        rw [sub_le_iff_le_add, div_le_iff₀ (by linarith)]
        nlinarith
      linarith
  rcases le_total x y with h | h
  · obtain ⟨k1, k2⟩ := key x y hx h
    rw [abs_sub_comm x y, abs_of_nonneg (by linarith : 0 ≤ y - x), abs_le]
    constructor <;> linarith
  · obtain ⟨k1, k2⟩ := key y x hy h
    rw [abs_of_nonneg (by linarith : 0 ≤ x - y), abs_le]
    constructor <;> linarith

theorem ten_small : (1 + 10) * Real.exp (-10) < (1 / 1000 : ℝ) := by
  have h := Real.exp_one_gt_d9
  have h1 : (2.7 : ℝ) ^ 10 ≤ Real.exp 10 := by
    have : Real.exp 10 = Real.exp 1 ^ 10 := by rw [← Real.exp_nat_mul]; norm_num
    rw [this]
    exact pow_le_pow_left₀ (by norm_num) (by linarith) 10
  rw [Real.exp_neg, ← div_eq_mul_inv, div_lt_div_iff₀ (Real.exp_pos _) (by norm_num)]
  have : (2.7 : ℝ) ^ 10 > 11000 := by norm_num
  linarith

theorem log_ten_gt : (2 : ℝ) < Real.log 10 := by
  rw [Real.lt_log_iff_exp_lt (by norm_num)]
  have h : Real.exp 2 = Real.exp 1 ^ 2 := by rw [← Real.exp_nat_mul]; norm_num
  have := Real.exp_one_lt_d9
  have h0 := Real.exp_pos 1
  rw [h]
  nlinarith

theorem floor_sixty : (10 : ℝ) ^ ((-60 : ℝ) / 20) = 1 / 1000 := by
  have : ((-60 : ℝ) / 20) = -((3 : ℕ) : ℝ) := by norm_num
  rw [this, Real.rpow_neg (by norm_num), Real.rpow_natCast]
  norm_num

/-- The level at `x` raw group delays after the peak. -/
theorem level_eq (hn : 2 ≤ g.n) (hb : 0 < g.bandwidth) (x : ℝ) (hx : 0 ≤ x) :
    20 * Real.logb 10 (g.envelope (g.groupDelay + g.rawGroupDelay * x) / g.envelope g.groupDelay) =
      20 / Real.log 10 * ((g.n - 1 : ℕ) : ℝ) * (Real.log (1 + x) - x) := by
  have hp := env_peak_pos g (by omega) hb
  rw [env_ratio g hn hb x hx, mul_div_cancel_right₀ _ hp.ne', Real.logb, Real.log_pow,
    Real.log_mul (by linarith) (Real.exp_pos _).ne', Real.log_exp]
  ring

/-- C74: with the default arguments, `t60` of a filter of an order from 2 to 10000 never fails.  The
time that it returns is within `12 / 2 ^ 33` raw group delays of the one at which the envelope is at
-60 dB, and the level there is within a thousandth of a decibel. -/
theorem C74_default (hn : 2 ≤ g.n) (hN : g.n ≤ 10000) (hb : 0 < g.bandwidth) :
    ∃ t z, g.t60Default = .ok t ∧ g.groupDelay ≤ t ∧ g.groupDelay < z ∧
      g.envelope z = 1 / 1000 * g.envelope g.groupDelay ∧
      |t - z| ≤ 12 * g.rawGroupDelay / 2 ^ 33 ∧
      |20 * Real.logb 10 (g.envelope t / g.envelope g.groupDelay) + 60| ≤ 1 / 1000 := by
  have hp := env_peak_pos g (by omega) hb
  have hraw : 0 < g.rawGroupDelay := by
    rw [← raw_eq g (by omega)]
    have : (0 : ℝ) < ((g.n - 1 : ℕ) : ℝ) := by exact_mod_cast (by omega : 0 < g.n - 1)
    exact div_pos this (c_pos g hb)
  have hR : 0 < 2 * (g.groupDelay + g.tc) := by rw [gd_tc]; linarith
  obtain ⟨z, h1, h2, h3, h4⟩ := exists_unique_time g (by omega) hb (1 / 1000) (by norm_num) (by norm_num)
  have h2' : g.envelope z = (10 : ℝ) ^ ((-60 : ℝ) / 20) * g.envelope g.groupDelay := by
    rw [floor_sixty, h2]
  obtain ⟨l1, _⟩ := loop_spec g (by omega) hb 32 16 _ (-60) hR (by norm_num) z h1 h2'
  -- the time is at most ten raw group delays after the peak
  have hz10 : z < g.groupDelay + g.rawGroupDelay * 10 := by
    by_contra hcon
    push Not at hcon
    have e := env_ratio g hn hb 10 (by norm_num)
    have hsm : ((1 + 10) * Real.exp (-10) : ℝ) ^ (g.n - 1) < 1 / 1000 := by
      calc ((1 + 10) * Real.exp (-10) : ℝ) ^ (g.n - 1) ≤ ((1 + 10) * Real.exp (-10)) ^ 1 :=
            pow_le_pow_of_le_one (by positivity) (by linarith [ten_small]) (by omega)
        _ < 1 / 1000 := by rw [pow_one]; exact ten_small
    have hlt : g.envelope (g.groupDelay + g.rawGroupDelay * 10) <
        1 / 1000 * g.envelope g.groupDelay := by
      rw [e]; exact mul_lt_mul_of_pos_right hsm hp
    rcases lt_or_eq_of_le hcon with h | h
    · have := h3 _ (by nlinarith) h; linarith
    · rw [h] at hlt; linarith
  have hgd := gd_tc g
  obtain ⟨t, t1, t2, t3⟩ := l1 (by rw [hgd]; norm_num; nlinarith)
  have hdist : |t - z| ≤ 12 * g.rawGroupDelay / 2 ^ 33 := by
    refine t3.trans ?_
    apply div_le_div_of_nonneg_right _ (by positivity)
    rw [hgd]; linarith
  have hlevel : |20 * Real.logb 10 (g.envelope t / g.envelope g.groupDelay) - (-60)| ≤ 1 / 1000 := by
    -- both times in raw group delays after the peak
    obtain ⟨x, hx0, hx⟩ : ∃ x, 0 ≤ x ∧ t = g.groupDelay + g.rawGroupDelay * x :=
      ⟨(t - g.groupDelay) / g.rawGroupDelay, div_nonneg (by linarith) hraw.le, by field_simp; ring⟩
    obtain ⟨y, hy0, hy⟩ : ∃ y, 0 ≤ y ∧ z = g.groupDelay + g.rawGroupDelay * y :=
      ⟨(z - g.groupDelay) / g.rawGroupDelay, div_nonneg (by linarith) hraw.le, by field_simp; ring⟩
    have hxy : |x - y| ≤ 12 / 2 ^ 33 := by
      have e : t - z = g.rawGroupDelay * (x - y) := by rw [hx, hy]; ring
      rw [e, abs_mul, abs_of_pos hraw] at hdist
      have : g.rawGroupDelay * |x - y| ≤ g.rawGroupDelay * (12 / 2 ^ 33) := by
        calc _ ≤ _ := hdist
          _ = _ := by ring
      exact le_of_mul_le_mul_left this hraw
    have hzl : 20 * Real.logb 10 (g.envelope z / g.envelope g.groupDelay) = -60 := by
      rw [h2, mul_div_cancel_right₀ _ hp.ne']
      have : (1 / 1000 : ℝ) = (10 : ℝ) ^ (-3 : ℝ) := by
        rw [← floor_sixty]; norm_num
      rw [this, Real.logb_rpow (by norm_num) (by norm_num)]
      norm_num
    rw [← hzl, hx, hy, level_eq g hn hb x hx0, level_eq g hn hb y hy0, ← mul_sub, abs_mul]
    have hL := log_lipschitz x y hx0 hy0
    have hl10 := log_ten_gt
    have hm : (((g.n - 1 : ℕ) : ℕ) : ℝ) ≤ 10000 := by exact_mod_cast (by omega : g.n - 1 ≤ 10000)
    have hm0 : (0 : ℝ) ≤ ((g.n - 1 : ℕ) : ℝ) := Nat.cast_nonneg _
    have hq : 20 / Real.log 10 ≤ 10 := by
      rw [div_le_iff₀ (by linarith)]; linarith
    have hq0 : 0 ≤ 20 / Real.log 10 := by positivity
    have hc : |20 / Real.log 10 * ((g.n - 1 : ℕ) : ℝ)| ≤ 10 * 10000 := by
      rw [abs_of_nonneg (by positivity)]
      exact mul_le_mul hq hm hm0 (by norm_num)
    calc _ ≤ (10 * 10000) * (12 / 2 ^ 33) :=
          mul_le_mul hc (hL.trans hxy) (abs_nonneg _) (by norm_num)
      _ ≤ 1 / 1000 := by norm_num
  refine ⟨t, z, ?_, t2, h1, h2, hdist, by rw [sub_neg_eq_add] at hlevel; exact hlevel⟩
  have hnone : g.t60 32 16 none (-60) none = .ok t := by
    have t1' : t60Loop (fun t => g.envelope t -
        (10 : ℝ) ^ ((-60 : ℝ) / 20) * g.envelope g.groupDelay) (32 : Int) 16 g.groupDelay
        (2 * (g.groupDelay + g.tc)) = .ok t := t1
    simp only [Gammatone.t60, Option.getD_none, t1']
  exact (C74_tolerance g (by omega) hb 32 16 none (-60) (1 / 1000) t t2 hnone).1 hlevel

/-- C74: for a positive centre frequency, the size of the impulse response reaches to a time `q` at
most a quarter of a period after the given decay time, at which the carrier has either a zero or an
extremum: the sample with the number `ir_size` is at or before `q`, and the one after it is behind
`q`, hence behind the decay time. -/
theorem C74_ir_size (fs t60 : ℝ) (hf : 0 < g.f) (hfs : 0 < fs) :
    ∃ (q : ℝ) (j : ℤ), t60 ≤ q ∧ q < t60 + 1 / (4 * g.f) ∧
      2 * Real.pi * g.f * q + g.phi = j * (Real.pi / 2) ∧
      (g.irSize fs t60 : ℝ) / fs - g.tc ≤ q ∧ q < ((g.irSize fs t60 : ℝ) + 1) / fs - g.tc := by
  have hpi := Real.pi_pos
  have hw : 0 < 2 * Real.pi * g.f := by positivity
  set p := g.phi + 2 * Real.pi * g.f * t60 with hp
  set j := ⌈p * 2 / Real.pi⌉ with hj
  have h1 : p * 2 / Real.pi ≤ j := Int.le_ceil _
  have h2 : (j : ℝ) < p * 2 / Real.pi + 1 := Int.ceil_lt_add_one _
  have h1' : p ≤ j * Real.pi / 2 := by
    rw [div_le_iff₀ hpi] at h1; linarith
  have h2' : j * Real.pi / 2 < p + Real.pi / 2 := by
    have : (j : ℝ) * Real.pi < (p * 2 / Real.pi + 1) * Real.pi := mul_lt_mul_of_pos_right h2 hpi
    rw [add_mul, div_mul_cancel₀ _ hpi.ne'] at this
    linarith
  refine ⟨(j * Real.pi / 2 - g.phi) / (2 * Real.pi * g.f), j, ?_, ?_, ?_, ?_, ?_⟩
  · rw [le_div_iff₀ hw]; linarith
  · rw [div_lt_iff₀ hw, add_mul]
    have : 1 / (4 * g.f) * (2 * Real.pi * g.f) = Real.pi / 2 := by field_simp; ring
    rw [this]; linarith
  · field_simp; ring
  · have hs : (g.irSize fs t60 : ℝ) ≤ ((j * Real.pi / 2 - g.phi) / (2 * Real.pi * g.f) + g.tc) * fs :=
      Int.floor_le _
    rw [sub_le_iff_le_add, div_le_iff₀ hfs]
    exact hs
  · have hs : ((j * Real.pi / 2 - g.phi) / (2 * Real.pi * g.f) + g.tc) * fs < g.irSize fs t60 + 1 :=
      Int.lt_floor_add_one _
    rw [lt_sub_iff_add_lt, lt_div_iff₀ hfs]
    exact hs

/-- A filter of order 4 with a bandwidth of one hertz. -/
example : ∃ t, (Gammatone.mk 1 4 (some 1) none none false none).t60Default = .ok t := by
  obtain ⟨t, _, h, _⟩ := C74_default (Gammatone.mk 1 4 (some 1) none none false none) (by norm_num)
    (by norm_num) (by norm_num [Gammatone.bandwidth])
  exact ⟨t, h⟩

/-- A filter of order 1. -/
example : (Gammatone.mk 1 1 (some 1) none none false none).t60Default = .error .value :=
  C74_order_one _ rfl (by norm_num [Gammatone.bandwidth]) 32 16 (-60) (by norm_num) _

/-- One hertz, no leading time, decay time of a second, ten samples a second. -/
example : (Gammatone.mk 1 4 (some 1) (some 0) (some 0) false none).irSize 10 1 = 10 := by
  have h : (2 * Real.pi * 2 / Real.pi : ℝ) = ((4 : ℤ) : ℝ) := by
    have := Real.pi_pos.ne'
    push_cast
    field_simp
    norm_num
  have h2 : (4 * Real.pi / 2 / (2 * Real.pi) * 10 : ℝ) = ((10 : ℤ) : ℝ) := by
    have := Real.pi_pos.ne'
    push_cast
    field_simp
    norm_num
  simp only [Gammatone.irSize, Gammatone.phi, Gammatone.tc, Option.getD_some, mul_one, zero_add, h,
    Int.ceil_intCast, sub_zero, add_zero]
  push_cast
  rw [h2, Int.floor_intCast]

end Verif.Psycho
