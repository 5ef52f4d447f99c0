import Mathlib.Analysis.SpecialFunctions.Complex.Log
import Mathlib.Analysis.SpecialFunctions.Exp
import Mathlib.Analysis.SpecialFunctions.Log.Base
import Mathlib.Analysis.Complex.ExponentialBounds
import Mathlib.Tactic.FieldSimp
import Mathlib.Tactic.Linarith
import Mathlib.Tactic.Positivity
import Mathlib.Tactic.Ring
import Verif.Dsp.BisectProps
import Verif.Psycho.GammatoneModel

/-!
# C51, C74: gammatone filters
-/

set_option autoImplicit false
set_option linter.unusedSectionVars false
set_option linter.unusedSimpArgs false

namespace Verif.Psycho

open Verif.Dsp Set

/-! ### The function `u ^ m * exp (-c u)` -/

theorem gam_decreasing (m : ℕ) (c u v : ℝ) (hc : 0 < c) (hu : (m : ℝ) / c ≤ u) (h0 : 0 ≤ u) (huv : u < v) :
    v ^ m * Real.exp (-(c * v)) < u ^ m * Real.exp (-(c * u)) := by
  have hexp : Real.exp (-(c * u)) = Real.exp (c * (v - u)) * Real.exp (-(c * v)) := by
    rw [← Real.exp_add]; congr 1; ring
  rw [hexp, ← mul_assoc]
  apply mul_lt_mul_of_pos_right _ (Real.exp_pos _)
  rcases Nat.eq_zero_or_pos m with hm | hm
  · subst hm
    simp only [pow_zero, one_mul]
    exact Real.one_lt_exp_iff.2 (mul_pos hc (sub_pos.2 huv))
  · have hm' : (0 : ℝ) < m := by exact_mod_cast hm
    have hupos : 0 < u := lt_of_lt_of_le (div_pos hm' hc) hu
    set x := (v - u) / u with hx
    have hxpos : 0 < x := div_pos (sub_pos.2 huv) hupos
    have hv : v = u * (1 + x) := by rw [hx]; field_simp; ring
    have h1 : 1 + x < Real.exp x := by
      have := Real.add_one_lt_exp hxpos.ne'
      linarith
    have h2 : (1 + x) ^ m < Real.exp x ^ m := pow_lt_pow_left₀ h1 (by linarith) (by omega)
    have h3 : Real.exp x ^ m ≤ Real.exp (c * (v - u)) := by
      rw [← Real.exp_nat_mul]
      apply Real.exp_le_exp.2
      have : (m : ℝ) ≤ c * u := by
        rw [div_le_iff₀ hc] at hu; linarith
      have e : v - u = u * x := by rw [hv]; ring
      rw [e]
      nlinarith
    rw [hv, mul_pow]
    have hup : 0 < u ^ m := pow_pos hupos m
    have e2 : u * (1 + x) - u = v - u := by rw [hv]
    rw [e2]
    exact mul_lt_mul_of_pos_left (h2.trans_le h3) hup

theorem gam_increasing (m : ℕ) (c u v : ℝ) (hc : 0 < c) (hv : v ≤ (m : ℝ) / c) (h0 : 0 ≤ u)
    (huv : u < v) : u ^ m * Real.exp (-(c * u)) < v ^ m * Real.exp (-(c * v)) := by
  have hvpos : 0 < v := lt_of_le_of_lt h0 huv
  have hm : 0 < m := by
    rcases Nat.eq_zero_or_pos m with h | h
    · subst h; simp at hv; linarith
    · exact h
  have hexp : Real.exp (-(c * v)) = Real.exp (-(c * (v - u))) * Real.exp (-(c * u)) := by
    rw [← Real.exp_add]; congr 1; ring
  rw [hexp, ← mul_assoc]
  apply mul_lt_mul_of_pos_right _ (Real.exp_pos _)
  set x := (v - u) / v with hx
  have hxpos : 0 < x := div_pos (sub_pos.2 huv) hvpos
  have hu : u = v * (1 - x) := by rw [hx]; field_simp; ring
  have h1 : 1 - x < Real.exp (-x) := by
    have := Real.add_one_lt_exp (neg_ne_zero.2 hxpos.ne')
    linarith
  have hx1 : 0 ≤ 1 - x := by
    rw [hx]
    rw [sub_nonneg, div_le_one hvpos]; linarith
  have h2 : (1 - x) ^ m < Real.exp (-x) ^ m := pow_lt_pow_left₀ h1 hx1 (by omega)
  have h3 : Real.exp (-x) ^ m ≤ Real.exp (-(c * (v - u))) := by
    rw [← Real.exp_nat_mul]
    apply Real.exp_le_exp.2
    have : c * v ≤ (m : ℝ) := by
      rw [le_div_iff₀ hc] at hv; linarith
    have e : v - u = v * x := by rw [hu]; ring
    rw [e]
    nlinarith
  rw [hu, mul_pow]
  have e2 : v - v * (1 - x) = v - u := by rw [← hu]
  rw [e2]
  exact mul_lt_mul_of_pos_left (h2.trans_le h3) (pow_pos hvpos m)

section filter
variable (g : Gammatone)

theorem env_of_nonneg (t : ℝ) (h : 0 ≤ t + g.tc) :
    g.envelope t = (t + g.tc) ^ (g.n - 1) * Real.exp (-(2 * Real.pi * g.bandwidth * (t + g.tc))) := by
  simp only [Gammatone.envelope, Out.gammatone, h, if_true]

theorem env_of_neg (t : ℝ) (h : t + g.tc < 0) : g.envelope t = 0 := by
  simp only [Gammatone.envelope, Out.gammatone, not_le.2 h, if_false]

theorem raw_eq (hn : 1 ≤ g.n) :
    ((g.n - 1 : ℕ) : ℝ) / (2 * Real.pi * g.bandwidth) = g.rawGroupDelay := by
  rw [Gammatone.rawGroupDelay, Nat.cast_sub hn, Nat.cast_one]

theorem gd_tc : g.groupDelay + g.tc = g.rawGroupDelay := by
  rw [Gammatone.groupDelay]; ring

theorem c_pos (hb : 0 < g.bandwidth) : 0 < 2 * Real.pi * g.bandwidth := by
  have := Real.pi_pos
  positivity

theorem raw_nonneg (hn : 1 ≤ g.n) (hb : 0 < g.bandwidth) : 0 ≤ g.rawGroupDelay := by
  rw [← raw_eq g hn]
  have := c_pos g hb
  positivity

/-- After the group delay the envelope strictly decreases. -/
theorem env_decreasing (hn : 1 ≤ g.n) (hb : 0 < g.bandwidth) (s t : ℝ) (hs : g.groupDelay ≤ s)
    (hst : s < t) : g.envelope t < g.envelope s := by
  have h1 := gd_tc g
  have h2 := raw_nonneg g hn hb
  rw [env_of_nonneg g s (by linarith), env_of_nonneg g t (by linarith)]
  exact gam_decreasing _ _ _ _ (c_pos g hb) (by rw [raw_eq g hn]; linarith) (by linarith) (by linarith)

/-- Before the group delay the envelope strictly increases (from the onset on). -/
theorem env_increasing (hn : 1 ≤ g.n) (hb : 0 < g.bandwidth) (s t : ℝ) (hs : -g.tc ≤ s) (hst : s < t)
    (ht : t ≤ g.groupDelay) : g.envelope s < g.envelope t := by
  have h1 := gd_tc g
  rw [env_of_nonneg g s (by linarith), env_of_nonneg g t (by linarith)]
  exact gam_increasing _ _ _ _ (c_pos g hb) (by rw [raw_eq g hn]; linarith) (by linarith) (by linarith)

theorem env_peak_pos (hn : 1 ≤ g.n) (hb : 0 < g.bandwidth) : 0 < g.envelope g.groupDelay := by
  have h1 := gd_tc g
  have h2 := raw_nonneg g hn hb
  rw [env_of_nonneg g _ (by linarith)]
  apply mul_pos _ (Real.exp_pos _)
  rcases Nat.lt_or_ge 1 g.n with h | h
  · apply pow_pos
    rw [h1, ← raw_eq g hn]
    have : (0 : ℝ) < ((g.n - 1 : ℕ) : ℝ) := by exact_mod_cast (by omega : 0 < g.n - 1)
    exact div_pos this (c_pos g hb)
  · have : g.n - 1 = 0 := by omega
    rw [this]; simp

/-- C51, peak: for every order of at least one and positive bandwidth, the envelope of the impulse
response has its maximum at the group delay, and only there; it is zero before the leading time and
positive behind it. -/
theorem C51_peak (hn : 1 ≤ g.n) (hb : 0 < g.bandwidth) (t : ℝ) :
    g.envelope t ≤ g.envelope g.groupDelay ∧
    (g.envelope t = g.envelope g.groupDelay ↔ t = g.groupDelay) ∧
    (t < -g.tc → g.envelope t = 0) ∧ (-g.tc < t → 0 < g.envelope t) := by
  have hlt : t ≠ g.groupDelay → g.envelope t < g.envelope g.groupDelay := by
    intro h
    rcases lt_or_gt_of_ne h with h | h
    · rcases lt_or_ge t (-g.tc) with h' | h'
      · rw [env_of_neg g t (by linarith)]
        exact env_peak_pos g hn hb
      · exact env_increasing g hn hb t _ h' h le_rfl
    · exact env_decreasing g hn hb _ t le_rfl h
  refine ⟨?_, ?_, fun h => env_of_neg g t (by linarith), fun h => ?_⟩
  · by_cases h : t = g.groupDelay
    · rw [h]
    · exact (hlt h).le
  · constructor
    · intro h
      by_contra h'
      exact absurd h (hlt h').ne
    · rintro rfl; rfl
  · rw [env_of_nonneg g t (by linarith)]
    have : 0 < t + g.tc := by linarith
    positivity

/-- C51, shape: from the leading time to the group delay the envelope strictly increases, from the
group delay on it strictly decreases. -/
theorem C51_shape (hn : 1 ≤ g.n) (hb : 0 < g.bandwidth) (s t : ℝ) (hst : s < t) :
    (-g.tc ≤ s → t ≤ g.groupDelay → g.envelope s < g.envelope t) ∧
    (g.groupDelay ≤ s → g.envelope t < g.envelope s) :=
  ⟨fun hs ht => env_increasing g hn hb s t hs hst ht, fun hs => env_decreasing g hn hb s t hs hst⟩

/-- C51, defaults: without a leading time the group delay is zero, that is the peak is at time zero.
After setting the group delay, it is the value that was set, and only the leading time has changed. -/
theorem C51_group_delay (v : ℝ) :
    (g.tc? = none → g.groupDelay = 0) ∧ (g.setGroupDelay v).groupDelay = v ∧
    (g.setGroupDelay v).rawGroupDelay = g.rawGroupDelay ∧ (g.setGroupDelay v).f = g.f ∧
    (g.setGroupDelay v).n = g.n ∧ (g.setGroupDelay v).bandwidth = g.bandwidth := by
  refine ⟨fun h => ?_, ?_, rfl, rfl, rfl, rfl⟩
  · simp [Gammatone.groupDelay, Gammatone.tc, h]
  · simp [Gammatone.groupDelay, Gammatone.tc, Gammatone.setGroupDelay, Gammatone.rawGroupDelay,
      Gammatone.bandwidth]

/-- C51: the analytic response has the response as real part and the envelope as absolute value; the
response lies within the envelope. -/
theorem C51_wave (t : ℝ) :
    (g.waveAnalytic t).re = g.wave t ∧ ‖g.waveAnalytic t‖ = g.envelope t ∧
    |g.wave t| ≤ g.envelope t := by
  have hnn : 0 ≤ g.envelope t := by
    rcases lt_or_ge (t + g.tc) 0 with h | h
    · rw [env_of_neg g t h]
    · rw [env_of_nonneg g t h]; positivity
  have he : Complex.exp (Complex.I * ((2 * Real.pi * g.f * t + g.phi : ℝ) : ℂ)) =
      Complex.exp (((2 * Real.pi * g.f * t + g.phi : ℝ) : ℂ) * Complex.I) := by rw [mul_comm]
  refine ⟨?_, ?_, ?_⟩
  · rw [Gammatone.waveAnalytic, he, Complex.re_ofReal_mul, Complex.exp_ofReal_mul_I_re,
      Gammatone.wave]
  · rw [Gammatone.waveAnalytic, he, norm_mul, Complex.norm_exp_ofReal_mul_I, mul_one,
      Complex.norm_real, Real.norm_of_nonneg hnn]
  · rw [Gammatone.wave, abs_mul, abs_of_nonneg hnn]
    exact mul_le_of_le_one_right hnn (Real.abs_cos_le_one _)

end filter

/-- C51, normalisation: with `normalize`, the sum of the squared absolute values of the response is
`a²` (one by default), for every response that is not zero everywhere; without `normalize` and `a`
the response is not changed; without `normalize` it is multiplied by `a`. -/
theorem C51_energy {𝕜 : Type} [RCLike 𝕜] (a : Option ℝ) (out : List 𝕜) :
    ((∃ z ∈ out, z ≠ 0) →
      ((scaleIr true a out).map fun z => ‖z‖ ^ 2).sum = a.getD 1 ^ 2) ∧
    scaleIr false none out = out ∧ ∀ c : ℝ, scaleIr false (some c) out = out.map ((c : 𝕜) * ·) := by
  refine ⟨?_, by simp [scaleIr], fun c => by simp [scaleIr]⟩
  rintro ⟨z, hz, hz0⟩
  have hE : RCLike.re ((out.map fun z => z * (starRingEnd 𝕜) z).sum) =
      (out.map fun z => ‖z‖ ^ 2).sum := by
    clear hz
    induction out with
    | nil => simp
    | cons w l ih =>
      rw [List.map_cons, List.sum_cons, List.map_cons, List.sum_cons, map_add, ih, RCLike.mul_conj]
      congr 1
      rw [← RCLike.ofReal_pow, RCLike.ofReal_re]
  have hnn : ∀ l : List 𝕜, 0 ≤ (l.map fun z => ‖z‖ ^ 2).sum := by
    intro l
    apply List.sum_nonneg
    intro v hv
    obtain ⟨w, -, rfl⟩ := List.mem_map.1 hv
    positivity
  have hpos : 0 < (out.map fun z => ‖z‖ ^ 2).sum := by
    clear hE
    induction out with
    | nil => simp at hz
    | cons w l ih =>
      rw [List.map_cons, List.sum_cons]
      rcases List.mem_cons.1 hz with h | h
      · subst h
        have : 0 < ‖z‖ ^ 2 := by positivity
        linarith [hnn l]
      · have : 0 ≤ ‖w‖ ^ 2 := by positivity
        linarith [ih h]
  simp only [scaleIr, if_true, hE, List.map_map, Function.comp_def, norm_mul, mul_pow]
  have : ∀ (c : ℝ) (l : List 𝕜), (l.map fun z => c * ‖z‖ ^ 2).sum =
      c * (l.map fun z => ‖z‖ ^ 2).sum := by
    intro c l
    induction l with
    | nil => simp
    | cons w l ih => simp only [List.map_cons, List.sum_cons, ih]; ring
  rw [this, RCLike.norm_ofReal, sq_abs, div_pow, Real.sq_sqrt hpos.le]
  field_simp

/-- A filter of order 4 with bandwidth 1 and no leading time: the peak is at `3 / (2 π)`. -/
example : (Gammatone.mk 1 4 (some 1) (some 0) none false none).groupDelay = 3 / (2 * Real.pi) := by
  simp [Gammatone.groupDelay, Gammatone.rawGroupDelay, Gammatone.bandwidth, Gammatone.tc]
  norm_num

/-- The same filter: its envelope decreases after the group delay, from 1 to 2 for instance. -/
example : (Gammatone.mk 1 4 (some 1) (some 0) none false none).envelope 2 <
    (Gammatone.mk 1 4 (some 1) (some 0) none false none).envelope 1 := by
  refine (C51_shape _ (by norm_num) (by simp [Gammatone.bandwidth]) 1 2 (by norm_num)).2 ?_
  have h : (Gammatone.mk 1 4 (some 1) (some 0) none false none).groupDelay = 3 / (2 * Real.pi) := by
    simp [Gammatone.groupDelay, Gammatone.rawGroupDelay, Gammatone.bandwidth, Gammatone.tc]
    norm_num
  rw [h, div_le_one (by have := Real.pi_pos; positivity)]
  have := Real.two_le_pi
  linarith

/-- Two samples 3 and 4: the normalised response has energy one. -/
example : ((scaleIr true none [(3 : ℝ), 4]).map fun z => ‖z‖ ^ 2).sum = 1 := by
  have := (C51_energy (𝕜 := ℝ) none [3, 4]).1 ⟨3, by simp, by norm_num⟩
  simpa using this

/-! ## C74: decay time -/

section t60
variable (g : Gammatone)

theorem env_continuousOn (hn : 1 ≤ g.n) (hb : 0 < g.bandwidth) :
    ContinuousOn g.envelope (Ici g.groupDelay) := by
  have h1 := gd_tc g
  have h2 := raw_nonneg g hn hb
  have : ContinuousOn (fun t => (t + g.tc) ^ (g.n - 1) *
      Real.exp (-(2 * Real.pi * g.bandwidth * (t + g.tc)))) (Ici g.groupDelay) := by
    fun_prop
  refine this.congr fun t ht => ?_
  have ht' : g.groupDelay ≤ t := ht
  exact env_of_nonneg g t (by linarith)

/-- The ratio to the peak, at `x` raw group delays after it. -/
theorem env_ratio (hn : 2 ≤ g.n) (hb : 0 < g.bandwidth) (x : ℝ) (hx : 0 ≤ x) :
    g.envelope (g.groupDelay + g.rawGroupDelay * x) =
      ((1 + x) * Real.exp (-x)) ^ (g.n - 1) * g.envelope g.groupDelay := by
  have h1 := gd_tc g
  have h2 := raw_nonneg g (by omega) hb
  have h3 : g.groupDelay + g.rawGroupDelay * x + g.tc = g.rawGroupDelay * (1 + x) := by
    linarith
  have hc := c_pos g hb
  have hcr : 2 * Real.pi * g.bandwidth * g.rawGroupDelay = ((g.n - 1 : ℕ) : ℝ) := by
    rw [← raw_eq g (by omega)]
    field_simp
  rw [env_of_nonneg g _ (by rw [h3]; positivity), env_of_nonneg g g.groupDelay (by linarith), h1, h3,
    mul_pow, mul_pow, ← Real.exp_nat_mul, ← mul_assoc, hcr]
  have : Real.exp (-(((g.n - 1 : ℕ) : ℝ) * (1 + x))) =
      Real.exp (((g.n - 1 : ℕ) : ℝ) * -x) * Real.exp (-((g.n - 1 : ℕ) : ℝ)) := by
    rw [← Real.exp_add]; congr 1; ring
  rw [this]
  ring

/-- The search of `t60`: `foo` is positive until `z` and negative behind it. -/
theorem t60Loop_ok (foo : ℝ → ℝ) (steps : ℕ) (z : ℝ) (hz : foo z = 0) :
    ∀ (k : Nat) (hi range : ℝ), 0 < range → hi < z → ContinuousOn foo (Ici hi) →
      (∀ t, hi ≤ t → t < z → 0 < foo t) → (∀ t, z < t → foo t < 0) →
      (z ≤ hi + range * (2 ^ k - 1) → ∃ t, t60Loop foo steps k hi range = .ok t ∧ hi ≤ t ∧
        |t - z| ≤ (z - hi + range) / 2 ^ (steps + 1)) ∧
      (hi + range * (2 ^ k - 1) < z → t60Loop foo steps k hi range = .error .value)
  | 0, hi, range, hr, hh, _, _, _ => by
    constructor
    · intro h; simp at h; linarith
    · intro _; rfl
  | k + 1, hi, range, hr, hh, hc, hp, hneg => by
    rcases lt_or_ge (hi + range) z with hlt | hge
    · -- same sign: next trial
      have h1 : bisect foo (hi + range) hi (steps : Int) = .error .valueError :=
        (C39_error foo (hi + range) hi steps).1 (Or.inl ⟨hp _ (by linarith) hlt, hp _ le_rfl hh⟩)
      obtain ⟨a1, a2⟩ := t60Loop_ok foo steps z hz k (hi + range) (range * 2) (by linarith) hlt
        (hc.mono (Ici_subset_Ici.2 (by linarith))) (fun t ht => hp t (by linarith)) hneg
      have e : hi + range * (2 ^ (k + 1) - 1) = hi + range + range * 2 * (2 ^ k - 1) := by
        rw [pow_succ]; ring
      rw [e]
      have hstep : t60Loop foo steps (k + 1) hi range =
          t60Loop foo steps k (hi + range) (range * 2) := by
        simp only [t60Loop, h1]
      rw [hstep]
      refine ⟨fun h => ?_, a2⟩
      obtain ⟨t, t1, t2, t3⟩ := a1 h
      refine ⟨t, t1, by linarith, t3.trans (le_of_eq ?_)⟩
      congr 1
      ring
    · -- the zero is between `hi` and `hi + range`
      have hsub : uIcc (hi + range) hi ⊆ Ici hi := by
        intro t ht
        rw [uIcc_comm, uIcc_of_le (by linarith)] at ht
        exact ht.1
      have hend : foo (hi + range) ≤ 0 := by
        rcases lt_or_eq_of_le hge with h | h
        · exact (hneg _ h).le
        · rw [← h, hz]
      obtain ⟨t, z', b1, b2, b3, b4, b5⟩ := C39_bisection foo (hi + range) hi steps
        (hc.mono hsub) (Or.inl ⟨hend, (hp hi le_rfl hh).le⟩)
      have hz' : z' = z := by
        rcases lt_trichotomy z' z with h | h | h
        · have := hp z' (hsub b3) h; linarith
        · exact h
        · have := hneg z' h; linarith
      rw [hz'] at b5
      constructor
      · intro _
        refine ⟨t, by simp only [t60Loop, b1], hsub b2, b5.trans ?_⟩
        have : |hi - (hi + range)| = range := by
          rw [abs_sub_comm]; simp [abs_of_pos hr]
        rw [this]
        apply div_le_div_of_nonneg_right _ (by positivity)
        linarith
      · intro h
        exfalso
        have : (1 : ℝ) ≤ 2 ^ (k + 1) - 1 := by
          have : (2 : ℝ) ≤ 2 ^ (k + 1) := by
            rw [pow_succ]
            have : (1 : ℝ) ≤ 2 ^ k := one_le_pow₀ (by norm_num)
            linarith
          linarith
        nlinarith

/-- `(1 + x) e⁻ˣ` gets as small as one likes. -/
theorem ratio_small (x : ℝ) (hx : 0 ≤ x) : (1 + x) * Real.exp (-x) ≤ 4 / (1 + x) := by
  have h1 : Real.exp x = Real.exp (x / 2) ^ 2 := by
    rw [← Real.exp_nat_mul]; congr 1; push_cast; ring
  have h2 : 1 + x / 2 ≤ Real.exp (x / 2) := by
    have := Real.add_one_le_exp (x / 2); linarith
  have h3 : (1 + x / 2) ^ 2 ≤ Real.exp x := by
    rw [h1]; exact pow_le_pow_left₀ (by positivity) h2 2
  rw [Real.exp_neg, ← div_eq_mul_inv, div_le_div_iff₀ (Real.exp_pos x) (by linarith)]
  nlinarith

/-- There is exactly one time after the peak at which the envelope has a given level below it. -/
theorem exists_unique_time (hn : 1 ≤ g.n) (hb : 0 < g.bandwidth) (r : ℝ) (h0 : 0 < r) (h1 : r < 1) :
    ∃ z, g.groupDelay < z ∧ g.envelope z = r * g.envelope g.groupDelay ∧
      (∀ t, g.groupDelay ≤ t → t < z → r * g.envelope g.groupDelay < g.envelope t) ∧
      ∀ t, z < t → g.envelope t < r * g.envelope g.groupDelay := by
  have hp := env_peak_pos g hn hb
  -- a time with a lower level
  obtain ⟨s, hs1, hs2⟩ : ∃ s, g.groupDelay < s ∧ g.envelope s < r * g.envelope g.groupDelay := by
    rcases Nat.lt_or_ge 1 g.n with h | h
    · have hraw : 0 < g.rawGroupDelay := by
        rw [← raw_eq g hn]
        have : (0 : ℝ) < ((g.n - 1 : ℕ) : ℝ) := by exact_mod_cast (by omega : 0 < g.n - 1)
        exact div_pos this (c_pos g hb)
      set x := 8 / r with hx
      have hxpos : 0 < x := by positivity
      refine ⟨g.groupDelay + g.rawGroupDelay * x, by nlinarith, ?_⟩
      rw [env_ratio g (by omega) hb x hxpos.le]
      apply mul_lt_mul_of_pos_right _ hp
      have h2 := ratio_small x hxpos.le
      have h3 : 4 / (1 + x) < r := by
        rw [div_lt_iff₀ (by linarith), hx]
        have : r * (1 + 8 / r) = r + 8 := by field_simp
        rw [this]; linarith
      have h4 : 0 ≤ (1 + x) * Real.exp (-x) := by positivity
      have h5 : (1 + x) * Real.exp (-x) ≤ 1 := by linarith
      calc ((1 + x) * Real.exp (-x)) ^ (g.n - 1) ≤ ((1 + x) * Real.exp (-x)) ^ 1 :=
            pow_le_pow_of_le_one h4 h5 (by omega)
        _ < r := by rw [pow_one]; linarith
    · have hn1 : g.n - 1 = 0 := by omega
      have hc := c_pos g hb
      have hgd := gd_tc g
      have hraw := raw_nonneg g hn hb
      refine ⟨g.groupDelay + (1 / r) / (2 * Real.pi * g.bandwidth), by
        have : 0 < (1 / r) / (2 * Real.pi * g.bandwidth) := by positivity
        linarith, ?_⟩
      have hpos : 0 < (1 / r) / (2 * Real.pi * g.bandwidth) := by positivity
      rw [env_of_nonneg g _ (by linarith), env_of_nonneg g _ (by linarith), hn1]
      simp only [pow_zero, one_mul]
      have e : -(2 * Real.pi * g.bandwidth * (g.groupDelay + 1 / r / (2 * Real.pi * g.bandwidth) + g.tc))
          = -(1 / r) + -(2 * Real.pi * g.bandwidth * (g.groupDelay + g.tc)) := by
        field_simp
        ring
      rw [e, Real.exp_add]
      apply mul_lt_mul_of_pos_right _ (Real.exp_pos _)
      rw [Real.exp_neg, inv_lt_comm₀ (Real.exp_pos _) h0, ← one_div]
      have := Real.add_one_le_exp (1 / r)
      linarith
  have hc : ContinuousOn g.envelope (Icc g.groupDelay s) :=
    (env_continuousOn g hn hb).mono Icc_subset_Ici_self
  have hivt := intermediate_value_Icc' hs1.le hc
  obtain ⟨z, ⟨hz1, hz2⟩, hz3⟩ := hivt (show r * g.envelope g.groupDelay ∈
    Icc (g.envelope s) (g.envelope g.groupDelay) from ⟨hs2.le, by nlinarith⟩)
  have hzgt : g.groupDelay < z := by
    rcases lt_or_eq_of_le hz1 with h | h
    · exact h
    · rw [← h] at hz3; nlinarith
  exact ⟨z, hzgt, hz3, fun t h1 h2 => hz3 ▸ env_decreasing g hn hb t z h1 h2,
    fun t h => hz3 ▸ env_decreasing g hn hb z t hzgt.le h⟩

end t60

end Verif.Psycho
