import Mathlib.Analysis.SpecialFunctions.Trigonometric.Bounds
import Mathlib.Analysis.SpecialFunctions.ExpDeriv
import Mathlib.Analysis.SpecialFunctions.Trigonometric.DerivHyp
import Mathlib.Analysis.Calculus.ContDiff.Deriv
import Mathlib.Analysis.Calculus.MeanValue
import Mathlib.MeasureTheory.Integral.IntervalIntegral.TrapezoidalRule
import Mathlib.MeasureTheory.Integral.IntervalIntegral.FundThmCalculus
import Verif.Beat.BeatProps

/-!
# C77: the synthesised beat converges to the sum of its partials
-/

set_option autoImplicit false
set_option linter.unusedSectionVars false
set_option linter.unusedSimpArgs false

namespace Verif.Beat

open Verif.Out

/-- Restriction of a time to `[0, T]`. -/
def clamp (T t : ℝ) : ℝ := max 0 (min t T)

theorem clamp_mem (T t : ℝ) (hT : 0 ≤ T) : clamp T t ∈ Set.Icc 0 T :=
  ⟨le_max_left _ _, max_le hT (min_le_right _ _)⟩

theorem clamp_of_mem (T t : ℝ) (h : t ∈ Set.Icc 0 T) : clamp T t = t := by
  rw [clamp, min_eq_left h.2, max_eq_right h.1]

theorem clamp_cont (T : ℝ) : Continuous (clamp T) :=
  continuous_const.max (continuous_id.min continuous_const)

/-- The primitive of a function that is continuous on `[0, T]`. -/
theorem prim_deriv (T : ℝ) (hT : 0 ≤ T) (F : ℝ → ℝ) (hF : ContinuousOn F (Set.Icc 0 T)) (t : ℝ)
    (ht : t ∈ Set.Icc 0 T) :
    HasDerivAt (fun u => ∫ s in (0 : ℝ)..u, F (clamp T s)) (F t) t := by
  have hc : Continuous fun s => F (clamp T s) :=
    hF.comp_continuous (clamp_cont T) fun s => clamp_mem T s hT
  have := (hc.integral_hasStrictDerivAt 0 t).hasDerivAt
  rwa [clamp_of_mem T t ht] at this

theorem prim_eq (T : ℝ) (F : ℝ → ℝ) (a b : ℝ) (ha : a ∈ Set.Icc 0 T) (hb : b ∈ Set.Icc 0 T) :
    ∫ s in a..b, F (clamp T s) = ∫ s in a..b, F s := by
  apply intervalIntegral.integral_congr
  intro s hs
  simp only
  rw [clamp_of_mem]
  have : Set.uIcc a b ⊆ Set.Icc 0 T := by
    rw [← Set.uIcc_of_le (ha.1.trans ha.2)] at *
    exact Set.uIcc_subset_uIcc ha hb
  exact this hs

/-- A function without zeros turns as much as its logarithmic derivative says. -/
theorem polar (T : ℝ) (hT : 0 ≤ T) (z z' : ℝ → ℂ) (hz : ∀ t ∈ Set.Icc 0 T, HasDerivAt z (z' t) t)
    (hz' : ContinuousOn z' (Set.Icc 0 T)) (h0 : ∀ t ∈ Set.Icc 0 T, z t ≠ 0) (θ : ℝ)
    (hθ : z 0 = ‖z 0‖ * Complex.exp (θ * Complex.I)) (t : ℝ) (ht : t ∈ Set.Icc 0 T) :
    z t = ‖z t‖ * Complex.exp (((θ + ∫ s in (0 : ℝ)..t, (z' s / z s).im : ℝ) : ℂ) * Complex.I) := by
  have hzc : ContinuousOn z (Set.Icc 0 T) := fun t ht => (hz t ht).continuousAt.continuousWithinAt
  have hl : ContinuousOn (fun s => z' s / z s) (Set.Icc 0 T) := hz'.div hzc h0
  have him : ContinuousOn (fun s => (z' s / z s).im) (Set.Icc 0 T) :=
    Complex.continuous_im.comp_continuousOn hl
  have hre : ContinuousOn (fun s => (z' s / z s).re) (Set.Icc 0 T) :=
    Complex.continuous_re.comp_continuousOn hl
  set P : ℝ → ℝ := fun u => ∫ s in (0 : ℝ)..u, (fun s => (z' s / z s).im) (clamp T s) with hP
  set R : ℝ → ℝ := fun u => ∫ s in (0 : ℝ)..u, (fun s => (z' s / z s).re) (clamp T s) with hR
  have hPt : P t = ∫ s in (0 : ℝ)..t, (z' s / z s).im :=
    prim_eq T (fun s => (z' s / z s).im) 0 t ⟨le_refl 0, hT⟩ ht
  rw [← hPt]
  have dP : ∀ t ∈ Set.Icc 0 T, HasDerivAt P (z' t / z t).im t :=
    fun t ht => prim_deriv T hT _ him t ht
  have dR : ∀ t ∈ Set.Icc 0 T, HasDerivAt R (z' t / z t).re t :=
    fun t ht => prim_deriv T hT _ hre t ht
  have hd : ∀ t ∈ Set.Icc 0 T,
      HasDerivAt (fun s => z s * Complex.exp (-((R s : ℂ) + P s * Complex.I))) 0 t := by
    intro t ht
    have := (hz t ht).mul
      (((dR t ht).ofReal_comp.add ((dP t ht).ofReal_comp.mul_const Complex.I)).neg.cexp)
    refine this.congr_deriv ?_
    have e : ((z' t / z t).re : ℂ) + (z' t / z t).im * Complex.I = z' t / z t := Complex.re_add_im _
    simp only [Pi.add_apply, Pi.neg_apply]
    rw [e]
    have := h0 t ht
    field_simp
    ring
  have hconst := constant_of_has_deriv_right_zero (a := 0) (b := T)
    (fun t ht => (hd t ht).continuousAt.continuousWithinAt)
    (fun t ht => (hd t (Set.Ico_subset_Icc_self ht)).hasDerivWithinAt) t ht
  have hP0 : P 0 = 0 := by simp [hP]
  have hR0 : R 0 = 0 := by simp [hR]
  simp only [hP0, hR0, Complex.ofReal_zero, zero_mul, add_zero, neg_zero, Complex.exp_zero,
    mul_one] at hconst
  have hzt : z t = z 0 * Complex.exp ((R t : ℂ) + P t * Complex.I) := by
    rw [← hconst, mul_assoc, ← Complex.exp_add, neg_add_cancel, Complex.exp_zero, mul_one]
  have hzt' : z t = ((‖z 0‖ * Real.exp (R t) : ℝ) : ℂ) *
      Complex.exp (((θ + P t : ℝ) : ℂ) * Complex.I) := by
    rw [hzt, hθ, Complex.exp_add]
    push_cast
    rw [add_mul, Complex.exp_add]
    simp only [norm_mul, Complex.norm_real, norm_norm, Complex.norm_exp_ofReal_mul_I, mul_one]
    ring
  have hn : ‖z t‖ = ‖z 0‖ * Real.exp (R t) := by
    rw [hzt', norm_mul, Complex.norm_exp_ofReal_mul_I, mul_one, Complex.norm_real, Real.norm_eq_abs,
      abs_of_nonneg (by positivity)]
  rw [hn]
  exact hzt'

/-- The error of one trapezoid. -/
theorem trap_step (F : ℝ → ℝ) (T ζ : ℝ) (hF : ∀ t ∈ Set.Icc 0 T, ContDiffAt ℝ 2 F t)
    (hζ : ∀ t ∈ Set.Icc 0 T, |iteratedDeriv 2 F t| ≤ ζ) (hζ0 : 0 ≤ ζ) (a b : ℝ) (ha : 0 ≤ a)
    (hab : a ≤ b) (hb : b ≤ T) :
    |(b - a) / 2 * (F a + F b) - ∫ s in a..b, F s| ≤ (b - a) ^ 3 * ζ / 12 := by
  rcases hab.eq_or_lt with rfl | hlt
  · simp
  have hsub : Set.uIcc a b ⊆ Set.Icc 0 T := by
    rw [Set.uIcc_of_le hab]
    exact Set.Icc_subset_Icc ha hb
  have h1 : ContDiffOn ℝ 2 F (Set.uIcc a b) :=
    fun t ht => (hF t (hsub ht)).contDiffWithinAt
  have hu : UniqueDiffOn ℝ (Set.uIcc a b) := by
    rw [Set.uIcc_of_le hab]
    exact uniqueDiffOn_Icc hlt
  have h2 : ∀ x, |iteratedDerivWithin 2 F (Set.uIcc a b) x| ≤ ζ := by
    intro x
    by_cases hx : x ∈ Set.uIcc a b
    · rw [iteratedDerivWithin_eq_iteratedDeriv hu (hF x (hsub hx)) hx]
      exact hζ x (hsub hx)
    · rw [iteratedDerivWithin_succ, derivWithin_zero_of_notMem_closure
        (by rwa [Set.uIcc_of_le hab, closure_Icc, ← Set.uIcc_of_le hab])]
      simpa using hζ0
  have := trapezoidal_error_le_of_c2 h1 h2 (N := 1) one_pos
  rw [trapezoidal_error, trapezoidal_integral_one, abs_of_pos (sub_pos.mpr hlt)] at this
  simpa using this

/-- The running sums of the trapezoids of finite values. -/
theorem trapezoids_err (F : ℝ → ℝ) (T ζ h : ℝ) (hF : ∀ t ∈ Set.Icc 0 T, ContDiffAt ℝ 2 F t)
    (hζ : ∀ t ∈ Set.Icc 0 T, |iteratedDeriv 2 F t| ≤ ζ) (hζ0 : 0 ≤ ζ)
    (hcont : ContinuousOn F (Set.Icc 0 T)) (ts : List ℝ) (t0 s : ℝ) (h0 : 0 ≤ t0)
    (hT : ∀ t ∈ t0 :: ts, t ≤ T) (hg : List.IsChain (fun u v => u ≤ v ∧ v - u ≤ h) (t0 :: ts))
    (hs : |s - ∫ u in (0 : ℝ)..t0, F u| ≤ ζ / 12 * h ^ 2 * t0) :
    ∃ ss : List ℝ, trapezoids ((t0 :: ts).map fun t => some (F t)) ((t0 :: ts).map some) (some s) =
        ss.map some ∧
      List.Forall₂ (fun t s => |s - ∫ u in (0 : ℝ)..t, F u| ≤ ζ / 12 * h ^ 2 * t) (t0 :: ts) ss := by
  induction ts generalizing t0 s with
  | nil => exact ⟨[s], rfl, by simpa using hs⟩
  | cons t1 ts ih =>
    rw [List.isChain_cons_cons] at hg
    obtain ⟨⟨g1, g2⟩, g3⟩ := hg
    have hT0 : t0 ≤ T := hT t0 (by simp)
    have hT1 : t1 ≤ T := hT t1 (by simp)
    have hi : ∀ a b : ℝ, a ∈ Set.Icc 0 T → b ∈ Set.Icc 0 T →
        IntervalIntegrable F MeasureTheory.volume a b := by
      intro a b ha hb
      apply ContinuousOn.intervalIntegrable
      apply hcont.mono
      have : Set.uIcc a b ⊆ Set.Icc 0 T := by
        rw [← Set.uIcc_of_le (ha.1.trans ha.2)] at *
        exact Set.uIcc_subset_uIcc ha hb
      exact this
    have hsplit : (∫ u in (0 : ℝ)..t1, F u) = (∫ u in (0 : ℝ)..t0, F u) + ∫ u in t0..t1, F u :=
      (intervalIntegral.integral_add_adjacent_intervals
        (hi 0 t0 ⟨le_refl 0, h0.trans hT0⟩ ⟨h0, hT0⟩)
        (hi t0 t1 ⟨h0, hT0⟩ ⟨h0.trans g1, hT1⟩)).symm
    have hstep := trap_step F T ζ hF hζ hζ0 t0 t1 h0 g1 hT1
    have hd : 0 ≤ t1 - t0 := sub_nonneg.mpr g1
    have hle : (t1 - t0) ^ 3 * ζ / 12 ≤ ζ / 12 * h ^ 2 * (t1 - t0) := by
      have hsq : (t1 - t0) ^ 2 ≤ h ^ 2 := pow_le_pow_left₀ hd g2 2
      have := mul_le_mul_of_nonneg_left hsq (mul_nonneg hd hζ0)
      linarith [show (t1 - t0) ^ 3 * ζ / 12 = (t1 - t0) * ζ * (t1 - t0) ^ 2 / 12 by ring,
        show ζ / 12 * h ^ 2 * (t1 - t0) = (t1 - t0) * ζ * h ^ 2 / 12 by ring]
    obtain ⟨ss, e1, e2⟩ := ih t1 (s + (t1 - t0) * (F t0 + F t1) / 2) (h0.trans g1)
      (fun t ht => hT t (List.mem_cons_of_mem _ ht)) g3 (by
        rw [hsplit]
        have e : s + (t1 - t0) * (F t0 + F t1) / 2 - ((∫ u in (0 : ℝ)..t0, F u) + ∫ u in t0..t1, F u) =
            (s - ∫ u in (0 : ℝ)..t0, F u) +
              ((t1 - t0) / 2 * (F t0 + F t1) - ∫ u in t0..t1, F u) := by ring
        rw [e]
        refine (abs_add_le _ _).trans ?_
        linarith [show ζ / 12 * h ^ 2 * t1 = ζ / 12 * h ^ 2 * t0 + ζ / 12 * h ^ 2 * (t1 - t0) by ring])
    refine ⟨s :: ss, ?_, List.Forall₂.cons hs e2⟩
    rw [List.map_cons (f := some) (a := s), ← e1]
    rfl

/-- A function with a smooth derivative is smooth. -/
theorem contDiff_of_deriv (a d : ℝ → ℝ) (h : ∀ t, HasDerivAt a (d t) t) (hd : ContDiff ℝ 2 d) :
    ContDiff ℝ 2 a := by
  have e : deriv a = d := funext fun t => (h t).deriv
  have : ContDiff ℝ (1 + 1) a := by
    rw [contDiff_succ_iff_deriv]
    refine ⟨fun t => (h t).differentiableAt, by simp, ?_⟩
    rw [e]
    exact hd.of_le (by norm_num)
  exact this.of_le (by norm_num)

/-- The frequency modulation is smooth where the partials do not cancel. -/
theorem vFm_smooth (b : Beat) (f0 f1 p0 p1 : ℝ) (e3 : b.f0 = .num f0) (e4 : b.f1 = .num f1)
    (e5 : b.p0 = .num p0) (e6 : b.p1 = .num p1) (h0 : ContDiff ℝ 2 b.a0.at)
    (h1 : ContDiff ℝ 2 b.a1.at) (k0 : ContDiff ℝ 2 b.da0.at) (k1 : ContDiff ℝ 2 b.da1.at) (t : ℝ)
    (ht : vAlpha2 b t ≠ 0) : ContDiffAt ℝ 2 (vFm b) t := by
  have hAo : ContDiff ℝ 2 (vAo b) := (h0.add h1).div_const 2
  have hAh : ContDiff ℝ 2 (vAh b) := (h0.sub h1).div_const 2
  have hPh : ContDiff ℝ 2 (vPh b) := by
    have : vPh b = fun t => 2 * Real.pi * ((f0 - f1) / 2) * t + (p0 - p1) / 2 := by
      funext t
      simp only [vPh, e3, e4, e5, e6, Par.at]
    rw [this]
    exact (contDiff_const.mul contDiff_id).add contDiff_const
  have hα : ContDiff ℝ 2 (vAlpha2 b) :=
    (((hAo.pow 2).sub (hAh.pow 2)).mul ((Real.contDiff_cos.comp hPh).pow 2)).add (hAh.pow 2)
  have hG : ContDiff ℝ 2 (vG b) :=
    (((k0.mul h1).sub (k1.mul h0)).mul (Real.contDiff_sin.comp (hPh.mul contDiff_const))).mul
      contDiff_const
  have : vFm b = fun t => (vAo b t * vAh b t * (2 * Real.pi * ((f0 - f1) / 2)) + vG b t) /
      vAlpha2 b t + 2 * Real.pi * ((f0 + f1) / 2) := by
    funext t
    simp only [vFm, e3, e4, Par.at]
  rw [this]
  exact ((((hAo.mul hAh).mul contDiff_const).add hG).contDiffAt.div hα.contDiffAt ht).add
    contDiffAt_const

/-- C77.  If the partials do not cancel between time zero and `T`, the synthesised signal is the real
part of the sum of the partials up to the square of the step of the time axis, with the same constant
for every time axis that starts at zero. -/
theorem C77_convergence (a0 a1 : Amp) (f0 f1 p0 p1 : ℝ) (b : Beat)
    (hb : mkBeat a0 a1 (.num f0) (.num f1) (.num p0) (.num p1) = .ok b)
    (ha : Fits a0.par a1.par)
    (hd0 : ∀ d, a0.dt = .ok d → (∀ t, HasDerivAt a0.par.at (d.at t) t) ∧ ContDiff ℝ 2 d.at)
    (hd1 : ∀ d, a1.dt = .ok d → (∀ t, HasDerivAt a1.par.at (d.at t) t) ∧ ContDiff ℝ 2 d.at)
    (T : ℝ) (hT : 0 ≤ T)
    (hz : ∀ t ∈ Set.Icc 0 T, modalSum a0.par.at a1.par.at f0 f1 p0 p1 t ≠ 0) :
    ∃ C : ℝ, ∀ (ts : List ℝ) (h : ℝ), (∀ t ∈ ts, t ≤ T) →
      List.IsChain (fun u v => u ≤ v ∧ v - u ≤ h) (0 :: ts) →
      ∃ xs : List ℝ, b.x (axis (0 :: ts)) = .ok (.ar (xs.map some)) ∧
        List.Forall₂ (fun t x => |x - (modalSum a0.par.at a1.par.at f0 f1 p0 p1 t).re| ≤ C * h ^ 2)
          (0 :: ts) xs := by
  classical
  obtain ⟨e1, e2, e3, e4, e5, e6, e7, e8⟩ := mkBeat_ok a0 a1 _ _ _ _ b hb
  have hfit := modal_fit hb ha
  have hzb := modal_z hb
  obtain ⟨q0, k0⟩ := hd0 _ e7
  obtain ⟨q1, k1⟩ := hd1 _ e8
  have h0 : ContDiff ℝ 2 b.a0.at := by rw [e1]; exact contDiff_of_deriv _ _ q0 k0
  have h1 : ContDiff ℝ 2 b.a1.at := by rw [e2]; exact contDiff_of_deriv _ _ q1 k1
  have hm : ∀ t, Modal a0 a1 f0 f1 p0 p1 b t := fun t =>
    ⟨hb, ha, fun d e => by rw [e7] at e; cases e; exact q0 t,
      fun d e => by rw [e8] at e; cases e; exact q1 t⟩
  rw [← hzb] at hz ⊢
  have hα : ∀ t ∈ Set.Icc 0 T, vAlpha2 b t ≠ 0 := fun t ht e => hz t ht ((vAlpha2_zero b t).mp e)
  have hsm : ∀ t ∈ Set.Icc 0 T, ContDiffAt ℝ 2 (vFm b) t := fun t ht =>
    vFm_smooth b f0 f1 p0 p1 e3 e4 e5 e6 h0 h1 k0 k1 t (hα t ht)
  have hcont : ContinuousOn (vFm b) (Set.Icc 0 T) := fun t ht =>
    (hsm t ht).continuousAt.continuousWithinAt
  -- bounds
  have hc2 : ContinuousOn (fun t => iteratedDeriv 2 (vFm b) t) (Set.Icc 0 T) := by
    intro t ht
    have := (hsm t ht).continuousAt_iteratedFDeriv (k := 2) le_rfl
    rw [iteratedDeriv_eq_equiv_comp]
    exact ((LinearIsometryEquiv.continuous _).continuousAt.comp this).continuousWithinAt
  obtain ⟨ζ, hζ⟩ := isCompact_Icc.exists_bound_of_continuousOn hc2
  have hζ0 : 0 ≤ ζ := (norm_nonneg _).trans (hζ 0 ⟨le_refl 0, hT⟩)
  -- the derivative of the sum
  set z' : ℝ → ℂ := fun t => (((b.da0.at t : ℝ) + a0.par.at t * (2 * Real.pi * f0) * Complex.I) *
        Complex.exp (((2 * Real.pi * f0 * t + p0 : ℝ) : ℂ) * Complex.I) +
       ((b.da1.at t : ℝ) + a1.par.at t * (2 * Real.pi * f1) * Complex.I) *
        Complex.exp (((2 * Real.pi * f1 * t + p1 : ℝ) : ℂ) * Complex.I)) with hz'def
  have hdz : ∀ t, HasDerivAt b.z (z' t) t := fun t => by rw [hzb]; exact modal_deriv (hm t)
  have hz'c : ContinuousOn z' (Set.Icc 0 T) := by
    have c0 : Continuous b.da0.at := k0.continuous
    have c1 : Continuous b.da1.at := k1.continuous
    have c2 : Continuous a0.par.at := by rw [← e1]; exact h0.continuous
    have c3 : Continuous a1.par.at := by rw [← e2]; exact h1.continuous
    apply Continuous.continuousOn
    rw [hz'def]
    fun_prop
  have hzc : ContinuousOn b.z (Set.Icc 0 T) := fun t _ => (hdz t).continuousAt.continuousWithinAt
  obtain ⟨M, hM⟩ := isCompact_Icc.exists_bound_of_continuousOn hzc
  have hM0 : 0 ≤ M := (norm_nonneg _).trans (hM 0 ⟨le_refl 0, hT⟩)
  have hfm : ∀ t ∈ Set.Icc 0 T, (z' t / b.z t).im = vFm b t := fun t ht => by
    have := vFm_eq (hm t) (hα t ht) (z' t) (by rw [← hzb]; exact hdz t)
    rw [this, hzb]
  have hpol : ∀ t ∈ Set.Icc 0 T, (b.z t).re =
      ‖b.z t‖ * Real.cos ((∫ s in (0 : ℝ)..t, vFm b s) + vPhase0 b p0 p1) := by
    intro t ht
    have := polar T hT b.z z' (fun t _ => hdz t) hz'c hz (vPhase0 b p0 p1) (phase0_z b p0 p1 e5 e6) t ht
    have hint : (∫ s in (0 : ℝ)..t, (z' s / b.z s).im) = ∫ s in (0 : ℝ)..t, vFm b s := by
      apply intervalIntegral.integral_congr
      intro s hs
      rw [Set.uIcc_of_le ht.1] at hs
      exact hfm s ⟨hs.1, hs.2.trans ht.2⟩
    rw [hint] at this
    conv_lhs => rw [this]
    rw [Complex.re_ofReal_mul, exp_mk]
    simp only
    rw [add_comm]
  refine ⟨M * (ζ / 12 * T), ?_⟩
  intro ts h hts hg
  have hmem : ∀ t ∈ 0 :: ts, t ∈ Set.Icc 0 T := by
    intro t ht
    have hpw : List.Pairwise (· ≤ ·) (0 :: ts) := by
      rw [← List.isChain_iff_pairwise]
      exact hg.imp fun _ _ h => h.1
    rw [List.pairwise_cons] at hpw
    rcases List.mem_cons.mp ht with rfl | ht
    · exact ⟨le_refl 0, hT⟩
    · exact ⟨hpw.1 t ht, hts t ht⟩
  have hFm : b.fm (axis (0 :: ts)) = .ok (.ar ((0 :: ts).map fun t => some (vFm b t))) := by
    rw [fm_ar b _ hfit]
    congr 2
    apply List.map_congr_left
    intro t ht
    rw [if_neg (hα t (hmem t ht)), vFm]
  obtain ⟨ss, s1, s2⟩ := trapezoids_err (vFm b) T ζ h hsm hζ hζ0 hcont ts 0 0 (le_refl 0)
    (fun t ht => (hmem t ht).2) hg (by simp)
  have hx := x_ar b hfit p0 p1 e5 e6 (0 :: ts) (by simp) _ hFm (by simp)
  rw [s1] at hx
  refine ⟨List.zipWith (fun t s => ‖b.z t‖ * Real.cos (s + vPhase0 b p0 p1)) (0 :: ts) ss, ?_, ?_⟩
  · rw [hx]
    congr 2
    rw [List.map_map, List.zipWith_map, List.map_zipWith]
    rfl
  · have hlen : (0 :: ts).length = ss.length := s2.length_eq
    rw [List.forall₂_iff_get]
    refine ⟨by rw [List.length_zipWith, ← hlen, min_self], ?_⟩
    intro i hi hi'
    have hi2 : i < ss.length := hlen ▸ hi
    simp only [List.get_eq_getElem, List.getElem_zipWith]
    have hti := hmem _ (List.getElem_mem hi)
    have hsi := (List.forall₂_iff_get.mp s2).2 i hi hi2
    simp only [List.get_eq_getElem] at hsi
    generalize (0 :: ts)[i] = t at hti hsi
    generalize ss[i] = s at hsi
    rw [hpol t hti, ← mul_sub, abs_mul, abs_of_nonneg (norm_nonneg _)]
    have c1 := Real.abs_cos_sub_cos_le (s + vPhase0 b p0 p1)
      ((∫ s in (0 : ℝ)..t, vFm b s) + vPhase0 b p0 p1)
    rw [add_sub_add_right_eq_sub] at c1
    have c2 : ζ / 12 * h ^ 2 * t ≤ ζ / 12 * h ^ 2 * T :=
      mul_le_mul_of_nonneg_left hti.2 (by positivity)
    calc ‖b.z t‖ * _ ≤ M * (ζ / 12 * h ^ 2 * T) :=
          mul_le_mul (hM t hti) (c1.trans (hsi.trans c2)) (abs_nonneg _) hM0
      _ = M * (ζ / 12 * T) * h ^ 2 := by ring

/-- C77.  A `ModalBeat` whose partials do not cancel converges. -/
theorem C77_modal (a0 a1 f0 f1 d0 d1 p0 p1 : ℝ) (h0 : d0 ≠ 0) (h1 : d1 ≠ 0) (T : ℝ) (hT : 0 ≤ T)
    (z : ℝ → ℂ) (hzdef : z = modalSum (fun s => a0 * Real.exp (-2 / d0 * s))
      (fun s => a1 * Real.exp (-2 / d1 * s)) f0 f1 p0 p1) (hz : ∀ t ∈ Set.Icc 0 T, z t ≠ 0) :
    ∃ b C, modalBeat a0 a1 f0 f1 d0 d1 p0 p1 = .ok b ∧
      ∀ (ts : List ℝ) (h : ℝ), (∀ t ∈ ts, t ≤ T) →
      List.IsChain (fun u v => u ≤ v ∧ v - u ≤ h) (0 :: ts) →
      ∃ xs : List ℝ, b.x (axis (0 :: ts)) = .ok (.ar (xs.map some)) ∧
        List.Forall₂ (fun t x => |x - (z t).re| ≤ C * h ^ 2) (0 :: ts) xs := by
  have hd : ∀ a d : ℝ, ∀ q, (expDecay a d).dt = .ok q →
      (∀ t, HasDerivAt (expDecay a d).par.at (q.at t) t) ∧ ContDiff ℝ 2 q.at := by
    intro a d q hq
    constructor
    · intro t
      obtain ⟨q', e, h⟩ := C44_decay a d t
      rw [hq] at e
      cases e
      exact h
    · cases hq
      exact (contDiff_const.mul (Real.contDiff_exp.comp (contDiff_const.mul contDiff_id))).mul
        contDiff_const
  subst hzdef
  obtain ⟨C, hC⟩ := C77_convergence (expDecay a0 d0) (expDecay a1 d1) f0 f1 p0 p1 _ rfl trivial
    (hd a0 d0) (hd a1 d1) T hT hz
  exact ⟨_, C, by rw [modalBeat, if_neg (by tauto)]; rfl, hC⟩

/-- Two partials of which the first is always the louder one. -/
example : ∃ b C, modalBeat 2 1 440 442 1 1 0 0 = .ok b ∧
    ∀ (ts : List ℝ) (h : ℝ), (∀ t ∈ ts, t ≤ 1) →
      List.IsChain (fun u v => u ≤ v ∧ v - u ≤ h) (0 :: ts) →
      ∃ xs : List ℝ, b.x (axis (0 :: ts)) = .ok (.ar (xs.map some)) ∧
        List.Forall₂ (fun t x => |x - (modalSum (fun s => 2 * Real.exp (-2 / 1 * s))
          (fun s => 1 * Real.exp (-2 / 1 * s)) 440 442 0 0 t).re| ≤ C * h ^ 2) (0 :: ts) xs := by
  refine C77_modal 2 1 440 442 1 1 0 0 (by norm_num) (by norm_num) 1 (by norm_num) _ rfl ?_
  intro t _ h
  rw [modalSum, sumAt, partialAt, partialAt, add_eq_zero_iff_eq_neg] at h
  have := congrArg norm h
  rw [norm_neg, norm_mul, norm_mul, Complex.norm_exp_ofReal_mul_I, Complex.norm_exp_ofReal_mul_I,
    Complex.norm_real, Complex.norm_real, Real.norm_eq_abs, Real.norm_eq_abs,
    abs_of_pos (by positivity), abs_of_pos (by positivity)] at this
  have := Real.exp_pos (-2 / 1 * t)
  linarith

end Verif.Beat
