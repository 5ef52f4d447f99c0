import Verif.Scripts.FiguresModel
import Verif.Sample.SynthModel
import Mathlib.Analysis.SpecialFunctions.ImproperIntegrals
import Mathlib.Tactic.Linarith
import Mathlib.Tactic.Ring
import Mathlib.Tactic.FieldSimp
import Mathlib.Tactic.NormNum
import Mathlib.Algebra.Order.Ring.Rat

/-!
# C102, C103: the curves of the figures script
-/

set_option autoImplicit false
set_option linter.unusedSectionVars false
set_option linter.unusedSimpArgs false

namespace Verif.Scripts

open MeasureTheory Set Verif.Sample

/-! ## C102: Fourier transforms

Specification: the Fourier transform of a signal that starts at time zero. -/

/-- The Fourier transform at frequency `nu` of a signal that is zero before time zero. -/
noncomputable def fourier (x : ℝ → ℂ) (nu : ℝ) : ℂ :=
  ∫ t in Ioi (0 : ℝ), x t * Complex.exp (-2 * Real.pi * Complex.I * nu * t)

/-- One decaying complex exponential. -/
theorem exp_part (nu nu0 d phi : ℝ) (hd : 0 < d) :
    IntegrableOn (fun t : ℝ => Complex.exp (-2 / d * t) *
      Complex.exp (Complex.I * (2 * Real.pi * t * nu0 - phi)) *
      Complex.exp (-2 * Real.pi * Complex.I * nu * t)) (Ioi 0) ∧
    expFt (nu - nu0) (2 / d) = .ok (1 / (2 / d + 2 * Complex.I * Real.pi * (nu - nu0))) ∧
    ∫ t in Ioi (0 : ℝ), Complex.exp (-2 / d * t) *
      Complex.exp (Complex.I * (2 * Real.pi * t * nu0 - phi)) *
      Complex.exp (-2 * Real.pi * Complex.I * nu * t) =
      1 / (2 / d + 2 * Complex.I * Real.pi * (nu - nu0)) * Complex.exp (-Complex.I * phi) := by
  have hd' : (0 : ℝ) < 2 / d := by positivity
  set z : ℂ := -(2 / d + 2 * Complex.I * Real.pi * (nu - nu0)) with hz
  have hre : z.re < 0 := by
    have : z.re = -(2 / d) := by
      rw [hz]
      have : (2 / d : ℂ) + 2 * Complex.I * Real.pi * (nu - nu0) =
          ((2 / d : ℝ) : ℂ) + ((2 * Real.pi * (nu - nu0) : ℝ) : ℂ) * Complex.I := by
        push_cast; ring
      rw [this]; simp
    rw [this]; linarith
  have hf : (fun t : ℝ => Complex.exp (-2 / d * t) *
      Complex.exp (Complex.I * (2 * Real.pi * t * nu0 - phi)) *
      Complex.exp (-2 * Real.pi * Complex.I * nu * t)) =
      fun t : ℝ => Complex.exp (-Complex.I * phi) * Complex.exp (z * t) := by
    funext t
    rw [← Complex.exp_add, ← Complex.exp_add, ← Complex.exp_add]
    congr 1
    rw [hz]; ring
  rw [hf]
  refine ⟨(integrableOn_exp_mul_complex_Ioi hre 0).const_mul _, ?_, ?_⟩
  · unfold expFt
    rw [if_neg (by rintro ⟨h, _⟩; exact hd'.ne' h)]
    push_cast; rfl
  · rw [integral_const_mul, integral_exp_mul_complex_Ioi hre]
    have hz0 : z ≠ 0 := by intro h; rw [h] at hre; simp at hre
    have : (2 / d : ℂ) + 2 * Complex.I * Real.pi * (nu - nu0) = -z := by rw [hz]; ring
    rw [this]
    simp
    field_simp

/-- One component of `_cos_ft`. -/
theorem cosFt_spec (nu nu0 a d phi : ℝ) (hd : 0 < d) (half : Bool) :
    ∃ z, cosFt nu nu0 a d phi half = .ok z ∧
      IntegrableOn (fun t : ℝ => (if half then (1 / 2 : ℂ) * ((Real.exp (t * (-2 / d)) : ℝ) *
          expi (2 * Real.pi * t * nu0 + -phi) * a) else
          ((Real.exp (t * (-2 / d)) * Real.cos (2 * Real.pi * t * nu0 + -phi) * a : ℝ) : ℂ)) *
        Complex.exp (-2 * Real.pi * Complex.I * nu * t)) (Ioi 0) ∧
      ∫ t in Ioi (0 : ℝ), (if half then (1 / 2 : ℂ) * ((Real.exp (t * (-2 / d)) : ℝ) *
          expi (2 * Real.pi * t * nu0 + -phi) * a) else
          ((Real.exp (t * (-2 / d)) * Real.cos (2 * Real.pi * t * nu0 + -phi) * a : ℝ) : ℂ)) *
        Complex.exp (-2 * Real.pi * Complex.I * nu * t) = z := by
  obtain ⟨hi, he, hv⟩ := exp_part nu nu0 d phi hd
  obtain ⟨hi', he', hv'⟩ := exp_part nu (-nu0) d (-phi) hd
  have e1 : ∀ t : ℝ, ((Real.exp (t * (-2 / d)) : ℝ) : ℂ) = Complex.exp (-2 / d * t) := by
    intro t
    rw [Complex.ofReal_exp]; congr 1; push_cast; ring
  have e2 : ∀ t : ℝ, expi (2 * Real.pi * t * nu0 + -phi) =
      Complex.exp (Complex.I * (2 * Real.pi * t * nu0 - phi)) := by
    intro t
    unfold expi; congr 2; push_cast; ring
  have e3 : ∀ t : ℝ, ((Real.cos (2 * Real.pi * t * nu0 + -phi) : ℝ) : ℂ) =
      (Complex.exp (Complex.I * (2 * Real.pi * t * nu0 - phi)) +
        Complex.exp (Complex.I * (2 * Real.pi * t * ((-nu0 : ℝ) : ℂ) - ((-phi : ℝ) : ℂ)))) / 2 := by
    intro t
    rw [Complex.ofReal_cos, Complex.cos]
    congr 2
    · congr 1; push_cast; ring
    · congr 1; push_cast; ring
  have hd0 : d ≠ 0 := hd.ne'
  cases half with
  | true =>
    have hf : (fun t : ℝ => (if true = true then (1 / 2 : ℂ) * ((Real.exp (t * (-2 / d)) : ℝ) *
          expi (2 * Real.pi * t * nu0 + -phi) * a) else
          ((Real.exp (t * (-2 / d)) * Real.cos (2 * Real.pi * t * nu0 + -phi) * a : ℝ) : ℂ)) *
        Complex.exp (-2 * Real.pi * Complex.I * nu * t)) =
        fun t : ℝ => (a / 2 : ℂ) * (Complex.exp (-2 / d * t) *
          Complex.exp (Complex.I * (2 * Real.pi * t * nu0 - phi)) *
          Complex.exp (-2 * Real.pi * Complex.I * nu * t)) := by
      funext t
      rw [if_pos rfl, e1, e2]; ring
    rw [hf]
    refine ⟨_, ?_, hi.const_mul _, rfl⟩
    rw [integral_const_mul, hv]
    unfold cosFt
    rw [if_neg hd0, he]
    simp
  | false =>
    have hf : (fun t : ℝ => (if false = true then (1 / 2 : ℂ) * ((Real.exp (t * (-2 / d)) : ℝ) *
          expi (2 * Real.pi * t * nu0 + -phi) * a) else
          ((Real.exp (t * (-2 / d)) * Real.cos (2 * Real.pi * t * nu0 + -phi) * a : ℝ) : ℂ)) *
        Complex.exp (-2 * Real.pi * Complex.I * nu * t)) =
        fun t : ℝ => (a / 2 : ℂ) * (Complex.exp (-2 / d * t) *
          Complex.exp (Complex.I * (2 * Real.pi * t * nu0 - phi)) *
          Complex.exp (-2 * Real.pi * Complex.I * nu * t) + Complex.exp (-2 / d * t) *
          Complex.exp (Complex.I * (2 * Real.pi * t * ((-nu0 : ℝ) : ℂ) - ((-phi : ℝ) : ℂ))) *
          Complex.exp (-2 * Real.pi * Complex.I * nu * t)) := by
      funext t
      rw [if_neg (by decide), Complex.ofReal_mul, Complex.ofReal_mul, e1, e3]; ring
    rw [hf]
    refine ⟨_, ?_, (hi.add hi').const_mul _, rfl⟩
    rw [integral_const_mul, integral_add hi hi', hv, hv']
    unfold cosFt
    have he'' : expFt (nu + nu0) (2 / d) = .ok (1 / (2 / d + 2 * Complex.I * Real.pi * (nu + nu0))) := by
      have := he'
      rw [sub_neg_eq_add] at this
      rw [this]; push_cast; ring_nf
    rw [if_neg hd0, he, he'']
    simp

/-- **C102.** For positive decays `_beat_ft` gives the Fourier transform of what `additive_synth` synthesises
from the two frequencies, decays, amplitudes and the *negated* phases (the second partial takes the values of
the first, and a frequency greater by 2 Hz, where they are missing): of the real signal, or, with `half`, of
half of the analytic signal.  The integral converges absolutely. -/
theorem C102_beat (draw : Nat → List ℝ) (nu nu1 a1 d1 phi1 : ℝ) (nu2 a2 d2 phi2 : Option ℝ) (half : Bool)
    (h1 : 0 < d1) (h2 : ∀ d, d2 = some d → 0 < d) :
    ∃ (z : ℂ) (x : ℝ → ℂ), beatFt nu nu1 a1 d1 phi1 nu2 a2 d2 phi2 half = .ok z ∧
      (∀ t, ∃ w, additiveSynth draw [t] [nu1, nu2.getD (nu1 + 2)] [d1, d2.getD d1] [a1, a2.getD a1]
        (.arr [-phi1, -(phi2.getD phi1)]) half = .ok w ∧
        match w, half with
        | .complex l, true => l = [2 * x t]
        | .real l, false => l.map (fun r : ℝ => (r : ℂ)) = [x t]
        | _, _ => False) ∧
      IntegrableOn (fun t : ℝ => x t * Complex.exp (-2 * Real.pi * Complex.I * nu * t)) (Ioi 0) ∧
      z = fourier x nu := by
  have h2' : 0 < d2.getD d1 := by
    cases d2 with
    | none => exact h1
    | some d => exact h2 d rfl
  unfold beatFt
  generalize d2.getD d1 = d2' at *
  generalize nu2.getD (nu1 + 2) = nu2' at *
  generalize a2.getD a1 = a2' at *
  generalize phi2.getD phi1 = phi2' at *
  obtain ⟨z1, e1, i1, v1⟩ := cosFt_spec nu nu1 a1 d1 phi1 h1 half
  obtain ⟨z2, e2, i2, v2⟩ := cosFt_spec nu nu2' a2' d2' phi2' h2' half
  have hz : ¬((0 : ℝ) = d1 ∨ (0 : ℝ) = d2') := by
    rintro (h | h)
    · exact h1.ne h
    · exact h2'.ne h
  refine ⟨z1 + z2, fun t => (if half then (1 / 2 : ℂ) * ((Real.exp (t * (-2 / d1)) : ℝ) *
          expi (2 * Real.pi * t * nu1 + -phi1) * a1) else
          ((Real.exp (t * (-2 / d1)) * Real.cos (2 * Real.pi * t * nu1 + -phi1) * a1 : ℝ) : ℂ)) +
          (if half then (1 / 2 : ℂ) * ((Real.exp (t * (-2 / d2')) : ℝ) *
          expi (2 * Real.pi * t * nu2' + -phi2') * a2') else
          ((Real.exp (t * (-2 / d2')) * Real.cos (2 * Real.pi * t * nu2' + -phi2') * a2' : ℝ) : ℂ)),
    ?_, ?_, ?_, ?_⟩
  · rw [e1, e2]
  · intro t
    cases half with
    | true =>
      refine ⟨.complex [((Real.exp (t * (-2 / d1)) : ℝ) : ℂ) * expi (2 * Real.pi * t * nu1 + -phi1) * a1 +
        ((Real.exp (t * (-2 / d2')) : ℝ) : ℂ) * expi (2 * Real.pi * t * nu2' + -phi2') * a2'], ?_, ?_⟩
      · simp [additiveSynth, synth, resolvePhases, broadcastTo, broadcastSize, synthSample, phaseRow, spread, hz]
      · simp only [if_true, List.cons.injEq, and_true]
        ring
    | false =>
      refine ⟨.real [Real.exp (t * (-2 / d1)) * Real.cos (2 * Real.pi * t * nu1 + -phi1) * a1 +
        Real.exp (t * (-2 / d2')) * Real.cos (2 * Real.pi * t * nu2' + -phi2') * a2'], ?_, ?_⟩
      · simp [additiveSynth, synth, resolvePhases, broadcastTo, broadcastSize, synthSample, phaseRow, spread, hz]
      · simp only [Bool.false_eq_true, if_false, List.map_cons, List.map_nil, Complex.ofReal_add]
  · have := i1.add i2
    refine this.congr_fun ?_ measurableSet_Ioi
    intro t _
    simp only [Pi.add_apply]
    ring
  · unfold fourier
    rw [← v1, ← v2, ← integral_add i1 i2]
    refine integral_congr_ae (Filter.Eventually.of_forall fun t => ?_)
    simp only
    ring

/-- **C102.** A decay of zero raises an error. -/
theorem C102_zero (nu nu1 a1 phi1 : ℝ) (nu2 a2 d2 phi2 : Option ℝ) (half : Bool) :
    beatFt nu nu1 a1 0 phi1 nu2 a2 d2 phi2 half = .error .zeroDivisionError := by
  unfold beatFt cosFt
  simp

/-- A case of `C102_beat`: a beat with the default second partial. -/
example : ∃ z, beatFt 50 49 1 (1 / 2) 0 none none none none false = .ok z ∧
    z = fourier (fun t => ((Real.exp (t * (-2 / (1 / 2))) * Real.cos (2 * Real.pi * t * 49) +
      Real.exp (t * (-2 / (1 / 2))) * Real.cos (2 * Real.pi * t * 51) : ℝ) : ℂ)) 50 := by
  obtain ⟨z, x, hz, hx, _, rfl⟩ := C102_beat (fun _ => []) 50 49 1 (1 / 2) 0 none none none none false
    (by norm_num) (by simp)
  refine ⟨_, hz, ?_⟩
  congr 1
  funext t
  obtain ⟨w, hw, h⟩ := hx t
  have hn : ¬((0 : ℝ) = 2⁻¹) := by norm_num
  simp [additiveSynth, synth, resolvePhases, broadcastTo, broadcastSize, synthSample, phaseRow, spread, hn] at hw
  subst hw
  simp only [List.map_cons, List.map_nil, List.cons.injEq, and_true] at h
  rw [← h]
  push_cast
  norm_num

/-- The phases of `_beat_ft` are lags: with the phases as they are, the transform is not that of the
synthesised signal. -/
theorem phase_is_lag : ∃ z, cosFt 0 0 1 2 (Real.pi / 2) true = .ok z ∧
    z ≠ fourier (fun t => 1 / 2 * ((Real.exp (t * (-2 / 2)) : ℝ) * expi (2 * Real.pi * t * 0 + Real.pi / 2) * 1)) 0 := by
  obtain ⟨z, hz, _, hv⟩ := cosFt_spec 0 0 1 2 (Real.pi / 2) (by norm_num) true
  obtain ⟨y, hy, _, hw⟩ := cosFt_spec 0 0 1 2 (-(Real.pi / 2)) (by norm_num) true
  refine ⟨z, hz, ?_⟩
  intro h
  have hyz : y = z := by
    rw [h, ← hw]
    unfold fourier
    refine integral_congr_ae (Filter.Eventually.of_forall fun t => ?_)
    simp
  have key : ∀ p : ℝ, cosFt 0 0 1 2 p true = .ok (1 / 2 * Complex.exp (-Complex.I * p)) := by
    intro p
    unfold cosFt expFt
    norm_num
  have ez := (key (Real.pi / 2)).symm.trans hz
  have ey := (key (-(Real.pi / 2))).symm.trans hy
  simp only [Except.ok.injEq] at ez ey
  rw [← ez, ← ey] at hyz
  have h1 : Complex.exp (-Complex.I * ((Real.pi / 2 : ℝ) : ℂ)) = -Complex.I := by
    rw [show -Complex.I * ((Real.pi / 2 : ℝ) : ℂ) = -(Real.pi / 2) * Complex.I by push_cast; ring,
      neg_mul, Complex.exp_neg, Complex.exp_pi_div_two_mul_I, Complex.inv_I]
  have h2 : Complex.exp (-Complex.I * ((-(Real.pi / 2) : ℝ) : ℂ)) = Complex.I := by
    rw [show -Complex.I * ((-(Real.pi / 2) : ℝ) : ℂ) = (Real.pi / 2) * Complex.I by push_cast; ring,
      Complex.exp_pi_div_two_mul_I]
  rw [h1, h2] at hyz
  have := congrArg Complex.im hyz
  norm_num at this

/-! ## C103: extrema and zero crossings -/

section
variable {K : Type*}

/-- The marks of the samples that are not at an end. -/
def inner (cmp : K → K → Bool) : List K → List Bool
  | x :: y :: z :: r => (cmp y x && cmp y z) :: inner cmp (y :: z :: r)
  | _ => []

theorem inner_length (cmp : K → K → Bool) : ∀ a : List K, (inner cmp a).length = a.length - 2
  | [] => rfl
  | [_] => rfl
  | [_, _] => rfl
  | x :: y :: z :: r => by
    have := inner_length cmp (y :: z :: r)
    simp only [inner, List.length_cons, this]
    omega

theorem inner_get (cmp : K → K → Bool) : ∀ (a : List K) (i : Nat) (x y z : K), a[i]? = some x →
    a[i + 1]? = some y → a[i + 2]? = some z → (inner cmp a)[i]? = some (cmp y x && cmp y z)
  | x :: y :: z :: r, 0, _, _, _, h1, h2, h3 => by
    simp at h1 h2 h3; subst h1 h2 h3; rfl
  | x :: y :: z :: r, i + 1, _, _, _, h1, h2, h3 => by
    have := inner_get cmp (y :: z :: r) i _ _ _ (by simpa using h1) (by simpa using h2) (by simpa using h3)
    simpa [inner] using this
  | [], i, _, _, _, h1, _, _ => by simp at h1
  | [_], i, _, _, _, _, h2, _ => by simp at h2
  | [_, _], i, _, _, _, _, _, h3 => by simp at h3

theorem inner_eq (cmp : K → K → Bool) (a : List K) :
    List.zipWith (· && ·) (List.zipWith cmp (a.tail.take (a.length - 2)) (a.take (a.length - 2)))
      (List.zipWith cmp (a.tail.take (a.length - 2)) (a.drop 2)) = inner cmp a := by
  induction a with
  | nil => rfl
  | cons x l ih =>
    match l with
    | [] => rfl
    | [_] => rfl
    | y :: z :: r =>
      rw [show (x :: y :: z :: r).length - 2 = r.length + 1 by simp]
      rw [show (y :: z :: r).length - 2 = r.length by simp] at ih
      simp only [List.tail_cons, List.drop_succ_cons, List.drop_zero, List.take_succ_cons,
        List.zipWith_cons_cons] at ih ⊢
      rw [inner, ← ih]

theorem slice_mid {α : Type*} (a : List α) :
    Np.slice a (some 1) (some (-1)) = a.tail.take (a.length - 2) := by
  cases a with
  | nil => rfl
  | cons x l =>
    simp only [Np.slice, Np.lower, Np.upper, Np.bound]
    simp

theorem slice_two {α : Type*} (a : List α) : Np.slice a (some 2) none = a.drop 2 := by
  simp only [Np.slice, Np.lower, Np.upper, Np.bound]
  match a with
  | [] => rfl
  | [_] => rfl
  | _ :: _ :: _ => simp

theorem slice_pre {α : Type*} (a : List α) : Np.slice a none (some (-2)) = a.take (a.length - 2) := by
  simp only [Np.slice, Np.lower, Np.upper, Np.bound]
  norm_num
  congr 1
  omega

theorem mid_length {α : Type*} (a : List α) : (a.tail.take (a.length - 2)).length = a.length - 2 := by
  simp; omega

theorem assign_mid {α : Type*} (l src : List α) (h : src.length = l.length - 2) :
    Np.assign l (some 1) (some (-1)) src = .ok (l.take 1 ++ src ++ l.drop (1 + (l.length - 2))) := by
  cases l with
  | nil => 
    have : src = [] := by simpa using h
    subst this
    rfl
  | cons x l =>
    have hb : Np.upper (x :: l).length (some (-1)) = l.length := by
      simp [Np.upper, Np.bound]
    have ha : Np.lower (x :: l).length (some 1) = 1 := by
      simp [Np.lower, Np.bound]
    unfold Np.assign
    simp only [ha, hb]
    simp only [List.length_cons] at h ⊢
    rw [if_pos (by omega), show l.length + 1 - 2 = l.length - 1 by omega]

theorem drop_last {α : Type*} (l : List α) (h : 2 ≤ l.length) :
    ∃ e, l.drop (1 + (l.length - 2)) = [e] := by
  rw [← List.length_eq_one_iff, List.length_drop]
  omega

theorem clearEnds_mid (l c : List Bool) (h : 2 ≤ l.length) :
    clearEnds (l.take 1 ++ c ++ l.drop (1 + (l.length - 2))) = .ok (false :: c ++ [false]) := by
  obtain ⟨e, he⟩ := drop_last l h
  rw [he]
  match l, h with
  | u :: v :: w, _ =>
    simp only [clearEnds, List.take_succ_cons, List.take_zero, List.cons_append, List.nil_append,
      List.length_cons, List.length_append, List.length_nil, List.set_cons_zero]
    rw [if_neg (by omega)]
    simp

/-- All the marks. -/
def marks (cmp : K → K → Bool) : List K → Except PyErr (List Bool)
  | [] => .error .indexError
  | [_] => .ok [false]
  | x :: y :: r => .ok (false :: inner cmp (x :: y :: r) ++ [false])

/-- The marks as a list. -/
theorem findExtrema_eq (cmp : K → K → Bool) (mem : List Bool) (a : List K) (h : mem.length = a.length) :
    findExtrema cmp mem a = marks cmp a := by
  have hm := mid_length a
  unfold findExtrema
  rw [slice_mid, slice_two, slice_pre]
  unfold Np.binop
  rw [if_pos (by rw [hm]; simp)]
  have h1 : (List.zipWith cmp (a.tail.take (a.length - 2)) (a.drop 2)).length = mem.length - 2 := by
    simp; omega
  have h2 : (List.zipWith cmp (a.tail.take (a.length - 2)) (a.take (a.length - 2))).length =
      mem.length - 2 := by
    simp; omega
  simp only
  rw [assign_mid _ _ h1]
  simp only
  rw [if_pos (by rw [hm]; simp)]
  simp only
  have hs : Np.slice (mem.take 1 ++ List.zipWith cmp (a.tail.take (a.length - 2)) (a.drop 2) ++
      mem.drop (1 + (mem.length - 2))) (some 1) (some (-1)) =
      List.zipWith cmp (a.tail.take (a.length - 2)) (a.drop 2) := by
    rw [slice_mid]
    generalize List.zipWith cmp (a.tail.take (a.length - 2)) (a.drop 2) = m at h1
    match mem with
    | [] => simp at h1; subst h1; rfl
    | [u] => simp at h1; subst h1; rfl
    | u :: v :: w =>
      obtain ⟨e, he⟩ := drop_last (u :: v :: w) (by simp)
      rw [he]
      simp at h1
      simp [h1]
  rw [hs, if_pos (by rw [h1, h2])]
  simp only
  rw [inner_eq]
  have hl : (mem.take 1 ++ List.zipWith cmp (a.tail.take (a.length - 2)) (a.drop 2) ++
      mem.drop (1 + (mem.length - 2))).length = mem.length := by
    simp only [List.length_append, h1, List.length_take, List.length_drop]; omega
  rw [assign_mid _ _ (by rw [hl, inner_length, h])]
  simp only
  match a, mem, h with
  | [], [], _ => rfl
  | [x], [u], _ => rfl
  | x :: y :: r, u :: v :: w, h =>
    have h2 : 2 ≤ (List.take 1 (u :: v :: w) ++
          List.zipWith cmp (List.take ((x :: y :: r).length - 2) (x :: y :: r).tail) (List.drop 2 (x :: y :: r)) ++
        List.drop (1 + ((u :: v :: w).length - 2)) (u :: v :: w)).length := by
      rw [hl]; simp
    rw [clearEnds_mid _ _ h2]
    rfl

theorem range_get (f : Nat → K) (n i : Nat) (h : i < n) : ((List.range n).map f)[i]? = some (f i) := by
  simp [h]

/-- **C103.** Of the samples `f 0, …, f (n-1)` those are marked that are not at an end and compare (strictly,
for `np.greater` and `np.less`) with both neighbours, whatever the memory held; there is a mark for each
sample. -/
theorem C103_extrema (cmp : K → K → Bool) (mem : List Bool) (f : Nat → K) (n : Nat) (hm : mem.length = n)
    (hn : 0 < n) :
    ∃ b, findExtrema cmp mem ((List.range n).map f) = .ok b ∧ b.length = n ∧
      ∀ i, b[i]? = some true ↔ 0 < i ∧ i + 1 < n ∧ cmp (f i) (f (i - 1)) = true ∧ cmp (f i) (f (i + 1)) = true := by
  have hl : ((List.range n).map f).length = n := by simp
  have he := findExtrema_eq cmp mem ((List.range n).map f) (by rw [hl, hm])
  match n, hn with
  | 1, _ =>
    refine ⟨[false], he, rfl, ?_⟩
    intro i
    cases i with
    | zero => simp
    | succ i => simp
  | n + 2, _ =>
    refine ⟨false :: inner cmp ((List.range (n + 2)).map f) ++ [false], ?_, ?_, ?_⟩
    · rw [he]
      rw [show (List.range (n + 2)).map f = f 0 :: f 1 :: (List.range n).map (fun i => f (i + 2)) by
        rw [List.range_succ_eq_map, List.range_succ_eq_map]
        simp [Function.comp_def]]
      rfl
    · simp [inner_length]
    · intro i
      cases i with
      | zero => simp
      | succ i =>
        rw [List.cons_append, List.getElem?_cons_succ]
        by_cases hi : i < n
        · rw [List.getElem?_append_left (by simp [inner_length, hi]),
            inner_get cmp _ i _ _ _ (range_get f _ i (by omega)) (range_get f _ (i + 1) (by omega))
              (range_get f _ (i + 2) (by omega))]
          simp [hi]
        · rw [List.getElem?_append_right (by simp [inner_length]; omega)]
          simp only [inner_length, hl]
          constructor
          · intro h
            exfalso
            rcases Nat.eq_zero_or_pos (i - (n + 2 - 2)) with h0 | h0
            · rw [h0] at h; simp at h
            · rw [List.getElem?_eq_none (by simp; omega)] at h
              simp at h
          · rintro ⟨_, h, _⟩
            omega

/-- **C103.** No samples: an error. -/
theorem C103_empty [Zero K] [LT K] [DecidableLT K] (cmp : K → K → Bool) :
    findExtrema cmp [] [] = .error .indexError ∧ findZerox ([] : List K) = .error .indexError := by
  constructor <;> rfl

/-! ### Zero crossings -/

/-- The marks of the zero crossings as a list. -/
theorem findZerox_eq [Zero K] [LT K] [DecidableLT K] (x : K) (l : List K) :
    findZerox (x :: l) = .ok (false :: List.zipWith (fun p q => p != q) (l.map fun y => decide (0 < y))
      (((x :: l).map fun y => decide (0 < y)).take l.length)) := by
  have h1 : ∀ b : List Bool, b.length = l.length + 1 → Np.slice b (some 1) none = b.tail := by
    intro b hb
    cases b with
    | nil => simp at hb
    | cons u b => simp [Np.slice, Np.lower, Np.upper, Np.bound]
  have h2 : ∀ b : List Bool, b.length = l.length + 1 → Np.slice b none (some (-1)) = b.take l.length := by
    intro b hb
    simp [Np.slice, Np.lower, Np.upper, Np.bound, hb]
  unfold findZerox
  rw [h1 _ (by simp), h2 _ (by simp)]
  simp only [List.map_cons, List.tail_cons]
  unfold Np.binop
  rw [if_pos (by simp)]
  simp only
  unfold Np.assign
  have hlo : Np.lower (decide (0 < x) :: l.map fun y => decide (0 < y)).length (some 1) = 1 := by
    simp [Np.lower, Np.bound]
  simp only [hlo, Np.upper]
  rw [if_pos (by simp)]
  simp [clearFirst]

/-- **C103.** A sample is marked when the one before it is on the other side (positive or not); there is a
mark for each sample. -/
theorem C103_zerox [Zero K] [LT K] [DecidableLT K] (f : Nat → K) (n : Nat) (hn : 0 < n) :
    ∃ b, findZerox ((List.range n).map f) = .ok b ∧ b.length = n ∧
      ∀ i, b[i]? = some true ↔ 0 < i ∧ i < n ∧ ¬(0 < f i ↔ 0 < f (i - 1)) := by
  obtain ⟨n, rfl⟩ : ∃ m, n = m + 1 := ⟨n - 1, by omega⟩
  have hl : (List.range (n + 1)).map f = f 0 :: (List.range n).map (fun i => f (i + 1)) := by
    rw [List.range_succ_eq_map]; simp [Function.comp_def]
  refine ⟨_, by rw [hl]; exact findZerox_eq _ _, by simp, ?_⟩
  intro i
  cases i with
  | zero => simp
  | succ i =>
    rw [List.getElem?_cons_succ, ← hl]
    by_cases hi : i < n
    · have hi' : i < n + 1 := by omega
      rw [List.getElem?_zipWith]
      simp only [List.length_map, List.length_range, List.getElem?_map, List.getElem?_take, hi, hi',
        List.getElem?_range, Option.map_some, if_true]
      simp [hi, hi']
    · rw [List.getElem?_eq_none (by simp; omega)]
      simp; omega

end

/-! ### What the marks say about each other -/

section
variable {K : Type*} [LinearOrder K]

/-- A least sample between two. -/
theorem exists_least (f : Nat → K) (i j : Nat) (h : i ≤ j) :
    ∃ k, i ≤ k ∧ k ≤ j ∧ ∀ m, i ≤ m → m ≤ j → f k ≤ f m := by
  induction j, h using Nat.le_induction with
  | base => exact ⟨i, le_refl _, le_refl _, fun m h1 h2 => by rw [le_antisymm h1 h2]⟩
  | succ j hj ih =>
    obtain ⟨k, h1, h2, h3⟩ := ih
    rcases le_total (f k) (f (j + 1)) with h | h
    · refine ⟨k, h1, by omega, fun m hm hm' => ?_⟩
      rcases Nat.lt_or_ge j m with hlt | hge
      · rw [show m = j + 1 by omega]; exact h
      · exact h3 m hm hge
    · refine ⟨j + 1, by omega, le_refl _, fun m hm hm' => ?_⟩
      rcases Nat.lt_or_ge j m with hlt | hge
      · rw [show m = j + 1 by omega]
      · exact h.trans (h3 m hm hge)

/-- Strictly between two samples that are greater than the inner neighbours there is a strict minimum. -/
theorem between_min (f : Nat → K) (i j : Nat) (hij : i < j) (hne : ∀ m, i ≤ m → m < j → f m ≠ f (m + 1))
    (hi : f (i + 1) < f i) (hj : f (j - 1) < f j) :
    ∃ k, i < k ∧ k < j ∧ f k < f (k - 1) ∧ f k < f (k + 1) := by
  obtain ⟨k, h1, h2, h3⟩ := exists_least f i j hij.le
  have k1 : k ≠ i := by
    rintro rfl
    exact absurd (h3 (k + 1) (by omega) (by omega)) (not_le.2 hi)
  have k2 : k ≠ j := by
    rintro rfl
    exact absurd (h3 (k - 1) (by omega) (by omega)) (not_le.2 hj)
  refine ⟨k, by omega, by omega, lt_of_le_of_ne (h3 _ (by omega) (by omega)) ?_,
    lt_of_le_of_ne (h3 _ (by omega) (by omega)) (hne k (by omega) (by omega))⟩
  have := hne (k - 1) (by omega) (by omega)
  rw [show k - 1 + 1 = k by omega] at this
  exact this.symm

/-- The same, for maxima. -/
theorem between_max (f : Nat → K) (i j : Nat) (hij : i < j) (hne : ∀ m, i ≤ m → m < j → f m ≠ f (m + 1))
    (hi : f i < f (i + 1)) (hj : f j < f (j - 1)) :
    ∃ k, i < k ∧ k < j ∧ f (k - 1) < f k ∧ f (k + 1) < f k :=
  between_min (K := Kᵒᵈ) f i j hij hne hi hj

/-- **C103.** When no two neighbouring samples are equal, there is a marked minimum between two marked maxima
and a marked maximum between two marked minima. -/
theorem C103_alternate (mem mem' : List Bool) (f : Nat → K) (n : Nat) (hm : mem.length = n)
    (hm' : mem'.length = n) (hn : 0 < n) (hne : ∀ m, m + 1 < n → f m ≠ f (m + 1)) :
    ∃ maxima minima, findExtrema (fun x y => decide (x > y)) mem ((List.range n).map f) = .ok maxima ∧
      findExtrema (fun x y => decide (x < y)) mem' ((List.range n).map f) = .ok minima ∧
      (∀ i j : Nat, i < j → maxima[i]? = some true → maxima[j]? = some true →
        ∃ k, i < k ∧ k < j ∧ minima[k]? = some true) ∧
      (∀ i j : Nat, i < j → minima[i]? = some true → minima[j]? = some true →
        ∃ k, i < k ∧ k < j ∧ maxima[k]? = some true) := by
  obtain ⟨p, hp, -, hp'⟩ := C103_extrema (fun x y : K => decide (x > y)) mem f n hm hn
  obtain ⟨q, hq, -, hq'⟩ := C103_extrema (fun x y : K => decide (x < y)) mem' f n hm' hn
  refine ⟨p, q, hp, hq, ?_, ?_⟩
  · intro i j hij hi hj
    obtain ⟨i1, i2, i3, i4⟩ := (hp' i).1 hi
    obtain ⟨j1, j2, j3, j4⟩ := (hp' j).1 hj
    obtain ⟨k, k1, k2, k3, k4⟩ := between_min f i j hij (fun m _ h => hne m (by omega))
      (by simpa using i4) (by simpa using j3)
    exact ⟨k, k1, k2, (hq' k).2 ⟨by omega, by omega, by simpa using k3, by simpa using k4⟩⟩
  · intro i j hij hi hj
    obtain ⟨i1, i2, i3, i4⟩ := (hq' i).1 hi
    obtain ⟨j1, j2, j3, j4⟩ := (hq' j).1 hj
    obtain ⟨k, k1, k2, k3, k4⟩ := between_max f i j hij (fun m _ h => hne m (by omega))
      (by simpa using i4) (by simpa using j3)
    exact ⟨k, k1, k2, (hp' k).2 ⟨by omega, by omega, by simpa using k3, by simpa using k4⟩⟩

/-- **C103.** When no two neighbouring samples are equal, there is a marked extremum between two zero
crossings: a maximum when the signal is positive from the first crossing on up to the second, else a minimum. -/
theorem C103_crossings [Zero K] (mem mem' : List Bool) (f : Nat → K) (n : Nat) (hm : mem.length = n)
    (hm' : mem'.length = n) (hn : 0 < n) (hne : ∀ m, m + 1 < n → f m ≠ f (m + 1)) :
    ∃ maxima minima zerox, findExtrema (fun x y => decide (x > y)) mem ((List.range n).map f) = .ok maxima ∧
      findExtrema (fun x y => decide (x < y)) mem' ((List.range n).map f) = .ok minima ∧
      findZerox ((List.range n).map f) = .ok zerox ∧
      (∀ i j : Nat, i < j → zerox[i]? = some true → zerox[j]? = some true →
        0 < f i → 0 < f (j - 1) → ∃ k, i ≤ k ∧ k < j ∧ maxima[k]? = some true) ∧
      (∀ i j : Nat, i < j → zerox[i]? = some true → zerox[j]? = some true →
        ¬0 < f i → ¬0 < f (j - 1) → ∃ k, i ≤ k ∧ k < j ∧ minima[k]? = some true) := by
  obtain ⟨p, hp, -, hp'⟩ := C103_extrema (fun x y : K => decide (x > y)) mem f n hm hn
  obtain ⟨q, hq, -, hq'⟩ := C103_extrema (fun x y : K => decide (x < y)) mem' f n hm' hn
  obtain ⟨z, hz, -, hz'⟩ := C103_zerox f n hn
  refine ⟨p, q, z, hp, hq, hz, ?_, ?_⟩
  · intro i j hij hi hj fi fj
    obtain ⟨i1, i2, i3⟩ := (hz' i).1 hi
    obtain ⟨j1, j2, j3⟩ := (hz' j).1 hj
    have u : f (i - 1) < f i := by
      refine lt_of_le_of_lt (not_lt.1 fun h => i3 ⟨fun _ => h, fun _ => fi⟩) fi
    have v : f j < f (j - 1) := by
      refine lt_of_le_of_lt (not_lt.1 fun h => j3 ⟨fun _ => fj, fun _ => h⟩) fj
    obtain ⟨k, k1, k2, k3, k4⟩ := between_max f (i - 1) j (by omega) (fun m _ h => hne m (by omega))
      (by rw [show i - 1 + 1 = i by omega]; exact u) v
    exact ⟨k, by omega, k2, (hp' k).2 ⟨by omega, by omega, by simpa using k3, by simpa using k4⟩⟩
  · intro i j hij hi hj fi fj
    obtain ⟨i1, i2, i3⟩ := (hz' i).1 hi
    obtain ⟨j1, j2, j3⟩ := (hz' j).1 hj
    have u' : 0 < f (i - 1) := by
      by_contra h
      exact i3 ⟨fun h' => absurd h' fi, fun h' => absurd h' h⟩
    have v' : 0 < f j := by
      by_contra h
      exact j3 ⟨fun h' => absurd h' h, fun h' => absurd h' fj⟩
    obtain ⟨k, k1, k2, k3, k4⟩ := between_min f (i - 1) j (by omega) (fun m _ h => hne m (by omega))
      (by rw [show i - 1 + 1 = i by omega]; exact (not_lt.1 fi).trans_lt u') ((not_lt.1 fj).trans_lt v')
    exact ⟨k, by omega, k2, (hq' k).2 ⟨by omega, by omega, by simpa using k3, by simpa using k4⟩⟩

/-- The number of marks up to a sample tells its side. -/
theorem parity_aux [Zero K] (b : List Bool) (f : Nat → K) (n : Nat)
    (hb : ∀ i, b[i]? = some true ↔ 0 < i ∧ i < n ∧ ¬(0 < f i ↔ 0 < f (i - 1))) (i j : Nat) (hij : i ≤ j)
    (hj : j < n) :
    (((List.range (j + 1)).filter fun k => i < k ∧ b[k]? = some true).length % 2 = 1 ↔
      ¬(0 < f i ↔ 0 < f j)) := by
  induction j, hij using Nat.le_induction with
  | base =>
    have : (List.range (i + 1)).filter (fun k => i < k ∧ b[k]? = some true) = [] := by
      rw [List.filter_eq_nil_iff]
      intro k hk
      have := List.mem_range.1 hk
      simp; omega
    rw [this]; simp
  | succ j hij ih =>
    have ih := ih (by omega)
    rw [List.range_succ, List.filter_append, List.length_append]
    have hk := hb (j + 1)
    simp only [Nat.add_sub_cancel] at hk
    by_cases h : b[j + 1]? = some true
    · have h' := (hk.1 h).2.2
      have : (List.filter (fun k => decide (i < k ∧ b[k]? = some true)) [j + 1]).length = 1 := by
        have hlt : i < j + 1 := by omega
        simp [h, hlt]
      rw [this]
      have : (((List.range (j + 1)).filter fun k => i < k ∧ b[k]? = some true).length + 1) % 2 = 1 ↔
          ¬ ((List.range (j + 1)).filter fun k => i < k ∧ b[k]? = some true).length % 2 = 1 := by omega
      rw [this, ih]
      by_cases x : 0 < f i <;> by_cases y : 0 < f j <;> by_cases z : 0 < f (j + 1) <;>
        simp_all only [iff_true, iff_false, not_true, not_false_iff, true_iff, false_iff]
    · have h' : (0 < f (j + 1) ↔ 0 < f j) := by
        by_contra hc
        exact h (hk.2 ⟨by omega, hj, hc⟩)
      have : (List.filter (fun k => decide (i < k ∧ b[k]? = some true)) [j + 1]).length = 0 := by
        simp [h]
      rw [this, Nat.add_zero, ih, h']

/-- **C103.** Two samples are on different sides of zero exactly when the number of marked crossings after the
first and up to the second is odd. -/
theorem C103_parity [Zero K] (f : Nat → K) (n : Nat) (hn : 0 < n) :
    ∃ b, findZerox ((List.range n).map f) = .ok b ∧ ∀ i j, i ≤ j → j < n →
      (((List.range (j + 1)).filter fun k => i < k ∧ b[k]? = some true).length % 2 = 1 ↔
        ¬(0 < f i ↔ 0 < f j)) := by
  obtain ⟨b, h, -, hb⟩ := C103_zerox f n hn
  exact ⟨b, h, fun i j hij hj => parity_aux b f n hb i j hij hj⟩

end

/-- A signal with two maxima, a minimum and three crossings; the memory held marks everywhere. -/
example : (findExtrema (fun x y : ℚ => decide (x > y)) [true, true, true, true, true, true] [-1, 2, -3, 1, 4, -2]).toOption =
      some [false, true, false, false, true, false] ∧
    (findExtrema (fun x y : ℚ => decide (x < y)) [true, true, true, true, true, true] [-1, 2, -3, 1, 4, -2]).toOption =
      some [false, false, true, false, false, false] ∧
    (findZerox ([-1, 2, -3, 1, 4, -2] : List ℚ)).toOption = some [false, true, true, true, false, true] := by
  decide +kernel

/-- With equal neighbours there are two maxima without a minimum between them. -/
theorem flat_minimum : ∃ a : List ℚ, (findExtrema (fun x y : ℚ => decide (x > y)) [false, false, false, false, false, false] a).toOption =
      some [false, true, false, false, true, false] ∧
    (findExtrema (fun x y : ℚ => decide (x < y)) [false, false, false, false, false, false] a).toOption =
      some [false, false, false, false, false, false] :=
  ⟨[0, 2, 1, 1, 2, 0], by decide +kernel⟩

end Verif.Scripts
