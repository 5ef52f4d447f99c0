import Mathlib.Analysis.SpecialFunctions.Trigonometric.Bounds
import Verif.Beat.ResidualModel
import Verif.Beat.RegressionProps

/-!
# C117: the residuals of `BeatRegression`
-/

set_option autoImplicit false
set_option linter.unusedSectionVars false
set_option linter.unusedSimpArgs false

namespace Verif.Beat

open Verif.Out

/-! ## Interpolation of equidistant values -/

theorem interp_uniform (F : ℝ → ℝ) (fs : ℝ) (hfs : 0 < fs) (x : ℝ) (n : Nat) : ∀ s : Nat, ∃ y,
    Sms.interp x ((List.range' s (n + 1)).map fun (k : Nat) => ((k : ℝ) / fs, F ((k : ℝ) / fs))) = .ok y ∧
    (x ≤ (s : ℝ) / fs → y = F ((s : ℝ) / fs)) ∧
    (((s + n : Nat) : ℝ) / fs ≤ x → y = F (((s + n : Nat) : ℝ) / fs)) ∧
    ∀ k : Nat, s ≤ k → k < s + n → (k : ℝ) / fs ≤ x → x ≤ ((k : ℝ) + 1) / fs →
      y = F ((k : ℝ) / fs) + (F (((k : ℝ) + 1) / fs) - F ((k : ℝ) / fs)) * (x * fs - k) := by
  induction n with
  | zero =>
    intro s
    refine ⟨F ((s : ℝ) / fs), by simp [List.range', Sms.interp], fun _ => rfl, fun _ => by simp, ?_⟩
    intro k h1 h2
    omega
  | succ n ih =>
    intro s
    have hlist : (List.range' s (n + 1 + 1)).map (fun (k : Nat) => ((k : ℝ) / fs, F ((k : ℝ) / fs))) =
        ((s : ℝ) / fs, F ((s : ℝ) / fs)) ::
          ((((s + 1 : Nat) : ℝ) / fs, F (((s + 1 : Nat) : ℝ) / fs)) ::
            (List.range' (s + 1 + 1) n).map fun (k : Nat) => ((k : ℝ) / fs, F ((k : ℝ) / fs))) := by
      simp [List.range'_succ]
    have hstep : (s : ℝ) / fs < ((s + 1 : Nat) : ℝ) / fs := by
      rw [div_lt_div_iff_of_pos_right hfs]; push_cast; linarith
    rw [hlist, Sms.interp]
    by_cases hx : x < ((s + 1 : Nat) : ℝ) / fs
    · rw [if_pos hx]
      have hlast : ¬ ((s + (n + 1) : Nat) : ℝ) / fs ≤ x := by
        intro hc
        have : ((s + 1 : Nat) : ℝ) / fs ≤ ((s + (n + 1) : Nat) : ℝ) / fs := by
          rw [div_le_div_iff_of_pos_right hfs]; push_cast
          have : (0 : ℝ) ≤ n := Nat.cast_nonneg n
          linarith
        linarith
      have hk : ∀ k : Nat, s ≤ k → (k : ℝ) / fs ≤ x → k = s := by
        intro k h1 h2
        by_contra hne
        have : ((s + 1 : Nat) : ℝ) / fs ≤ (k : ℝ) / fs := by
          rw [div_le_div_iff_of_pos_right hfs]
          exact_mod_cast (by omega : s + 1 ≤ k)
        linarith
      by_cases hx0 : x ≤ (s : ℝ) / fs
      · rw [if_pos hx0]
        refine ⟨_, rfl, fun _ => rfl, fun h => absurd h hlast, ?_⟩
        intro k h1 _ h3 _
        have := hk k h1 h3
        subst this
        have e : x = (k : ℝ) / fs := le_antisymm hx0 h3
        have : x * fs = k := by rw [e]; field_simp
        rw [this]; ring
      · rw [if_neg hx0]
        refine ⟨_, rfl, fun h => absurd h hx0, fun h => absurd h hlast, ?_⟩
        intro k h1 _ h3 _
        have := hk k h1 h3
        subst this
        push_cast
        field_simp
        ring
    · rw [if_neg hx]
      have hx' := not_lt.mp hx
      obtain ⟨y, i1, i2, i3, i4⟩ := ih (s + 1)
      rw [List.range'_succ, List.map_cons] at i1
      refine ⟨y, i1, fun h => by linarith, ?_, ?_⟩
      · rw [show s + (n + 1) = s + 1 + n by omega]; exact i3
      · intro k h1 h2 h3 h4
        rcases Nat.eq_or_lt_of_le h1 with h1 | h1
        · subst h1
          have e : x = ((s : ℝ) + 1) / fs := le_antisymm h4 (by push_cast at hx'; exact hx')
          have := i2 (by rw [e]; push_cast; exact le_refl _)
          rw [this]
          have : x * fs = s + 1 := by rw [e]; field_simp
          rw [this]; push_cast; ring
        · exact i4 k h1 (by omega) h3 h4

theorem finite_some (l : List ℝ) : finite (l.map some) = some l := by
  induction l with
  | nil => rfl
  | cons x l ih => simp [finite, ih]

theorem interpAll_ok (u v : List ℝ) (est : ℝ → ℝ) (h : ∀ x, Sms.interp x (u.zip v) = .ok (est x))
    (xs : List ℝ) : interpAll u (v.map some) xs = .ok (xs.map fun x => some (est x)) := by
  induction xs with
  | nil => rfl
  | cons x xs ih => simp [interpAll, finite_some, h, ih]

theorem modelAxis_lt (fs m : ℝ) (k : Nat) (hfs : 0 < fs) :
    k < ⌈m * fs⌉.toNat ↔ (k : ℝ) / fs < m := by
  rw [Int.lt_toNat, Int.lt_ceil, div_lt_iff₀ hfs]
  simp

/-- The amplitudes of the model on its own time axis. -/
theorem am_octet (p : Octet ℝ) (u : List ℝ) :
    (octetBeat p).am (.ar (u.map some)) = .ok (.ar ((ampTrack p u).map some)) := by
  have ham := am_ar (octetBeat p) u (octetBeat_fit p)
  have e1 : (u.map fun t => some (Real.sqrt (vAlpha2 (octetBeat p) t) * 2)) =
      (ampTrack p u).map some := by
    rw [ampTrack, List.map_map]
    apply List.map_congr_left
    intro t _
    rw [two_sqrt, octetBeat_z]
    rfl
  rw [e1] at ham
  exact ham

/-- What the residual function compares the amplitudes with: linear interpolation of the amplitudes
`F` at the times `0, 1 / fs, 2 / fs …` before `m`. -/
structure Interpolates (F : ℝ → ℝ) (fs m : ℝ) (est : ℝ → ℝ) : Prop where
  /-- no extrapolation before zero -/
  before : ∀ s, s ≤ 0 → est s = F 0
  /-- between two times of the axis -/
  between : ∀ (k : Nat) (s : ℝ), ((k : ℝ) + 1) / fs < m → (k : ℝ) / fs ≤ s → s ≤ ((k : ℝ) + 1) / fs →
    est s = F ((k : ℝ) / fs) + (F (((k : ℝ) + 1) / fs) - F ((k : ℝ) / fs)) * (s * fs - k)
  /-- no extrapolation after the last time of the axis -/
  after : ∀ (k : Nat) (s : ℝ), (k : ℝ) / fs < m → m ≤ ((k : ℝ) + 1) / fs → (k : ℝ) / fs ≤ s →
    est s = F ((k : ℝ) / fs)

theorem interp_model (F : ℝ → ℝ) (fs m : ℝ) (hfs : 0 < fs) (hm : 0 < m) :
    ∃ est : ℝ → ℝ, Interpolates F fs m est ∧
      ∀ x, Sms.interp x ((modelAxis fs m).zip ((modelAxis fs m).map F)) = .ok (est x) := by
  obtain ⟨n, hn⟩ : ∃ n, ⌈m * fs⌉.toNat = n + 1 := by
    have : 0 < ⌈m * fs⌉.toNat := (modelAxis_lt fs m 0 hfs).mpr (by simpa using hm)
    exact ⟨⌈m * fs⌉.toNat - 1, by omega⟩
  have hz : (modelAxis fs m).zip ((modelAxis fs m).map F) =
      (List.range' 0 (n + 1)).map fun (k : Nat) => ((k : ℝ) / fs, F ((k : ℝ) / fs)) := by
    rw [modelAxis, hn, List.map_map, List.zip_map', List.range_eq_range']
    rfl
  have hy := fun x => interp_uniform F fs hfs x n 0
  choose est he using hy
  refine ⟨est, ⟨?_, ?_, ?_⟩, fun x => by rw [hz]; exact (he x).1⟩
  · intro s hs
    have := (he s).2.1 (by simpa using hs)
    simpa using this
  · intro k s h1 h2 h3
    apply (he s).2.2.2 k (Nat.zero_le _) _ h2 h3
    have := (modelAxis_lt fs m (k + 1) hfs).mpr (by push_cast; exact h1)
    omega
  · intro k s h1 h2 h3
    have a1 := (modelAxis_lt fs m k hfs).mpr h1
    have a2 : ¬ k + 1 < ⌈m * fs⌉.toNat := by
      rw [modelAxis_lt fs m (k + 1) hfs]; push_cast; linarith
    have : k = 0 + n := by omega
    rw [this] at h3 ⊢
    exact (he s).2.2.1 h3

/-- The residual function with the interpolated amplitudes. -/
theorem residualFn_eq (fs : ℝ) (hfs : 0 < fs) (t : TimeAxis) (a : List ℝ) (m : ℝ) (hm : m ∈ t.times)
    (hmax : ∀ s ∈ t.times, s ≤ m) (hpos : 0 < m) (p : Octet ℝ) (h0 : p.d0 ≠ 0) (h1 : p.d1 ≠ 0) :
    ∃ (f : Octet ℝ → Except PyErr (List Cell)) (est : ℝ → ℝ), residualFn fs t a = .ok f ∧
      Interpolates (fun s => ‖octetSum p s‖) fs m est ∧
      f p = subtractFlat t (a.map fun x => some (Dsp.db2a x)) (t.times.map fun s => some (est s)) := by
  obtain ⟨m', e1, e2, e3⟩ := npMax_ok t.times (List.ne_nil_of_mem hm)
  have : m' = m := le_antisymm (hmax _ e2) (e3 _ hm)
  subst this
  obtain ⟨est, i1, i2⟩ := interp_model (fun s => ‖octetSum p s‖) fs m' hfs hpos
  refine ⟨_, est, by rw [residualFn, e1], i1, ?_⟩
  rw [residualsAt, octetBeat_eq p h0 h1]
  simp only [am_octet, elems]
  rw [interpAll_ok (modelAxis fs m') (ampTrack p (modelAxis fs m')) est i2]

/-- C117.  For a flat array of times there is one residual per time: the given amplitude (not in
decibels) minus the amplitude of the beat, interpolated on the axis of the model. -/
theorem C117_residuals (fs : ℝ) (hfs : 0 < fs) (t a : List ℝ) (hl : a.length = t.length) (m : ℝ)
    (hm : m ∈ t) (hmax : ∀ s ∈ t, s ≤ m) (hpos : 0 < m) (p : Octet ℝ) (h0 : p.d0 ≠ 0) (h1 : p.d1 ≠ 0) :
    ∃ (f : Octet ℝ → Except PyErr (List Cell)) (est : ℝ → ℝ), residualFn fs (.flat t) a = .ok f ∧
      Interpolates (fun s => ‖octetSum p s‖) fs m est ∧
      f p = .ok (List.zipWith (fun x s => some ((10 : ℝ) ^ (x / 20) - est s)) a t) := by
  obtain ⟨f, est, e1, e2, e3⟩ := residualFn_eq fs hfs (.flat t) a m hm hmax hpos p h0 h1
  refine ⟨f, est, e1, e2, ?_⟩
  rw [e3, subtractFlat]
  unfold Np.binop
  rw [if_pos (by simp [TimeAxis.times, hl])]
  simp only [TimeAxis.times, List.zipWith_map]
  rfl

/-! ## How far the interpolated amplitudes are from those of the beat -/

theorem expi_sub (x y : ℝ) :
    ‖Complex.exp ((x : ℂ) * Complex.I) - Complex.exp ((y : ℂ) * Complex.I)‖ ≤ |x - y| := by
  have e : Complex.exp ((x : ℂ) * Complex.I) - Complex.exp ((y : ℂ) * Complex.I) =
      Complex.exp ((y : ℂ) * Complex.I) * (Complex.exp (Complex.I * ((x - y : ℝ) : ℂ)) - 1) := by
    rw [mul_sub, ← Complex.exp_add, mul_one]
    congr 2
    push_cast
    ring
  rw [e, norm_mul, Complex.norm_exp_ofReal_mul_I, one_mul]
  exact Real.norm_exp_I_mul_ofReal_sub_one_le

theorem exp_sub_le (c s t : ℝ) (hc : 0 ≤ c) (hs : 0 ≤ s) (ht : 0 ≤ t) :
    |Real.exp (-c * s) - Real.exp (-c * t)| ≤ c * |s - t| := by
  wlog h : s ≤ t generalizing s t with H
  · rw [abs_sub_comm, abs_sub_comm s t]
    exact H t s ht hs (by linarith)
  have h1 : Real.exp (-c * t) ≤ Real.exp (-c * s) := Real.exp_le_exp.mpr (by nlinarith)
  have h2 : Real.exp (-c * t) = Real.exp (-c * s) * Real.exp (-(c * (t - s))) := by
    rw [← Real.exp_add]; congr 1; ring
  have h3 : 1 - c * (t - s) ≤ Real.exp (-(c * (t - s))) := by
    have := Real.add_one_le_exp (-(c * (t - s)))
    linarith
  have h4 : Real.exp (-c * s) ≤ 1 := Real.exp_le_one_iff.mpr (by nlinarith)
  have h5 : 0 < Real.exp (-c * s) := Real.exp_pos _
  have h6 : 0 ≤ c * (t - s) := mul_nonneg hc (by linarith)
  rw [abs_of_nonneg (by linarith), abs_sub_comm, abs_of_nonneg (by linarith : (0 : ℝ) ≤ t - s)]
  rw [h2]
  nlinarith

/-- How fast the amplitude of a beat can change. -/
noncomputable def slope (p : Octet ℝ) : ℝ :=
  |p.a0| * (2 / p.d0 + 2 * Real.pi * |p.f0 - p.f1|) + |p.a1| * (2 / p.d1)

theorem norm_octet (p : Octet ℝ) (t : ℝ) :
    ‖octetSum p t‖ = ‖((p.a0 * Real.exp (-(2 / p.d0) * t) : ℝ) : ℂ) *
      Complex.exp (((2 * Real.pi * (p.f0 - p.f1) * t + (p.p0 - p.p1) : ℝ) : ℂ) * Complex.I) +
      ((p.a1 * Real.exp (-(2 / p.d1) * t) : ℝ) : ℂ)‖ := by
  have e : octetSum p t = (((p.a0 * Real.exp (-(2 / p.d0) * t) : ℝ) : ℂ) *
      Complex.exp (((2 * Real.pi * (p.f0 - p.f1) * t + (p.p0 - p.p1) : ℝ) : ℂ) * Complex.I) +
      ((p.a1 * Real.exp (-(2 / p.d1) * t) : ℝ) : ℂ)) *
        Complex.exp (((2 * Real.pi * p.f1 * t + p.p1 : ℝ) : ℂ) * Complex.I) := by
    rw [add_mul, mul_assoc, ← Complex.exp_add]
    simp only [octetSum, modalSum, sumAt, partialAt, neg_div]
    congr 3
    push_cast
    ring
  rw [e, norm_mul, Complex.norm_exp_ofReal_mul_I, mul_one]

theorem amp_lipschitz (p : Octet ℝ) (h0 : 0 < p.d0) (h1 : 0 < p.d1) (s t : ℝ) (hs : 0 ≤ s) (ht : 0 ≤ t) :
    |‖octetSum p s‖ - ‖octetSum p t‖| ≤ slope p * |s - t| := by
  rw [norm_octet, norm_octet]
  refine le_trans (abs_norm_sub_norm_le _ _) ?_
  have hc0 : (0 : ℝ) ≤ 2 / p.d0 := by positivity
  have hc1 : (0 : ℝ) ≤ 2 / p.d1 := by positivity
  set A := fun t : ℝ => p.a0 * Real.exp (-(2 / p.d0) * t)
  set B := fun t : ℝ => p.a1 * Real.exp (-(2 / p.d1) * t)
  set φ := fun t : ℝ => 2 * Real.pi * (p.f0 - p.f1) * t + (p.p0 - p.p1)
  have e : ((A s : ℝ) : ℂ) * Complex.exp ((φ s : ℂ) * Complex.I) + ((B s : ℝ) : ℂ) -
      (((A t : ℝ) : ℂ) * Complex.exp ((φ t : ℂ) * Complex.I) + ((B t : ℝ) : ℂ)) =
      ((A s - A t : ℝ) : ℂ) * Complex.exp ((φ s : ℂ) * Complex.I) +
      ((A t : ℝ) : ℂ) * (Complex.exp ((φ s : ℂ) * Complex.I) - Complex.exp ((φ t : ℂ) * Complex.I)) +
      ((B s - B t : ℝ) : ℂ) := by
    push_cast; ring
  have hA : |A s - A t| ≤ |p.a0| * (2 / p.d0 * |s - t|) := by
    have : A s - A t = p.a0 * (Real.exp (-(2 / p.d0) * s) - Real.exp (-(2 / p.d0) * t)) := by
      simp only [A]; ring
    rw [this, abs_mul]
    exact mul_le_mul_of_nonneg_left (exp_sub_le _ s t hc0 hs ht) (abs_nonneg _)
  have hB : |B s - B t| ≤ |p.a1| * (2 / p.d1 * |s - t|) := by
    have : B s - B t = p.a1 * (Real.exp (-(2 / p.d1) * s) - Real.exp (-(2 / p.d1) * t)) := by
      simp only [B]; ring
    rw [this, abs_mul]
    exact mul_le_mul_of_nonneg_left (exp_sub_le _ s t hc1 hs ht) (abs_nonneg _)
  have hAt : |A t| ≤ |p.a0| := by
    simp only [A, abs_mul, abs_of_pos (Real.exp_pos _)]
    have : Real.exp (-(2 / p.d0) * t) ≤ 1 := Real.exp_le_one_iff.mpr (by nlinarith)
    exact mul_le_of_le_one_right (abs_nonneg _) this
  have hφ : |φ s - φ t| = 2 * Real.pi * |p.f0 - p.f1| * |s - t| := by
    have : φ s - φ t = 2 * Real.pi * (p.f0 - p.f1) * (s - t) := by simp only [φ]; ring
    rw [this, abs_mul, abs_mul, abs_of_pos Real.two_pi_pos]
  have hE := expi_sub (φ s) (φ t)
  rw [hφ] at hE
  have n1 : ‖((A s - A t : ℝ) : ℂ) * Complex.exp ((φ s : ℂ) * Complex.I)‖ = |A s - A t| := by
    rw [norm_mul, Complex.norm_exp_ofReal_mul_I, mul_one, Complex.norm_real, Real.norm_eq_abs]
  have n2 : ‖((A t : ℝ) : ℂ) * (Complex.exp ((φ s : ℂ) * Complex.I) - Complex.exp ((φ t : ℂ) * Complex.I))‖ ≤
      |p.a0| * (2 * Real.pi * |p.f0 - p.f1| * |s - t|) := by
    rw [norm_mul, Complex.norm_real, Real.norm_eq_abs]
    exact mul_le_mul hAt hE (norm_nonneg _) (abs_nonneg _)
  have n3 : ‖((B s - B t : ℝ) : ℂ)‖ = |B s - B t| := by rw [Complex.norm_real, Real.norm_eq_abs]
  have := norm_add₃_le (a := ((A s - A t : ℝ) : ℂ) * Complex.exp ((φ s : ℂ) * Complex.I))
    (b := ((A t : ℝ) : ℂ) * (Complex.exp ((φ s : ℂ) * Complex.I) - Complex.exp ((φ t : ℂ) * Complex.I)))
    (c := ((B s - B t : ℝ) : ℂ))
  rw [← e, n1, n3] at this
  refine le_trans this ?_
  rw [slope]
  calc _ ≤ |p.a0| * (2 / p.d0 * |s - t|) + |p.a0| * (2 * Real.pi * |p.f0 - p.f1| * |s - t|) +
        |p.a1| * (2 / p.d1 * |s - t|) := by linarith
    _ = _ := by ring

theorem interpolates_near (F : ℝ → ℝ) (fs m L : ℝ) (hfs : 0 < fs) (est : ℝ → ℝ)
    (h : Interpolates F fs m est)
    (hL : ∀ s t, 0 ≤ s → 0 ≤ t → |F s - F t| ≤ L * |s - t|) (s : ℝ) (hs : 0 ≤ s) (hsm : s ≤ m) (hm : 0 < m) :
    |est s - F s| ≤ L / fs := by
  have hL0 : 0 ≤ L := by
    have := hL 1 0 (by norm_num) le_rfl
    have h2 := abs_nonneg (F 1 - F 0)
    norm_num at this
    linarith
  obtain ⟨n, hn⟩ : ∃ n : Nat, (n : ℝ) / fs < m ∧ m ≤ ((n : ℝ) + 1) / fs := by
    have hp : 0 < ⌈m * fs⌉ := Int.ceil_pos.mpr (mul_pos hm hfs)
    refine ⟨(⌈m * fs⌉ - 1).toNat, ?_, ?_⟩
    · rw [div_lt_iff₀ hfs]
      have h1 : (((⌈m * fs⌉ - 1).toNat : ℤ) : ℝ) = ((⌈m * fs⌉ - 1 : ℤ) : ℝ) := by
        rw [Int.toNat_of_nonneg (by omega)]
      have h2 := Int.ceil_lt_add_one (m * fs)
      push_cast at h1
      rw [h1]; linarith
    · rw [le_div_iff₀ hfs]
      have h1 : (((⌈m * fs⌉ - 1).toNat : ℤ) : ℝ) = ((⌈m * fs⌉ - 1 : ℤ) : ℝ) := by
        rw [Int.toNat_of_nonneg (by omega)]
      have h2 := Int.le_ceil (m * fs)
      push_cast at h1
      rw [h1]; linarith
  have key : ∀ x, 0 ≤ x → |s - x| ≤ 1 / fs → |F x - F s| ≤ L / fs := by
    intro x hx hd
    rw [abs_sub_comm] at hd
    calc _ ≤ L * |x - s| := hL x s hx hs
      _ ≤ L * (1 / fs) := mul_le_mul_of_nonneg_left hd hL0
      _ = _ := by ring
  by_cases hlast : (n : ℝ) / fs ≤ s
  · rw [h.after n s hn.1 hn.2 hlast]
    apply key _ (by positivity)
    rw [abs_of_nonneg (by linarith)]
    have : ((n : ℝ) + 1) / fs = (n : ℝ) / fs + 1 / fs := by ring
    linarith [hn.2]
  · obtain ⟨k, hk1, hk2⟩ : ∃ k : Nat, (k : ℝ) / fs ≤ s ∧ s < ((k : ℝ) + 1) / fs := by
      refine ⟨⌊s * fs⌋₊, ?_, ?_⟩
      · rw [div_le_iff₀ hfs]; exact Nat.floor_le (by positivity)
      · rw [lt_div_iff₀ hfs]; exact Nat.lt_floor_add_one _
    have hkn : k + 1 ≤ n := by
      by_contra hc
      apply hlast
      refine le_trans ?_ hk1
      rw [div_le_div_iff_of_pos_right hfs]
      exact_mod_cast (by omega : n ≤ k)
    have hkm : ((k : ℝ) + 1) / fs < m := by
      refine lt_of_le_of_lt ?_ hn.1
      rw [div_le_div_iff_of_pos_right hfs]
      exact_mod_cast hkn
    rw [h.between k s hkm hk1 hk2.le]
    have e : ((k : ℝ) + 1) / fs = (k : ℝ) / fs + 1 / fs := by ring
    have hfs1 : 0 < 1 / fs := by positivity
    have g1 := key ((k : ℝ) / fs) (by positivity) (by rw [abs_of_nonneg (by linarith)]; linarith)
    have g2 := key (((k : ℝ) + 1) / fs) (by positivity)
      (by rw [abs_sub_comm, abs_of_nonneg (by linarith)]; linarith)
    rw [div_le_iff₀ hfs] at hk1
    rw [lt_div_iff₀ hfs] at hk2
    rw [abs_le] at g1 g2 ⊢
    constructor <;> nlinarith

/-- C117.  At the times from zero on, the residuals are those of the exact amplitudes of the beat up
to the change of amplitude possible in one step of the axis: the larger `fs`, the smaller the
difference. -/
theorem C117_accuracy (fs : ℝ) (hfs : 0 < fs) (t a : List ℝ) (hl : a.length = t.length)
    (ht : ∀ s ∈ t, 0 ≤ s) (hpos : ∃ s ∈ t, 0 < s) (p : Octet ℝ) (h0 : 0 < p.d0) (h1 : 0 < p.d1) :
    ∃ (f : Octet ℝ → Except PyErr (List Cell)) (r : List ℝ), residualFn fs (.flat t) a = .ok f ∧
      f p = .ok (r.map some) ∧ r.length = t.length ∧
      ∀ (i : Nat) (x s y : ℝ), a[i]? = some x → t[i]? = some s → r[i]? = some y →
        |y - ((10 : ℝ) ^ (x / 20) - ‖octetSum p s‖)| ≤
          (|p.a0| * (2 / p.d0 + 2 * Real.pi * |p.f0 - p.f1|) + |p.a1| * (2 / p.d1)) / fs := by
  obtain ⟨s0, hs0, hs1⟩ := hpos
  obtain ⟨m, -, hm, hmax⟩ := npMax_ok t (List.ne_nil_of_mem hs0)
  have hmpos : 0 < m := lt_of_lt_of_le hs1 (hmax _ hs0)
  obtain ⟨f, est, e1, e2, e3⟩ := C117_residuals fs hfs t a hl m hm hmax hmpos p h0.ne' h1.ne'
  refine ⟨f, List.zipWith (fun x s => (10 : ℝ) ^ (x / 20) - est s) a t, e1, ?_, by simp [hl], ?_⟩
  · rw [e3, List.map_zipWith]
  · intro i x s y hx hs hy
    have hmem : s ∈ t := List.mem_of_getElem? hs
    rw [List.getElem?_zipWith, hx, hs] at hy
    simp only [Option.some.injEq] at hy
    have := interpolates_near _ fs m (slope p) hfs est e2 (amp_lipschitz p h0 h1) s (ht s hmem)
      (hmax s hmem) hmpos
    rw [slope] at this
    rw [← hy, show (10 : ℝ) ^ (x / 20) - est s - ((10 : ℝ) ^ (x / 20) - ‖octetSum p s‖) =
      -(est s - ‖octetSum p s‖) by ring, abs_neg]
    exact this

/-! ## Columns and errors -/

theorem sq_about_mean (xs : List ℝ) (h : xs ≠ []) (e : ℝ) :
    (xs.map fun x => (x - e) ^ 2).sum =
      xs.length * (e - xs.sum / xs.length) ^ 2 + (xs.map fun x => (x - xs.sum / xs.length) ^ 2).sum := by
  have hn : (xs.length : ℝ) ≠ 0 := by
    have := List.length_pos_of_ne_nil h
    exact_mod_cast this.ne'
  have gen : ∀ c : ℝ, (xs.map fun x => (x - c) ^ 2).sum =
      (xs.map fun x => x ^ 2).sum - 2 * c * xs.sum + xs.length * c ^ 2 := by
    intro c
    induction xs with
    | nil => simp
    | cons x l ih =>
      by_cases hl : l = []
      · subst hl; simp; ring
      · have hn' : (l.length : ℝ) ≠ 0 := by
          have := List.length_pos_of_ne_nil hl
          exact_mod_cast this.ne'
        simp only [List.map_cons, List.sum_cons, List.length_cons]
        rw [ih hl hn']
        push_cast
        ring
  rw [gen, gen]
  field_simp
  ring

/-- C117.  For a column of times, as documented, there is one residual for every pair of an amplitude
and a time; the sum of their squares compares the amplitudes of the beat with nothing but the mean of
the given amplitudes. -/
theorem C117_column (fs : ℝ) (hfs : 0 < fs) (t a : List ℝ) (ha : a ≠ []) (m : ℝ)
    (hm : m ∈ t) (hmax : ∀ s ∈ t, s ≤ m) (hpos : 0 < m) (p : Octet ℝ) (h0 : p.d0 ≠ 0) (h1 : p.d1 ≠ 0) :
    ∃ (f : Octet ℝ → Except PyErr (List Cell)) (est : ℝ → ℝ) (r : List ℝ),
      residualFn fs (.column t) a = .ok f ∧
      Interpolates (fun s => ‖octetSum p s‖) fs m est ∧ f p = .ok (r.map some) ∧
      r.length = t.length * a.length ∧
      ∃ mean : ℝ, mean = (a.map fun x => (10 : ℝ) ^ (x / 20)).sum / a.length ∧
      (r.map (· ^ 2)).sum = a.length * (t.map fun s => (est s - mean) ^ 2).sum +
        t.length * (a.map fun x => ((10 : ℝ) ^ (x / 20) - mean) ^ 2).sum := by
  obtain ⟨f, est, e1, e2, e3⟩ := residualFn_eq fs hfs (.column t) a m hm hmax hpos p h0 h1
  refine ⟨f, est, t.flatMap fun s => a.map fun x => (10 : ℝ) ^ (x / 20) - est s, e1, e2, ?_, ?_, _, rfl, ?_⟩
  · rw [e3, subtractFlat, TimeAxis.times, List.flatMap_map, List.map_flatMap]
    simp only [List.map_map]
    rfl
  · clear hm hmax e3 e1
    induction t with
    | nil => simp
    | cons s t ih => simp [List.flatMap_cons, ih, Nat.succ_mul, Nat.add_comm]
  · clear hm hmax e3 e1
    have key := sq_about_mean (a.map fun x => (10 : ℝ) ^ (x / 20)) (by simpa using ha)
    simp only [List.map_map, List.length_map] at key
    induction t with
    | nil => simp
    | cons s t ih =>
      have k := key (est s)
      simp only [Function.comp_def] at k
      simp only [List.flatMap_cons, List.map_append, List.sum_append, List.map_cons, List.sum_cons,
        List.length_cons, List.map_map, Function.comp_def] at ih ⊢
      rw [k, ih]
      push_cast
      ring

/-- C117.  Without times there is no residual function; without a positive time it fails for all
parameters, and for a decay of zero as well. -/
theorem C117_errors (fs : ℝ) (hfs : 0 < fs) (a : List ℝ) :
    residualFn fs (.flat []) a = .error .valueError ∧
    (∀ t : List ℝ, t ≠ [] → (∀ s ∈ t, s ≤ 0) → ∃ f, residualFn fs (.flat t) a = .ok f ∧
      ∀ p : Octet ℝ, p.d0 ≠ 0 → p.d1 ≠ 0 → f p = .error .valueError) ∧
    ∀ t : List ℝ, t ≠ [] → ∃ f, residualFn fs (.flat t) a = .ok f ∧
      ∀ p : Octet ℝ, (p.d0 = 0 ∨ p.d1 = 0) → f p = .error .zeroDivisionError := by
  refine ⟨rfl, ?_, ?_⟩
  · intro t ht hneg
    obtain ⟨m, e1, e2, -⟩ := npMax_ok t ht
    refine ⟨_, by rw [residualFn, TimeAxis.times, e1], ?_⟩
    intro p h0 h1
    have hax : modelAxis fs m = [] := by
      have : ⌈m * fs⌉ ≤ 0 := Int.ceil_le.mpr (by
        have := hneg m e2
        push_cast
        nlinarith)
      rw [modelAxis, Int.toNat_of_nonpos this]
      rfl
    rw [residualsAt, octetBeat_eq p h0 h1]
    simp only [am_octet, elems, hax]
    cases t with
    | nil => exact absurd rfl ht
    | cons s t => rfl
  · intro t ht
    obtain ⟨m, e1, -, -⟩ := npMax_ok t ht
    refine ⟨_, by rw [residualFn, TimeAxis.times, e1], ?_⟩
    intro p h
    rw [residualsAt, modalBeat, if_pos h]

/-- C117.  If the last time is a whole number of steps of the axis, it is not on the axis: the last
amplitude is compared with the amplitude of the beat one step before. -/
theorem C117_last (fs : ℝ) (hfs : 0 < fs) (t a : List ℝ) (hl : a.length = t.length) (n : Nat)
    (hm : ((n : ℝ) + 1) / fs ∈ t) (hmax : ∀ s ∈ t, s ≤ ((n : ℝ) + 1) / fs) (p : Octet ℝ) (h0 : p.d0 ≠ 0)
    (h1 : p.d1 ≠ 0) :
    ∃ (f : Octet ℝ → Except PyErr (List Cell)) (r : List Cell), residualFn fs (.flat t) a = .ok f ∧
      f p = .ok r ∧ ∀ (i : Nat) (x : ℝ), a[i]? = some x → t[i]? = some (((n : ℝ) + 1) / fs) →
        r[i]? = some (some ((10 : ℝ) ^ (x / 20) - ‖octetSum p ((n : ℝ) / fs)‖)) := by
  have hpos : 0 < ((n : ℝ) + 1) / fs := by positivity
  obtain ⟨f, est, e1, e2, e3⟩ := C117_residuals fs hfs t a hl _ hm hmax hpos p h0 h1
  refine ⟨f, _, e1, e3, ?_⟩
  intro i x hx hs
  have hlt : (n : ℝ) / fs < ((n : ℝ) + 1) / fs := by
    rw [div_lt_div_iff_of_pos_right hfs]; linarith
  rw [List.getElem?_zipWith, hx, hs]
  simp only
  rw [e2.after n _ hlt le_rfl hlt.le]

/-! Examples for C117: a single decaying partial, one value per second. -/

/-- Parameters: the amplitude at time `s` is `exp (-s)`. -/
noncomputable def single : Octet ℝ := ⟨1, 0, 0, 0, 2, 2, 0, 0⟩

theorem single_amp (s : ℝ) : ‖octetSum single s‖ = Real.exp (-s) := by
  rw [norm_octet]
  simp [single, Complex.norm_exp]

example : ∃ f, residualFn 1 (.flat [0, 1, 2]) [0, 0, 0] = .ok f ∧
    f single = .ok [some 0, some (1 - Real.exp (-1)), some (1 - Real.exp (-1))] := by
  obtain ⟨f, est, e1, e2, e3⟩ := C117_residuals 1 (by norm_num) [0, 1, 2] [0, 0, 0] rfl 2 (by simp)
    (by simp) (by norm_num) single (by simp [single]) (by simp [single])
  refine ⟨f, e1, ?_⟩
  rw [e3]
  have h0 : est 0 = 1 := by
    rw [e2.before 0 le_rfl, single_amp]; simp
  have h1 : est 1 = Real.exp (-1) := by
    have := e2.after 1 1 (by norm_num) (by norm_num) (by norm_num)
    rw [this, single_amp]; norm_num
  have h2 : est 2 = Real.exp (-1) := by
    have := e2.after 1 2 (by norm_num) (by norm_num) (by norm_num)
    rw [this, single_amp]; norm_num
  simp [h0, h1, h2]

example := C117_accuracy 1 (by norm_num) [0, 1, 2] [0, 0, 0] rfl (by simp) ⟨1, by simp⟩ single
  (by simp [single]) (by simp [single])

example := C117_column 1 (by norm_num) [0, 1, 2] [0, 0, 0] (by simp) 2 (by simp) (by simp) (by norm_num)
  single (by simp [single]) (by simp [single])

example := C117_last 1 (by norm_num) [0, 1, 2] [0, 0, 0] rfl 1 (by norm_num) (by norm_num) single
  (by simp [single]) (by simp [single])

end Verif.Beat
