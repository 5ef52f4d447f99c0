import Verif.Sms.SpectrumLemmas

/-!
# C124: magnitude and phase spectra of a frame
-/

set_option autoImplicit false
set_option linter.unusedSectionVars false
set_option linter.unusedSimpArgs false

namespace Verif.Sms

open Complex

/-- The angles that are unwrapped. -/
theorem spectrum_angles (tol : ℝ) (z : List ℝ) (hz : z ≠ []) :
    ∃ p : List ℝ, (spectrum tol z).2 = unwrap p ∧ p.length = z.length / 2 + 1 ∧
      ∀ k, k ≤ z.length / 2 → p[k]? = some (if max ‖Dsp.bin (z.map (↑)) z.length k‖ floatEps < tol then 0
        else arg (Dsp.bin (z.map (↑)) z.length k)) := by
  have h0 : 0 < z.length := List.length_pos_of_ne_nil hz
  refine ⟨_, rfl, by simp [rfft_length z z.length h0], ?_⟩
  intro k hk
  have hr := rfft_getElem? z z.length k (by omega) h0
  rw [List.getElem?_map, List.getElem?_zipWith, hr, List.getElem?_map, hr]
  simp only [Option.map_some]
  split <;> simp

theorem dft_spectrum (tol : ℝ) (x w : List ℝ) (n : Nat) (hx : x.length = w.length) (h2 : 2 ≤ w.length)
    (hn : w.length ≤ n) : ∃ z, dft (spectrum tol) x w n = .ok (spectrum tol z) ∧ z.length = n ∧ z ≠ [] ∧
      ∀ k, Dsp.bin (z.map (↑)) z.length k = centredBin x w n k := by
  obtain ⟨z, e1, e2, _⟩ := C17_buffer x w n hx h2 hn
  refine ⟨z, by simp [dft, e1], e2, ?_, ?_⟩
  · intro h; simp [h] at e2; omega
  · intro k
    rw [e2]
    exact (bin_buffer x w z n k hx h2 hn e1).2

theorem arg_polar (X : ℂ) (m : ℤ) : (‖X‖ : ℂ) * exp (((arg X + 2 * Real.pi * m : ℝ) : ℂ) * I) = X := by
  have : exp (((arg X + 2 * Real.pi * m : ℝ) : ℂ) * I) = exp (arg X * I) := by
    rw [Complex.exp_eq_exp_iff_exists_int]
    exact ⟨m, by push_cast; ring⟩
  rw [this, norm_mul_exp_arg_mul_I]

/-- C124: the two spectra of a frame.  The magnitude of bin `k` is that of the windowed frame's transform,
with time counted from the centre of the window, in decibel and not below the machine precision; the phase
is that of the transform (zero, modulo a full turn, for bins below the tolerance), moves by at most half a
turn from bin to bin, and starts at zero or at half a turn. -/
theorem C124_dft (tol : ℝ) (x w : List ℝ) (n : Nat) (hx : x.length = w.length) (h2 : 2 ≤ w.length)
    (hn : w.length ≤ n) :
    ∃ mx px, dft (spectrum tol) x w n = .ok (mx, px) ∧ mx.length = n / 2 + 1 ∧ px.length = n / 2 + 1 ∧
      (∀ k, k ≤ n / 2 → mx[k]? = some (20 * Real.logb 10 (max ‖centredBin x w n k‖ floatEps))) ∧
      (∀ k, k ≤ n / 2 → ∃ φ : ℝ, px[k]? = some φ ∧
        (tol ≤ max ‖centredBin x w n k‖ floatEps →
          (‖centredBin x w n k‖ : ℂ) * exp ((φ : ℂ) * I) = centredBin x w n k) ∧
        (max ‖centredBin x w n k‖ floatEps < tol → ∃ m : ℤ, φ = 2 * Real.pi * m)) ∧
      (∀ (k : Nat) (a b : ℝ), px[k]? = some a → px[k + 1]? = some b → |b - a| ≤ Real.pi) ∧
      (px[0]? = some 0 ∨ px[0]? = some Real.pi) := by
  obtain ⟨z, h1, e2, hz, hb⟩ := dft_spectrum tol x w n hx h2 hn
  obtain ⟨p, hp1, hp2, hp3⟩ := spectrum_angles tol z hz
  obtain ⟨u1, u2, u3, u4, _⟩ := unwrap_spec p
  have hl := spectrum_lengths tol z hz
  rw [e2] at hl hp2 hp3
  refine ⟨(spectrum tol z).1, (spectrum tol z).2, h1, hl.1, hl.2, ?_, ?_, ?_, ?_⟩
  · intro k hk
    rw [spectrum_mag tol z k hz (by omega), hb]
  · intro k hk
    have h3 := hp3 k hk
    rw [← e2, hb] at h3
    obtain ⟨m, hm⟩ := u3 k _ h3
    rw [hp1]
    refine ⟨_, hm, ?_, ?_⟩
    · intro ht
      rw [if_neg (not_lt.2 ht)]
      exact arg_polar _ m
    · intro ht
      rw [if_pos ht]
      exact ⟨m, by ring⟩
  · rw [hp1]; exact u4
  · rw [hp1, u2, hp3 0 (by omega), ← e2, hb]
    split
    · exact Or.inl rfl
    · have him : (centredBin x w n 0).im = 0 := by
        unfold centredBin
        simp only [CharP.cast_eq_zero, mul_zero, zero_mul, zero_div, Complex.exp_zero, mul_one,
          ← Complex.ofReal_sum, Complex.ofReal_im]
      have hre : centredBin x w n 0 = ((centredBin x w n 0).re : ℂ) := Complex.ext rfl (by simp [him])
      rcases le_or_gt 0 (centredBin x w n 0).re with h | h
      · left; rw [hre, Complex.arg_ofReal_of_nonneg h]
      · right; rw [hre, Complex.arg_ofReal_of_neg h]

theorem centredBin_conj (x w : List ℝ) (n k : Nat) : (starRingEnd ℂ) (centredBin x w n k) =
    ∑ i ∈ Finset.range w.length, ((x.getD i 0 * w.getD i 0 : ℝ) : ℂ) *
      exp (-(2 * Real.pi * I) * k * ((w.length / 2 : Nat) - (i : ℂ)) / n) := by
  unfold centredBin
  rw [map_sum]
  refine Finset.sum_congr rfl fun i _ => ?_
  rw [map_mul, Complex.conj_ofReal, ← Complex.exp_conj]
  congr 2
  simp only [map_div₀, map_mul, map_neg, map_sub, conj_I, Complex.conj_ofReal, map_ofNat, map_natCast]
  ring

theorem exFrame_bin : centredBin [1, 0, -1, 0] [1, 1, 1, 1] 8 2 = -2 := by
  have h : exp (2 * Real.pi * I * 2 * 2 / 8) = -1 := by
    rw [← Complex.exp_pi_mul_I]; congr 1; ring
  simp [centredBin, Finset.sum_range_succ]
  rw [h]; norm_num

/-- A frame with one period of a sinusoid: bin 2 has the magnitude 2 and a phase of half a turn. -/
example (tol : ℝ) (ht : tol ≤ 1) : ∃ (mx px : List ℝ) (φ : ℝ),
    dft (spectrum tol) [1, 0, -1, 0] [1, 1, 1, 1] 8 = .ok (mx, px) ∧
    mx[2]? = some (20 * Real.logb 10 2) ∧ px[2]? = some φ ∧ exp ((φ : ℂ) * I) = -1 := by
  obtain ⟨mx, px, h1, _, _, h4, h5, _⟩ := C124_dft tol [1, 0, -1, 0] [1, 1, 1, 1] 8 rfl (by simp) (by simp)
  obtain ⟨φ, g1, g2, _⟩ := h5 2 (by norm_num)
  have h2 := h4 2 (by norm_num)
  have he : floatEps ≤ 2 := by unfold floatEps; norm_num
  rw [exFrame_bin, norm_neg, Complex.norm_ofNat] at h2 g2
  rw [max_eq_left he] at h2 g2
  refine ⟨mx, px, φ, h1, h2, g1, ?_⟩
  have := g2 (by linarith)
  have h3 : (2 : ℂ) ≠ 0 := two_ne_zero
  apply mul_left_cancel₀ h3
  rw [← Complex.ofReal_ofNat, this]; norm_num

/-- C124: zero phase.  If the windowed frame is symmetric about the centre of a window of odd size, every
phase is a multiple of half a turn. -/
theorem C124_zero_phase (tol : ℝ) (x w : List ℝ) (n hw : Nat) (hx : x.length = w.length)
    (hodd : w.length = 2 * hw + 1) (h1 : 1 ≤ hw) (hn : w.length ≤ n)
    (hsym : ∀ d, d ≤ hw → x.getD (hw + d) 0 * w.getD (hw + d) 0 = x.getD (hw - d) 0 * w.getD (hw - d) 0) :
    ∃ mx px, dft (spectrum tol) x w n = .ok (mx, px) ∧
      ∀ φ ∈ px, ∃ m : ℤ, φ = Real.pi * m := by
  have h2 : 2 ≤ w.length := by omega
  obtain ⟨z, h1, e2, hz, hb⟩ := dft_spectrum tol x w n hx h2 hn
  obtain ⟨p, hp1, hp2, hp3⟩ := spectrum_angles tol z hz
  obtain ⟨u1, u2, u3, u4, _⟩ := unwrap_spec p
  refine ⟨(spectrum tol z).1, (spectrum tol z).2, h1, ?_⟩
  intro φ hφ
  rw [hp1] at hφ
  obtain ⟨k, hk⟩ := List.getElem?_of_mem hφ
  have hk' := (List.getElem?_eq_some_iff.1 hk).1
  rw [u1, hp2] at hk'
  have h3 := hp3 k (by omega)
  rw [hb] at h3
  have hreal : (starRingEnd ℂ) (centredBin x w n k) = centredBin x w n k := by
    rw [centredBin_conj, ← Finset.sum_range_reflect]
    unfold centredBin
    refine Finset.sum_congr rfl fun i hi => ?_
    rw [Finset.mem_range] at hi
    have hhw : w.length / 2 = hw := by omega
    have e : x.getD (w.length - 1 - i) 0 * w.getD (w.length - 1 - i) 0 = x.getD i 0 * w.getD i 0 := by
      rcases le_total i hw with h | h
      · have := hsym (hw - i) (by omega)
        rwa [show hw + (hw - i) = w.length - 1 - i by omega, show hw - (hw - i) = i by omega] at this
      · have := hsym (i - hw) (by omega)
        rw [show hw + (i - hw) = i by omega, show hw - (i - hw) = w.length - 1 - i by omega] at this
        exact this.symm
    rw [e, hhw]
    congr 3
    rw [show w.length - 1 - i = 2 * hw - i by omega, Nat.cast_sub (by omega)]
    push_cast
    ring
  obtain ⟨m, hm⟩ := u3 k _ h3
  rw [hk] at hm
  simp only [Option.some.injEq] at hm
  rw [hm]
  obtain ⟨r, hr⟩ := Complex.conj_eq_iff_real.1 hreal
  split
  · exact ⟨2 * m, by push_cast; ring⟩
  · rw [hr]
    rcases le_or_gt 0 r with h | h
    · rw [Complex.arg_ofReal_of_nonneg h]
      exact ⟨2 * m, by push_cast; ring⟩
    · rw [Complex.arg_ofReal_of_neg h]
      exact ⟨1 + 2 * m, by push_cast; ring⟩

theorem centredBin_smul (c : ℝ) (x w : List ℝ) (n k : Nat) :
    centredBin (x.map (c * ·)) w n k = (c : ℂ) * centredBin x w n k := by
  unfold centredBin
  rw [Finset.mul_sum]
  refine Finset.sum_congr rfl fun i _ => ?_
  have : (x.map (c * ·)).getD i 0 = c * x.getD i 0 := by
    rw [List.getD_eq_getElem?_getD, List.getElem?_map, List.getD_eq_getElem?_getD]
    cases x[i]? <;> simp
  rw [this]
  push_cast
  ring

/-- C124: gain.  A frame multiplied by `c` has magnitudes that differ by the gain in decibel (for bins above
the machine precision); for a positive `c` the phases are the same, if no bin crosses the tolerance. -/
theorem C124_gain (tol c : ℝ) (x w : List ℝ) (n : Nat) (hc : c ≠ 0) (hx : x.length = w.length)
    (h2 : 2 ≤ w.length) (hn : w.length ≤ n) :
    ∃ mx px mx' px', dft (spectrum tol) x w n = .ok (mx, px) ∧
      dft (spectrum tol) (x.map (c * ·)) w n = .ok (mx', px') ∧
      (∀ (k : Nat) (a : ℝ), floatEps ≤ ‖centredBin x w n k‖ → floatEps ≤ |c| * ‖centredBin x w n k‖ →
        mx[k]? = some a → mx'[k]? = some (a + 20 * Real.logb 10 |c|)) ∧
      (0 < c → (∀ k, k ≤ n / 2 → (tol ≤ max ‖centredBin x w n k‖ floatEps ↔
        tol ≤ max (c * ‖centredBin x w n k‖) floatEps)) → px' = px) := by
  obtain ⟨z, h1, e2, hz, hb⟩ := dft_spectrum tol x w n hx h2 hn
  obtain ⟨z', h1', e2', hz', hb'⟩ := dft_spectrum tol (x.map (c * ·)) w n (by simpa using hx) h2 hn
  refine ⟨(spectrum tol z).1, (spectrum tol z).2, (spectrum tol z').1, (spectrum tol z').2, h1, h1', ?_, ?_⟩
  · intro k a g1 g2 ha
    have hk := (List.getElem?_eq_some_iff.1 ha).1
    rw [(spectrum_lengths tol z hz).1] at hk
    rw [spectrum_mag tol z k hz (by omega), hb, max_eq_left g1] at ha
    rw [spectrum_mag tol z' k hz' (by omega), hb', centredBin_smul, norm_mul, Complex.norm_real,
      Real.norm_eq_abs, max_eq_left g2]
    simp only [Option.some.injEq] at ha
    have hp := floatEps_pos
    rw [← ha, Real.logb_mul (abs_ne_zero.2 hc) (by linarith)]
    congr 1
    ring
  · intro hc0 ht
    obtain ⟨p, hp1, hp2, hp3⟩ := spectrum_angles tol z hz
    obtain ⟨p', hp1', hp2', hp3'⟩ := spectrum_angles tol z' hz'
    rw [hp1, hp1']
    congr 1
    apply List.ext_getElem?
    intro k
    by_cases hk : k ≤ n / 2
    · rw [hp3 k (by omega), hp3' k (by omega), hb, hb', centredBin_smul, norm_mul, Complex.norm_real,
        Real.norm_eq_abs, abs_of_pos hc0, Complex.arg_real_mul _ hc0]
      have := ht k hk
      congr 1
      by_cases h : tol ≤ max ‖centredBin x w n k‖ floatEps
      · rw [if_neg (not_lt.2 h), if_neg (not_lt.2 (this.1 h))]
      · rw [if_pos (not_le.1 h), if_pos (not_le.1 (fun h' => h (this.2 h')))]
    · rw [List.getElem?_eq_none (by omega), List.getElem?_eq_none (by omega)]

/-- A symmetric frame of three samples in an FFT of four. -/
example : ∃ mx px, dft (spectrum (1 / 10 ^ 14)) [1, -2, 1] [1, 2, 1] 4 = .ok (mx, px) ∧
    ∀ φ ∈ px, ∃ m : ℤ, φ = Real.pi * m :=
  C124_zero_phase (1 / 10 ^ 14) [1, -2, 1] [1, 2, 1] 4 1 rfl rfl (by decide) (by decide) (by
    intro d hd
    interval_cases d <;> simp)

/-- The same frame, halved: bin 2 loses 6 dB. -/
example (tol : ℝ) : ∃ mx px mx' px' a, dft (spectrum tol) [1, 0, -1, 0] [1, 1, 1, 1] 8 = .ok (mx, px) ∧
    dft (spectrum tol) [1 / 2, 0, -1 / 2, 0] [1, 1, 1, 1] 8 = .ok (mx', px') ∧
    mx[2]? = some a ∧ mx'[2]? = some (a + 20 * Real.logb 10 (1 / 2)) := by
  obtain ⟨mx, px, mx', px', h1, h2, h3, _⟩ := C124_gain tol (1 / 2) [1, 0, -1, 0] [1, 1, 1, 1] 8 (by norm_num) rfl
    (by simp) (by simp)
  obtain ⟨mx0, px0, g1, _, _, g4, _⟩ := C124_dft tol [1, 0, -1, 0] [1, 1, 1, 1] 8 rfl (by simp) (by simp)
  rw [h1] at g1
  simp only [Except.ok.injEq, Prod.mk.injEq] at g1
  have g := g4 2 (by norm_num)
  rw [← g1.1] at g
  have := h3 2 _ (by rw [exFrame_bin]; norm_num [floatEps]) (by
    rw [exFrame_bin, abs_of_pos (by norm_num)]; norm_num [floatEps]) g
  rw [abs_of_pos (by norm_num : (0 : ℝ) < 1 / 2)] at this
  refine ⟨mx, px, mx', px', _, h1, ?_, g, this⟩
  rw [← h2]
  norm_num

end Verif.Sms
