import Verif.Dsp.SpectrumModel
import Verif.Sms.DspLemmas
import Mathlib.RingTheory.RootsOfUnity.Complex
import Mathlib.Tactic.Linarith
import Mathlib.Tactic.Ring
import Mathlib.Tactic.FieldSimp

/-!
# C94, C95, C96: autocorrelogram, periodogram, trends
-/

set_option autoImplicit false
set_option linter.unusedSectionVars false
set_option linter.unusedSimpArgs false

namespace Verif.Dsp

open Complex

/-! ## C94: autocorrelogram -/

/-- Roots of unity. -/
noncomputable def unit (N k : Nat) (d : ℤ) : ℂ := exp (2 * Real.pi * I / N) ^ ((k : ℤ) * d)

theorem twiddle_pos (N k m : Nat) : twiddle 1 N k m = unit N k m := by
  unfold twiddle unit
  rw [← Complex.exp_int_mul]
  congr 1
  push_cast
  ring

theorem twiddle_neg (N k m : Nat) : twiddle (-1) N k m = unit N k (-m) := by
  unfold twiddle unit
  rw [← Complex.exp_int_mul]
  congr 1
  push_cast
  ring

theorem unit_add (N k : Nat) (a b : ℤ) : unit N k (a + b) = unit N k a * unit N k b := by
  unfold unit
  rw [mul_add, zpow_add₀ (Complex.exp_ne_zero _)]

theorem conj_unit (N k : Nat) (a : ℤ) : (starRingEnd ℂ) (unit N k a) = unit N k (-a) := by
  unfold unit
  rw [map_zpow₀, ← Complex.exp_conj, mul_neg, zpow_neg, ← inv_zpow, ← Complex.exp_neg]
  congr 2
  simp only [map_div₀, map_mul, conj_I, Complex.conj_ofReal, map_ofNat, map_natCast]
  ring

theorem norm_unit (N k : Nat) (a : ℤ) : ‖unit N k a‖ = 1 := by
  unfold unit
  rw [norm_zpow]
  have : ‖exp (2 * Real.pi * I / N)‖ = 1 := by
    rw [show (2 * Real.pi * I / N : ℂ) = ((2 * Real.pi / N : ℝ) : ℂ) * I by push_cast; ring]
    exact Complex.norm_exp_ofReal_mul_I _
  rw [this, one_zpow]

/-- The sum of the powers of a root of unity. -/
theorem sum_unit {N : Nat} (hN : 0 < N) (d : ℤ) :
    ∑ k ∈ Finset.range N, unit N k d = if (N : ℤ) ∣ d then (N : ℂ) else 0 := by
  have hprim := Complex.isPrimitiveRoot_exp N hN.ne'
  set ζ := exp (2 * Real.pi * I / N) with hζ
  have hterm : ∀ k : Nat, unit N k d = (ζ ^ d) ^ k := by
    intro k
    unfold unit
    rw [← hζ, mul_comm, zpow_mul, zpow_natCast]
  simp only [hterm]
  split
  · rename_i hd
    rw [(hprim.zpow_eq_one_iff_dvd d).2 hd]
    simp
  · rename_i hd
    have hne : ζ ^ d ≠ 1 := fun h => hd ((hprim.zpow_eq_one_iff_dvd d).1 h)
    have hz : (ζ ^ d) ^ N = 1 := by
      rw [← zpow_natCast, ← zpow_mul, mul_comm, zpow_mul, zpow_natCast, hprim.pow_eq_one, one_zpow]
    have := geom_sum_mul (ζ ^ d) N
    rw [hz, sub_self] at this
    rcases mul_eq_zero.1 this with h | h
    · exact h
    · exact absurd (sub_eq_zero.1 h) hne

/-- Bin `k` of the transform. -/
noncomputable def bin (x : List ℂ) (N k : Nat) : ℂ :=
  ∑ m ∈ Finset.range N, x.getD m 0 * unit N k (-(m : ℤ))

theorem fft_eq (x : List ℂ) (N : Nat) : fft x N = (List.range N).map (bin x N) := by
  unfold fft bin
  simp only [twiddle_neg]

theorem bin_mul_conj (x : List ℂ) (N k : Nat) :
    bin x N k * (starRingEnd ℂ) (bin x N k) = ∑ l ∈ Finset.range N, ∑ j ∈ Finset.range N,
      x.getD j 0 * (starRingEnd ℂ) (x.getD l 0) * unit N k ((l : ℤ) - j) := by
  unfold bin
  rw [map_sum, Finset.sum_mul_sum, Finset.sum_comm]
  refine Finset.sum_congr rfl fun l _ => Finset.sum_congr rfl fun j _ => ?_
  rw [map_mul, conj_unit, neg_neg, sub_eq_add_neg, unit_add]
  ring

/-- The inverse transform of the power spectrum is the circular autocorrelation. -/
theorem inverse_power (x : List ℂ) {N : Nat} (hN : 0 < N) (m : Nat) :
    (∑ k ∈ Finset.range N, bin x N k * (starRingEnd ℂ) (bin x N k) * unit N k m) / N =
      ∑ l ∈ Finset.range N, x.getD ((l + m) % N) 0 * (starRingEnd ℂ) (x.getD l 0) := by
  have hNc : (N : ℂ) ≠ 0 := by exact_mod_cast hN.ne'
  have h1 : ∑ k ∈ Finset.range N, bin x N k * (starRingEnd ℂ) (bin x N k) * unit N k m =
      ∑ l ∈ Finset.range N, ∑ j ∈ Finset.range N, x.getD j 0 * (starRingEnd ℂ) (x.getD l 0) *
        ∑ k ∈ Finset.range N, unit N k ((l : ℤ) - j + m) := by
    simp only [bin_mul_conj, Finset.sum_mul, Finset.mul_sum]
    rw [Finset.sum_comm]
    refine Finset.sum_congr rfl fun l _ => ?_
    rw [Finset.sum_comm]
    refine Finset.sum_congr rfl fun j _ => Finset.sum_congr rfl fun k _ => ?_
    rw [unit_add]
    ring
  rw [h1, Finset.sum_div]
  refine Finset.sum_congr rfl fun l _ => ?_
  rw [Finset.sum_eq_single ((l + m) % N)]
  · have hd : (N : ℤ) ∣ (l : ℤ) - ((l + m) % N : Nat) + m := by
      have := Int.emod_add_mul_ediv ((l : ℤ) + m) N
      refine ⟨((l : ℤ) + m) / N, ?_⟩
      push_cast
      linarith
    rw [sum_unit hN, if_pos hd, mul_div_assoc, div_self hNc, mul_one]
  · intro j hj hne
    rw [sum_unit hN, if_neg, mul_zero]
    rintro ⟨c, hc⟩
    apply hne
    have hj' := Finset.mem_range.1 hj
    have e : ((l + m : Nat) : ℤ) = j + N * c := by push_cast; linarith
    have e2 : (((l + m) % N : Nat) : ℤ) = j := by
      rw [Int.natCast_mod, e, Int.add_mul_emod_self_left]
      exact Int.emod_eq_of_lt (by omega) (by omega)
    exact_mod_cast e2.symm
  · intro h
    exact absurd (Finset.mem_range.2 (Nat.mod_lt _ hN)) h

theorem power_getD (x : List ℂ) {N k : Nat} (hk : k < N) :
    ((fft x N).map fun z => (((z * (starRingEnd ℂ) z).re : ℝ) : ℂ)).getD k 0 =
      bin x N k * (starRingEnd ℂ) (bin x N k) := by
  rw [fft_eq, List.map_map, List.getD_eq_getElem?_getD, List.getElem?_map, List.getElem?_range hk]
  simp only [Option.map_some, Option.getD_some, Function.comp]
  rw [Complex.mul_conj]
  simp

/-- Slices from the beginning. -/
theorem slice_to {α : Type} (l : List α) (n : Nat) : Np.slice l none (some (n : Int)) = l.take n := by
  have h : ¬ ((n : Int) < 0) := by omega
  simp only [Np.slice, Np.lower, Np.upper, Np.bound, h, if_false, List.drop_zero, Nat.sub_zero,
    Int.toNat_natCast]
  rcases Nat.le_total n l.length with h | h
  · rw [Nat.min_eq_left h]
  · rw [Nat.min_eq_right h, List.take_of_length_le (le_refl _), List.take_of_length_le h]

/-- The autocorrelogram of the two-sided transform of a complex signal, cropped or padded with zeros to size
`N`, is its circular autocorrelation. -/
theorem C94_circular (x : List ℂ) {N : Nat} (hN : 0 < N) :
    fft2autocorrelogram (fft x N) false = .ok ((List.range N).map fun m =>
      ∑ l ∈ Finset.range N, x.getD ((l + m) % N) 0 * (starRingEnd ℂ) (x.getD l 0)) := by
  have hlen : (fft x N).length = N := by simp [fft]
  have h1 : ¬ ((N : Int) < 1) := by omega
  simp only [fft2autocorrelogram, Bool.false_eq_true, if_false, hlen, Option.getD_none, h1,
    Int.toNat_natCast, Except.ok.injEq]
  rw [slice_to, List.take_of_length_le (by simp [ifft]), ifft]
  apply List.map_congr_left
  intro m _
  rw [← inverse_power x hN m]
  congr 1
  refine Finset.sum_congr rfl fun k hk => ?_
  rw [power_getD x (Finset.mem_range.1 hk), twiddle_pos]

theorem bin_reflect (x : List ℝ) {N k : Nat} (hk : k ≤ N) (hN : 0 < N) :
    bin (x.map (↑)) N (N - k) = (starRingEnd ℂ) (bin (x.map (↑)) N k) := by
  unfold bin
  rw [map_sum]
  refine Finset.sum_congr rfl fun m _ => ?_
  rw [map_mul, conj_unit, neg_neg]
  have h1 : (starRingEnd ℂ) ((x.map ((↑) : ℝ → ℂ)).getD m 0) = (x.map ((↑) : ℝ → ℂ)).getD m 0 := by
    rw [List.getD_eq_getElem?_getD, List.getElem?_map]
    cases x[m]? <;> simp
  rw [h1]
  congr 1
  unfold unit
  have hp := (Complex.isPrimitiveRoot_exp N hN.ne').pow_eq_one
  rw [show ((N - k : Nat) : ℤ) * -(m : ℤ) = (N : ℤ) * (-(m : ℤ)) + (k : ℤ) * m by
    rw [Nat.cast_sub hk]; ring, zpow_add₀ (Complex.exp_ne_zero _), zpow_mul, zpow_natCast, hp, one_zpow,
    one_mul]

theorem hermitian_power (x : List ℝ) {N k : Nat} (hk : k < N) :
    hermitian ((rfft x N).map fun z => (((z * (starRingEnd ℂ) z).re : ℝ) : ℂ)) N k =
      bin (x.map (↑)) N k * (starRingEnd ℂ) (bin (x.map (↑)) N k) := by
  have hN : 0 < N := by omega
  have hg : ∀ j, j ≤ N / 2 → j < N →
      ((rfft x N).map fun z => (((z * (starRingEnd ℂ) z).re : ℝ) : ℂ)).getD j 0 =
      bin (x.map (↑)) N j * (starRingEnd ℂ) (bin (x.map (↑)) N j) := by
    intro j hj hjN
    rw [← power_getD _ hjN, rfft, List.map_take, List.getD_eq_getElem?_getD, List.getElem?_take,
      if_pos (by omega), List.getD_eq_getElem?_getD]
  unfold hermitian
  split
  · rename_i h
    rw [hg k (by omega) hk, Complex.mul_conj]
    simp
  · split
    · rename_i h1 h2
      exact hg k h2 hk
    · rename_i h1 h2
      rw [hg (N - k) (by omega) (by omega), bin_reflect x (by omega) hN, Complex.conj_conj, map_mul,
        Complex.conj_conj]

theorem map_getD (x : List ℝ) (i : Nat) : (x.map ((↑) : ℝ → ℂ)).getD i 0 = ((x.getD i 0 : ℝ) : ℂ) := by
  rw [List.getD_eq_getElem?_getD, List.getElem?_map, List.getD_eq_getElem?_getD]
  cases x[i]? <;> simp

theorem irfft_power (x : List ℝ) {N : Nat} (hN : 0 < N) :
    irfft ((rfft x N).map fun z => (((z * (starRingEnd ℂ) z).re : ℝ) : ℂ)) N =
      (List.range N).map fun m => ∑ l ∈ Finset.range N, x.getD ((l + m) % N) 0 * x.getD l 0 := by
  unfold irfft
  apply List.map_congr_left
  intro m _
  have h : ∑ k ∈ Finset.range N,
      hermitian ((rfft x N).map fun z => (((z * (starRingEnd ℂ) z).re : ℝ) : ℂ)) N k * twiddle 1 N k m =
      ∑ k ∈ Finset.range N, bin (x.map (↑)) N k * (starRingEnd ℂ) (bin (x.map (↑)) N k) * unit N k m :=
    Finset.sum_congr rfl fun k hk => by
      rw [hermitian_power x (Finset.mem_range.1 hk), twiddle_pos]
  rw [h, inverse_power _ hN m]
  simp only [map_getD, Complex.conj_ofReal]
  rw [← Complex.ofReal_re (∑ l ∈ Finset.range N, x.getD ((l + m) % N) 0 * x.getD l 0)]
  congr 1
  push_cast
  rfl

/-- The autocorrelogram of the one-sided transform of a real signal, for a signal length `n` and a transform of
size `N`. -/
theorem auto_real (x : List ℝ) {N : Nat} (hN : 0 < N) (n : Nat) :
    fft2autocorrelogram (rfft x N) true (some n) (some N) =
      .ok (((List.range N).map fun m =>
        ((∑ l ∈ Finset.range N, x.getD ((l + m) % N) 0 * x.getD l 0 : ℝ) : ℂ)).take n) := by
  have h1 : ¬ ((N : Int) < 1) := by omega
  simp only [fft2autocorrelogram, Bool.false_eq_true, if_false, Option.getD_some, h1, if_true,
    Int.toNat_natCast, Except.ok.injEq]
  rw [slice_to, irfft_power x hN, List.map_map]
  rfl

/-- For real signals and one-sided transforms, with the sizes given: the circular autocorrelation. -/
theorem C94_real (x : List ℝ) {N : Nat} (hN : 0 < N) :
    fft2autocorrelogram (rfft x N) true (some N) = .ok ((List.range N).map fun m =>
      ((∑ l ∈ Finset.range N, x.getD ((l + m) % N) 0 * x.getD l 0 : ℝ) : ℂ)) := by
  have h := auto_real x hN N
  rw [List.take_of_length_le (by simp)] at h
  exact h

/-- The size need not be given if it is even.  If it is odd, the default is one less, and one sample is
missing. -/
theorem C94_default (x : List ℝ) {N : Nat} (hN : 0 < N) :
    (N % 2 = 0 → fft2autocorrelogram (rfft x N) = fft2autocorrelogram (rfft x N) true (some N)) ∧
      (N % 2 = 1 → 1 < N → ∃ r, fft2autocorrelogram (rfft x N) = .ok r ∧ r.length = N - 1) := by
  have hlen : (rfft x N).length = N / 2 + 1 := by
    simp only [rfft, List.length_take, fft, List.length_map, List.length_range]
    omega
  constructor
  · intro h
    have e : (2 : Int) * (((N / 2 + 1 : Nat) : Int) - 1) = N := by omega
    simp only [fft2autocorrelogram, hlen, Option.getD_none, if_true, e, Option.getD_some]
  · intro h h1
    have e : (2 : Int) * (((N / 2 + 1 : Nat) : Int) - 1) = ((N - 1 : Nat) : Int) := by omega
    have h2 : ¬ (((N - 1 : Nat) : Int) < 1) := by omega
    refine ⟨_, by simp only [fft2autocorrelogram, hlen, Option.getD_none, if_true, e, h2, if_false]; rfl, ?_⟩
    rw [slice_to]
    simp [irfft]

/-- With enough zeros the first `n` lags are those of the autocorrelation without wrapping. -/
theorem C94_linear (x : List ℝ) {N n : Nat} (hN : 0 < N) (h : x.length + n ≤ N + 1) (hn : n ≤ N) :
    fft2autocorrelogram (rfft x N) true (some n) (some N) = .ok ((List.range n).map fun m =>
      ((∑ l ∈ Finset.range x.length, x.getD (l + m) 0 * x.getD l 0 : ℝ) : ℂ)) := by
  rw [auto_real x hN n, ← List.map_take, List.take_range, Nat.min_eq_left hn]
  congr 1
  apply List.map_congr_left
  intro m hm
  have hm' := List.mem_range.1 hm
  congr 1
  have hxN : x.length ≤ N := by omega
  rw [← Finset.sum_subset (Finset.range_subset_range.2 hxN)]
  · refine Finset.sum_congr rfl fun l hl => ?_
    have hl' := Finset.mem_range.1 hl
    rw [Nat.mod_eq_of_lt (by omega)]
  · intro l hl hl2
    have hl2' : x.length ≤ l := Nat.le_of_not_lt fun hh => hl2 (Finset.mem_range.2 hh)
    have : x.getD l 0 = 0 := by
      rw [List.getD_eq_getElem?_getD, List.getElem?_eq_none hl2']; rfl
    rw [this, mul_zero]

/-- The magnitude gives the same result as the transform, and the power spectrum with `power=True`. -/
theorem C94_power (a : List ℂ) (real : Bool) (n nfft : Option Int) :
    fft2autocorrelogram (a.map fun z => ((‖z‖ : ℝ) : ℂ)) real n nfft = fft2autocorrelogram a real n nfft ∧
      fft2autocorrelogram (a.map fun z => ((‖z‖ ^ 2 : ℝ) : ℂ)) real n nfft true =
        fft2autocorrelogram a real n nfft := by
  have e1 : ∀ z : ℂ, (z * (starRingEnd ℂ) z).re = ‖z‖ ^ 2 := by
    intro z
    rw [Complex.mul_conj, Complex.normSq_eq_norm_sq, Complex.ofReal_re]
  have e2 : (a.map fun z => ((‖z‖ : ℝ) : ℂ)).map (fun z => (((z * (starRingEnd ℂ) z).re : ℝ) : ℂ)) =
      a.map fun z => (((z * (starRingEnd ℂ) z).re : ℝ) : ℂ) := by
    rw [List.map_map]
    apply List.map_congr_left
    intro z _
    simp only [Function.comp, e1]
    rw [Complex.norm_real, norm_norm]
  have e3 : (a.map fun z => ((‖z‖ ^ 2 : ℝ) : ℂ)) =
      a.map fun z => (((z * (starRingEnd ℂ) z).re : ℝ) : ℂ) := by
    apply List.map_congr_left
    intro z _
    rw [e1]
  constructor
  · simp only [fft2autocorrelogram, List.length_map, Bool.false_eq_true, if_false, e2]
  · simp only [fft2autocorrelogram, List.length_map, Bool.false_eq_true, if_false, if_true, ← e3]

/-- Sizes less than one raise `ValueError`; with the default sizes, a one-sided transform with at most one bin
and an empty two-sided one. -/
theorem C94_error (a : List ℂ) (real power : Bool) (n : Option Int) {nfft : Int} (h : nfft < 1) :
    fft2autocorrelogram a real n (some nfft) power = .error .valueError ∧
      (a.length ≤ 1 → fft2autocorrelogram a true none none power = .error .valueError) ∧
      fft2autocorrelogram [] false none none power = .error .valueError := by
  refine ⟨by simp [fft2autocorrelogram, h], fun ha => ?_, by simp [fft2autocorrelogram]⟩
  have : (2 : Int) * ((a.length : Int) - 1) < 1 := by omega
  simp only [fft2autocorrelogram, Option.getD_none, if_true, this]

/-- The first value is the greatest in absolute value, if the power spectrum is not negative. -/
theorem irfft_peak {a : List ℝ} (ha : ∀ v ∈ a, 0 ≤ v) (N : Nat) {m : Nat} (hm : m < N) :
    ∃ r0 rm, (irfft (a.map (↑)) N)[0]? = some r0 ∧ (irfft (a.map (↑)) N)[m]? = some rm ∧ |rm| ≤ r0 := by
  have hpos : ∀ i, 0 ≤ a.getD i 0 := by
    intro i
    rw [List.getD_eq_getElem?_getD]
    cases h : a[i]? with
    | none => simp
    | some v => exact ha v (List.mem_of_getElem? h)
  have hh : ∀ k, ∃ v : ℝ, 0 ≤ v ∧ hermitian (a.map (↑)) N k = (v : ℂ) := by
    intro k
    unfold hermitian
    split
    · exact ⟨a.getD k 0, hpos k, by rw [map_getD]; simp⟩
    · split
      · exact ⟨a.getD k 0, hpos k, map_getD a k⟩
      · exact ⟨a.getD (N - k) 0, hpos _, by rw [map_getD, Complex.conj_ofReal]⟩
  choose v hv1 hv2 using hh
  have hget : ∀ j, j < N → (irfft (a.map (↑)) N)[j]? =
      some (((∑ k ∈ Finset.range N, (v k : ℂ) * unit N k j) / N).re) := by
    intro j hj
    simp only [irfft, List.getElem?_map, List.getElem?_range hj, Option.map_some, Option.some.injEq, hv2,
      twiddle_pos]
  refine ⟨_, _, hget 0 (by omega), hget m hm, ?_⟩
  have h0 : ((∑ k ∈ Finset.range N, (v k : ℂ) * unit N k ((0 : Nat) : ℤ)) / N).re =
      (∑ k ∈ Finset.range N, v k) / N := by
    have : ∑ k ∈ Finset.range N, (v k : ℂ) * unit N k ((0 : Nat) : ℤ) =
        ((∑ k ∈ Finset.range N, v k : ℝ) : ℂ) := by
      push_cast
      refine Finset.sum_congr rfl fun k _ => ?_
      simp [unit]
    rw [this, ← Complex.ofReal_natCast, ← Complex.ofReal_div, Complex.ofReal_re]
  rw [h0]
  refine le_trans (Complex.abs_re_le_norm _) ?_
  rw [norm_div, Complex.norm_natCast]
  refine div_le_div_of_nonneg_right ?_ (Nat.cast_nonneg N)
  refine le_trans (norm_sum_le _ _) (Finset.sum_le_sum fun k _ => ?_)
  rw [norm_mul, norm_unit, mul_one, Complex.norm_real, Real.norm_of_nonneg (hv1 k)]

/-- An autocorrelogram from a power spectrum of numbers that are not negative is real and has its maximum
absolute value at lag zero. -/
theorem C94_peak {a : List ℝ} (ha : ∀ v ∈ a, 0 ≤ v) (n : Nat) (nfft : Option Int) {r : List ℂ}
    (h : fft2autocorrelogram (a.map (↑)) true (some n) nfft true = .ok r) {m : Nat} {z : ℂ}
    (hz : r[m]? = some z) :
    ∃ r0 rm : ℝ, r[0]? = some (r0 : ℂ) ∧ z = (rm : ℂ) ∧ |rm| ≤ r0 := by
  simp only [fft2autocorrelogram, if_true, Option.getD_some] at h
  split at h
  · cases h
  · rename_i hN
    set N := (nfft.getD (n : Int)).toNat with hNdef
    simp only [Except.ok.injEq] at h
    rw [slice_to] at h
    subst h
    rw [List.getElem?_take] at hz
    split at hz
    · rename_i hmn
      rw [List.getElem?_map] at hz
      have hmN : m < N := by
        refine Classical.byContradiction fun hc => ?_
        rw [List.getElem?_eq_none (by simp only [irfft, List.length_map, List.length_range]; omega)] at hz
        cases hz
      obtain ⟨r0, rm, h0, hm, hle⟩ := irfft_peak ha N hmN
      rw [hm] at hz
      refine ⟨r0, rm, ?_, (Option.some.inj hz).symm, hle⟩
      rw [List.getElem?_take, if_pos (by omega), List.getElem?_map, h0]
      rfl
    · cases hz

/-! ## C95: periodogram -/

/-- A bin is the first one with at least the given frequency. -/
theorem C95_f2bin (f : List ℝ) {nfft : Nat} {fs : ℝ} (hn : 0 < nfft) (hfs : 0 < fs) :
    ∃ b : List Int, f2bin f nfft fs = .ok b ∧ b.length = f.length ∧
      ∀ (i : Nat) (v : ℝ) (k : Int), f[i]? = some v → b[i]? = some k →
        v ≤ k * (fs / nfft) ∧ ∀ j : Int, v ≤ j * (fs / nfft) → k ≤ j := by
  have hnK : (0 : ℝ) < nfft := by exact_mod_cast hn
  refine ⟨_, by simp only [f2bin, hfs.ne', if_false]; rfl, by simp, fun i v k h1 h2 => ?_⟩
  rw [List.getElem?_map, h1] at h2
  simp only [Option.map_some, Option.some.injEq] at h2
  subst h2
  have key : ∀ j : Int, v ≤ j * (fs / nfft) ↔ v * (nfft / fs) ≤ j := by
    intro j
    rw [mul_div_assoc', mul_div_assoc', le_div_iff₀ hnK, div_le_iff₀ hfs]
  exact ⟨(key _).2 (Int.le_ceil _), fun j hj => Int.ceil_le.2 ((key j).1 hj)⟩

/-- The frequency of a bin gives the bin. -/
theorem C95_roundtrip (b : List Int) {nfft : Nat} {fs : ℝ} (hn : 0 < nfft) (hfs : fs ≠ 0) :
    f2bin (b.map fun (k : Int) => (k : ℝ) * (fs / nfft)) nfft fs = .ok b := by
  have hnK : (nfft : ℝ) ≠ 0 := by exact_mod_cast hn.ne'
  simp only [f2bin, hfs, if_false, List.map_map, Except.ok.injEq]
  conv_rhs => rw [← List.map_id b]
  apply List.map_congr_left
  intro k _
  simp only [Function.comp, id]
  rw [show (k : ℝ) * (fs / nfft) * (nfft / fs) = k by field_simp]
  exact Int.ceil_intCast k

/-- A number instead of an array raises `TypeError`. -/
theorem C95_scalar (f : ℝ) (nfft : Nat) {fs : ℝ} [Decidable (fs = 0)] (hfs : fs ≠ 0) :
    f2binScalar f nfft fs = .error .typeError := by
  simp [f2binScalar, hfs]

theorem angular_get {nfft k : Nat} (fs : ℝ) (hk : k < nfft / 2 + 1) :
    (angular nfft fs)[k]? = some (2 * Real.pi * (k * (fs / nfft))) := by
  simp only [angular, List.getElem?_map, List.getElem?_range hk, Option.map_some]

/-- Assignment to a slice of an array of zeros with the values of a function on the slice of another
array. -/
theorem assign_slice (w : List ℝ) (P : ℝ → ℝ) (i j : Int) :
    ∃ ls, Np.assign (List.replicate w.length (0 : ℝ)) (some i) (some j)
        ((Np.slice w (some i) (some j)).map P) = .ok ls ∧ ls.length = w.length ∧
      ∀ (k : Nat) (v : ℝ), w[k]? = some v →
        ls[k]? = some (if Np.bound w.length i ≤ k ∧ k < Np.bound w.length j then P v else 0) := by
  have hb : ∀ i : Int, Np.bound w.length i ≤ w.length := by
    intro i
    unfold Np.bound
    split <;> (try simp only [Int.ofNat_eq_natCast]) <;> omega
  have hi := hb i
  have hj := hb j
  set lo := Np.bound w.length i
  set hi' := Np.bound w.length j
  have hsl : ((Np.slice w (some i) (some j)).map P).length = hi' - lo := by
    simp only [List.length_map, Np.slice, Np.lower, Np.upper, List.length_take, List.length_drop]
    omega
  refine ⟨(List.replicate w.length (0 : ℝ)).take lo ++ (Np.slice w (some i) (some j)).map P ++
    (List.replicate w.length (0 : ℝ)).drop (lo + (hi' - lo)), ?_, ?_, ?_⟩
  · simp only [Np.assign, Np.lower, Np.upper, List.length_replicate]
    rw [if_pos hsl]
  · simp only [List.length_append, hsl, List.length_take, List.length_drop, List.length_replicate]
    omega
  · intro k v hv
    have hk : k < w.length := (List.getElem?_eq_some_iff.1 hv).1
    rw [List.append_assoc]
    by_cases h1 : k < lo
    · rw [List.getElem?_append_left (by simp; omega), List.getElem?_take, if_pos h1,
        List.getElem?_replicate, if_pos hk, if_neg (by omega)]
    · rw [List.getElem?_append_right (by simp; omega)]
      have e : (List.take lo (List.replicate w.length (0 : ℝ))).length = lo := by simp; omega
      rw [e]
      by_cases h2 : k < hi'
      · rw [List.getElem?_append_left (by omega), List.getElem?_map, if_pos ⟨by omega, h2⟩]
        simp only [Np.slice, Np.lower, Np.upper]
        rw [List.getElem?_take, if_pos (by omega), List.getElem?_drop,
          show lo + (k - lo) = k by omega, hv]
        rfl
      · rw [List.getElem?_append_right (by omega), hsl, List.getElem?_drop, List.getElem?_replicate,
          if_pos (by omega), if_neg (by omega)]

/-- The periodogram has a value for each of the frequencies of the transform.  Apart from frequency zero, it is
the Lomb-Scargle periodogram at the frequencies that are at least `hpf` and less than `lpf`, and zero at the
others.  At frequency zero it is the square of the mean, or zero if `hpf` is positive.  Without `hpf` and
`lpf` nothing is cut off. -/
theorem C95_periodogram (P : ℝ → ℝ) {lomb : List ℝ → Except PyErr (List ℝ)}
    (hl : ∀ f, lomb f = .ok (f.map P)) (x : List ℝ) {nfft : Nat} {fs : ℝ} (hn : 0 < nfft) (hfs : 0 < fs)
    (hpf lpf : Option ℝ) (hlpf : ∀ v, lpf = some v → 0 ≤ v) :
    ∃ ls f : List ℝ, lombscargleAsFft lomb x nfft fs hpf lpf = .ok (ls, f) ∧
      ls.length = nfft / 2 + 1 ∧ f.length = nfft / 2 + 1 ∧
      (∀ k, k < nfft / 2 + 1 → f[k]? = some (k * fs / nfft)) ∧
      ls[0]? = some (if ∀ v, hpf = some v → v ≤ 0 then (x.sum / x.length) ^ 2 else 0) ∧
      ∀ k, 0 < k → k < nfft / 2 + 1 → ls[k]? = some
        (if (∀ v, hpf = some v → v ≤ k * fs / nfft) ∧ (∀ v, lpf = some v → k * fs / nfft < v) then
          P (2 * Real.pi * (k * fs / nfft)) else 0) := by
  have hnK : (0 : ℝ) < nfft := by exact_mod_cast hn
  have hlen : (angular nfft fs).length = nfft / 2 + 1 := by simp [angular]
  set i := ⌈hpf.getD 0 * (nfft / fs)⌉ with hi
  set j := ⌈lpf.getD fs * (nfft / fs)⌉ with hj
  have hj0 : 0 ≤ j := by
    rw [hj]
    apply Int.ceil_nonneg
    apply mul_nonneg
    · cases lpf with
      | none => exact hfs.le
      | some v => exact hlpf v rfl
    · exact (div_pos hnK hfs).le
  obtain ⟨ls, h1, h2, h3⟩ := assign_slice (angular nfft fs) P (max i 1)
    (min j ((nfft / 2 + 1 : Nat) : Int))
  rw [hlen] at h1 h2 h3
  have hrun : lombscargleAsFft lomb x nfft fs hpf lpf =
      .ok ((if i < 1 then ls.set 0 ((x.sum / x.length) ^ 2) else ls),
        (angular nfft fs).map (· / (2 * Real.pi))) := by
    simp only [lombscargleAsFft, hn.ne', if_false, f2bin, hfs.ne', List.map_cons, List.map_nil, ← hi, ← hj,
      hl, h1]
  have h2pi : (2 * Real.pi : ℝ) ≠ 0 := by positivity
  have hi1 : i < 1 ↔ ∀ v, hpf = some v → v ≤ 0 := by
    rw [Int.lt_iff_add_one_le, show i + 1 ≤ 1 ↔ i ≤ 0 by omega, hi, Int.ceil_le, Int.cast_zero]
    cases hpf with
    | none => simp
    | some w =>
      simp only [Option.getD_some, Option.some.injEq, forall_eq']
      constructor
      · intro h
        refine Classical.byContradiction fun hc => ?_
        have := mul_pos (not_le.1 hc) (div_pos hnK hfs)
        linarith
      · intro h
        exact mul_nonpos_of_nonpos_of_nonneg h (div_pos hnK hfs).le
  have hb0 : 1 ≤ Np.bound (nfft / 2 + 1) (max i 1) := by
    have : ¬ max i 1 < 0 := by omega
    simp only [Np.bound, this, if_false]
    omega
  refine ⟨_, _, hrun, ?_, ?_, ?_, ?_, ?_⟩
  · split <;> simp [h2]
  · simp [hlen]
  · intro k hk
    rw [List.getElem?_map, angular_get fs hk]
    simp only [Option.map_some, Option.some.injEq]
    rw [mul_div_cancel_left₀ _ h2pi, mul_div_assoc]
  · have h0 := h3 0 _ (angular_get fs (by omega))
    rw [if_neg (by omega)] at h0
    by_cases hc : i < 1
    · rw [if_pos hc, if_pos (hi1.1 hc), List.getElem?_set_self (by omega)]
    · rw [if_neg hc, if_neg (fun h => hc (hi1.2 h)), h0]
  · intro k hk0 hk
    have hkk := h3 k _ (angular_get fs hk)
    have hset : (if i < 1 then ls.set 0 ((x.sum / x.length) ^ 2) else ls)[k]? = ls[k]? := by
      split
      · rw [List.getElem?_set_ne (by omega)]
      · rfl
    rw [hset, hkk, ← mul_div_assoc]
    have hk' : (k : Int) < ((nfft / 2 + 1 : Nat) : Int) := by omega
    have e1 : Np.bound (nfft / 2 + 1) (max i 1) ≤ k ↔ i ≤ k := by
      have : ¬ max i 1 < 0 := by omega
      simp only [Np.bound, this, if_false]
      omega
    have e2 : k < Np.bound (nfft / 2 + 1) (min j ((nfft / 2 + 1 : Nat) : Int)) ↔ (k : Int) < j := by
      have : ¬ min j ((nfft / 2 + 1 : Nat) : Int) < 0 := by omega
      simp only [Np.bound, this, if_false]
      omega
    have e3 : i ≤ k ↔ ∀ v, hpf = some v → v ≤ k * fs / nfft := by
      rw [hi, Int.ceil_le]
      cases hpf with
      | none => simp
      | some w =>
        simp only [Option.getD_some, Option.some.injEq, forall_eq', Int.cast_natCast]
        rw [mul_div_assoc', div_le_iff₀ hfs, le_div_iff₀ hnK]
    have e4 : (k : Int) < j ↔ ∀ v, lpf = some v → k * fs / nfft < v := by
      rw [hj, Int.lt_ceil]
      cases lpf with
      | none =>
        simp only [Option.getD_none, reduceCtorEq, false_implies, implies_true, iff_true, Int.cast_natCast]
        rw [mul_div_assoc', mul_comm, mul_div_assoc, div_self hfs.ne', mul_one]
        exact_mod_cast (by omega : k < nfft)
      | some w =>
        simp only [Option.getD_some, Option.some.injEq, forall_eq', Int.cast_natCast]
        rw [mul_div_assoc', lt_div_iff₀ hfs, div_lt_iff₀ hnK]
    simp only [e1, e2, e3, e4]

/-- A negative `lpf` counts from the end: there are values above it that are not cut off. -/
theorem C95_negative_lpf : ∃ ls f : List ℝ,
    lombscargleAsFft (fun f => .ok (f.map fun _ => 1)) [1] 4 4 none (some (-1)) = .ok (ls, f) ∧
      ls[1]? = some 1 := by
  obtain ⟨ls, h1, h2, h3⟩ := assign_slice (angular 4 4) (fun _ => 1) 1 (-1)
  have hc : ⌈(-1 : ℝ) * ((4 : Nat) / 4)⌉ = -1 := by norm_num
  have hlen : (angular 4 4).length = 3 := by simp [angular]
  rw [hlen] at h1
  have hm : max (0 : Int) 1 = 1 := rfl
  have hm2 : min (-1 : Int) ((4 / 2 + 1 : Nat) : Int) = -1 := rfl
  refine ⟨ls.set 0 ((([1] : List ℝ).sum / ([1] : List ℝ).length) ^ 2),
    (angular 4 4).map (· / (2 * Real.pi)), ?_, ?_⟩
  · simp only [lombscargleAsFft, f2bin, List.map_cons, List.map_nil, Option.getD_none, Option.getD_some,
      zero_mul, Int.ceil_zero, hc, hm, hm2, show ¬ (4 = 0) from by decide, if_false, OfNat.ofNat_ne_zero, h1,
      show (0 : Int) < 1 from by decide, if_true]
  · rw [List.getElem?_set_ne (by omega), h3 1 _ (angular_get 4 (by omega)), hlen]
    simp [Np.bound]

theorem foldl_max_spec (a : ℝ) (l : List ℝ) :
    l.foldl max a ∈ a :: l ∧ ∀ b ∈ a :: l, b ≤ l.foldl max a := by
  induction l generalizing a with
  | nil => simp
  | cons c l ih =>
    obtain ⟨h1, h2⟩ := ih (max a c)
    rw [List.foldl_cons]
    constructor
    · rcases List.mem_cons.1 h1 with h | h
      · rw [h]
        rcases max_choice a c with e | e <;> rw [e] <;> simp
      · exact List.mem_cons_of_mem _ (List.mem_cons_of_mem _ h)
    · intro b hb
      have hm := h2 (max a c) List.mem_cons_self
      rcases List.mem_cons.1 hb with rfl | hb
      · exact le_trans (le_max_left _ _) hm
      · rcases List.mem_cons.1 hb with rfl | hb
        · exact le_trans (le_max_right _ _) hm
        · exact h2 b (List.mem_cons_of_mem _ hb)

/-- The autocorrelogram of samples at times `t` of which one is positive has, by default, as many samples as
are needed to reach the last time, and no more.  It is real, and if the periodogram is not negative it has its
greatest absolute value at lag zero.  Without samples, or without positive times, it raises `ValueError`. -/
theorem C95_autocorrelogram {P : ℝ → ℝ} (hP : ∀ w, 0 ≤ P w) {lomb : List ℝ → Except PyErr (List ℝ)}
    (hl : ∀ f, lomb f = .ok (f.map P)) (t x : List ℝ) {fs : ℝ} (hfs : 0 < fs)
    (hpf lpf : Option ℝ) (hlpf : ∀ v, lpf = some v → 0 ≤ v) :
    ((∃ v ∈ t, 0 < v) → ∃ r : List ℝ,
      lombscargleAutocorrelogram lomb t x none none fs hpf lpf = .ok (r.map (↑)) ∧
        (∀ v ∈ t, v * fs ≤ r.length) ∧ (∃ v ∈ t, (r.length : ℝ) < v * fs + 1) ∧
        ∃ r0, r[0]? = some r0 ∧ ∀ v ∈ r, |v| ≤ r0) ∧
      ((∀ v ∈ t, v ≤ 0) →
        lombscargleAutocorrelogram lomb t x none none fs hpf lpf = .error .valueError) := by
  constructor
  · rintro ⟨v0, hv0, hv0pos⟩
    obtain ⟨a, l, rfl⟩ := List.exists_cons_of_ne_nil (List.ne_nil_of_mem hv0)
    obtain ⟨hmem, hmax⟩ := foldl_max_spec a l
    set M := l.foldl max a
    have hMpos : 0 < M := lt_of_lt_of_le hv0pos (hmax v0 hv0)
    have hcpos : 0 < ⌈M * fs⌉ := Int.ceil_pos.2 (mul_pos hMpos hfs)
    obtain ⟨n, hn⟩ := Int.eq_ofNat_of_zero_le hcpos.le
    have hn0 : 0 < n := by omega
    obtain ⟨ls, f, h1, h2, -, -, h3, h4⟩ := C95_periodogram P hl x (nfft := 2 * n) (by omega) hfs hpf lpf hlpf
    have hnn : ∀ v ∈ ls, 0 ≤ v := by
      intro v hv
      obtain ⟨k, hk, rfl⟩ := List.mem_iff_getElem.1 hv
      rcases Nat.eq_zero_or_pos k with rfl | hk0
      · rw [List.getElem?_eq_getElem hk] at h3
        rw [Option.some.inj h3]
        split
        · exact sq_nonneg _
        · exact le_rfl
      · have := h4 k hk0 (by omega)
        rw [List.getElem?_eq_getElem hk] at this
        rw [Option.some.inj this]
        split
        · exact hP _
        · exact le_rfl
    have e2 : (2 : Int) * (n : Int) = ((2 * n : Nat) : Int) := by omega
    have hneg : ¬ (((2 * n : Nat) : Int) < 0 ∨ (((2 * n : Nat) : Int) = 0 ∧ (true && true) = true)) := by
      omega
    have hrun : lombscargleAutocorrelogram lomb (a :: l) x none none fs hpf lpf =
        fft2autocorrelogram (ls.map (↑)) true (some (n : Int)) (some ((2 * n : Nat) : Int)) true := by
      have hM : maxE (a :: l) = .ok M := rfl
      simp only [lombscargleAutocorrelogram, hM, hn, Int.ofNat_eq_natCast, Option.map_none, Option.getD_none,
        Option.isNone_none, e2]
      rw [if_neg hneg, Int.toNat_natCast, h1]
    have hlen : ((irfft (ls.map (↑)) (2 * n)).take n).length = n := by
      simp [irfft]; omega
    refine ⟨(irfft (ls.map (↑)) (2 * n)).take n, ?_, ?_, ?_, ?_⟩
    · have h5 : ¬ (((2 * n : Nat) : Int) < 1) := by omega
      rw [hrun]
      simp only [fft2autocorrelogram, if_true, Option.getD_some, h5, if_false, Int.toNat_natCast]
      rw [slice_to, List.map_take]
    · intro v hv
      rw [hlen]
      have hc := Int.le_ceil (M * fs)
      rw [hn] at hc
      refine le_trans ?_ hc
      exact mul_le_mul_of_nonneg_right (hmax v hv) hfs.le
    · refine ⟨M, hmem, ?_⟩
      rw [hlen]
      have hc := Int.ceil_lt_add_one (M * fs)
      rw [hn] at hc
      exact hc
    · obtain ⟨r0, -, h6, -, -⟩ := irfft_peak hnn (2 * n) (m := 0) (by omega)
      refine ⟨r0, by rw [List.getElem?_take, if_pos hn0, h6], fun v hv => ?_⟩
      obtain ⟨k, hk, rfl⟩ := List.mem_iff_getElem.1 (List.mem_of_mem_take hv)
      obtain ⟨r0', rm, h7, h8, h9⟩ := irfft_peak hnn (2 * n) (m := k) (by simpa [irfft] using hk)
      rw [h6] at h7
      rw [List.getElem?_eq_getElem hk] at h8
      rw [Option.some.inj h8, Option.some.inj h7]
      exact h9
  · intro hneg
    cases t with
    | nil => simp [lombscargleAutocorrelogram, maxE]
    | cons a l =>
      obtain ⟨hmem, -⟩ := foldl_max_spec a l
      have hM := hneg _ hmem
      have hc : ⌈l.foldl max a * fs⌉ ≤ 0 := by
        rw [Int.ceil_le, Int.cast_zero]
        exact mul_nonpos_of_nonpos_of_nonneg hM hfs.le
      simp only [lombscargleAutocorrelogram, maxE, Option.map_none, Option.getD_none, Option.isNone_none]
      rw [if_pos]
      simp only [Bool.and_self, and_true]
      omega

/-! ## C96: trends -/

section Trend

/-- Sum of a function over the samples. -/
noncomputable def total (P : List (ℝ × ℝ)) (f : ℝ × ℝ → ℝ) : ℝ := (P.map f).sum

theorem total_add (P : List (ℝ × ℝ)) (f g : ℝ × ℝ → ℝ) :
    total P (fun p => f p + g p) = total P f + total P g := by
  induction P with
  | nil => simp [total]
  | cons p P ih => simp only [total, List.map_cons, List.sum_cons] at ih ⊢; rw [ih]; ring

theorem total_mul (P : List (ℝ × ℝ)) (c : ℝ) (f : ℝ × ℝ → ℝ) :
    total P (fun p => c * f p) = c * total P f := by
  induction P with
  | nil => simp [total]
  | cons p P ih => simp only [total, List.map_cons, List.sum_cons] at ih ⊢; rw [ih]; ring

theorem total_const (P : List (ℝ × ℝ)) (c : ℝ) : total P (fun _ => c) = P.length * c := by
  induction P with
  | nil => simp [total]
  | cons p P ih =>
    simp only [total, List.map_cons, List.sum_cons, List.length_cons] at ih ⊢
    rw [ih]; push_cast; ring

theorem total_nonneg {P : List (ℝ × ℝ)} {f : ℝ × ℝ → ℝ} (h : ∀ p ∈ P, 0 ≤ f p) : 0 ≤ total P f :=
  List.sum_nonneg fun v hv => by
    obtain ⟨p, hp, rfl⟩ := List.mem_map.1 hv
    exact h p hp

theorem zipWith_zip {γ : Type} (f : ℝ → ℝ → γ) (x y : List ℝ) :
    List.zipWith f x y = (x.zip y).map fun p => f p.1 p.2 := by
  induction x generalizing y with
  | nil => simp
  | cons a x ih =>
    cases y with
    | nil => simp
    | cons b y => simp [ih]

theorem zipWith_diag {α γ : Type} (f : α → α → γ) (l : List α) :
    List.zipWith f l l = l.map fun a => f a a := by
  induction l with
  | nil => rfl
  | cons a l ih => simp [ih]

theorem total_congr {P : List (ℝ × ℝ)} {f g : ℝ × ℝ → ℝ} (h : ∀ p ∈ P, f p = g p) :
    total P f = total P g := by
  rw [total, total, List.map_congr_left h]

theorem sq_total_zero {P : List (ℝ × ℝ)} {f : ℝ × ℝ → ℝ} (h : total P (fun p => f p ^ 2) = 0) :
    ∀ p ∈ P, f p = 0 := by
  induction P with
  | nil => simp
  | cons p P ih =>
    simp only [total, List.map_cons, List.sum_cons] at h
    have h1 : 0 ≤ total P (fun p => f p ^ 2) := total_nonneg fun p _ => sq_nonneg _
    have h2 := sq_nonneg (f p)
    simp only [total] at h1
    have h3 : f p ^ 2 = 0 := by linarith
    have h4 : total P (fun p => f p ^ 2) = 0 := by simp only [total]; linarith
    intro q hq
    rcases List.mem_cons.1 hq with rfl | hq
    · exact pow_eq_zero_iff (two_ne_zero) |>.1 h3
    · exact ih h4 q hq

/-- Mean of the first coordinates. -/
noncomputable def mx (P : List (ℝ × ℝ)) : ℝ := total P (·.1) / P.length
/-- Mean of the second coordinates. -/
noncomputable def my (P : List (ℝ × ℝ)) : ℝ := total P (·.2) / P.length
/-- Slope of the regression line. -/
noncomputable def sl (P : List (ℝ × ℝ)) : ℝ :=
  total P (fun p => (p.1 - mx P) * (p.2 - my P)) / total P (fun p => (p.1 - mx P) ^ 2)
/-- Residual. -/
noncomputable def res (P : List (ℝ × ℝ)) (p : ℝ × ℝ) : ℝ := p.2 - (my P + sl P * (p.1 - mx P))

theorem total_dx (P : List (ℝ × ℝ)) (hP : P ≠ []) : total P (fun p => p.1 - mx P) = 0 := by
  have hn : (P.length : ℝ) ≠ 0 := by
    rw [Nat.cast_ne_zero]; exact fun h => hP (List.length_eq_zero_iff.1 h)
  have := total_add P (·.1) (fun _ => -mx P)
  simp only [← sub_eq_add_neg] at this
  rw [this, total_const, mx]
  field_simp
  ring

theorem total_dy (P : List (ℝ × ℝ)) (hP : P ≠ []) : total P (fun p => p.2 - my P) = 0 := by
  have hn : (P.length : ℝ) ≠ 0 := by
    rw [Nat.cast_ne_zero]; exact fun h => hP (List.length_eq_zero_iff.1 h)
  have := total_add P (·.2) (fun _ => -my P)
  simp only [← sub_eq_add_neg] at this
  rw [this, total_const, my]
  field_simp
  ring

theorem total_res (P : List (ℝ × ℝ)) (hP : P ≠ []) : total P (res P) = 0 := by
  have e : total P (res P) = total P (fun p => (p.2 - my P) + (-sl P) * (p.1 - mx P)) :=
    total_congr fun p _ => by unfold res; ring
  rw [e, total_add, total_mul, total_dx P hP, total_dy P hP]
  ring

theorem total_dx_res (P : List (ℝ × ℝ)) : total P (fun p => (p.1 - mx P) * res P p) = 0 := by
  have e : total P (fun p => (p.1 - mx P) * res P p) =
      total P (fun p => (p.1 - mx P) * (p.2 - my P) + (-sl P) * (p.1 - mx P) ^ 2) :=
    total_congr fun p _ => by unfold res; ring
  rw [e, total_add, total_mul]
  by_cases h : total P (fun p => (p.1 - mx P) ^ 2) = 0
  · have hz := sq_total_zero h
    have : total P (fun p => (p.1 - mx P) * (p.2 - my P)) = total P (fun _ => 0) :=
      total_congr fun p hp => by rw [hz p hp, zero_mul]
    rw [this, total_const, h]
    ring
  · rw [sl]
    field_simp
    ring

theorem total_x_res (P : List (ℝ × ℝ)) (hP : P ≠ []) : total P (fun p => p.1 * res P p) = 0 := by
  have e : total P (fun p => p.1 * res P p) =
      total P (fun p => (p.1 - mx P) * res P p + mx P * res P p) :=
    total_congr fun p _ => by ring
  rw [e, total_add, total_mul, total_dx_res, total_res P hP]
  ring

theorem res_least (P : List (ℝ × ℝ)) (hP : P ≠ []) (α β : ℝ) :
    total P (fun p => res P p ^ 2) ≤ total P (fun p => (p.2 - (α + β * p.1)) ^ 2) := by
  have e : total P (fun p => (p.2 - (α + β * p.1)) ^ 2) =
      total P (fun p => res P p ^ 2 + ((2 * (my P - sl P * mx P - α)) * res P p +
        ((2 * (sl P - β)) * (p.1 * res P p) + (my P + sl P * (p.1 - mx P) - (α + β * p.1)) ^ 2))) :=
    total_congr fun p _ => by unfold res; ring
  rw [e, total_add, total_add, total_add, total_mul, total_mul, total_res P hP, total_x_res P hP]
  have := total_nonneg (P := P) (f := fun p => (my P + sl P * (p.1 - mx P) - (α + β * p.1)) ^ 2)
    fun p _ => sq_nonneg _
  linarith

theorem res_shift (P : List (ℝ × ℝ)) (hP : P ≠ []) (α β : ℝ) :
    ∀ p ∈ P, res (P.map fun p => (p.1, p.2 + (α + β * p.1))) (p.1, p.2 + (α + β * p.1)) = res P p := by
  set Q := P.map fun p => (p.1, p.2 + (α + β * p.1)) with hQ
  have hn : (P.length : ℝ) ≠ 0 := by
    rw [Nat.cast_ne_zero]; exact fun h => hP (List.length_eq_zero_iff.1 h)
  have htot : ∀ f : ℝ × ℝ → ℝ, total Q f = total P (fun p => f (p.1, p.2 + (α + β * p.1))) := by
    intro f
    simp only [total, hQ, List.map_map]
    rfl
  have hmx : mx Q = mx P := by
    rw [mx, htot, mx, hQ, List.length_map]
  have hmy : my Q = my P + (α + β * mx P) := by
    rw [my, htot]
    have := total_add P (·.2) (fun p => α + β * p.1)
    rw [this]
    have h2 := total_add P (fun _ => α) (fun p => β * p.1)
    rw [h2, total_const, total_mul P β (·.1), hQ, List.length_map, my, mx]
    field_simp
  have hsxx : total Q (fun p => (p.1 - mx Q) ^ 2) = total P (fun p => (p.1 - mx P) ^ 2) := by
    rw [htot, hmx]
  have hsxy : total Q (fun p => (p.1 - mx Q) * (p.2 - my Q)) =
      total P (fun p => (p.1 - mx P) * (p.2 - my P)) + β * total P (fun p => (p.1 - mx P) ^ 2) := by
    rw [htot, hmx, hmy, ← total_mul, ← total_add]
    exact total_congr fun p _ => by ring
  intro p hp
  by_cases h : total P (fun p => (p.1 - mx P) ^ 2) = 0
  · have hz := sq_total_zero h p hp
    have hs : sl Q = 0 := by rw [sl, hsxx, h, div_zero]
    have hs' : sl P = 0 := by rw [sl, h, div_zero]
    unfold res
    simp only
    rw [hs, hs', hmy]
    linear_combination β * hz
  · have hs : sl Q = sl P + β := by
      rw [sl, hsxx, hsxy, sl]
      field_simp
    unfold res
    simp only
    rw [hs, hmy, hmx]
    ring

/-- The samples as points. -/
theorem detrend_eq {x y : List ℝ} (hx : x ≠ []) (hxy : x.length = y.length) :
    detrend linearRegression 1 y (some x) =
      .ok (squeeze ((x.zip y).map (res (x.zip y)))) := by
  have h1 : (x.zip y).map (·.1) = x := List.map_fst_zip (by omega)
  have h2 : (x.zip y).map (·.2) = y := List.map_snd_zip (by omega)
  have hl : (x.zip y).length = x.length := by simp [hxy]
  have hmx : mean x = mx (x.zip y) := by
    rw [mean, mx, total, h1, hl]
  have hmy : mean y = my (x.zip y) := by
    rw [mean, my, total, h2, hl, hxy]
  have hsl : slope x y = sl (x.zip y) := by
    unfold slope sl total
    rw [← hmx, ← hmy]
    congr 2
    · rw [zipWith_zip]
    · have h3 : ∀ m : ℝ, x.map (fun a => (a - m) ^ 2) = (x.zip y).map fun p => (p.1 - m) ^ 2 := by
        intro m
        conv_lhs => rw [← h1]
        rw [List.map_map]
        rfl
      exact h3 _
  simp only [detrend, linearRegression, hx, hxy, ne_eq, not_true, or_self, if_false, Option.getD_some,
    not_false_eq_true, Except.ok.injEq]
  congr 1
  rw [hmx, hmy, hsl]
  conv_lhs => arg 2; rw [← h2]
  conv_lhs => arg 3; arg 2; rw [← h1]
  rw [List.map_map, List.zipWith_map, zipWith_diag]
  rfl

theorem squeeze_toList (l : List ℝ) : (squeeze l).toList = l := by
  unfold squeeze
  split <;> rfl

/-- Removing the linear trend: the residuals have mean zero, are not correlated with the times, and no line has
residuals with a smaller sum of squares. -/
theorem C96_residuals {x y : List ℝ} (hx : x ≠ []) (hxy : x.length = y.length) :
    ∃ r : Squeezed, detrend linearRegression 1 y (some x) = .ok r ∧ r.toList.length = y.length ∧
      r.toList.sum = 0 ∧ (List.zipWith (· * ·) x r.toList).sum = 0 ∧
      ∀ α β : ℝ, (r.toList.map (· ^ 2)).sum ≤
        (List.zipWith (fun a b => (b - (α + β * a)) ^ 2) x y).sum := by
  have hP : x.zip y ≠ [] := by
    intro h
    have := congrArg List.length h
    simp only [List.length_zip, List.length_nil] at this
    have := List.length_pos_of_ne_nil hx
    omega
  refine ⟨_, detrend_eq hx hxy, ?_, ?_, ?_, ?_⟩ <;> rw [squeeze_toList]
  · simp [hxy]
  · exact total_res _ hP
  · have h := total_x_res _ hP
    rw [total] at h
    conv_lhs => arg 1; arg 2; rw [← List.map_fst_zip (l₁ := x) (l₂ := y) (by omega)]
    rw [List.zipWith_map, zipWith_diag]
    exact h
  · intro α β
    have h := res_least _ hP α β
    rw [total, total] at h
    rw [List.map_map, zipWith_zip]
    exact h

/-- Adding a line to the signal has no effect. -/
theorem C96_invariant {x y : List ℝ} (hx : x ≠ []) (hxy : x.length = y.length) (α β : ℝ) :
    detrend linearRegression 1 (List.zipWith (fun a b => b + (α + β * a)) x y) (some x) =
      detrend linearRegression 1 y (some x) := by
  have hP : x.zip y ≠ [] := by
    intro h
    have := congrArg List.length h
    simp only [List.length_zip, List.length_nil] at this
    have := List.length_pos_of_ne_nil hx
    omega
  have hz : x.zip (List.zipWith (fun a b => b + (α + β * a)) x y) =
      (x.zip y).map fun p => (p.1, p.2 + (α + β * p.1)) := by
    clear hP hx
    induction x generalizing y with
    | nil => simp
    | cons a x ih =>
      cases y with
      | nil => simp at hxy
      | cons b y =>
        simp only [List.zipWith_cons_cons, List.zip_cons_cons, List.map_cons]
        rw [ih (by simpa using hxy)]
  rw [detrend_eq hx hxy, detrend_eq hx (by simp [hxy]), hz, List.map_map]
  congr 2
  apply List.map_congr_left
  intro p hp
  exact res_shift _ hP α β p hp

/-- A line has no residuals. -/
theorem C96_line {x : List ℝ} (hx : x ≠ []) (α β : ℝ) :
    ∃ r : Squeezed, detrend linearRegression 1 (x.map fun a => α + β * a) (some x) = .ok r ∧
      ∀ v ∈ r.toList, v = 0 := by
  obtain ⟨r, h1, -, -, -, h2⟩ := C96_residuals (x := x) (y := x.map fun a => α + β * a) hx (by simp)
  refine ⟨r, h1, ?_⟩
  have h3 := h2 α β
  have h4 : (List.zipWith (fun a b => (b - (α + β * a)) ^ 2) x (x.map fun a => α + β * a)).sum = 0 := by
    rw [List.zipWith_map_right, zipWith_diag]
    apply List.sum_eq_zero
    intro v hv
    obtain ⟨a, -, rfl⟩ := List.mem_map.1 hv
    ring
  rw [h4] at h3
  intro v hv
  have h5 : (r.toList.map (· ^ 2)).sum = 0 :=
    le_antisymm h3 (List.sum_nonneg (by intro w hw; obtain ⟨a, -, rfl⟩ := List.mem_map.1 hw; exact sq_nonneg a))
  have h6 : v ^ 2 ≤ (r.toList.map (· ^ 2)).sum :=
    List.single_le_sum (by intro w hw; obtain ⟨a, -, rfl⟩ := List.mem_map.1 hw; exact sq_nonneg a) _
      (List.mem_map.2 ⟨v, hv, rfl⟩)
  have h7 : v ^ 2 = 0 := le_antisymm (by linarith) (sq_nonneg v)
  exact pow_eq_zero_iff two_ne_zero |>.1 h7

/-- Without times the samples are at 0, 1, 2, ...; signals that are not one-dimensional raise `ValueError`, and
so do empty ones and times of another number. -/
theorem C96_cases (ndim : Nat) (y : List ℝ) (x : Option (List ℝ)) :
    (detrend linearRegression 1 y none =
        detrend linearRegression 1 y (some ((List.range y.length).map fun (i : Nat) => (i : ℝ)))) ∧
      (ndim ≠ 1 → detrend linearRegression ndim y x = .error .valueError) ∧
      detrend linearRegression 1 [] none = .error .valueError ∧
      (∀ x : List ℝ, x.length ≠ y.length → detrend linearRegression 1 y (some x) = .error .valueError) := by
  refine ⟨rfl, fun h => by simp [detrend, h], by simp [detrend, linearRegression], fun x h => ?_⟩
  simp [detrend, linearRegression, h]

/-- With any estimator, the result is the signal minus the prediction. -/
theorem C96_model {model : List ℝ → List ℝ → Except PyErr (List ℝ)} {x y p : List ℝ}
    (h : model x y = .ok p) (hp : p.length = y.length) :
    ∃ r : Squeezed, detrend model 1 y (some x) = .ok r ∧
      ∀ (i : Nat) (a b : ℝ), y[i]? = some a → p[i]? = some b → r.toList[i]? = some (a - b) := by
  refine ⟨_, by simp only [detrend, ne_eq, not_true, if_false, Option.getD_some, h]; rfl, ?_⟩
  intro i a b ha hb
  rw [squeeze_toList, List.getElem?_zipWith, ha, hb]

end Trend

/-! ## Cases -/

/-- Two samples with two zeros: lags 0 and 1 are 5 and 2. -/
example : fft2autocorrelogram (rfft [1, 2] 4) true (some ((2 : Nat) : Int)) (some ((4 : Nat) : Int)) = .ok [5, 2] := by
  rw [C94_linear [1, 2] (N := 4) (n := 2) (by omega) (by simp) (by omega)]
  simp [List.range_succ, Finset.sum_range_succ]
  norm_num

/-- Circular autocorrelation of three samples. -/
example : fft2autocorrelogram (fft [1, 2, 0] 3) false = .ok [5, 2, 2] := by
  rw [C94_circular [1, 2, 0] (N := 3) (by omega)]
  have h2 : (starRingEnd ℂ) 2 = 2 := map_ofNat _ 2
  simp [List.range_succ, Finset.sum_range_succ, h2]
  norm_num

/-- A periodogram with a band. -/
example : ∃ ls f : List ℝ, lombscargleAsFft (fun f => .ok (f.map fun w => w)) [1, 3] 8 8 (some 1) (some 3) =
    .ok (ls, f) ∧ ls[0]? = some 0 ∧ ls[2]? = some (2 * Real.pi * (2 * 8 / 8)) ∧ ls[3]? = some 0 := by
  obtain ⟨ls, f, h1, -, -, -, h3, h4⟩ := C95_periodogram (fun w => w) (lomb := fun f => .ok (f.map fun w => w))
    (fun f => rfl) [1, 3] (nfft := 8) (fs := 8) (by omega) (by norm_num) (some 1) (some 3)
    (by intro v hv; cases hv; norm_num)
  refine ⟨ls, f, h1, ?_, ?_, ?_⟩
  · rw [h3, if_neg]
    intro h
    have := h 1 rfl
    norm_num at this
  · rw [h4 2 (by omega) (by omega), if_pos]
    · norm_num
    · constructor <;> (intro v hv; cases hv; norm_num)
  · rw [h4 3 (by omega) (by omega), if_neg]
    rintro ⟨-, h⟩
    have := h 3 rfl
    norm_num at this

/-- Points that are not on a line. -/
example : detrend linearRegression 1 [0, 3, 0] (some [0, 1, 2]) = .ok (.vector [-1, 2, -1]) := by
  rw [detrend_eq (by simp) (by simp)]
  simp [res, my, mx, sl, total, squeeze]
  norm_num

end Verif.Dsp
