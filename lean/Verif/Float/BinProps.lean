import Mathlib.Data.Rat.Floor
import Verif.Float.BinModel

/-!
# FFT bins and frequencies in floating point (C142)
-/

set_option autoImplicit false
set_option linter.unusedSectionVars false
set_option linter.unusedSimpArgs false

namespace Verif.Float

open Arith

variable {K : Type} [Field K] [LinearOrder K] [IsStrictOrderedRing K] [FloorRing K] (A : Arith K)

theorem rep_nat {n : Nat} (h : (n : K) * A.u ≤ 1) : A.Rep (n : K) := by
  have := A.int (n : ℤ) (by rw [Int.cast_natCast, abs_of_nonneg (Nat.cast_nonneg _)]; exact h)
  simpa [Rep] using this

/-- The relative error of a rounded number that does not underflow. -/
theorem rel_err {x e : K} (x0 : 0 ≤ x) (he : A.eta ≤ A.u * e) (hx : e ≤ x) :
    |A.rnd x - x| ≤ 2 * A.u * x := by
  have := A.err x
  rw [abs_of_nonneg x0] at this
  have := mul_le_mul_of_nonneg_left hx A.u_pos.le
  linarith

/-- The scaled frequency before the rounding up. -/
theorem f2bin_err {f q : K} (f0 : 0 ≤ f) (q0 : 0 < q) (hη : A.eta ≤ A.u * q) :
    |A.mul f (A.rnd q) - f * q| ≤ 4 * A.u * (f * q) + A.eta := by
  have u0 := A.u_pos
  have u8 := A.u_le
  have e1 := rel_err A q0.le hη le_rfl
  have hfq : 0 ≤ f * q := mul_nonneg f0 q0.le
  have e2 : |f * A.rnd q - f * q| ≤ 2 * A.u * (f * q) := by
    rw [← mul_sub, abs_mul, abs_of_nonneg f0]
    have := mul_le_mul_of_nonneg_left e1 f0
    linarith
  have e3 := A.err (f * A.rnd q)
  have h1 : |f * A.rnd q| ≤ (1 + 2 * A.u) * (f * q) := by
    have := abs_add_le (f * A.rnd q - f * q) (f * q)
    rw [sub_add_cancel, abs_of_nonneg hfq] at this
    linarith
  have h2 := mul_le_mul_of_nonneg_left h1 u0.le
  have h3 : A.u * (A.u * (f * q)) ≤ 1 / 8 * (A.u * (f * q)) :=
    mul_le_mul_of_nonneg_right u8 (mul_nonneg u0.le hfq)
  have h4 := mul_nonneg u0.le hfq
  have h5 := abs_add_le (A.rnd (f * A.rnd q) - f * A.rnd q) (f * A.rnd q - f * q)
  rw [sub_add_sub_cancel] at h5
  show |A.rnd (f * A.rnd q) - f * q| ≤ _
  linarith

theorem ceil_near {v e : K} (h : |v - e| < 1) : ⌈e⌉ - 1 ≤ ⌈v⌉ ∧ ⌈v⌉ ≤ ⌈e⌉ + 1 := by
  have h1 := abs_lt.1 h
  constructor
  · have h2 : e ≤ ((⌈v⌉ + 1 : ℤ) : K) := by
      push_cast
      linarith [Int.le_ceil v]
    have := Int.ceil_le.2 h2
    omega
  · rw [Int.ceil_le]
    push_cast
    linarith [Int.le_ceil e]

/-- C142: the bin computed for a frequency is at most one off the exact one, for up to `1 / (10 u)`
bins and without underflow in the ratio of size and sampling frequency. -/
theorem C142_f2bin (f fs : K) (nfft : Nat) (f0 : 0 ≤ f) (fs0 : 0 < fs) (n0 : 0 < nfft)
    (hn : (nfft : K) * A.u ≤ 1) (hη : A.eta ≤ A.u * (nfft / fs))
    (he : 10 * A.u * (f * (nfft / fs)) ≤ 1) :
    ⌈f * (nfft / fs)⌉ - 1 ≤ f2binF A f nfft fs ∧ f2binF A f nfft fs ≤ ⌈f * (nfft / fs)⌉ + 1 := by
  have u8 := A.u_le
  have ηu := A.eta_le
  have hq : 0 < (nfft : K) / fs := div_pos (by exact_mod_cast n0) fs0
  have h1 := f2bin_err A f0 hq hη
  unfold f2binF
  rw [rnd_of (rep_nat A hn)]
  refine ceil_near (lt_of_le_of_lt h1 ?_)
  linarith

/-- C142: from a bin to its frequency and back: the same bin or the next one; bin zero stays. -/
theorem C142_roundtrip (fs : K) (nfft b : Nat) (fs0 : 0 < fs) (n0 : 0 < nfft)
    (hn : (nfft : K) * A.u ≤ 1) (hη : A.eta ≤ A.u * (nfft / fs)) (hη2 : A.eta ≤ A.u * (fs / nfft))
    (hb : 14 * A.u * b < 1) :
    ((b : Int) = f2binF A (bin2fF A b nfft fs) nfft fs ∨
      (b : Int) + 1 = f2binF A (bin2fF A b nfft fs) nfft fs) ∧
    f2binF A (bin2fF A 0 nfft fs) nfft fs = 0 := by
  have u0 := A.u_pos
  have u8 := A.u_le
  have ηu := A.eta_le
  have η0 := A.eta_nonneg
  have hN : (0 : K) < nfft := by exact_mod_cast n0
  have hq : 0 < (nfft : K) / fs := div_pos hN fs0
  have hr : 0 < fs / (nfft : K) := div_pos fs0 hN
  constructor
  · rcases Nat.eq_zero_or_pos b with h0 | hb0
    · subst h0
      left
      simp [f2binF, bin2fF, Arith.mul, rnd_zero]
    have hb1 : (1 : K) ≤ b := by exact_mod_cast hb0
    -- the frequency
    have hbr : fs / (nfft : K) ≤ b * (fs / nfft) := by
      have := mul_le_mul_of_nonneg_right hb1 hr.le
      linarith
    have hbr0 : 0 < (b : K) * (fs / nfft) := hr.trans_le hbr
    have e1 : |bin2fF A b nfft fs - b * (fs / nfft)| ≤ 5 * A.u * (b * (fs / nfft)) := by
      have := f2bin_err A (Nat.cast_nonneg b) hr hη2
      unfold bin2fF
      rw [rnd_of (rep_nat A hn)]
      refine this.trans ?_
      have := mul_le_mul_of_nonneg_left hbr u0.le
      linarith
    have hf0 : 0 ≤ bin2fF A b nfft fs :=
      rnd_nonneg (mul_nonneg (Nat.cast_nonneg _) (rnd_nonneg (div_nonneg fs0.le
        (rnd_nonneg (Nat.cast_nonneg _)))))
    -- the bin
    have e2 := f2bin_err A hf0 hq hη
    have hinv : fs / (nfft : K) * (nfft / fs) = 1 := by
      have := hN.ne'
      have := fs0.ne'
      field_simp
    have e3 : |bin2fF A b nfft fs * (nfft / fs) - b| ≤ 5 * A.u * b := by
      have := mul_le_mul_of_nonneg_right e1 hq.le
      rw [← abs_of_pos hq, ← abs_mul, abs_of_pos hq, sub_mul, mul_assoc (b : K), hinv, mul_one] at this
      refine this.trans (le_of_eq ?_)
      rw [show 5 * A.u * (b * (fs / nfft)) * (nfft / fs) = 5 * A.u * b * (fs / nfft * (nfft / fs)) by ring,
        hinv, mul_one]
    have h1 : bin2fF A b nfft fs * (nfft / fs) ≤ (1 + 5 * A.u) * b := by
      linarith [(abs_le.1 e3).2]
    have h2 := mul_le_mul_of_nonneg_left h1 u0.le
    have hub : 0 < A.u * b := mul_pos u0 (by linarith)
    have h3 : A.u * (A.u * b) ≤ 1 / 8 * (A.u * b) := mul_le_mul_of_nonneg_right u8 hub.le
    have hubge : A.u ≤ A.u * b := by
      have := mul_le_mul_of_nonneg_left hb1 u0.le
      linarith
    have e4 := abs_add_le (A.mul (bin2fF A b nfft fs) (A.rnd (nfft / fs)) -
      bin2fF A b nfft fs * (nfft / fs)) (bin2fF A b nfft fs * (nfft / fs) - b)
    rw [sub_add_sub_cancel] at e4
    have e5 : |A.mul (bin2fF A b nfft fs) (A.rnd (nfft / fs)) - b| < 1 := by linarith
    have hv : f2binF A (bin2fF A b nfft fs) nfft fs =
        ⌈A.mul (bin2fF A b nfft fs) (A.rnd (nfft / fs))⌉ := by
      unfold f2binF
      rw [rnd_of (rep_nat A hn)]
      rfl
    have e6 := abs_lt.1 e5
    have g1 : (b : Int) - 1 < f2binF A (bin2fF A b nfft fs) nfft fs := by
      rw [hv, Int.lt_ceil]
      push_cast
      linarith
    have g2 : f2binF A (bin2fF A b nfft fs) nfft fs ≤ (b : Int) + 1 := by
      rw [hv, Int.ceil_le]
      push_cast
      linarith
    omega
  · simp [f2binF, bin2fF, Arith.mul, rnd_zero]

/-- C142: with the default sampling frequency and a power of two as the size (in doubles), all bins
come back. -/
theorem C142_power (K : Type) [Field K] [LinearOrder K] [IsStrictOrderedRing K] [FloorRing K]
    (k b : Nat) (hk : k ≤ 1000) (hb : b ≤ 2 ^ 53) :
    f2binF (double K) (bin2fF (double K) b (2 ^ k) 1) (2 ^ k) 1 = b := by
  have r1 : (double K).rnd ((2 ^ k : Nat) : K) = 2 ^ k := by
    have := flt_of_small (K := K) 53 (-1074) k (by omega) 1 (by norm_num) (by norm_num)
    push_cast at this ⊢
    rw [one_mul, zpow_natCast] at this
    exact this
  have r2 : (double K).rnd (1 / 2 ^ k) = 1 / 2 ^ k := by
    have := flt_of_small (K := K) 53 (-1074) (-(k : ℤ)) (by omega) 1 (by norm_num) (by norm_num)
    push_cast at this
    rw [one_mul, zpow_neg, zpow_natCast, ← one_div] at this
    exact this
  have r3 : (double K).rnd ((b : K) * (1 / 2 ^ k)) = b * (1 / 2 ^ k) := by
    have := flt_of_small (K := K) 53 (-1074) (-(k : ℤ)) (by omega) b (by
      rw [abs_of_nonneg (by positivity)]
      exact_mod_cast hb) (by norm_num)
    rw [zpow_neg, zpow_natCast, ← one_div, Int.cast_natCast] at this
    exact this
  have r4 : (double K).rnd (b : K) = b := by
    have := flt_of_small (K := K) 53 (-1074) 0 (by omega) b (by
      rw [abs_of_nonneg (by positivity)]
      exact_mod_cast hb) (by norm_num)
    rw [zpow_zero, mul_one, Int.cast_natCast] at this
    exact this
  unfold f2binF bin2fF Arith.mul Arith.div
  have r5 : (double K).rnd (2 ^ k : K) = 2 ^ k := by
    have := r1
    push_cast at this
    exact this
  have h2 : (2 : K) ^ k ≠ 0 := by positivity
  rw [r1, r2, r3, div_one, r5, mul_assoc, one_div, inv_mul_cancel₀ h2, mul_one, r4, Int.ceil_natCast]

/-- C142: the bin may change, in doubles: bin 9 of 1000 comes back as bin 10. -/
theorem C142_off : f2binF (double ℚ) (bin2fF (double ℚ) 9 1000 1) 1000 1 = 10 := by
  decide +kernel

/-- C142: without limits, all bins but the first (which is computed apart) are between the corners
of the Lomb-Scargle periodogram, rounding or not. -/
theorem C142_corners (fs : K) (nfft : Nat) (fs0 : 0 < fs) (n0 : 0 < nfft)
    (hn : 10 * A.u * nfft ≤ 1) (hη : A.eta ≤ A.u * (nfft / fs)) :
    cornersF A nfft fs none none = (1, ((nfft / 2 + 1 : Nat) : Int)) := by
  have u0 := A.u_pos
  have hN : (0 : K) < nfft := by exact_mod_cast n0
  have hq : 0 < (nfft : K) / fs := div_pos hN fs0
  have hNu := mul_pos hN u0
  have hn' : (nfft : K) * A.u ≤ 1 := by linarith
  have e : fs * ((nfft : K) / fs) = nfft := by
    have := fs0.ne'
    field_simp
  have h0 : f2binF A 0 nfft fs = 0 := by simp [f2binF, Arith.mul, rnd_zero]
  have h1 : ((nfft / 2 + 1 : Nat) : Int) ≤ f2binF A fs nfft fs := by
    have := f2bin_err A fs0.le hq hη
    rw [e] at this
    have u8 := A.u_le
    have ηu := A.eta_le
    have h2 : (nfft : Int) - 1 < f2binF A fs nfft fs := by
      unfold f2binF
      rw [rnd_of (rep_nat A hn'), Int.lt_ceil]
      push_cast
      show (nfft : K) - 1 < A.mul fs (A.rnd (nfft / fs))
      linarith [(abs_le.1 this).1]
    omega
  simp only [cornersF, Option.getD_none, h0]
  rw [min_eq_right h1]
  rfl

/-- Doubles at 44100 Hz: the round trip of a bin, and the corners with a limit. -/
example : f2binF (double ℚ) (bin2fF (double ℚ) 100 2048 44100) 2048 44100 = 100 ∧
    cornersF (double ℚ) 2048 44100 (some 1000) none = (47, 1025) := by
  decide +kernel

end Verif.Float
