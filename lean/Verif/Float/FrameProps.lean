import Mathlib.Data.Rat.Floor
import Verif.Float.BinProps
import Verif.Float.FrameModel

/-!
# Sizes of windows, hops and overlaps in floating point (C162)
-/

set_option autoImplicit false
set_option linter.unusedSectionVars false
set_option linter.unusedSimpArgs false

namespace Verif.Float

open Arith Verif.Optimize

variable {K : Type} [Field K] [LinearOrder K] [IsStrictOrderedRing K] [FloorRing K] (A : Arith K)

theorem truncInt_nonneg {x : K} (h : 0 ≤ x) : truncInt x = ⌊x⌋ := if_pos h

theorem truncInt_mono {x y : K} (h : x ≤ y) : truncInt x ≤ truncInt y := by
  unfold truncInt
  split <;> split
  · exact Int.floor_le_floor h
  · rename_i hx hy
    exact absurd (hx.trans h) hy
  · rename_i hx hy
    have h1 : ⌈x⌉ ≤ 0 := Int.ceil_le.2 (by push_cast; linarith)
    have h2 : 0 ≤ ⌊y⌋ := Int.floor_nonneg.2 hy
    omega
  · exact Int.ceil_le_ceil h

/-! ### The window -/

/-- C162: a fraction of the FFT size never gives a window larger than the FFT size, the fraction 1
gives exactly the FFT size, and a larger fraction does not give a smaller window. -/
theorem C162_window (n : Nat) (hn : (n : K) * A.u ≤ 1) :
    (∀ r : K, 0 ≤ r → r ≤ 1 → 0 ≤ windowSizeF A n r ∧ windowSizeF A n r ≤ n) ∧
      windowSizeF A n 1 = n ∧
      ∀ r s : K, r ≤ s → windowSizeF A n r ≤ windowSizeF A n s := by
  have rn := rep_nat A hn
  have e1 : windowSizeF A n 1 = n := by
    unfold windowSizeF Arith.mul
    rw [A.rnd_of rn, mul_one, A.rnd_of rn, truncInt_nonneg (Nat.cast_nonneg n), Int.floor_natCast]
  have mono : ∀ r s : K, r ≤ s → windowSizeF A n r ≤ windowSizeF A n s := by
    intro r s h
    apply truncInt_mono
    apply A.mono
    exact mul_le_mul_of_nonneg_left h (rnd_nonneg (Nat.cast_nonneg n))
  refine ⟨fun r h0 h1 => ⟨?_, ?_⟩, e1, mono⟩
  · have := mono 0 r h0
    have e0 : windowSizeF A n 0 = 0 := by
      unfold windowSizeF Arith.mul
      rw [mul_zero, rnd_zero, truncInt_nonneg le_rfl, Int.floor_zero]
    omega
  · have := mono r 1 h1
    omega

/-- C162: the window may be empty although the fraction is `1 / n`: in doubles, for 49 points. -/
theorem C162_window_empty : windowSizeF (double ℚ) 49 ((double ℚ).div 1 49) = 0 := by
  decide +kernel

/-! ### The hop -/

/-- C162: the hop size is between 1 and the size of the window, for every overlap, and a larger
overlap does not give a larger hop size. -/
theorem C162_hop (m : Nat) (hm : 1 ≤ m) :
    (∀ o : K, 1 ≤ hopSizeF A o m ∧ hopSizeF A o m ≤ m) ∧
      ∀ o o' : K, o ≤ o' → hopSizeF A o' m ≤ hopSizeF A o m := by
  refine ⟨fun o => ?_, fun o o' h => ?_⟩
  · unfold hopSizeF
    omega
  · have : truncInt (A.mul (A.sub 1 o') (A.rnd (m : K))) ≤
        truncInt (A.mul (A.sub 1 o) (A.rnd (m : K))) := by
      apply truncInt_mono
      apply A.mono
      apply mul_le_mul_of_nonneg_right _ (rnd_nonneg (Nat.cast_nonneg m))
      exact A.mono _ _ (by linarith)
    unfold hopSizeF
    omega

theorem hop_err {o : K} {m : Nat} (ro : A.Rep o) (h1 : o ≤ 1) (h0 : 0 ≤ o)
    (hm : (m : K) * A.u ≤ 1) (m0 : 1 ≤ m) :
    |A.mul (A.sub 1 o) (A.rnd (m : K)) - (1 - o) * m| ≤ 4 * A.u * m := by
  have u0 := A.u_pos
  have m1 : (1 : K) ≤ m := by exact_mod_cast m0
  have rm := rep_nat A hm
  unfold Arith.mul Arith.sub
  rw [A.rnd_of rm]
  have e1 := A.errSub rep_one ro
  rw [abs_of_nonneg (a := 1 - o) (by linarith)] at e1
  set d := A.rnd (1 - o) with hd
  have d0 : 0 ≤ d := rnd_nonneg (by linarith)
  have d1 : d ≤ 1 := rnd_le (by linarith) rep_one
  have e2 := A.err (d * m)
  rw [abs_of_nonneg (mul_nonneg d0 (by linarith))] at e2
  have e3 : |d * m - (1 - o) * m| ≤ A.u * m := by
    rw [← sub_mul, abs_mul, abs_of_nonneg (a := (m : K)) (by linarith)]
    refine mul_le_mul_of_nonneg_right ?_ (by linarith)
    refine e1.trans ?_
    nlinarith
  have e4 : A.u * (d * m) ≤ A.u * m := by
    apply mul_le_mul_of_nonneg_left _ u0.le
    nlinarith
  have e5 : A.eta ≤ A.u * m := A.eta_le.trans (by nlinarith)
  have h5 := abs_add_le (A.rnd (d * m) - d * m) (d * m - (1 - o) * m)
  rw [sub_add_sub_cancel] at h5
  have : 0 ≤ A.u * m := by positivity
  linarith

/-- C162: the hop size is at most one off the one without rounding, and it is the same one whenever
the product is not within `4 * u * m` of an integer. -/
theorem C162_hop_near (o : K) (m : Nat) (ro : A.Rep o) (h0 : 0 ≤ o) (h1 : o ≤ 1) (m0 : 1 ≤ m)
    (hm : 4 * A.u * m < 1) :
    |hopSizeF A o m - hopSize o m| ≤ 1 ∧
      ∀ k : Nat, (k : K) + 4 * A.u * m ≤ (1 - o) * m → (1 - o) * m + 4 * A.u * m < k + 1 →
        hopSizeF A o m = hopSize o m := by
  have u0 := A.u_pos
  have hm' : (m : K) * A.u ≤ 1 := by
    have : 0 ≤ A.u * (m : K) := by positivity
    linarith
  have e := abs_le.1 (hop_err A ro h1 h0 hm' m0)
  have hx : 0 ≤ (1 - o) * (m : K) := mul_nonneg (by linarith) (Nat.cast_nonneg m)
  have hy : 0 ≤ A.mul (A.sub 1 o) (A.rnd (m : K)) :=
    rnd_nonneg (mul_nonneg (rnd_nonneg (by linarith)) (rnd_nonneg (Nat.cast_nonneg m)))
  unfold hopSizeF hopSize
  rw [truncInt_nonneg hx, truncInt_nonneg hy]
  generalize A.mul (A.sub 1 o) (A.rnd (m : K)) = y at *
  generalize (1 - o) * (m : K) = x at *
  constructor
  · have a1 : ⌊y⌋ ≤ ⌊x⌋ + 1 := by
      rw [← Int.floor_add_one]
      exact Int.floor_le_floor (by linarith)
    have a2 : ⌊x⌋ ≤ ⌊y⌋ + 1 := by
      rw [← Int.floor_add_one]
      exact Int.floor_le_floor (by linarith)
    rw [abs_le]
    omega
  · intro k k1 k2
    have b0 : 0 ≤ 4 * A.u * (m : K) := by positivity
    have e1 : ⌊x⌋ = k := Int.floor_eq_iff.2 ⟨by push_cast; linarith, by push_cast; linarith⟩
    have e2 : ⌊y⌋ = k := Int.floor_eq_iff.2 ⟨by push_cast; linarith, by push_cast; linarith⟩
    rw [e1, e2]

/-- C162: nothing is lost (in doubles) for overlaps that are fractions of a power of two, like the
default 1/2. -/
theorem C162_hop_exact (K : Type) [Field K] [LinearOrder K] [IsStrictOrderedRing K] [FloorRing K]
    (a j m : Nat) (ha : a ≤ 2 ^ j) (hm : 2 ^ j * m ≤ 2 ^ 53) (m0 : 1 ≤ m) :
    hopSizeF (double K) ((a : K) / 2 ^ j) m = hopSize ((a : K) / 2 ^ j) m ∧
      hopSizeF (double K) ((a : K) / 2 ^ j) m = max (((2 ^ j - a) * m / 2 ^ j : Nat) : Int) 1 := by
  have hj : j ≤ 53 := by
    have : 2 ^ j ≤ 2 ^ 53 := (Nat.le_mul_of_pos_right _ m0).trans hm
    exact (Nat.pow_le_pow_iff_right (by norm_num)).1 this
  have h2 : (2 : K) ^ j ≠ 0 := by positivity
  have sm : ∀ n : Nat, n ≤ 2 ^ 53 → (double K).rnd ((n : K) / 2 ^ j) = n / 2 ^ j := by
    intro n hn
    have := flt_of_small (K := K) 53 (-1074) (-(j : ℤ)) (by omega) n (by
      rw [abs_of_nonneg (by positivity)]
      exact_mod_cast hn) (by norm_num)
    rw [zpow_neg, zpow_natCast, ← div_eq_mul_inv, Int.cast_natCast] at this
    exact this
  have r1 : (1 : K) - a / 2 ^ j = ((2 ^ j - a : Nat) : K) / 2 ^ j := by
    rw [Nat.cast_sub ha, sub_div]
    push_cast
    rw [div_self h2]
  have hmm : m ≤ 2 ^ 53 := (Nat.le_mul_of_pos_left _ (by positivity)).trans hm
  have rm : (double K).rnd (m : K) = m := by
    have := flt_of_small (K := K) 53 (-1074) 0 (by omega) m (by
      rw [abs_of_nonneg (by positivity)]
      exact_mod_cast hmm) (by norm_num)
    rw [zpow_zero, mul_one, Int.cast_natCast] at this
    exact this
  have b1 : 2 ^ j - a ≤ 2 ^ 53 := (Nat.sub_le _ _).trans (Nat.pow_le_pow_right (by norm_num) hj)
  have b2 : (2 ^ j - a) * m ≤ 2 ^ 53 := (Nat.mul_le_mul_right m (Nat.sub_le _ _)).trans hm
  have r2 : ((2 ^ j - a : Nat) : K) / 2 ^ j * m = (((2 ^ j - a) * m : Nat) : K) / 2 ^ j := by
    push_cast
    ring
  have e : (double K).mul ((double K).sub 1 ((a : K) / 2 ^ j)) ((double K).rnd (m : K)) =
      (((2 ^ j - a) * m : Nat) : K) / 2 ^ j := by
    unfold Arith.mul Arith.sub
    rw [r1, sm _ b1, rm, r2, sm _ b2]
  have fl : truncInt ((((2 ^ j - a) * m : Nat) : K) / 2 ^ j) = (((2 ^ j - a) * m / 2 ^ j : Nat) : Int) := by
    rw [truncInt_nonneg (by positivity)]
    rw [Int.floor_eq_iff]
    generalize (2 ^ j - a) * m = c
    have d1 : c / 2 ^ j * 2 ^ j ≤ c := Nat.div_mul_le_self c (2 ^ j)
    have d2 : c < (c / 2 ^ j + 1) * 2 ^ j := Nat.lt_mul_of_div_lt (Nat.lt_succ_self _) (by positivity)
    have p : (0 : K) < 2 ^ j := by positivity
    rw [le_div_iff₀ p, div_lt_iff₀ p]
    exact ⟨by exact_mod_cast d1, by exact_mod_cast d2⟩
  have le : (2 ^ j - a) * m / 2 ^ j ≤ m := by
    apply Nat.div_le_of_le_mul
    exact Nat.mul_le_mul_right m (Nat.sub_le _ _)
  unfold hopSizeF hopSize
  rw [e, r1, r2, fl]
  refine ⟨rfl, ?_⟩
  omega

/-- C162: an overlap written in decimals may give one sample less: overlap 0.9 of 1000 samples, in
doubles, gives hop size 99. -/
theorem C162_hop_off : hopSizeF (double ℚ) ((double ℚ).rnd (9 / 10)) 1000 = 99 ∧
    hopSize (9 / 10 : ℚ) 1000 = 100 := by
  decide +kernel

/-! ### The overlap of the losses -/

/-- The product of an integer and a fraction below one stays below the integer. -/
theorem mul_lt_double (K : Type) [Field K] [LinearOrder K] [IsStrictOrderedRing K] [FloorRing K]
    {o : K} {m : Nat} (ro : (double K).Rep o) (h1 : o < 1) (m0 : 1 ≤ m)
    (hm : m ≤ 2 ^ 53) : (double K).rnd (o * m) < m := by
  have m1 : (1 : K) ≤ m := by exact_mod_cast m0
  have mp : (0 : K) < m := by linarith
  -- the fraction is at least `2 ^ -53` below one
  have gap : o ≤ 1 - (2 ^ 53)⁻¹ := by
    have := (double K).spacing 1 o rep_one ro (by intro h; rw [h] at h1; exact lt_irrefl _ h1)
    rw [abs_one, mul_one, abs_of_nonneg (by linarith)] at this
    have hu : (double K).u = (2 ^ 53)⁻¹ := rfl
    rw [hu] at this
    linarith
  -- the power of two at or below the integer
  obtain ⟨k, hk1, hk2⟩ : ∃ k : Nat, 2 ^ k ≤ m ∧ m < 2 ^ (k + 1) :=
    ⟨Nat.log 2 m, Nat.pow_log_le_self 2 (by omega), Nat.lt_pow_succ_log_self (by norm_num) m⟩
  have hk : k ≤ 53 := (Nat.pow_le_pow_iff_right (by norm_num)).1 (hk1.trans hm)
  have K1 : (2 : K) ^ k ≤ m := by exact_mod_cast hk1
  have z1 : o * m ≤ m - m * (2 ^ 53)⁻¹ := by
    have := mul_le_mul_of_nonneg_right gap mp.le
    linarith
  by_cases he : m = 2 ^ k
  · -- a power of two: its predecessor is `m * (1 - 2 ^ -53)`
    have rp : (double K).Rep ((m : K) - m * (2 ^ 53)⁻¹) := by
      have := flt_of_small (K := K) 53 (-1074) ((k : ℤ) - 53) (by omega) (2 ^ 53 - 1)
        (by norm_num) (by norm_num)
      have e : (((2 ^ 53 - 1 : ℤ)) : K) * 2 ^ ((k : ℤ) - 53) = (m : K) - m * (2 ^ 53)⁻¹ := by
        rw [he, zpow_sub₀ (by norm_num), zpow_natCast]
        push_cast
        rw [show (2 : K) ^ (53 : ℤ) = 2 ^ 53 by norm_cast]
        field_simp
        norm_num
      rw [e] at this
      exact this
    have := rnd_le (A := double K) z1 rp
    have : (0 : K) < m * (2 ^ 53)⁻¹ := by positivity
    linarith
  · have hlt : 2 ^ k < m := lt_of_le_of_ne hk1 (fun h => he h.symm)
    have hk' : k ≤ 52 := by
      by_contra hc
      have : 2 ^ 53 ≤ 2 ^ k := Nat.pow_le_pow_right (by norm_num) (by omega)
      omega
    have K2 : (2 : K) ^ k < m := by exact_mod_cast hlt
    -- the number before the integer
    have s0 : (2 : K) ^ ((k : ℤ) - 52) = 2 ^ k * (2 ^ 52)⁻¹ := by
      rw [zpow_sub₀ (by norm_num), zpow_natCast, div_eq_mul_inv]
      norm_cast
    have hM : ((m * 2 ^ (52 - k) : Nat) : K) * 2 ^ ((k : ℤ) - 52) = m := by
      have : (2 : K) ^ (52 - k) * 2 ^ k = 2 ^ 52 := by rw [← pow_add]; congr 1; omega
      rw [s0]
      push_cast
      rw [show (m : K) * 2 ^ (52 - k) * (2 ^ k * (2 ^ 52)⁻¹) =
        m * ((2 ^ (52 - k) * 2 ^ k) * (2 ^ 52)⁻¹) by ring, this, mul_inv_cancel₀ (by positivity),
        mul_one]
    have hMle : m * 2 ^ (52 - k) ≤ 2 ^ 53 := by
      have : m * 2 ^ (52 - k) ≤ 2 ^ (k + 1) * 2 ^ (52 - k) := Nat.mul_le_mul_right _ hk2.le
      rwa [← pow_add, show k + 1 + (52 - k) = 53 by omega] at this
    have hM1 : 1 ≤ m * 2 ^ (52 - k) := Nat.mul_pos m0 (by positivity)
    have rp : (double K).Rep ((m : K) - 2 ^ ((k : ℤ) - 52)) := by
      have := flt_of_small (K := K) 53 (-1074) ((k : ℤ) - 52) (by omega)
        (((m * 2 ^ (52 - k) : Nat) : ℤ) - 1)
        (by
          rw [abs_of_nonneg (by omega)]
          have : ((m * 2 ^ (52 - k) : Nat) : ℤ) ≤ 2 ^ 53 := by exact_mod_cast hMle
          omega) (by norm_num)
      rw [Int.cast_sub, Int.cast_natCast, Int.cast_one, sub_mul, hM, one_mul] at this
      exact this
    have sp : (0 : K) < 2 ^ ((k : ℤ) - 52) := two_zpow_pos _
    -- half the distance is less than what is missing
    have half : (2 : K) ^ ((k : ℤ) - 52) < 2 * (m * (2 ^ 53)⁻¹) := by
      rw [s0, show (2 : K) * (m * (2 ^ 53)⁻¹) = m * (2 ^ 52)⁻¹ by
        rw [pow_succ (2 : K) 52, mul_inv]; ring]
      exact mul_lt_mul_of_pos_right K2 (by positivity)
    by_contra hge
    rw [not_lt] at hge
    by_cases hz : o * m ≤ m - 2 ^ ((k : ℤ) - 52)
    · have := rnd_le (A := double K) hz rp
      linarith
    · rw [not_le] at hz
      have near := flt_nearest (K := K) 53 (-1074) (by norm_num) (o * m) _ rp
      have g : (double K).rnd (o * m) = flt 53 (-1074) (o * m) := rfl
      rw [← g] at near
      have q : 0 < (m : K) * (2 ^ 53)⁻¹ := by positivity
      rw [abs_of_nonneg (a := (double K).rnd (o * m) - o * m) (by linarith),
        abs_of_nonpos (a := (m : K) - 2 ^ ((k : ℤ) - 52) - o * m) (by linarith)] at near
      linarith

theorem rep_double_nat (K : Type) [Field K] [LinearOrder K] [IsStrictOrderedRing K] [FloorRing K]
    {m : Nat} (hm : m ≤ 2 ^ 53) : (double K).rnd (m : K) = m := by
  have := flt_of_small (K := K) 53 (-1074) 0 (by omega) m (by
    rw [abs_of_nonneg (by positivity)]
    exact_mod_cast hm) (by norm_num)
  rw [zpow_zero, mul_one, Int.cast_natCast] at this
  exact this

/-- C162: the transform of the loss accepts an overlap (not negative, in doubles) iff it is less
than one; then frames are at least one sample apart and at most the size of the window. -/
theorem C162_overlap (K : Type) [Field K] [LinearOrder K] [IsStrictOrderedRing K] [FloorRing K]
    (o : K) (m : Nat) (ro : (double K).Rep o) (h0 : 0 ≤ o) (m0 : 1 ≤ m) (hm : m ≤ 2 ^ 53) :
    (o < 1 → ∃ s, stepF (double K) o m = .ok s ∧ 1 ≤ s ∧ s ≤ m) ∧
      (1 ≤ o → stepF (double K) o m = .error .valueError) := by
  have rm := rep_double_nat K hm
  have hz : 0 ≤ (double K).rnd (o * m) := rnd_nonneg (mul_nonneg h0 (Nat.cast_nonneg m))
  have e : noverlapF (double K) o m = ⌊(double K).rnd (o * m)⌋ := by
    unfold noverlapF Arith.mul
    rw [rm, truncInt_nonneg hz]
  unfold stepF
  rw [e]
  constructor
  · intro h1
    have lt := mul_lt_double K ro h1 m0 hm
    have l1 : ⌊(double K).rnd (o * m)⌋ < (m : Int) := Int.floor_lt.2 (by push_cast; exact lt)
    have l0 : 0 ≤ ⌊(double K).rnd (o * m)⌋ := Int.floor_nonneg.2 hz
    exact ⟨_, if_neg (by omega), by omega, by omega⟩
  · intro h1
    have : (m : K) ≤ (double K).rnd (o * m) := by
      apply le_rnd _ rm
      have : (1 : K) * m ≤ o * m := mul_le_mul_of_nonneg_right h1 (Nat.cast_nonneg m)
      linarith
    have : (m : Int) ≤ ⌊(double K).rnd (o * m)⌋ := Int.le_floor.2 (by push_cast; exact this)
    exact if_pos this

/-- C162: a larger overlap does not set the frames further apart. -/
theorem C162_overlap_mono (m : Nat) (o o' : K) (h : o ≤ o') :
    noverlapF A o m ≤ noverlapF A o' m := by
  apply truncInt_mono
  apply A.mono
  exact mul_le_mul_of_nonneg_right h (rnd_nonneg (Nat.cast_nonneg m))

/-! ### Cases -/

/-- The default: overlap 3/4 of 2048 samples, windows of half the FFT size. -/
example : hopSizeF (double ℚ) (3 / 4) 2048 = 512 ∧ windowSizeF (double ℚ) 4096 (1 / 2) = 2048 ∧
    (stepF (double ℚ) (3 / 4) 2048).toOption = some 512 := by
  decide +kernel

/-- The hypotheses of `C162_hop_near` hold for overlap 1/3 (rounded) of 2001 samples. -/
example : (double ℚ).Rep ((double ℚ).rnd (1 / 3)) ∧ 0 ≤ (double ℚ).rnd (1 / 3) ∧
    (double ℚ).rnd (1 / 3) ≤ 1 ∧ 4 * (double ℚ).u * (2001 : Nat) < 1 ∧
    hopSizeF (double ℚ) ((double ℚ).rnd (1 / 3)) 2001 = 1334 := by
  refine ⟨(double ℚ).idem _, ?_⟩
  decide +kernel

/-- The largest number below one is accepted as an overlap of 1001 samples, and one is not. -/
example : (stepF (double ℚ) (1 - 1 / 2 ^ 53) 1001).toOption = some 1 ∧
    (stepF (double ℚ) 1 1001).toOption = none := by
  decide +kernel

end Verif.Float
