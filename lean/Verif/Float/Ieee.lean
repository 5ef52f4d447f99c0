import Mathlib.Algebra.Order.Round
import Mathlib.Data.Int.Log
import Mathlib.Tactic.FieldSimp
import Mathlib.Tactic.Linarith
import Mathlib.Tactic.Positivity
import Mathlib.Tactic.Ring

/-!
# Floating-point arithmetic

NumPy computes with floating-point numbers of IEEE 754 ("double": 53 bits).  `Arith` states what the
theorems about rounding use: a rounding function that is monotone, odd, keeps representable numbers,
with bounds on its error.  `ieee p q` is the rounding to nearest, ties to even, to `p` bits with
gradual underflow at `2 ^ q` (double: `ieee 53 (-1074)`); it is proved to satisfy these laws.

Simplification: there is no largest number.  The theorems hold for doubles as long as no result
exceeds the largest finite double.  Signed zeros are one number.
-/

set_option autoImplicit false
set_option linter.unusedSectionVars false

namespace Verif.Float

variable {K : Type} [Field K] [LinearOrder K] [IsStrictOrderedRing K]

/-- The arithmetic of floating-point numbers: each operation of NumPy is the exact operation followed
by `rnd`.  `u` bounds the relative error, `eta` the absolute error of results in the range of
underflow. -/
structure Arith (K : Type) [Field K] [LinearOrder K] [IsStrictOrderedRing K] where
  rnd : K → K
  u : K
  eta : K
  u_pos : 0 < u
  u_le : u ≤ 1 / 8
  eta_nonneg : 0 ≤ eta
  eta_le : eta ≤ u
  mono : ∀ x y, x ≤ y → rnd x ≤ rnd y
  idem : ∀ x, rnd (rnd x) = rnd x
  odd : ∀ x, rnd (-x) = -rnd x
  /-- Integers up to `1 / u` are representable. -/
  int : ∀ n : ℤ, |(n : K)| * u ≤ 1 → rnd n = n
  /-- Multiplication by two is exact. -/
  double : ∀ x, rnd x = x → rnd (2 * x) = 2 * x
  err : ∀ x, |rnd x - x| ≤ u * |x| + eta
  /-- Sums and differences have no underflow. -/
  errAdd : ∀ x y, rnd x = x → rnd y = y → |rnd (x + y) - (x + y)| ≤ u * |x + y|
  /-- Different numbers are not arbitrarily close. -/
  spacing : ∀ x y, rnd x = x → rnd y = y → x ≠ y → u * |x| ≤ |x - y|
  /-- The difference of numbers within a factor of two is exact. -/
  sterbenz : ∀ x y, rnd x = x → rnd y = y → y ≤ 2 * x → x ≤ 2 * y → rnd (x - y) = x - y

/-! ### Rounding to integers -/

section Rne

variable [FloorRing K]

/-- The nearest integer; the even one if there are two. -/
def rne (x : K) : ℤ :=
  if Int.fract x < 1 / 2 then ⌊x⌋
  else if 1 / 2 < Int.fract x then ⌊x⌋ + 1
  else if Even ⌊x⌋ then ⌊x⌋ else ⌊x⌋ + 1

theorem rne_int (n : ℤ) : rne (n : K) = n := by
  simp [rne]

theorem rne_cases (x : K) : rne x = ⌊x⌋ ∨ rne x = ⌊x⌋ + 1 := by
  unfold rne
  split_ifs <;> simp

theorem rne_err (x : K) : |(rne x : K) - x| ≤ 1 / 2 := by
  have h0 := Int.fract_nonneg x
  have h1 := Int.fract_lt_one x
  have e := Int.floor_add_fract x
  unfold rne
  rw [abs_le]
  split_ifs <;> push_cast <;> constructor <;> linarith

theorem rne_mono {x y : K} (h : x ≤ y) : rne x ≤ rne y := by
  rcases lt_or_eq_of_le (Int.floor_mono h) with hf | hf
  · have hx : rne x ≤ ⌊x⌋ + 1 := by rcases rne_cases x with e | e <;> omega
    have hy : ⌊y⌋ ≤ rne y := by rcases rne_cases y with e | e <;> omega
    omega
  · have hfr : Int.fract x ≤ Int.fract y := by
      unfold Int.fract
      rw [hf]
      linarith
    unfold rne
    rw [hf]
    split_ifs <;> first | omega | (exfalso; linarith)

theorem rne_neg (x : K) : rne (-x) = -rne x := by
  have h0 := Int.fract_nonneg x
  have h1 := Int.fract_lt_one x
  by_cases hx : Int.fract x = 0
  · obtain ⟨n, hn⟩ : ∃ n : ℤ, x = n := ⟨⌊x⌋, by have := Int.floor_add_fract x; linarith⟩
    rw [hn, rne_int, ← Int.cast_neg, rne_int]
  · have hpos : 0 < Int.fract x := lt_of_le_of_ne h0 (Ne.symm hx)
    have hfl : ⌊-x⌋ = -⌊x⌋ - 1 := by
      rw [Int.floor_eq_iff]
      have := Int.floor_add_fract x
      push_cast
      constructor <;> linarith
    have hfr : Int.fract (-x) = 1 - Int.fract x := by
      unfold Int.fract
      rw [hfl]
      push_cast
      ring
    have hev : Even (-⌊x⌋ - 1) ↔ ¬ Even ⌊x⌋ := by
      rw [Int.even_sub_one, even_neg]
    unfold rne
    rw [hfr, hfl]
    by_cases a : Int.fract x < 1 / 2
    · have b : ¬ (1 - Int.fract x < 1 / 2) := by linarith
      have c : 1 / 2 < 1 - Int.fract x := by linarith
      simp only [a, b, c, if_true, if_false]
      ring
    · by_cases b : 1 / 2 < Int.fract x
      · have c : 1 - Int.fract x < 1 / 2 := by linarith
        simp only [a, b, c, if_true, if_false]
        ring
      · have c : ¬ (1 - Int.fract x < 1 / 2) := by linarith
        have d : ¬ (1 / 2 < 1 - Int.fract x) := by linarith
        simp only [a, b, c, d, if_false, hev]
        by_cases e : Even ⌊x⌋ <;> simp [e] <;> ring

/-! ### Rounding to `p` bits -/

/-- Rounding to the multiples of `2 ^ k`. -/
def rndAt (k : ℤ) (x : K) : K := rne (x / 2 ^ k) * 2 ^ k

/-- The exponent of the last bit: `p` bits from the first bit of the number on, but not below
`2 ^ q`. -/
def qexp (p : ℕ) (q : ℤ) (x : K) : ℤ := max (Int.log 2 |x| + 1 - p) q

/-- Rounding to `p` bits, gradual underflow at `2 ^ q`. -/
def flt (p : ℕ) (q : ℤ) (x : K) : K := rndAt (qexp p q x) x

theorem two_zpow_pos (k : ℤ) : (0 : K) < 2 ^ k := zpow_pos (by norm_num) k

theorem rndAt_mul (k : ℤ) (n : ℤ) : rndAt k ((n : K) * 2 ^ k) = n * 2 ^ k := by
  unfold rndAt
  rw [mul_div_cancel_right₀ _ (two_zpow_pos k).ne', rne_int]

theorem rndAt_mono (k : ℤ) {x y : K} (h : x ≤ y) : rndAt k x ≤ rndAt k y := by
  unfold rndAt
  have := two_zpow_pos (K := K) k
  apply mul_le_mul_of_nonneg_right _ this.le
  exact_mod_cast rne_mono (div_le_div_of_nonneg_right h this.le)

theorem rndAt_neg (k : ℤ) (x : K) : rndAt k (-x) = -rndAt k x := by
  unfold rndAt
  rw [neg_div, rne_neg]
  push_cast
  ring

theorem rndAt_err (k : ℤ) (x : K) : |rndAt k x - x| ≤ 2 ^ k / 2 := by
  unfold rndAt
  have hp := two_zpow_pos (K := K) k
  have h := rne_err (x / 2 ^ k)
  have e : (rne (x / 2 ^ k) : K) * 2 ^ k - x = ((rne (x / 2 ^ k) : K) - x / 2 ^ k) * 2 ^ k := by
    field_simp
  rw [e, abs_mul, abs_of_pos hp]
  calc _ ≤ 1 / 2 * (2 : K) ^ k := mul_le_mul_of_nonneg_right h hp.le
    _ = _ := by ring

/-- A power of two is a multiple of a smaller one. -/
theorem zpow_mult {k e : ℤ} (h : k ≤ e) : ∃ n : ℤ, (2 : K) ^ e = n * 2 ^ k := by
  refine ⟨2 ^ (e - k).toNat, ?_⟩
  have h2 : e = ((e - k).toNat : ℤ) + k := by omega
  conv_lhs => rw [h2]
  rw [zpow_add₀ (by norm_num), zpow_natCast]
  push_cast
  rfl

theorem mult_of_le {k e : ℤ} (h : k ≤ e) (m : ℤ) : ∃ n : ℤ, (m : K) * 2 ^ e = n * 2 ^ k := by
  obtain ⟨n, hn⟩ := zpow_mult (K := K) h
  refine ⟨m * n, ?_⟩
  rw [hn]
  push_cast
  ring

theorem qexp_neg (p : ℕ) (q : ℤ) (x : K) : qexp p q (-x) = qexp p q x := by
  unfold qexp
  rw [abs_neg]

theorem flt_neg (p : ℕ) (q : ℤ) (x : K) : flt p q (-x) = -flt p q x := by
  unfold flt
  rw [qexp_neg, rndAt_neg]

theorem flt_zero (p : ℕ) (q : ℤ) : flt p q (0 : K) = 0 := by
  have := rndAt_mul (K := K) (qexp p q (0 : K)) 0
  rw [Int.cast_zero, zero_mul] at this
  exact this

theorem log_le {x : K} (hx : 0 < x) : (2 : K) ^ Int.log 2 x ≤ x := by
  have := Int.zpow_log_le_self (b := 2) (by norm_num) hx
  simpa using this

theorem lt_log (x : K) : x < (2 : K) ^ (Int.log 2 x + 1) := by
  have := Int.lt_zpow_succ_log_self (b := 2) (by norm_num) x
  simpa using this

theorem log_ge {x : K} (hx : 0 < x) {e : ℤ} (h : (2 : K) ^ e ≤ x) : e ≤ Int.log 2 x := by
  have := (Int.zpow_le_iff_le_log (b := 2) (by norm_num) hx (x := e)).1 (by simpa using h)
  exact this

theorem log_lt {x : K} (hx : 0 < x) {e : ℤ} (h : x < (2 : K) ^ e) : Int.log 2 x < e :=
  (Int.lt_zpow_iff_log_lt (b := 2) (by norm_num) hx (x := e)).1 (by simpa using h)

theorem qexp_mono (p : ℕ) (q : ℤ) {x y : K} (hx : 0 < x) (h : x ≤ y) : qexp p q x ≤ qexp p q y := by
  unfold qexp
  rw [abs_of_pos hx, abs_of_pos (hx.trans_le h)]
  have := Int.log_mono_right (b := 2) hx h
  omega

theorem flt_mono_pos (p : ℕ) (q : ℤ) (hp : 1 ≤ p) {x y : K} (hx : 0 < x) (h : x ≤ y) :
    flt p q x ≤ flt p q y := by
  have hy : 0 < y := hx.trans_le h
  rcases eq_or_lt_of_le (qexp_mono p q hx h) with he | hlt
  · unfold flt
    rw [he]
    exact rndAt_mono _ h
  · have hq : qexp p q y = Int.log 2 y + 1 - p := by
      unfold qexp at hlt ⊢
      rw [abs_of_pos hy] at hlt ⊢
      omega
    have hlog : Int.log 2 x < Int.log 2 y := by
      unfold qexp at hlt
      rw [abs_of_pos hy, abs_of_pos hx] at hlt
      omega
    have hx2 : x ≤ (2 : K) ^ Int.log 2 y := by
      apply (lt_log x).le.trans
      exact zpow_le_zpow_right₀ (by norm_num) (by omega)
    obtain ⟨n, hn⟩ := zpow_mult (K := K) (k := qexp p q x) (e := Int.log 2 y) (by omega)
    obtain ⟨m, hm⟩ := zpow_mult (K := K) (k := qexp p q y) (e := Int.log 2 y) (by omega)
    calc flt p q x ≤ rndAt (qexp p q x) ((2 : K) ^ Int.log 2 y) := rndAt_mono _ hx2
      _ = (2 : K) ^ Int.log 2 y := by rw [hn, rndAt_mul]
      _ = rndAt (qexp p q y) ((2 : K) ^ Int.log 2 y) := by rw [hm, rndAt_mul]
      _ ≤ flt p q y := rndAt_mono _ (log_le hy)

theorem flt_nonneg (p : ℕ) (q : ℤ) {x : K} (hx : 0 ≤ x) : 0 ≤ flt p q x := by
  have h := rndAt_mono (qexp p q x) hx
  have := rndAt_mul (K := K) (qexp p q x) 0
  simp at this
  rw [this] at h
  exact h

theorem flt_mono (p : ℕ) (q : ℤ) (hp : 1 ≤ p) {x y : K} (h : x ≤ y) : flt p q x ≤ flt p q y := by
  rcases lt_trichotomy x 0 with hx | hx | hx
  · rcases le_or_gt 0 y with hy | hy
    · have h1 := flt_nonneg p q hy
      have h2 := flt_nonneg p q (x := -x) (by linarith)
      rw [flt_neg] at h2
      linarith
    · have := flt_mono_pos p q hp (x := -y) (y := -x) (by linarith) (by linarith)
      rw [flt_neg, flt_neg] at this
      linarith
  · subst hx
    rw [flt_zero]
    exact flt_nonneg p q h
  · exact flt_mono_pos p q hp hx h

/-- Multiples of the last bit are representable. -/
theorem flt_of_mult (p : ℕ) (q : ℤ) (x : K) (n : ℤ) (h : x = n * 2 ^ qexp p q x) : flt p q x = x := by
  unfold flt
  conv_lhs => rw [h]
  have hh : rndAt (qexp p q x) ((n : K) * 2 ^ qexp p q x) = n * 2 ^ qexp p q x := rndAt_mul _ _
  rw [← h] at hh ⊢
  exact hh

theorem mult_of_flt (p : ℕ) (q : ℤ) (x : K) (h : flt p q x = x) :
    ∃ n : ℤ, x = n * 2 ^ qexp p q x := ⟨rne (x / 2 ^ qexp p q x), h.symm⟩

/-- A multiple of some power of two not below `2 ^ q` with at most `p` bits is representable. -/
theorem flt_of_small (p : ℕ) (q : ℤ) (k : ℤ) (hk : q ≤ k) (n : ℤ) (hn : |n| ≤ 2 ^ p) (hp : 1 ≤ p) :
    flt p q ((n : K) * 2 ^ k) = n * 2 ^ k := by
  by_cases h0 : n = 0
  · subst h0
    simp [flt_zero]
  have hK := two_zpow_pos (K := K) k
  have hpos : (0 : K) < |(n : K) * 2 ^ k| := by
    rw [abs_pos]
    exact mul_ne_zero (by exact_mod_cast h0) hK.ne'
  rcases lt_or_eq_of_le hn with hlt | heq
  · have hb : |(n : K) * 2 ^ k| < 2 ^ (k + p) := by
      rw [abs_mul, abs_of_pos hK, zpow_add₀ (by norm_num), mul_comm ((2 : K) ^ k)]
      apply mul_lt_mul_of_pos_right _ hK
      rw [zpow_natCast]
      exact_mod_cast hlt
    have hl := log_lt hpos hb
    have hq : qexp p q ((n : K) * 2 ^ k) ≤ k := by
      unfold qexp
      omega
    obtain ⟨m, hm⟩ := mult_of_le (K := K) hq n
    exact flt_of_mult p q _ m hm
  · have hb : |(n : K) * 2 ^ k| = 2 ^ (k + p) := by
      rw [abs_mul, abs_of_pos hK, zpow_add₀ (by norm_num), mul_comm ((2 : K) ^ k), zpow_natCast]
      congr 1
      exact_mod_cast heq
    have hl : Int.log 2 |(n : K) * 2 ^ k| = k + p := by
      rw [hb]
      have := Int.log_zpow (R := K) (b := 2) (by norm_num) (k + p)
      simpa using this
    have hq : qexp p q ((n : K) * 2 ^ k) ≤ k + p := by
      unfold qexp
      omega
    obtain ⟨m, hm⟩ := zpow_mult (K := K) hq
    rcases abs_choice ((n : K) * 2 ^ k) with hc | hc
    · refine flt_of_mult p q _ m ?_
      rw [← hm, ← hb, hc]
    · refine flt_of_mult p q _ (-m) ?_
      push_cast
      rw [neg_mul, ← hm, ← hb, hc]
      ring

theorem flt_idem (p : ℕ) (q : ℤ) (hp : 1 ≤ p) (x : K) : flt p q (flt p q x) = flt p q x := by
  by_cases h0 : x = 0
  · subst h0
    rw [flt_zero, flt_zero]
  have hx : 0 < |x| := abs_pos.2 h0
  have hk : q ≤ qexp p q x := le_max_right _ _
  show flt p q ((rne (x / 2 ^ qexp p q x) : K) * 2 ^ qexp p q x) = _
  refine (flt_of_small p q _ hk _ ?_ hp).trans rfl
  have hb : |x| ≤ 2 ^ (p : ℤ) * 2 ^ qexp p q x := by
    rw [← zpow_add₀ (by norm_num)]
    apply (lt_log |x|).le.trans
    apply zpow_le_zpow_right₀ (by norm_num)
    unfold qexp
    omega
  have hK := two_zpow_pos (K := K) (qexp p q x)
  have hd : |x / 2 ^ qexp p q x| ≤ (2 ^ p : ℤ) := by
    rw [abs_div, abs_of_pos hK, div_le_iff₀ hK]
    push_cast
    rw [zpow_natCast] at hb
    exact hb
  rw [abs_le] at hd ⊢
  constructor
  · have := rne_mono hd.1
    rwa [← Int.cast_neg, rne_int] at this
  · have := rne_mono hd.2
    rwa [rne_int] at this

/-- The relative error of a result that is not in the range of underflow. -/
theorem flt_err_normal (p : ℕ) (q : ℤ) (x : K) (hx : 0 < |x|) (h : q ≤ Int.log 2 |x| + 1 - p) :
    |flt p q x - x| ≤ (2 ^ p)⁻¹ * |x| := by
  have hq : qexp p q x = Int.log 2 |x| + 1 - p := by
    unfold qexp
    omega
  refine (rndAt_err _ x).trans ?_
  rw [hq]
  have e : (2 : K) ^ (Int.log 2 |x| + 1 - p) / 2 = (2 ^ p)⁻¹ * 2 ^ Int.log 2 |x| := by
    rw [zpow_sub₀ (by norm_num), zpow_add₀ (by norm_num), zpow_natCast]
    field_simp
  rw [e]
  exact mul_le_mul_of_nonneg_left (log_le hx) (by positivity)

theorem flt_err (p : ℕ) (q : ℤ) (x : K) : |flt p q x - x| ≤ (2 ^ p)⁻¹ * |x| + 2 ^ q / 2 := by
  have hq := two_zpow_pos (K := K) q
  by_cases h0 : x = 0
  · subst h0
    rw [flt_zero]
    simp
    positivity
  have hx : 0 < |x| := abs_pos.2 h0
  by_cases h : q ≤ Int.log 2 |x| + 1 - p
  · have := flt_err_normal p q x hx h
    linarith
  · have hqe : qexp p q x = q := by
      unfold qexp
      omega
    have := rndAt_err (qexp p q x) x
    rw [hqe] at this
    have h2 : 0 ≤ (2 ^ p : K)⁻¹ * |x| := by positivity
    unfold flt
    rw [hqe]
    linarith

theorem flt_errAdd (p : ℕ) (q : ℤ) (x y : K) (hx : flt p q x = x) (hy : flt p q y = y) :
    |flt p q (x + y) - (x + y)| ≤ (2 ^ p)⁻¹ * |x + y| := by
  by_cases h0 : x + y = 0
  · rw [h0, flt_zero]
    simp
  have hp : 0 < |x + y| := abs_pos.2 h0
  by_cases h : q ≤ Int.log 2 |x + y| + 1 - p
  · exact flt_err_normal p q _ hp h
  · have hqe : qexp p q (x + y) = q := by
      unfold qexp
      omega
    obtain ⟨n, hn⟩ := mult_of_flt p q x hx
    obtain ⟨m, hm⟩ := mult_of_flt p q y hy
    obtain ⟨n', hn'⟩ := mult_of_le (K := K) (k := q) (e := qexp p q x) (le_max_right _ _) n
    obtain ⟨m', hm'⟩ := mult_of_le (K := K) (k := q) (e := qexp p q y) (le_max_right _ _) m
    have : flt p q (x + y) = x + y := by
      refine flt_of_mult p q _ (n' + m') ?_
      rw [hqe]
      push_cast
      rw [add_mul, ← hn', ← hm', ← hn, ← hm]
    rw [this]
    simp

/-- Above `2 ^ e` the numbers are multiples of `2 ^ (e + 1 - p)`. -/
theorem mult_above (p : ℕ) (q : ℤ) (x : K) (e : ℤ) (hx : flt p q x = x) (he : (2 : K) ^ e ≤ |x|) :
    ∃ n : ℤ, x = n * 2 ^ (e + 1 - p) := by
  obtain ⟨n, hn⟩ := mult_of_flt p q x hx
  have hpos : 0 < |x| := (two_zpow_pos e).trans_le he
  have hl := log_ge hpos he
  obtain ⟨m, hm⟩ := mult_of_le (K := K) (k := e + 1 - p) (e := qexp p q x)
    (by unfold qexp; omega) n
  exact ⟨m, by rw [← hm, ← hn]⟩

theorem mult_dist (k : ℤ) (n m : ℤ) (h : (n : K) * 2 ^ k ≠ m * 2 ^ k) :
    (2 : K) ^ k ≤ |(n : K) * 2 ^ k - m * 2 ^ k| := by
  have hK := two_zpow_pos (K := K) k
  have hne : n ≠ m := by
    rintro rfl
    exact h rfl
  rw [← sub_mul, abs_mul, abs_of_pos hK]
  have : (1 : K) ≤ |(n : K) - m| := by
    have h1 : 1 ≤ |n - m| := Int.one_le_abs (sub_ne_zero.2 hne)
    exact_mod_cast h1
  nlinarith

theorem flt_spacing_pos (p : ℕ) (q : ℤ) (hp : 1 ≤ p) (x y : K) (hx : flt p q x = x)
    (hy : flt p q y = y) (hne : x ≠ y) (h0 : 0 < x) : (2 ^ p)⁻¹ * |x| ≤ |x - y| := by
  have hax : |x| = x := abs_of_pos h0
  set e := Int.log 2 x with he
  have h1 : (2 : K) ^ e ≤ x := log_le h0
  have h2 : x < (2 : K) ^ (e + 1) := lt_log x
  have hE := two_zpow_pos (K := K) e
  have hs : (2 : K) ^ (e + 1) = 2 * 2 ^ e := by
    rw [zpow_add₀ (by norm_num), zpow_one]
    ring
  have hs' : (2 : K) ^ (e + 1 - p) = 2 * 2 ^ e * (2 ^ p)⁻¹ := by
    rw [zpow_sub₀ (by norm_num), zpow_natCast, hs, div_eq_mul_inv]
  have hu : (0 : K) < (2 ^ p)⁻¹ := by positivity
  have hu1 : (2 ^ p : K)⁻¹ ≤ 1 / 2 := by
    rw [one_div]
    apply inv_anti₀ (by norm_num)
    calc (2 : K) = 2 ^ 1 := by norm_num
      _ ≤ 2 ^ p := pow_le_pow_right₀ (by norm_num) hp
  obtain ⟨n, hn⟩ := mult_above p q x e hx (by rw [hax]; exact h1)
  rw [hax]
  rcases le_or_gt ((2 : K) ^ e) y with hy1 | hy1
  · obtain ⟨m, hm⟩ := mult_above p q y e hy (hy1.trans (le_abs_self y))
    have := mult_dist (K := K) (e + 1 - p) n m (by rw [← hn, ← hm]; exact hne)
    rw [← hn, ← hm, hs'] at this
    nlinarith
  · rcases eq_or_lt_of_le h1 with hxe | hxe
    · -- `x` is a power of two
      have hlt : y < x := by rw [← hxe]; exact hy1
      rcases le_or_gt ((2 : K) ^ (e - 1)) y with hy2 | hy2
      · obtain ⟨m, hm⟩ := mult_above p q y (e - 1) hy (hy2.trans (le_abs_self y))
        obtain ⟨n', hn'⟩ := mult_above p q x (e - 1) hx (by
          rw [hax]
          refine le_trans ?_ h1
          exact zpow_le_zpow_right₀ (by norm_num) (by omega))
        have := mult_dist (K := K) (e - 1 + 1 - p) n' m (by rw [← hn', ← hm]; exact hne)
        rw [← hn', ← hm] at this
        have e2 : (2 : K) ^ (e - 1 + 1 - p) = 2 ^ e * (2 ^ p)⁻¹ := by
          rw [sub_add_cancel, zpow_sub₀ (by norm_num), zpow_natCast, div_eq_mul_inv]
        rw [e2, hxe] at this
        rw [mul_comm]
        exact this
      · have e2 : (2 : K) ^ (e - 1) = 2 ^ e / 2 := by
          rw [zpow_sub₀ (by norm_num), zpow_one]
        rw [e2] at hy2
        rw [abs_of_pos (by linarith)]
        nlinarith
    · -- `2 ^ e` is between
      have hn0 : x ≠ 2 ^ e := hxe.ne'
      obtain ⟨m, hm⟩ := zpow_mult (K := K) (k := e + 1 - p) (e := e) (by omega)
      have := mult_dist (K := K) (e + 1 - p) n m (by rw [← hn, ← hm]; exact hn0)
      rw [← hn, ← hm, hs', abs_of_pos (by linarith)] at this
      rw [abs_of_pos (by linarith)]
      nlinarith

theorem flt_spacing (p : ℕ) (q : ℤ) (hp : 1 ≤ p) (x y : K) (hx : flt p q x = x)
    (hy : flt p q y = y) (hne : x ≠ y) : (2 ^ p)⁻¹ * |x| ≤ |x - y| := by
  rcases lt_trichotomy x 0 with h | h | h
  · have := flt_spacing_pos p q hp (-x) (-y) (by rw [flt_neg, hx]) (by rw [flt_neg, hy])
      (by simpa using hne) (by linarith)
    rw [abs_neg] at this
    rwa [show -x - -y = -(x - y) by ring, abs_neg] at this
  · subst h
    simp
  · exact flt_spacing_pos p q hp x y hx hy hne h

theorem flt_double (p : ℕ) (q : ℤ) (x : K) (hx : flt p q x = x) : flt p q (2 * x) = 2 * x := by
  by_cases h0 : x = 0
  · subst h0
    rw [mul_zero, flt_zero]
  have hpos : 0 < |x| := abs_pos.2 h0
  obtain ⟨n, hn⟩ := mult_of_flt p q x hx
  have hlog : Int.log 2 |2 * x| ≤ Int.log 2 |x| + 1 := by
    have h2 : 0 < |2 * x| := abs_pos.2 (mul_ne_zero two_ne_zero h0)
    have := log_lt h2 (e := Int.log 2 |x| + 1 + 1) (by
      rw [zpow_add₀ (by norm_num), zpow_one, abs_mul, abs_two, mul_comm]
      exact mul_lt_mul_of_pos_right (lt_log _) (by norm_num))
    omega
  have hd : (2 : K) * x = n * 2 ^ (qexp p q x + 1) := by
    rw [zpow_add₀ (by norm_num), zpow_one, ← mul_assoc, ← hn]
    ring
  obtain ⟨m, hm⟩ := mult_of_le (K := K) (k := qexp p q (2 * x)) (e := qexp p q x + 1)
    (by unfold qexp; omega) n
  exact flt_of_mult p q _ m (by rw [← hm, ← hd])

theorem flt_int (p : ℕ) (q : ℤ) (hp : 1 ≤ p) (hq : q ≤ 0) (n : ℤ)
    (h : |(n : K)| * (2 ^ p)⁻¹ ≤ 1) : flt p q (n : K) = n := by
  have := flt_of_small (K := K) p q 0 hq n (by
    have hpp : (0 : K) < 2 ^ p := by positivity
    rw [← div_eq_mul_inv, div_le_one hpp] at h
    exact_mod_cast h) hp
  simpa using this

theorem abs_le_qexp (p : ℕ) (q : ℤ) (x : K) : |x| ≤ 2 ^ (p : ℤ) * 2 ^ qexp p q x := by
  rw [← zpow_add₀ (by norm_num)]
  apply (lt_log |x|).le.trans
  apply zpow_le_zpow_right₀ (by norm_num)
  unfold qexp
  omega

theorem flt_sterbenz_le (p : ℕ) (q : ℤ) (hp : 1 ≤ p) (x y : K) (hx : flt p q x = x)
    (hy : flt p q y = y) (h0 : 0 < x) (h1 : x ≤ y) (h2 : y ≤ 2 * x) : flt p q (y - x) = y - x := by
  obtain ⟨n, hn⟩ := mult_of_flt p q x hx
  obtain ⟨m, hm⟩ := mult_of_flt p q y hy
  have hk := qexp_mono p q h0 h1
  obtain ⟨m', hm'⟩ := mult_of_le (K := K) hk m
  have e : y - x = ((m' - n : ℤ) : K) * 2 ^ qexp p q x := by
    push_cast
    rw [sub_mul, ← hm', ← hm, ← hn]
  have hK := two_zpow_pos (K := K) (qexp p q x)
  have hb := abs_le_qexp p q x
  rw [abs_of_pos h0] at hb
  have hle : |m' - n| ≤ 2 ^ p := by
    have h3 : |y - x| ≤ 2 ^ (p : ℤ) * 2 ^ qexp p q x := by
      rw [abs_of_nonneg (by linarith)]
      linarith
    rw [e, abs_mul, abs_of_pos hK] at h3
    have := le_of_mul_le_mul_right h3 hK
    rw [zpow_natCast] at this
    exact_mod_cast this
  rw [e]
  exact flt_of_small p q _ (le_max_right _ _) _ hle hp

theorem flt_sterbenz (p : ℕ) (q : ℤ) (hp : 1 ≤ p) (x y : K) (hx : flt p q x = x)
    (hy : flt p q y = y) (h1 : y ≤ 2 * x) (h2 : x ≤ 2 * y) : flt p q (x - y) = x - y := by
  have x0 : 0 ≤ x := by linarith
  have y0 : 0 ≤ y := by linarith
  rcases eq_or_lt_of_le x0 with h | hx0
  · rw [← h] at h1 h2 ⊢
    rw [show y = 0 by linarith, sub_self, flt_zero]
  rcases eq_or_lt_of_le y0 with h | hy0
  · rw [← h] at h1 h2 ⊢
    rw [show x = 0 by linarith, sub_self, flt_zero]
  rcases le_total x y with h | h
  · rw [← neg_sub y x, flt_neg, flt_sterbenz_le p q hp x y hx hy hx0 h h1]
  · exact flt_sterbenz_le p q hp y x hy hx hy0 h h2

/-! ### Rounding is to a nearest number -/

theorem rne_nearest (x : K) (n : ℤ) : |(rne x : K) - x| ≤ |(n : K) - x| := by
  by_cases h : n = rne x
  · rw [h]
  · have h1 : (1 : K) ≤ |(n : K) - rne x| := by
      have : 1 ≤ |n - rne x| := Int.one_le_abs (sub_ne_zero.2 h)
      exact_mod_cast this
    have h2 := abs_add_le ((n : K) - x) (x - rne x)
    rw [sub_add_sub_cancel, abs_sub_comm x] at h2
    have h3 := rne_err x
    linarith

theorem rndAt_nearest (k : ℤ) (x : K) (n : ℤ) : |rndAt k x - x| ≤ |(n : K) * 2 ^ k - x| := by
  have hK := two_zpow_pos (K := K) k
  have h := mul_le_mul_of_nonneg_right (rne_nearest (x / 2 ^ k) n) hK.le
  have e : ∀ z : K, |z - x / 2 ^ k| * 2 ^ k = |z * 2 ^ k - x| := by
    intro z
    conv_lhs => rw [← abs_of_pos hK, abs_of_pos hK]
    rw [show z * 2 ^ k - x = (z - x / 2 ^ k) * 2 ^ k by field_simp, abs_mul, abs_of_pos hK]
  rw [e, e] at h
  exact h

theorem flt_nearest_pos (p : ℕ) (q : ℤ) (hp : 1 ≤ p) (x y : K) (hx : 0 < x) (hy : flt p q y = y) :
    |flt p q x - x| ≤ |y - x| := by
  obtain ⟨n, hn⟩ := mult_of_flt p q y hy
  by_cases hk : qexp p q x ≤ qexp p q y
  · obtain ⟨m, hm⟩ := mult_of_le (K := K) hk n
    have := rndAt_nearest (qexp p q x) x m
    rwa [← hm, ← hn] at this
  · -- `y` is below the power of two before `x`
    rw [not_le] at hk
    have h1 : (2 : K) ^ Int.log 2 x ≤ x := log_le hx
    have hax : |x| = x := abs_of_pos hx
    have hlog : Int.log 2 |y| < Int.log 2 x := by
      unfold qexp at hk
      rw [hax] at hk
      omega
    have hyx : y < 2 ^ Int.log 2 x :=
      (le_abs_self y).trans_lt ((lt_log |y|).trans_le (zpow_le_zpow_right₀ (by norm_num) (by omega)))
    obtain ⟨m, hm⟩ := zpow_mult (K := K) (k := qexp p q x) (e := Int.log 2 x) (by
      unfold qexp at hk ⊢
      rw [hax] at hk ⊢
      omega)
    have := rndAt_nearest (qexp p q x) x m
    rw [← hm] at this
    refine this.trans ?_
    rw [abs_of_nonpos (by linarith), abs_of_nonpos (by linarith)]
    linarith

/-- No representable number is nearer than the result of rounding. -/
theorem flt_nearest (p : ℕ) (q : ℤ) (hp : 1 ≤ p) (x y : K) (hy : flt p q y = y) :
    |flt p q x - x| ≤ |y - x| := by
  rcases lt_trichotomy x 0 with h | h | h
  · have := flt_nearest_pos p q hp (-x) (-y) (by linarith) (by rw [flt_neg, hy])
    rw [flt_neg, show -flt p q x - -x = -(flt p q x - x) by ring,
      show -y - -x = -(y - x) by ring, abs_neg, abs_neg] at this
    exact this
  · subst h
    rw [flt_zero, sub_self, abs_zero]
    exact abs_nonneg _
  · exact flt_nearest_pos p q hp x y h hy

/-- Rounding to nearest, ties to even, with `p` bits and gradual underflow at `2 ^ q`. -/
def ieee (K : Type) [Field K] [LinearOrder K] [IsStrictOrderedRing K] [FloorRing K] (p : ℕ) (q : ℤ)
    (hp : 3 ≤ p) (hq : q + p ≤ 1) : Arith K where
  rnd := flt p q
  u := (2 ^ p)⁻¹
  eta := 2 ^ q / 2
  u_pos := by positivity
  u_le := by
    rw [one_div]
    apply inv_anti₀ (by norm_num)
    calc (8 : K) = 2 ^ 3 := by norm_num
      _ ≤ 2 ^ p := pow_le_pow_right₀ (by norm_num) hp
  eta_nonneg := (div_pos (two_zpow_pos q) two_pos).le
  eta_le := by
    have h : (2 : K) ^ q ≤ 2 ^ (1 - (p : ℤ)) := zpow_le_zpow_right₀ (by norm_num) (by omega)
    rw [zpow_sub₀ (by norm_num), zpow_one, zpow_natCast, div_eq_mul_inv] at h
    linarith
  mono := fun _ _ h => flt_mono p q (by omega) h
  idem := flt_idem p q (by omega)
  odd := flt_neg p q
  int := flt_int p q (by omega) (by omega)
  double := flt_double p q
  err := flt_err p q
  errAdd := flt_errAdd p q
  spacing := flt_spacing p q (by omega)
  sterbenz := flt_sterbenz p q (by omega)

/-- "double", the type `float` of Python and NumPy. -/
def double (K : Type) [Field K] [LinearOrder K] [IsStrictOrderedRing K] [FloorRing K] : Arith K :=
  ieee K 53 (-1074) (by norm_num) (by norm_num)

end Rne

end Verif.Float
