import Mathlib.Data.Rat.Floor
import Verif.Float.TrimModel
import Verif.Widgets.TrimProps

/-!
# Trim bounds in floating point (C161)
-/

set_option autoImplicit false
set_option linter.unusedSectionVars false
set_option linter.unusedSimpArgs false

namespace Verif.Float

open Verif.Widgets

section

variable {K : Type} [Field K] [LinearOrder K] [IsStrictOrderedRing K] [FloorRing K] (A : Arith K)

/-- Sample rates and indices for which the conversions are harmless: representable, far from
underflow, and at most an eighth of the precision. -/
structure Fine (sr i : Int) : Prop where
  sr_pos : 0 < sr
  sr_rep : (sr : K) * A.u ≤ 1
  sr_eta : A.eta * (sr : K) ≤ A.u
  nonneg : 0 ≤ i
  small : 8 * A.u * ((i : K) + 1) ≤ 1

theorem rep_int' {n : Int} (h0 : 0 ≤ n) (h : (n : K) * A.u ≤ 1) : A.rnd (n : K) = n := by
  apply A.int
  rw [abs_of_nonneg (by exact_mod_cast h0)]
  exact h

theorem readBack_err {sr i : Int} (h : Fine A sr i) :
    |readBack A sr i - i| < 1 ∧ 0 ≤ readBack A sr i := by
  have u0 := A.u_pos
  have u8 := A.u_le
  have η0 := A.eta_nonneg
  have ηu := A.eta_le
  have hs : (0 : K) < sr := by exact_mod_cast h.sr_pos
  have hi : (0 : K) ≤ i := by exact_mod_cast h.nonneg
  have rs : A.rnd (sr : K) = sr := rep_int' A h.sr_pos.le h.sr_rep
  have hsm := h.small
  have hiu : (i : K) * A.u ≤ 1 := by nlinarith
  have ri : A.rnd (i : K) = i := rep_int' A h.nonneg hiu
  unfold readBack shownTime Arith.mul Arith.div
  rw [rs, ri]
  have hq : (0 : K) ≤ i / sr := div_nonneg hi hs.le
  have e1 := A.err ((i : K) / sr)
  rw [abs_of_nonneg hq] at e1
  set t := A.rnd ((i : K) / sr) with ht
  have t0 : 0 ≤ t := Arith.rnd_nonneg hq
  have hts : 0 ≤ t * sr := mul_nonneg t0 hs.le
  have e2 := A.err (t * sr)
  rw [abs_of_nonneg hts] at e2
  -- the exact product with the rounded time
  have e3 : |t * sr - i| ≤ A.u * i + A.u := by
    have h1 : t * sr - i = (t - i / sr) * sr := by
      have := hs.ne'
      field_simp
    rw [h1, abs_mul, abs_of_pos hs]
    have h2 := mul_le_mul_of_nonneg_right e1 hs.le
    have h3 : (A.u * ((i : K) / sr) + A.eta) * sr = A.u * i + A.eta * sr := by
      have := hs.ne'
      field_simp
    rw [h3] at h2
    linarith [h.sr_eta]
  have e4 : t * sr ≤ i + A.u * i + A.u := by
    have := (abs_le.1 e3).2
    linarith
  refine ⟨?_, Arith.rnd_nonneg hts⟩
  have e5 : |A.rnd (t * sr) - i| ≤ |A.rnd (t * sr) - t * sr| + |t * sr - i| := by
    have := abs_add_le (A.rnd (t * sr) - t * sr) (t * sr - i)
    rwa [sub_add_sub_cancel] at this
  have e6 : A.u * (t * sr) ≤ A.u * (i + A.u * i + A.u) := mul_le_mul_of_nonneg_left e4 u0.le
  have e7 : A.u * (A.u * i) ≤ 1 / 8 * (A.u * i) := mul_le_mul_of_nonneg_right u8 (by positivity)
  have e8 : A.u * A.u ≤ 1 / 8 * A.u := mul_le_mul_of_nonneg_right u8 u0.le
  have e9 : 8 * (A.u * i) + 8 * A.u ≤ 1 := by linarith
  nlinarith

/-- **C161** (one conversion): the index read back from the time shown is the index or the one
before it; zero stays zero. -/
theorem C161_index {sr i : Int} (h : Fine A sr i) :
    ∃ j : Int, toSamples sr (some (retypeF A sr i)) = .ok j ∧ (j = i ∨ j = i - 1) ∧ 0 ≤ j := by
  obtain ⟨h1, h2⟩ := readBack_err A h
  have hs : (sr : K) ≠ 0 := by exact_mod_cast h.sr_pos.ne'
  have hj : toSamples sr (some (retypeF A sr i)) = .ok ⌊readBack A sr i⌋ := by
    simp only [toSamples, retypeF, Flt.mulInt, Flt.toInt, div_mul_cancel₀ _ hs]
    rw [if_pos h2]
  refine ⟨_, hj, ?_, Int.floor_nonneg.2 h2⟩
  rw [abs_lt] at h1
  have f1 : i - 1 ≤ ⌊readBack A sr i⌋ := Int.le_floor.2 (by push_cast; linarith)
  have f2 : ⌊readBack A sr i⌋ < i + 1 := Int.floor_lt.2 (by push_cast; linarith)
  omega

variable {X : Type}

/-- **C161** (showing): when the bounds are shown, each is left as it is or moved to the sample before
it, so that the region is at most one sample longer or shorter, and not empty; nothing else changes. -/
theorem C161_shown (s : TrimState X) (hv : Valid s) (x : List X) (sr a b : Int)
    (hx : s.audio = some x) (hsr : s.sr = some sr) (ha : s.start = some a) (hb : s.stop = some b)
    (hf : Fine A sr b) :
    ∃ a' b', updateVars (retypeF A) s = { s with start := some a', stop := some b' } ∧
      (a' = a ∨ a' = a - 1) ∧ (b' = b ∨ b' = b - 1) ∧ 0 ≤ a' ∧ a' < b' := by
  obtain ⟨h1, h2, h3⟩ := hv.with x a b hx ha hb
  have hfa : Fine A sr a := ⟨hf.sr_pos, hf.sr_rep, hf.sr_eta, h1, by
    have : (a : K) ≤ b := by exact_mod_cast h2.le
    have := hf.small
    have u0 := A.u_pos
    nlinarith⟩
  obtain ⟨j, hj, hj1, hj2⟩ := C161_index A hfa
  obtain ⟨k, hk, hk1, hk2⟩ := C161_index A hf
  refine ⟨min (b - 1) (max 0 j), max (min (b - 1) (max 0 j) + 1) (min x.length k), ?_, by omega,
    by omega, by omega, by omega⟩
  simp only [updateVars, hx, hsr, ha, hb, entryCbk, setTrim, Option.getD_some, hj, setIndex, if_true,
    hk, Bool.false_eq_true, if_false]

/-- **C161** (loading): after a file with an onset has been loaded, the bounds are those of the first
longest region between onsets, each at most one sample earlier. -/
theorem C161_load (detect : List X → Except PyErr (List Bool)) (hdet : ∀ x m, detect x = .ok m → m.length = x.length)
    (s : TrimState X) (sr : Int) (x : List X) (m : List Bool) (hd : detect x = .ok m)
    (hon : ∃ i : Nat, m[i]? = some true) (hf : Fine A sr x.length) :
    ∃ a b a' b', loadCbk detect (retypeF A) s (some (sr, x)) =
        ({ s with audio := some x, sr := some sr, start := some a', stop := some b' }, none) ∧
      IsRegion m x.length a b ∧ (∀ c d, IsRegion m x.length c d → d - c ≤ b - a) ∧
      (a' = a ∨ a' = a - 1) ∧ (b' = b ∨ b' = b - 1) ∧ 0 ≤ a' ∧ a' < b' := by
  obtain ⟨a, b, h1, h2, h3, -⟩ :=
    (C58_auto detect { s with audio := some x, sr := some sr } x rfl m hd (hdet x m hd)).1 hon
  have hv : Valid ({ s with audio := some x, sr := some sr, start := some a, stop := some b } :
      TrimState X) := by
    have := (autoTrim_valid detect hdet { s with audio := some x, sr := some sr } x rfl
      ⟨m, hd, hon⟩).1
    rw [h1] at this
    exact this
  obtain ⟨g1, g2, g3⟩ := hv.with x a b rfl rfl rfl
  have hfb : Fine A sr b := ⟨hf.sr_pos, hf.sr_rep, hf.sr_eta, by omega, by
    have : (b : K) ≤ (x.length : Int) := by exact_mod_cast g3
    have := hf.small
    have u0 := A.u_pos
    nlinarith⟩
  obtain ⟨a', b', e1, e2, e3, e4, e5⟩ := C161_shown A _ hv x sr a b rfl rfl rfl rfl hfb
  refine ⟨a, b, a', b', ?_, h2, h3, e2, e3, e4, e5⟩
  simp only [loadCbk, h1]
  rw [e1]

/-- The bounds of a state. -/
def bounds (s : TrimState X) : Option Int × Option Int := (s.start, s.stop)

theorem reload_one (detect : List X → Except PyErr (List Bool)) (c : TrimState X) (hv : Valid c)
    (x : List X) (sr a b : Int) (hx : c.audio = some x) (hsr : c.sr = some sr)
    (ha : c.start = some a) (hb : c.stop = some b) (hf : Fine A sr b) :
    ∃ a' b', (restore detect (retypeF A) c).1 =
        { audio := some x, sr := some sr, start := some a', stop := some b' } ∧
      (a' = a ∨ a' = a - 1) ∧ (b' = b ∨ b' = b - 1) ∧ 0 ≤ a' ∧ a' < b' ∧ b' ≤ x.length := by
  obtain ⟨g1, g2, g3⟩ := hv.with x a b hx ha hb
  have hv' : Valid (⟨some x, some sr, some a, some b, none, false⟩ : TrimState X) := by
    intro a' b' ha' hb'
    simp only [Option.some.injEq] at ha' hb' ⊢
    subst ha' hb'
    exact ⟨g1, g2, by rintro x' rfl; exact g3⟩
  obtain ⟨a', b', e1, e2, e3, e4, e5⟩ := C161_shown A _ hv' x sr a b rfl rfl rfl rfl hf
  refine ⟨a', b', ?_, e2, e3, e4, e5, by omega⟩
  simp only [restore, hx, ha, hb, hsr, Option.getD_some]
  rw [e1]

/-- **C161** (reloads): after `n` reloads of the GUI both bounds are at most `n` samples before what
they were, never after; the region is not empty and lies in the audio. -/
theorem C161_reloads (detect : List X → Except PyErr (List Bool)) (n : Nat) (c : TrimState X)
    (hv : Valid c) (x : List X) (sr a b : Int) (hx : c.audio = some x) (hsr : c.sr = some sr)
    (ha : c.start = some a) (hb : c.stop = some b) (hf : Fine A sr b) :
    ∃ a' b', bounds (reloads A detect n c) = (some a', some b') ∧
      (reloads A detect n c).audio = some x ∧ (reloads A detect n c).sr = some sr ∧
      a - n ≤ a' ∧ a' ≤ a ∧ b - n ≤ b' ∧ b' ≤ b ∧ 0 ≤ a' ∧ a' < b' ∧ b' ≤ x.length := by
  induction n generalizing c a b with
  | zero =>
    obtain ⟨g1, g2, g3⟩ := hv.with x a b hx ha hb
    exact ⟨a, b, by simp [reloads, bounds, ha, hb], hx, hsr, by simp, le_refl _, by simp, le_refl _,
      g1, g2, g3⟩
  | succ n ih =>
    obtain ⟨a1, b1, e1, e2, e3, e4, e5, e6⟩ := reload_one A detect c hv x sr a b hx hsr ha hb hf
    simp only [reloads]
    rw [e1]
    have hv1 : Valid (⟨some x, some sr, some a1, some b1, none, false⟩ : TrimState X) := by
      intro a' b' ha' hb'
      simp only [Option.some.injEq] at ha' hb' ⊢
      subst ha' hb'
      exact ⟨e4, e5, by rintro x' rfl; exact e6⟩
    have hf1 : Fine A sr b1 := ⟨hf.sr_pos, hf.sr_rep, hf.sr_eta, by omega, by
      have : (b1 : K) ≤ b := by
        have : b1 ≤ b := by omega
        exact_mod_cast this
      have := hf.small
      have u0 := A.u_pos
      nlinarith⟩
    obtain ⟨a', b', h1, h2, h3, h4⟩ := ih _ hv1 a1 b1 rfl rfl rfl rfl hf1
    refine ⟨a', b', h1, h2, h3, ?_⟩
    push_cast
    omega

theorem reloads_add (detect : List X → Except PyErr (List Bool)) (n m : Nat) (c : TrimState X) :
    reloads A detect (n + m) c = reloads A detect m (reloads A detect n c) := by
  induction n generalizing c with
  | zero => simp [reloads]
  | succ n ih => rw [Nat.succ_add]; exact ih _

theorem reloads_fixed (detect : List X → Except PyErr (List Bool)) (c : TrimState X)
    (h : (restore detect (retypeF A) c).1 = c) (n : Nat) : reloads A detect n c = c := by
  induction n with
  | zero => rfl
  | succ n ih => simp only [reloads, h, ih]

/-- **C161** (the drift ends): after finitely many reloads the bounds do not change any more. -/
theorem C161_settles (detect : List X → Except PyErr (List Bool)) (c : TrimState X)
    (hv : Valid c) (x : List X) (sr a b : Int) (hx : c.audio = some x) (hsr : c.sr = some sr)
    (ha : c.start = some a) (hb : c.stop = some b) (hf : Fine A sr b) :
    ∃ N, ∀ n, N ≤ n → reloads A detect n c = reloads A detect N c := by
  suffices H : ∀ (k : Nat) (c : TrimState X) (a b : Int), Valid c → c.audio = some x →
      c.sr = some sr → c.start = some a → c.stop = some b → Fine A sr b → (a + b).toNat ≤ k →
      ∃ N, ∀ n, N ≤ n → reloads A detect n c = reloads A detect N c from
    H _ c a b hv hx hsr ha hb hf le_rfl
  intro k
  induction k with
  | zero =>
    intro c a b hv hx hsr ha hb hf hk
    obtain ⟨g1, g2, -⟩ := hv.with x a b hx ha hb
    omega
  | succ k ih =>
    intro c a b hv hx hsr ha hb hf hk
    obtain ⟨g1, g2, g3⟩ := hv.with x a b hx ha hb
    obtain ⟨a1, b1, e1, e2, e3, e4, e5, e6⟩ := reload_one A detect c hv x sr a b hx hsr ha hb hf
    have hv1 : Valid (⟨some x, some sr, some a1, some b1, none, false⟩ : TrimState X) := by
      intro a' b' ha' hb'
      simp only [Option.some.injEq] at ha' hb' ⊢
      subst ha' hb'
      exact ⟨e4, e5, by rintro x' rfl; exact e6⟩
    have hf1 : Fine A sr b1 := ⟨hf.sr_pos, hf.sr_rep, hf.sr_eta, by omega, by
      have : (b1 : K) ≤ b := by
        have : b1 ≤ b := by omega
        exact_mod_cast this
      have := hf.small
      have u0 := A.u_pos
      nlinarith⟩
    by_cases hsame : a1 = a ∧ b1 = b
    · obtain ⟨rfl, rfl⟩ := hsame
      refine ⟨1, ?_⟩
      have hfix : (restore detect (retypeF A)
          (⟨some x, some sr, some a1, some b1, none, false⟩ : TrimState X)).1 =
          ⟨some x, some sr, some a1, some b1, none, false⟩ := by
        have : restore detect (retypeF A)
            (⟨some x, some sr, some a1, some b1, none, false⟩ : TrimState X) =
            restore detect (retypeF A) c := by
          simp only [restore, hx, hsr, ha, hb]
        rw [this, e1]
      intro n hn
      obtain ⟨m, rfl⟩ := Nat.exists_eq_add_of_le' hn
      simp only [reloads, e1]
      exact reloads_fixed A detect _ hfix m
    · obtain ⟨N, hN⟩ := ih _ a1 b1 hv1 rfl rfl rfl rfl hf1 (by omega)
      refine ⟨N + 1, ?_⟩
      intro n hn
      obtain ⟨m, rfl⟩ := Nat.exists_eq_add_of_le' (Nat.le_trans (Nat.le_add_left 1 N) hn)
      simp only [reloads, e1]
      exact hN m (by omega)

end

/-! ## Doubles -/

section

variable (K : Type) [Field K] [LinearOrder K] [IsStrictOrderedRing K] [FloorRing K]

/-- **C161** (doubles): the theorems hold for sample rates up to `2 ^ 53` and indices below
`2 ^ 50`. -/
theorem C161_double (sr i : Int) (h1 : 0 < sr) (h2 : sr ≤ 2 ^ 53) (h3 : 0 ≤ i) (h4 : i < 2 ^ 50) :
    Fine (double K) sr i := by
  have hu : (double K).u = (2 ^ 53)⁻¹ := rfl
  have hη : (double K).eta = 2 ^ (-1074 : ℤ) / 2 := rfl
  have s2 : (sr : K) ≤ 2 ^ 53 := by exact_mod_cast h2
  have i2 : (i : K) + 1 ≤ 2 ^ 50 := by
    have : i + 1 ≤ 2 ^ 50 := by omega
    exact_mod_cast this
  refine ⟨h1, ?_, ?_, h3, ?_⟩
  · rw [hu, mul_inv_le_iff₀ (by positivity), one_mul]
    exact s2
  · rw [hu, hη]
    have e : (2 : K) ^ (-1074 : ℤ) ≤ 2 ^ (-106 : ℤ) := zpow_le_zpow_right₀ (by norm_num) (by norm_num)
    have e0 : (0 : K) ≤ 2 ^ (-1074 : ℤ) := by positivity
    have e2 : (2 : K) ^ (-106 : ℤ) * 2 ^ 53 = (2 ^ 53)⁻¹ := by norm_num
    calc (2 : K) ^ (-1074 : ℤ) / 2 * sr ≤ 2 ^ (-1074 : ℤ) * 2 ^ 53 := by nlinarith
      _ ≤ 2 ^ (-106 : ℤ) * 2 ^ 53 := by
        apply mul_le_mul_of_nonneg_right e (by positivity)
      _ = (2 ^ 53)⁻¹ := e2
  · rw [hu]
    calc (8 : K) * (2 ^ 53)⁻¹ * ((i : K) + 1) ≤ 8 * (2 ^ 53)⁻¹ * 2 ^ 50 := by
          apply mul_le_mul_of_nonneg_left i2 (by positivity)
      _ = 1 := by norm_num

/-- **C161** (exact rates): with a sample rate that is a power of two nothing moves. -/
theorem C161_power (k : Nat) (i : Int) (hk : k ≤ 1000) (h0 : 0 ≤ i) (hi : i ≤ 2 ^ 53) :
    readBack (double K) (2 ^ k) i = i := by
  have a0 : |i| ≤ 2 ^ 53 := by rw [abs_of_nonneg h0]; exact hi
  have r0 : (double K).rnd (i : K) = i := by
    have := flt_of_small (K := K) 53 (-1074) 0 (by norm_num) i a0 (by norm_num)
    rw [zpow_zero, mul_one] at this
    exact this
  have r1 : (double K).rnd ((2 ^ k : Int) : K) = 2 ^ k := by
    have := flt_of_small (K := K) 53 (-1074) k (by omega) 1 (by norm_num) (by norm_num)
    push_cast at this ⊢
    rw [one_mul, zpow_natCast] at this
    exact this
  have r2 : (double K).rnd ((i : K) / 2 ^ k) = i / 2 ^ k := by
    have := flt_of_small (K := K) 53 (-1074) (-(k : ℤ)) (by omega) i a0 (by norm_num)
    rw [zpow_neg, zpow_natCast, ← div_eq_mul_inv] at this
    exact this
  unfold readBack shownTime Arith.mul Arith.div
  push_cast at r1 ⊢
  rw [r0, r1, r2, div_mul_cancel₀ _ (by positivity), r0]

end

theorem floors_44100 : (⌊readBack (double ℚ) 44100 15⌋ = 14 ∧
    ⌊readBack (double ℚ) 44100 88222⌋ = 88221 ∧ ⌊readBack (double ℚ) 44100 88221⌋ = 88220 ∧
    ⌊readBack (double ℚ) 44100 88220⌋ = 88219 ∧ ⌊readBack (double ℚ) 44100 88219⌋ = 88218 ∧
    ⌊readBack (double ℚ) 44100 88218⌋ = 88217 ∧ ⌊readBack (double ℚ) 44100 88217⌋ = 88217 ∧
    ⌊readBack (double ℚ) 44100 90000⌋ = 90000) := by
  decide +kernel

theorem toSamples_of (sr i j : Int) (h0 : 0 < sr) (hj : ⌊readBack (double ℚ) sr i⌋ = j)
    (j0 : 0 ≤ j) : toSamples sr (some (retypeF (double ℚ) sr i)) = .ok j := by
  have hs : (sr : ℚ) ≠ 0 := by exact_mod_cast h0.ne'
  have h2 : 0 ≤ readBack (double ℚ) sr i := by
    rw [← Int.floor_nonneg, hj]
    exact j0
  simp only [toSamples, retypeF, Flt.mulInt, Flt.toInt, div_mul_cancel₀ _ hs]
  rw [if_pos h2, hj]

theorem restore_at {X : Type} (detect : List X → Except PyErr (List Bool)) (x : List X)
    (a j : Int) (hx : 90000 ≤ x.length) (h0 : 0 ≤ j) (h1 : j < 90000)
    (hj : ⌊readBack (double ℚ) 44100 a⌋ = j) :
    (restore detect (retypeF (double ℚ))
      { audio := some x, sr := some 44100, start := some a, stop := some 90000 }).1 =
      { audio := some x, sr := some 44100, start := some j, stop := some 90000 } := by
  have t1 := toSamples_of 44100 a j (by norm_num) hj h0
  have t2 := toSamples_of 44100 90000 90000 (by norm_num) floors_44100.2.2.2.2.2.2.2 (by norm_num)
  have e1 : min (90000 - 1) (max 0 j) = j := by omega
  have e2 : max (j + 1) (min (x.length : Int) 90000) = 90000 := by omega
  simp only [restore, updateVars, entryCbk, setTrim, Option.getD_some, t1, setIndex, if_true, t2,
    Bool.false_eq_true, if_false, e1, e2]

/-- **C161** (finding): in every sound with 44100 Hz and enough samples, a region that starts with
sample 15 starts with sample 14 after it is shown, and one that starts with sample 88222 starts one
sample earlier after each of five reloads. -/
theorem C161_drift {X : Type} (detect : List X → Except PyErr (List Bool)) (x : List X)
    (hx : 90000 ≤ x.length) :
    (reloads (double ℚ) detect 1
      { audio := some x, sr := some 44100, start := some 15, stop := some 90000 }).start = some 14 ∧
    ∀ n : Nat, (reloads (double ℚ) detect n
      { audio := some x, sr := some 44100, start := some 88222, stop := some 90000 }).start =
        some (88222 - (min n 5 : Nat)) := by
  obtain ⟨f0, f1, f2, f3, f4, f5, f6, -⟩ := floors_44100
  refine ⟨?_, ?_⟩
  · simp only [reloads]
    rw [restore_at detect x 15 14 hx (by norm_num) (by norm_num) f0]
  · have s6 := reloads_fixed (double ℚ) detect _
      (restore_at detect x 88217 88217 hx (by norm_num) (by norm_num) f6)
    have s5 := restore_at detect x 88218 88217 hx (by norm_num) (by norm_num) f5
    have s4 := restore_at detect x 88219 88218 hx (by norm_num) (by norm_num) f4
    have s3 := restore_at detect x 88220 88219 hx (by norm_num) (by norm_num) f3
    have s2 := restore_at detect x 88221 88220 hx (by norm_num) (by norm_num) f2
    have s1 := restore_at detect x 88222 88221 hx (by norm_num) (by norm_num) f1
    intro n
    match n with
    | 0 => simp [reloads]
    | 1 => simp [reloads, s1]
    | 2 => simp [reloads, s1, s2]
    | 3 => simp [reloads, s1, s2, s3]
    | 4 => simp [reloads, s1, s2, s3, s4]
    | n + 5 => simp [reloads, s1, s2, s3, s4, s5, s6]

/-- A sound and bounds for which the theorems hold. -/
example : ∃ a' b', bounds (reloads (double ℚ) (fun _ => .ok []) 7
    (⟨some [1, 2, 3, 4, 5], some 44100, some 1, some 4, none, false⟩ : TrimState Nat)) =
      (some a', some b') ∧ 0 ≤ a' ∧ a' < b' := by
  obtain ⟨a', b', h1, _, _, _, _, _, _, h2, h3, _⟩ := C161_reloads (double ℚ) (fun _ => .ok []) 7
    (⟨some [1, 2, 3, 4, 5], some 44100, some 1, some 4, none, false⟩ : TrimState Nat)
    (by intro a b ha hb; cases ha; cases hb; exact ⟨by norm_num, by norm_num, by intro x hx; cases hx; simp⟩)
    _ 44100 1 4 rfl rfl rfl rfl (C161_double ℚ 44100 4 (by norm_num) (by norm_num) (by norm_num)
      (by norm_num))
  exact ⟨a', b', h1, h2, h3⟩

example : readBack (double ℚ) (2 ^ 15) 12345 = 12345 := C161_power ℚ 15 12345 (by norm_num)
  (by norm_num) (by norm_num)

end Verif.Float
