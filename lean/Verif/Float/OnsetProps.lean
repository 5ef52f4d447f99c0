import Mathlib.Data.Rat.Floor
import Verif.Dsp.OnsetProps
import Verif.Float.BinProps
import Verif.Float.OnsetModel

/-!
# Positions of onsets in floating point (C163)
-/

set_option autoImplicit false
set_option linter.unusedSectionVars false
set_option linter.unusedSimpArgs false

namespace Verif.Float

open Arith Verif.Dsp Verif.Np

variable {K : Type} [Field K] [LinearOrder K] [IsStrictOrderedRing K] [FloorRing K] (A : Arith K)

/-- The integer part of a rounded quotient of integers is exact. -/
theorem floor_div_nat (a b : Nat) (hb : 1 ≤ b) (hbu : (b : K) * A.u ≤ 1)
    (h : (a : K) * A.u + A.eta * b < 1) :
    ⌊A.div (A.rnd (a : K)) (A.rnd (b : K))⌋ = ((a / b : Nat) : Int) := by
  have u0 := A.u_pos
  have b1 : (1 : K) ≤ b := by exact_mod_cast hb
  have bp : (0 : K) < b := by linarith
  have h0 : 0 ≤ A.eta * (b : K) := mul_nonneg A.eta_nonneg bp.le
  have ra := rep_nat A (n := a) (by linarith)
  have rb := rep_nat A hbu
  unfold Arith.div
  rw [A.rnd_of ra, A.rnd_of rb]
  have hq : a / b * b ≤ a := Nat.div_mul_le_self a b
  have hr : a + 1 ≤ (a / b + 1) * b := Nat.lt_mul_of_div_lt (Nat.lt_succ_self _) (by omega)
  have hq' : ((a / b : Nat) : K) * b ≤ a := by exact_mod_cast hq
  have hr' : (a : K) + 1 ≤ (((a / b : Nat) : K) + 1) * b := by exact_mod_cast hr
  have rq : A.Rep ((a / b : Nat) : K) := by
    apply rep_nat
    have : ((a / b : Nat) : K) ≤ a := by exact_mod_cast Nat.div_le_self a b
    have := mul_le_mul_of_nonneg_right this u0.le
    linarith
  rw [Int.floor_eq_iff, Int.cast_natCast]
  constructor
  · exact le_rnd ((le_div_iff₀ bp).2 hq') rq
  · have e := (abs_le.1 (A.err ((a : K) / b))).2
    have x0 : 0 ≤ (a : K) / b := div_nonneg (Nat.cast_nonneg a) bp.le
    rw [abs_of_nonneg x0] at e
    have m : (a : K) / b * b = a := div_mul_cancel₀ _ bp.ne'
    by_contra hc
    rw [not_lt] at hc
    have : ((a / b : Nat) : K) + 1 ≤ a / b + (A.u * (a / b) + A.eta) := by linarith
    have := mul_le_mul_of_nonneg_right this bp.le
    have e2 : ((a : K) / b + (A.u * (a / b) + A.eta)) * b = a + a * A.u + A.eta * b := by
      rw [add_mul, add_mul, mul_assoc, m]
      ring
    rw [e2] at this
    linarith

/-- The position is in the signal, with any product. -/
theorem pos_range (n f i : Nat) (hi : i < f) (hn : 1 ≤ n) (hf : 8 * A.u * f ≤ 1) :
    0 ≤ onsetPosF A n f i ∧ onsetPosF A n f i < n := by
  have u0 := A.u_pos
  have u8 := A.u_le
  have f1 : (1 : K) ≤ f := by exact_mod_cast (by omega : 1 ≤ f)
  have fp : (0 : K) < f := by linarith
  have n1 : (1 : K) ≤ n := by exact_mod_cast hn
  have rf := rep_nat A (n := f) (by nlinarith)
  have ni : (0 : K) ≤ ((i * n : Nat) : K) := Nat.cast_nonneg _
  have P0 : 0 ≤ A.rnd ((i * n : Nat) : K) := rnd_nonneg ni
  unfold onsetPosF Arith.div
  rw [A.rnd_of rf]
  have y0 : 0 ≤ A.rnd ((i * n : Nat) : K) / f := div_nonneg P0 fp.le
  refine ⟨Int.floor_nonneg.2 (rnd_nonneg y0), Int.floor_lt.2 ?_⟩
  rw [Int.cast_natCast]
  have hin : ((i * n : Nat) : K) ≤ (f - 1) * n := by
    have : (i : K) + 1 ≤ f := by exact_mod_cast hi
    push_cast
    nlinarith
  have eP := (abs_le.1 (A.err ((i * n : Nat) : K))).2
  rw [abs_of_nonneg ni] at eP
  have e := (abs_le.1 (A.err (A.rnd ((i * n : Nat) : K) / f))).2
  rw [abs_of_nonneg y0] at e
  generalize ((i * n : Nat) : K) = z at *
  generalize A.rnd z = P at *
  have m : P / f * f = P := div_mul_cancel₀ _ fp.ne'
  have hη := A.eta_le
  -- the product is at most `(f - 1) * n * (1 + u) + u`
  have un : A.u ≤ A.u * n := by nlinarith
  have hP : P ≤ (f - 1) * n + A.u * (f * n) := by
    have h1 : A.u * z ≤ A.u * ((f - 1) * n) := mul_le_mul_of_nonneg_left hin u0.le
    have h2 : A.u * ((f - 1) * n) + A.u * n = A.u * (f * n) := by ring
    linarith
  by_contra hc
  have hc' := not_lt.1 hc
  have h1 : (n : K) ≤ P / f + A.u * (P / f) + A.u * n := by
    linarith
  have h2 := mul_le_mul_of_nonneg_right h1 fp.le
  have h3 : (P / f + A.u * (P / f) + A.u * n) * f = P + A.u * P + A.u * (f * n) := by
    rw [add_mul, add_mul, mul_assoc, m]
    ring
  rw [h3] at h2
  have h4 : A.u * P ≤ A.u * (2 * (f * n)) := by
    apply mul_le_mul_of_nonneg_left _ u0.le
    have : A.u * ((f : K) * n) ≤ 1 / 8 * (f * n) := mul_le_mul_of_nonneg_right u8 (by positivity)
    have : (0 : K) ≤ f * n := by positivity
    nlinarith
  have h5 : 8 * A.u * f * n ≤ 1 * n := mul_le_mul_of_nonneg_right hf (by linarith)
  have h6 : 0 < A.u * ((f : K) * n) := by positivity
  linarith

theorem setAllI_nat (l : List Nat) (b : List Bool) :
    setAllI b (l.map fun p => ((p : Nat) : Int)) = setAll b l := by
  induction l generalizing b with
  | nil => rfl
  | cons p l ih =>
    have e : setTrueI b (p : Int) = setTrue b p := by
      unfold setTrueI
      rw [if_pos (by omega), Int.toNat_natCast]
    simp only [List.map_cons, setAllI, setAll, e]
    cases setTrue b p with
    | error e => rfl
    | ok c => exact ih c

theorem mem_flatnonzero (sel : List Bool) (i : Nat) : i ∈ flatnonzero sel ↔ sel[i]? = some true := by
  simp only [flatnonzero, List.mem_filter, List.mem_range]
  constructor
  · rintro ⟨h1, h2⟩
    rw [List.getD_eq_getElem _ _ h1] at h2
    rw [List.getElem?_eq_getElem h1, h2]
  · intro h
    obtain ⟨h1, h2⟩ := List.getElem?_eq_some_iff.1 h
    exact ⟨h1, by rw [List.getD_eq_getElem _ _ h1, h2]⟩

/-- C163: an onset is marked at exactly the sample `⌊i n / f⌋`, although the quotient is rounded: the
result is that without rounding. -/
theorem C163_exact (n f : Nat) (sel : List Bool) (hf : sel.length = f)
    (hu : ((f * n : Nat) : K) * A.u + A.eta * f < 1) (hfu : (f : K) * A.u ≤ 1) :
    onsetIndicesF A n f sel = onsetIndices n f sel ∧
      (1 ≤ n → ∃ r, onsetIndicesF A n f sel = .ok r ∧ r.length = n ∧
        ∀ p, p < n → (r[p]? = some true ↔ ∃ i : Nat, sel[i]? = some true ∧ p = i * n / f)) := by
  have key : onsetIndicesF A n f sel = onsetIndices n f sel := by
    unfold onsetIndicesF onsetIndices
    rw [← setAllI_nat, List.map_map]
    congr 1
    apply List.map_congr_left
    intro i hi
    have hlt : i < f := by
      have := (List.getElem?_eq_some_iff.1 ((mem_flatnonzero sel i).1 hi)).1
      omega
    show onsetPosF A n f i = ((i * n / f : Nat) : Int)
    apply floor_div_nat A _ _ (by omega) hfu
    have : ((i * n : Nat) : K) ≤ ((f * n : Nat) : K) := by
      exact_mod_cast Nat.mul_le_mul_right n hlt.le
    have := mul_le_mul_of_nonneg_right this A.u_pos.le
    linarith
  refine ⟨key, fun hn => ?_⟩
  rw [key]
  exact (C41_positions n f hn sel hf).1

/-- C163, in doubles: exact for signals and detection functions with a product of sizes up to
`2 ^ 52`. -/
theorem C163_double (K : Type) [Field K] [LinearOrder K] [IsStrictOrderedRing K] [FloorRing K]
    (n f : Nat) (sel : List Bool) (hf : sel.length = f) (hn : 1 ≤ n) (h : f * n ≤ 2 ^ 52) :
    onsetIndicesF (double K) n f sel = onsetIndices n f sel := by
  have hu : (double K).u = (2 ^ 53)⁻¹ := rfl
  have hη := (double K).eta_le
  have hη0 : (double K).eta ≤ (2 ^ 54)⁻¹ := by
    have : (double K).eta = 2 ^ (-1074 : ℤ) / 2 := rfl
    rw [this]
    have h1 : (2 : K) ^ (-1074 : ℤ) ≤ 2 ^ (-53 : ℤ) := zpow_le_zpow_right₀ (by norm_num) (by norm_num)
    have h2 : (2 : K) ^ (-53 : ℤ) = (2 ^ 53)⁻¹ := by rw [zpow_neg]; norm_cast
    rw [h2] at h1
    rw [pow_succ (2 : K) 53, mul_inv]
    linarith
  have ff : f ≤ 2 ^ 52 := (Nat.le_mul_of_pos_right f hn).trans h
  have ff' : (f : K) ≤ 2 ^ 52 := by exact_mod_cast ff
  have h' : ((f * n : Nat) : K) ≤ 2 ^ 52 := by exact_mod_cast h
  refine (C163_exact (double K) n f sel hf ?_ ?_).1
  · have a1 : ((f * n : Nat) : K) * (double K).u ≤ 2 ^ 52 * (2 ^ 53)⁻¹ := by
      rw [hu]
      exact mul_le_mul_of_nonneg_right h' (by positivity)
    have a2 : (double K).eta * f ≤ (2 ^ 54)⁻¹ * 2 ^ 52 :=
      mul_le_mul hη0 ff' (Nat.cast_nonneg f) (by positivity)
    have : (2 : K) ^ 52 * (2 ^ 53)⁻¹ + (2 ^ 54)⁻¹ * 2 ^ 52 < 1 := by norm_num
    linarith
  · rw [hu]
    have a1 : (f : K) * (2 ^ 53)⁻¹ ≤ 2 ^ 52 * (2 ^ 53)⁻¹ :=
      mul_le_mul_of_nonneg_right ff' (by positivity)
    have : (2 : K) ^ 52 * (2 ^ 53)⁻¹ ≤ 1 := by norm_num
    linarith

/-- C163: for signals of any size rounding never gives an index outside of the signal: there is no
`IndexError` and the result has the size of the signal. -/
theorem C163_range (n f : Nat) (hn : 1 ≤ n) (sel : List Bool) (hf : sel.length = f)
    (hu : 8 * A.u * f ≤ 1) :
    ∃ r, onsetIndicesF A n f sel = .ok r ∧ r.length = n ∧
      ∀ p, p < n → (r[p]? = some true ↔
        ∃ i : Nat, sel[i]? = some true ∧ (p : Int) = onsetPosF A n f i) := by
  have hr : ∀ i ∈ flatnonzero sel, 0 ≤ onsetPosF A n f i ∧ onsetPosF A n f i < n := by
    intro i hi
    have := (List.getElem?_eq_some_iff.1 ((mem_flatnonzero sel i).1 hi)).1
    exact pos_range A n f i (by omega) hn hu
  have e : onsetIndicesF A n f sel =
      setAll (List.replicate n false) ((flatnonzero sel).map fun i => (onsetPosF A n f i).toNat) := by
    unfold onsetIndicesF
    rw [← setAllI_nat, List.map_map]
    congr 1
    apply List.map_congr_left
    intro i hi
    have := (hr i hi).1
    show onsetPosF A n f i = (((onsetPosF A n f i).toNat : Nat) : Int)
    omega
  rw [e]
  obtain ⟨r, h1, h2, h3⟩ := setAll_ok ((flatnonzero sel).map fun i => (onsetPosF A n f i).toNat)
    (List.replicate n false) (by
      intro p hp
      obtain ⟨i, hi, rfl⟩ := List.mem_map.1 hp
      have := hr i hi
      rw [List.length_replicate]
      omega)
  rw [List.length_replicate] at h2 h3
  refine ⟨r, h1, h2, fun p hp => ?_⟩
  rw [h3 p hp, List.getElem?_replicate, if_pos hp]
  simp only [Option.some.injEq, Bool.false_eq_true, false_or, List.mem_map]
  constructor
  · rintro ⟨i, a, b⟩
    have := (hr i a).1
    exact ⟨i, (mem_flatnonzero sel i).1 a, by omega⟩
  · rintro ⟨i, a, b⟩
    exact ⟨i, (mem_flatnonzero sel i).2 a, by omega⟩

/-- C163: beyond that product the sample may be another one: in doubles, the last of `2 ^ 27` frames
of a signal of `2 ^ 27 + 1` samples is marked one sample late. -/
theorem C163_off : onsetPosF (double ℚ) (2 ^ 27 + 1) (2 ^ 27) (2 ^ 27 - 1) = 2 ^ 27 ∧
    (2 ^ 27 - 1) * (2 ^ 27 + 1) / 2 ^ 27 = 2 ^ 27 - 1 := by
  decide +kernel

/-- A signal of ten samples with three frames. -/
example : (onsetIndicesF (double ℚ) 10 3 [false, true, true]).toOption =
    some [false, false, false, true, false, false, true, false, false, false] := by
  decide +kernel

/-- The hypotheses hold in doubles for a minute of sound at 44100 Hz with 5168 frames. -/
example : ((5168 * 2646000 : Nat) : ℚ) * (double ℚ).u + (double ℚ).eta * (5168 : Nat) < 1 ∧
    ((5168 : Nat) : ℚ) * (double ℚ).u ≤ 1 ∧ 8 * (double ℚ).u * (5168 : Nat) ≤ 1 := by
  decide +kernel

end Verif.Float
