import Verif.Sms.SpectrumModel
import Verif.Sms.SpectrumSpec
import Verif.Sms.Props
import Verif.Dsp.SpectrumProps

/-!
# Lemmas about the spectrum of a frame
-/

set_option autoImplicit false
set_option linter.unusedSectionVars false
set_option linter.unusedSimpArgs false

namespace Verif.Sms

open Complex

/-! ## Unwrapping -/

theorem cumsum_length (l : List ℝ) : ∀ s, (cumsum s l).length = l.length := by
  induction l with
  | nil => intro s; rfl
  | cons a l ih => intro s; simp [cumsum, ih]

theorem cumsum_getElem? (l : List ℝ) : ∀ (s : ℝ) (i : Nat), i < l.length →
    (cumsum s l)[i]? = some (s + (l.take (i + 1)).sum) := by
  induction l with
  | nil => intro s i h; simp at h
  | cons a l ih =>
    intro s i h
    cases i with
    | zero => simp [cumsum]
    | succ i =>
      rw [cumsum, List.getElem?_cons_succ, ih (s + a) i (by simpa using h)]
      simp [add_assoc]

theorem diff_length : ∀ l : List ℝ, (diff l).length = l.length - 1
  | [] => rfl
  | [_] => rfl
  | a :: b :: l => by
    have := diff_length (b :: l)
    simp [diff, this]

theorem diff_getElem? : ∀ (l : List ℝ) (i : Nat) (a b : ℝ), l[i]? = some a → l[i + 1]? = some b →
    (diff l)[i]? = some (b - a)
  | [], i, a, b, h, _ => by simp at h
  | [x], i, a, b, _, h => by simp at h
  | x :: y :: l, 0, a, b, h1, h2 => by
    simp at h1 h2
    simp [diff, h1, h2]
  | x :: y :: l, i + 1, a, b, h1, h2 => by
    rw [diff, List.getElem?_cons_succ]
    exact diff_getElem? (y :: l) i a b (by simpa using h1) (by simpa using h2)

theorem unwrap_length (p : List ℝ) : (unwrap p).length = p.length := by
  cases p with
  | nil => rfl
  | cons a l => simp [unwrap, cumsum_length, diff_length]

theorem unwrap_getElem? (p : List ℝ) (i : Nat) (a : ℝ) (h : p[i]? = some a) :
    (unwrap p)[i]? = some (a + (((diff p).map phaseCorrection).take i).sum) := by
  cases p with
  | nil => simp at h
  | cons b l =>
    cases i with
    | zero => simp at h; simp [unwrap, h]
    | succ i =>
      have hi : i < l.length := by
        have := (List.getElem?_eq_some_iff.1 h).1; simpa using this
      rw [unwrap, List.getElem?_cons_succ, List.getElem?_zipWith,
        show l[i]? = some a by simpa using h,
        cumsum_getElem? _ _ _ (by simp [diff_length]; omega)]
      simp

theorem phaseCorrection_mod (dd : ℝ) : ∃ m : ℤ, phaseCorrection dd = 2 * Real.pi * m := by
  unfold phaseCorrection
  simp only
  split
  · exact ⟨0, by simp⟩
  · split
    · rename_i h
      refine ⟨1 - ⌊(dd - -Real.pi) / (2 * Real.pi)⌋, ?_⟩
      push_cast
      linarith [h.1]
    · exact ⟨-⌊(dd - -Real.pi) / (2 * Real.pi)⌋, by push_cast; ring⟩

theorem phaseCorrection_step (dd : ℝ) : |dd + phaseCorrection dd| ≤ Real.pi := by
  have hp := Real.pi_pos
  unfold phaseCorrection
  simp only
  split
  · rename_i h
    rw [add_zero]; exact h.le
  · have h1 : (⌊(dd - -Real.pi) / (2 * Real.pi)⌋ : ℝ) ≤ (dd - -Real.pi) / (2 * Real.pi) := Int.floor_le _
    have h2 : (dd - -Real.pi) / (2 * Real.pi) < ⌊(dd - -Real.pi) / (2 * Real.pi)⌋ + 1 := Int.lt_floor_add_one _
    rw [le_div_iff₀ (by linarith)] at h1
    rw [div_lt_iff₀ (by linarith)] at h2
    split
    · rw [show dd + (Real.pi - dd) = Real.pi by ring, abs_of_pos hp]
    · rw [abs_le]
      constructor <;> linarith

theorem phaseCorrection_small (dd : ℝ) (h : |dd| ≤ Real.pi) : phaseCorrection dd = 0 := by
  have hp := Real.pi_pos
  unfold phaseCorrection
  simp only
  split
  · rfl
  · rename_i h'
    have e : |dd| = Real.pi := le_antisymm h (not_lt.1 h')
    rcases (abs_eq hp.le).1 e with e | e
    · have hf : ⌊(dd - -Real.pi) / (2 * Real.pi)⌋ = 1 := by
        rw [e, show (Real.pi - -Real.pi) / (2 * Real.pi) = 1 by field_simp; ring]
        simp
      rw [hf, if_pos ⟨by rw [e]; push_cast; ring, by rw [e]; exact hp⟩, e, sub_self]
    · have hf : ⌊(dd - -Real.pi) / (2 * Real.pi)⌋ = 0 := by
        rw [e, sub_self, zero_div, Int.floor_zero]
      rw [hf, if_neg (by rw [e]; intro h2; linarith [h2.2]), e]
      push_cast
      ring

theorem sum_mod (l : List ℝ) (h : ∀ a ∈ l, ∃ m : ℤ, a = 2 * Real.pi * m) :
    ∃ m : ℤ, l.sum = 2 * Real.pi * m := by
  induction l with
  | nil => exact ⟨0, by simp⟩
  | cons a l ih =>
    obtain ⟨m, hm⟩ := ih fun b hb => h b (List.mem_cons_of_mem _ hb)
    obtain ⟨k, hk⟩ := h a List.mem_cons_self
    exact ⟨k + m, by rw [List.sum_cons, hm, hk]; push_cast; ring⟩

/-- What `np.unwrap` does. -/
theorem unwrap_spec (p : List ℝ) : (unwrap p).length = p.length ∧ (unwrap p)[0]? = p[0]? ∧
    (∀ (i : Nat) (a : ℝ), p[i]? = some a → ∃ m : ℤ, (unwrap p)[i]? = some (a + 2 * Real.pi * m)) ∧
    (∀ (i : Nat) (a b : ℝ), (unwrap p)[i]? = some a → (unwrap p)[i + 1]? = some b → |b - a| ≤ Real.pi) ∧
    ((∀ (i : Nat) (a b : ℝ), p[i]? = some a → p[i + 1]? = some b → |b - a| ≤ Real.pi) → unwrap p = p) := by
  refine ⟨unwrap_length p, ?_, ?_, ?_, ?_⟩
  · cases p <;> rfl
  · intro i a h
    obtain ⟨m, hm⟩ := sum_mod (((diff p).map phaseCorrection).take i) (by
      intro a ha
      obtain ⟨d, _, rfl⟩ := List.mem_map.1 (List.mem_of_mem_take ha)
      exact phaseCorrection_mod d)
    exact ⟨m, by rw [unwrap_getElem? p i a h, hm]⟩
  · intro i a b ha hb
    have hl := (List.getElem?_eq_some_iff.1 hb).1
    rw [unwrap_length] at hl
    have e1 : p[i]? = some p[i] := List.getElem?_eq_getElem (by omega)
    have e2 : p[i + 1]? = some p[i + 1] := List.getElem?_eq_getElem hl
    rw [unwrap_getElem? p i _ e1] at ha
    rw [unwrap_getElem? p (i + 1) _ e2] at hb
    have hd := diff_getElem? p i _ _ e1 e2
    have hs : (((diff p).map phaseCorrection).take (i + 1)).sum =
        (((diff p).map phaseCorrection).take i).sum + phaseCorrection (p[i + 1] - p[i]) := by
      rw [List.take_succ, List.sum_append, List.getElem?_map, hd]
      simp
    simp only [Option.some.injEq] at ha hb
    rw [← ha, ← hb, hs]
    have := phaseCorrection_step (p[i + 1] - p[i])
    rwa [show p[i + 1] + ((((diff p).map phaseCorrection).take i).sum + phaseCorrection (p[i + 1] - p[i])) -
      (p[i] + (((diff p).map phaseCorrection).take i).sum) =
        p[i + 1] - p[i] + phaseCorrection (p[i + 1] - p[i]) by ring]
  · intro hsmall
    apply List.ext_getElem?
    intro i
    by_cases hi : i < p.length
    · have e1 : p[i]? = some p[i] := List.getElem?_eq_getElem hi
      rw [unwrap_getElem? p i _ e1, e1]
      have hz : (((diff p).map phaseCorrection).take i).sum = 0 := by
        apply List.sum_eq_zero
        intro a ha
        obtain ⟨d, hd, rfl⟩ := List.mem_map.1 (List.mem_of_mem_take ha)
        obtain ⟨j, hj⟩ := List.getElem?_of_mem hd
        have hj' := (List.getElem?_eq_some_iff.1 hj).1
        rw [diff_length] at hj'
        have e3 : p[j]? = some p[j] := List.getElem?_eq_getElem (by omega)
        have e4 : p[j + 1]? = some p[j + 1] := List.getElem?_eq_getElem (by omega)
        rw [diff_getElem? p j _ _ e3 e4] at hj
        simp only [Option.some.injEq] at hj
        rw [← hj]
        exact phaseCorrection_small _ (hsmall j _ _ e3 e4)
      rw [hz, add_zero]
    · rw [List.getElem?_eq_none (by rw [unwrap_length]; omega), List.getElem?_eq_none (by omega)]

/-! ## The transform -/

theorem unit_period {N : Nat} (hN : 0 < N) (k : Nat) (a q : ℤ) :
    Dsp.unit N k (a + N * q) = Dsp.unit N k a := by
  have hprim := Complex.isPrimitiveRoot_exp N hN.ne'
  rw [Dsp.unit_add]
  have : Dsp.unit N k (N * q) = 1 := by
    unfold Dsp.unit
    rw [(hprim.zpow_eq_one_iff_dvd _)]
    exact ⟨k * q, by ring⟩
  rw [this, mul_one]

/-- The transform of the zero-phase buffer. -/
theorem bin_buffer (x w z : List ℝ) (n k : Nat) (hx : x.length = w.length) (h2 : 2 ≤ w.length)
    (hn : w.length ≤ n) (hz : dftBuffer x w n = .ok z) :
    z.length = n ∧ Dsp.bin (z.map (↑)) n k = centredBin x w n k := by
  obtain ⟨z', e1, e2, e3, e4⟩ := C17_buffer x w n hx h2 hn
  rw [hz] at e1
  cases e1
  refine ⟨e2, ?_⟩
  have hn0 : 0 < n := by omega
  symm
  unfold Dsp.bin centredBin
  refine Finset.sum_of_injOn (fun i => (((i : ℤ) - (w.length / 2 : Nat)) % (n : ℤ)).toNat) ?_ ?_ ?_ ?_
  · intro i hi j hj hij
    simp only [Finset.coe_range, Set.mem_Iio] at hi hj
    have h1 : 0 ≤ ((i : ℤ) - (w.length / 2 : Nat)) % (n : ℤ) := Int.emod_nonneg _ (by omega)
    have h3 : 0 ≤ ((j : ℤ) - (w.length / 2 : Nat)) % (n : ℤ) := Int.emod_nonneg _ (by omega)
    have h4 : ((i : ℤ) - (w.length / 2 : Nat)) % (n : ℤ) = ((j : ℤ) - (w.length / 2 : Nat)) % (n : ℤ) := by
      simp only at hij; omega
    have h6 : (n : ℤ) ∣ (i : ℤ) - j := by
      have := Int.emod_emod_of_dvd ((i : ℤ) - (w.length / 2 : Nat)) (dvd_refl (n : ℤ))
      have h7 := (Int.emod_eq_emod_iff_emod_sub_eq_zero).1 h4
      have h8 := Int.dvd_of_emod_eq_zero h7
      rwa [show (i : ℤ) - (w.length / 2 : Nat) - ((j : ℤ) - (w.length / 2 : Nat)) = i - j by ring] at h8
    obtain ⟨q, hq⟩ := h6
    have : q = 0 := by
      by_contra hq0
      rcases lt_or_gt_of_ne hq0 with h | h <;> nlinarith
    subst this
    omega
  · intro i hi
    simp only [Finset.coe_range, Set.mem_Iio] at hi ⊢
    have := Int.emod_lt_of_pos ((i : ℤ) - (w.length / 2 : Nat)) (show (0 : ℤ) < n by omega)
    have h1 : 0 ≤ ((i : ℤ) - (w.length / 2 : Nat)) % (n : ℤ) := Int.emod_nonneg _ (by omega)
    omega
  · intro m hm hno
    simp only [Finset.mem_range] at hm
    rw [Dsp.map_getD, List.getD_eq_getElem?_getD, e4 m hm]
    · simp
    · intro i hi he
      apply hno
      refine ⟨i, by simpa using hi, ?_⟩
      simp only
      rw [← he, Int.toNat_natCast]
  · intro i hi
    simp only [Finset.mem_range] at hi
    have ha : x[i]? = some x[i] := List.getElem?_eq_getElem (by omega)
    have hb : w[i]? = some w[i] := List.getElem?_eq_getElem hi
    have h1 : 0 ≤ ((i : ℤ) - (w.length / 2 : Nat)) % (n : ℤ) := Int.emod_nonneg _ (by omega)
    rw [Dsp.map_getD, Int.toNat_of_nonneg h1]
    simp only [List.getD_eq_getElem?_getD, ha, hb, e3 i _ _ ha hb, Option.getD_some]
    congr 1
    have hmod : -(((i : ℤ) - (w.length / 2 : Nat)) % (n : ℤ)) =
        -((i : ℤ) - (w.length / 2 : Nat)) + n * (((i : ℤ) - (w.length / 2 : Nat)) / (n : ℤ)) := by
      have := Int.emod_add_mul_ediv ((i : ℤ) - (w.length / 2 : Nat)) n
      linarith
    rw [hmod, unit_period hn0]
    generalize w.length / 2 = hw
    unfold Dsp.unit
    rw [← Complex.exp_int_mul]
    congr 1
    push_cast
    ring

theorem rfft_getElem? (z : List ℝ) (n k : Nat) (hk : k < n / 2 + 1) (hn : 0 < n) :
    (Dsp.rfft z n)[k]? = some (Dsp.bin (z.map (↑)) n k) := by
  unfold Dsp.rfft
  rw [List.getElem?_take, if_pos hk, Dsp.fft_eq, List.getElem?_map, List.getElem?_range (by omega)]
  rfl

theorem rfft_length (z : List ℝ) (n : Nat) (hn : 0 < n) : (Dsp.rfft z n).length = n / 2 + 1 := by
  unfold Dsp.rfft Dsp.fft
  simp
  omega

theorem floatEps_pos : 0 < floatEps := by unfold floatEps; positivity

theorem spectrum_lengths (tol : ℝ) (z : List ℝ) (hz : z ≠ []) :
    (spectrum tol z).1.length = z.length / 2 + 1 ∧ (spectrum tol z).2.length = z.length / 2 + 1 := by
  have h0 : 0 < z.length := List.length_pos_of_ne_nil hz
  constructor <;> simp [spectrum, unwrap_length, rfft_length z z.length h0]

/-- The magnitude spectrum. -/
theorem spectrum_mag (tol : ℝ) (z : List ℝ) (k : Nat) (hz : z ≠ []) (hk : k ≤ z.length / 2) :
    (spectrum tol z).1[k]? =
      some (20 * Real.logb 10 (max ‖Dsp.bin (z.map (↑)) z.length k‖ floatEps)) := by
  have h0 : 0 < z.length := List.length_pos_of_ne_nil hz
  have hp : 0 < max ‖Dsp.bin (z.map (↑)) z.length k‖ floatEps := lt_max_of_lt_right floatEps_pos
  simp [spectrum, rfft_getElem? z z.length k (by omega) h0, Dsp.a2dbFloorless, Dsp.npLog10, hp]

end Verif.Sms
