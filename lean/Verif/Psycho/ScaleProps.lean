import Mathlib.Analysis.SpecialFunctions.Arsinh
import Mathlib.Analysis.SpecialFunctions.Trigonometric.Arctan
import Verif.Out.Props
import Verif.Psycho.ScaleModel

/-!
# Frequency scales: inverse functions (C48), monotonicity (C49)
-/

set_option autoImplicit false
set_option linter.unusedSectionVars false
set_option linter.unusedSimpArgs false

namespace Verif.Psycho

open Verif.Out Verif.Utils

/-- Two bodies whose formulas are inverse to each other. -/
theorem inverse_of {p q : Prog Cell} {np nq : Nat} {sp sq : List Nat} {g k : ℝ → Cell}
    (hp : Computes p np 1 sp (pw1 g)) (hq : Computes q nq 1 sq (pw1 k)) (fs : List ℝ)
    (h : ∀ f ∈ fs, ∃ y, g f = some y ∧ k y = some f) :
    ∃ ys : List ℝ, ret p np [fs.map some] = .ok (ys.map some) ∧
      ret q nq [ys.map some] = .ok (fs.map some) := by
  choose! y hy using h
  refine ⟨fs.map y, ?_, ?_⟩
  · rw [ret_of_computes hp _ rfl]
    simp only [pw1, List.map_map]
    congr 1
    apply List.map_congr_left
    intro f hf
    simp [(hy f hf).1]
  · rw [ret_of_computes hq _ rfl]
    simp only [pw1, List.map_map]
    congr 1
    apply List.map_congr_left
    intro f hf
    simp [(hy f hf).2]

/-! ## Formulas -/

theorem hzT_barkT (f : ℝ) (h : f ≠ -1960) : ∃ y, barkT f = some y ∧ hzT y = some f := by
  have h1 : 1960 + f ≠ 0 := fun h' => h (by linarith)
  refine ⟨26.81 * f / (1960 + f) - 0.53, by simp [barkT, h], ?_⟩
  have h2 : 26.81 * f / (1960 + f) - 0.53 ≠ 26.28 := by
    intro h'
    have : 26.81 * f / (1960 + f) = 26.81 := by linarith
    rw [div_eq_iff h1] at this
    linarith
  simp only [hzT, h2, if_false, Option.some.injEq]
  have h3 : (26.28 : ℝ) - (26.81 * f / (1960 + f) - 0.53) = 26.81 * 1960 / (1960 + f) := by
    field_simp
    ring
  rw [h3]
  field_simp
  ring

theorem barkT_hzT (b : ℝ) (h : b ≠ 26.28) : ∃ f, hzT b = some f ∧ barkT f = some b := by
  have h1 : (26.28 : ℝ) - b ≠ 0 := fun h' => h (by linarith)
  refine ⟨(0.53 + b) / (26.28 - b) * 1960, by simp [hzT, h], ?_⟩
  have h3 : 1960 + (0.53 + b) / (26.28 - b) * 1960 = 26.81 * 1960 / (26.28 - b) := by
    field_simp
    ring
  have h2 : (0.53 + b) / (26.28 - b) * 1960 ≠ -1960 := by
    intro h'
    have : 26.81 * 1960 / (26.28 - b) = 0 := by rw [← h3]; linarith
    rw [div_eq_zero_iff] at this
    rcases this with h4 | h4
    · norm_num at h4
    · exact h1 h4
  simp only [barkT, h2, if_false, Option.some.injEq]
  rw [h3]
  field_simp
  ring

theorem hzW_barkW (f : ℝ) : hzW (barkW f) = f := by
  simp only [hzW, barkW, mul_div_cancel_left₀ _ (by norm_num : (6 : ℝ) ≠ 0), Real.sinh_arsinh]
  ring

theorem barkW_hzW (b : ℝ) : barkW (hzW b) = b := by
  have : (600 : ℝ) ≠ 0 := by norm_num
  simp only [hzW, barkW, mul_div_cancel_left₀ _ this, Real.arsinh_sinh]
  ring

theorem hzMel_mel (f : ℝ) (h : -700 < f) : ∃ y, mel f = some y ∧ hzMel y = f := by
  have h1 : 0 < 1 + f / 700 := by linarith
  refine ⟨_, by rw [mel, if_neg (not_le.2 h)], ?_⟩
  simp only [hzMel]
  rw [mul_div_cancel_left₀ _ (by norm_num : (2595 : ℝ) ≠ 0),
    Real.rpow_logb (by norm_num) (by norm_num) h1]
  ring

theorem mel_hzMel (m : ℝ) : mel (hzMel m) = some m := by
  have h0 : (0 : ℝ) < 10 ^ (m / 2595) := Real.rpow_pos_of_pos (by norm_num) _
  have h1 : ¬ hzMel m ≤ -700 := by
    rw [not_le, hzMel]
    linarith
  rw [mel, if_neg h1]
  simp only [Option.some.injEq, hzMel]
  have : 1 + ((10 : ℝ) ^ (m / 2595) - 1) * 700 / 700 = 10 ^ (m / 2595) := by ring
  rw [this, Real.logb_rpow (by norm_num) (by norm_num)]
  ring

theorem hzFant_melFant (f : ℝ) (h : -1000 < f) : ∃ y, melFant f = some y ∧ hzFant y = f := by
  have h1 : 0 < 1 + f / 1000 := by linarith
  refine ⟨_, by rw [melFant, if_neg (not_le.2 h)], ?_⟩
  simp only [hzFant]
  rw [mul_div_cancel_left₀ _ (by norm_num : (1000 : ℝ) ≠ 0),
    Real.rpow_logb (by norm_num) (by norm_num) h1]
  ring

theorem melFant_hzFant (m : ℝ) : melFant (hzFant m) = some m := by
  have h0 : (0 : ℝ) < 2 ^ (m / 1000) := Real.rpow_pos_of_pos (by norm_num) _
  have h1 : ¬ hzFant m ≤ -1000 := by
    rw [not_le, hzFant]
    linarith
  rw [melFant, if_neg h1]
  simp only [Option.some.injEq, hzFant]
  have : 1 + ((2 : ℝ) ^ (m / 1000) - 1) * 1000 / 1000 = 2 ^ (m / 1000) := by ring
  rw [this, Real.logb_rpow (by norm_num) (by norm_num)]
  ring

theorem hzQ_camsQ (f : ℝ) (h : -312 < f) : ∃ y, camsQ f = some y ∧ hzQ y = some f := by
  have h1 : 0 < f + 312 := by linarith
  have h2 : 0 < f + 14675 := by linarith
  have hr : 0 < (f + 312) / (f + 14675) := div_pos h1 h2
  have hlt : (f + 312) / (f + 14675) < 1 := by rw [div_lt_one h2]; linarith
  refine ⟨11.17 * Real.log ((f + 312) / (f + 14675)) + 43, by simp [camsQ, hr], ?_⟩
  have h3 : 11.17 * Real.log ((f + 312) / (f + 14675)) + 43 ≠ 43 := by
    have := Real.log_neg hr hlt
    intro h'
    have : Real.log ((f + 312) / (f + 14675)) = 0 := by
      have h4 : 11.17 * Real.log ((f + 312) / (f + 14675)) = 0 := by linarith
      rcases mul_eq_zero.1 h4 with h5 | h5
      · norm_num at h5
      · exact h5
    linarith
  have h4 : (11.17 * Real.log ((f + 312) / (f + 14675)) + 43 - 43) / 11.17
      = Real.log ((f + 312) / (f + 14675)) := by
    rw [add_sub_cancel_right, mul_div_cancel_left₀ _ (by norm_num)]
  simp only [hzQ, h3, if_false, h4, Real.exp_log hr, Option.some.injEq]
  have h5 : (f + 312) / (f + 14675) - 1 = -14363 / (f + 14675) := by
    field_simp
    ring
  rw [h5]
  field_simp
  ring

theorem camsQ_hzQ (c : ℝ) (h : c ≠ 43) : ∃ f, hzQ c = some f ∧ camsQ f = some c := by
  refine ⟨_, by rw [hzQ, if_neg h], ?_⟩
  generalize hk : Real.exp ((c - 43) / 11.17) = k
  have hpos : 0 < k := by rw [← hk]; exact Real.exp_pos _
  have hne : k - 1 ≠ 0 := by
    intro h'
    have h1 : k = 1 := by linarith
    rw [← hk, Real.exp_eq_one_iff, div_eq_zero_iff] at h1
    rcases h1 with h1 | h1
    · exact h (by linarith)
    · norm_num at h1
  have e1 : (312 - 14675 * k) / (k - 1) + 312 = -14363 * k / (k - 1) := by
    field_simp
    ring
  have e2 : (312 - 14675 * k) / (k - 1) + 14675 = -14363 / (k - 1) := by
    field_simp
    ring
  have e3 : ((312 - 14675 * k) / (k - 1) + 312) / ((312 - 14675 * k) / (k - 1) + 14675) = k := by
    rw [e1, e2]
    field_simp
  simp only [camsQ, e3, hpos, if_true, Option.some.injEq]
  rw [← hk, Real.log_exp]
  field_simp
  ring

theorem hzL_camsL (f : ℝ) (h : 0 < 1 + 0.00437 * f) : ∃ y, camsL f = some y ∧ hzL y = f := by
  refine ⟨_, by rw [camsL, if_pos h], ?_⟩
  simp only [hzL]
  rw [mul_div_cancel_left₀ _ (by norm_num : (21.4 : ℝ) ≠ 0),
    Real.rpow_logb (by norm_num) (by norm_num) h]
  ring

theorem camsL_hzL (c : ℝ) : camsL (hzL c) = some c := by
  have h0 : (0 : ℝ) < 10 ^ (c / 21.4) := Real.rpow_pos_of_pos (by norm_num) _
  have h1 : 1 + 0.00437 * hzL c = 10 ^ (c / 21.4) := by
    rw [hzL]
    field_simp
    ring
  simp only [camsL, h1, h0, if_true, Option.some.injEq]
  rw [Real.logb_rpow (by norm_num) (by norm_num)]
  field_simp

/-! ## C48 -/

/-- C48, Bark.  For the modes `traunmuller` (also the default) and `wang`: `bark2hz(hz2bark(f))`
is `f`, for every array of non-negative frequencies (Traunmüller: other than -1960 Hz suffices). -/
theorem C48_bark (mode : Option String)
    (hm : mode = none ∨ mode = some "traunmuller" ∨ mode = some "wang") (fs : List ℝ)
    (hf : ∀ f ∈ fs, 0 ≤ f) :
    ∃ ys : List ℝ, callV hz2barkV (kwOpt "mode" mode) (fs.map some) = .ok (ys.map some) ∧
      callV bark2hzV (kwOpt "mode" mode) (ys.map some) = .ok (fs.map some) := by
  have hT := inverse_of C34_hz2bark_traunmuller C34_bark2hz_traunmuller fs
    (fun f h => hzT_barkT f (by have := hf f h; intro h'; linarith))
  have hW := inverse_of C34_hz2bark_wang C34_bark2hz_wang fs
    (fun f _ => ⟨barkW f, rfl, by rw [hzW_barkW]⟩)
  rcases hm with rfl | rfl | rfl
  · obtain ⟨ys, h1, h2⟩ := hT
    exact ⟨ys, (callV_eq hz2barkV none (hz2barkTraunmuller, 1) rfl _).trans h1,
      (callV_eq bark2hzV none (bark2hzTraunmuller, 1) rfl _).trans h2⟩
  · obtain ⟨ys, h1, h2⟩ := hT
    exact ⟨ys, (callV_eq hz2barkV (some "traunmuller") (hz2barkTraunmuller, 1) rfl _).trans h1,
      (callV_eq bark2hzV (some "traunmuller") (bark2hzTraunmuller, 1) rfl _).trans h2⟩
  · obtain ⟨ys, h1, h2⟩ := hW
    exact ⟨ys, (callV_eq hz2barkV (some "wang") (hz2barkWang, 0) rfl _).trans h1,
      (callV_eq bark2hzV (some "wang") (bark2hzWang, 0) rfl _).trans h2⟩

/-- C48, Bark, the other way: `hz2bark(bark2hz(b))` is `b`; for Traunmüller's formula except at
the limit 26.28 Bark, for the formula by Wang et al. everywhere. -/
theorem C48_bark_back (mode : Option String)
    (hm : mode = none ∨ mode = some "traunmuller" ∨ mode = some "wang") (bs : List ℝ)
    (hb : mode ≠ some "wang" → ∀ b ∈ bs, b ≠ 26.28) :
    ∃ fs : List ℝ, callV bark2hzV (kwOpt "mode" mode) (bs.map some) = .ok (fs.map some) ∧
      callV hz2barkV (kwOpt "mode" mode) (fs.map some) = .ok (bs.map some) := by
  have hT := fun hb : ∀ b ∈ bs, b ≠ 26.28 => inverse_of C34_bark2hz_traunmuller C34_hz2bark_traunmuller bs
    (fun b h => barkT_hzT b (hb b h))
  have hW := inverse_of C34_bark2hz_wang C34_hz2bark_wang bs
    (fun b _ => ⟨hzW b, rfl, by rw [barkW_hzW]⟩)
  rcases hm with rfl | rfl | rfl
  · obtain ⟨ys, h1, h2⟩ := hT (hb (by simp))
    exact ⟨ys, (callV_eq bark2hzV none (bark2hzTraunmuller, 1) rfl _).trans h1,
      (callV_eq hz2barkV none (hz2barkTraunmuller, 1) rfl _).trans h2⟩
  · obtain ⟨ys, h1, h2⟩ := hT (hb (by decide))
    exact ⟨ys, (callV_eq bark2hzV (some "traunmuller") (bark2hzTraunmuller, 1) rfl _).trans h1,
      (callV_eq hz2barkV (some "traunmuller") (hz2barkTraunmuller, 1) rfl _).trans h2⟩
  · obtain ⟨ys, h1, h2⟩ := hW
    exact ⟨ys, (callV_eq bark2hzV (some "wang") (bark2hzWang, 0) rfl _).trans h1,
      (callV_eq hz2barkV (some "wang") (hz2barkWang, 0) rfl _).trans h2⟩

/-- C48, Mel, both modes and both ways. -/
theorem C48_mel (mode : Option String)
    (hm : mode = none ∨ mode = some "default" ∨ mode = some "fant") (fs : List ℝ) :
    ((∀ f ∈ fs, 0 ≤ f) →
      ∃ ys : List ℝ, callV hz2melV (kwOpt "mode" mode) (fs.map some) = .ok (ys.map some) ∧
        callV mel2hzV (kwOpt "mode" mode) (ys.map some) = .ok (fs.map some)) ∧
    ∃ ys : List ℝ, callV mel2hzV (kwOpt "mode" mode) (fs.map some) = .ok (ys.map some) ∧
      callV hz2melV (kwOpt "mode" mode) (ys.map some) = .ok (fs.map some) := by
  have h1 := fun hf : ∀ f ∈ fs, 0 ≤ f => inverse_of C34_hz2mel C34_mel2hz fs
    (fun f h => by
      obtain ⟨y, h1, h2⟩ := hzMel_mel f (by have := hf f h; linarith)
      exact ⟨y, h1, by rw [h2]⟩)
  have h2 := inverse_of C34_mel2hz C34_hz2mel fs (fun f _ => ⟨hzMel f, rfl, mel_hzMel f⟩)
  have h3 := fun hf : ∀ f ∈ fs, 0 ≤ f => inverse_of C34_hz2mel_fant C34_mel2hz_fant fs
    (fun f h => by
      obtain ⟨y, h1, h2⟩ := hzFant_melFant f (by have := hf f h; linarith)
      exact ⟨y, h1, by rw [h2]⟩)
  have h4 := inverse_of C34_mel2hz_fant C34_hz2mel_fant fs
    (fun f _ => ⟨hzFant f, rfl, melFant_hzFant f⟩)
  have a1 := callV_eq hz2melV none (hz2mel, 0) rfl
  have a2 := callV_eq mel2hzV none (mel2hz, 0) rfl
  have b1 := callV_eq hz2melV (some "default") (hz2mel, 0) rfl
  have b2 := callV_eq mel2hzV (some "default") (mel2hz, 0) rfl
  have c1 := callV_eq hz2melV (some "fant") (hz2melFant, 0) rfl
  have c2 := callV_eq mel2hzV (some "fant") (mel2hzFant, 0) rfl
  simp only [show hz2melV.key = "mode" from rfl, show mel2hzV.key = "mode" from rfl] at *
  rcases hm with rfl | rfl | rfl
  · simp only [a1, a2]
    exact ⟨h1, h2⟩
  · simp only [b1, b2]
    exact ⟨h1, h2⟩
  · simp only [c1, c2]
    exact ⟨h3, h4⟩

/-- C48, ERB-rate scale, both degrees.  Forward for non-negative frequencies; backward for every
value of the linear scale and every value other than the limit 43 of the quadratic scale. -/
theorem C48_cams (degree : Option String)
    (hm : degree = none ∨ degree = some "quadratic" ∨ degree = some "linear") (fs : List ℝ) :
    ((∀ f ∈ fs, 0 ≤ f) →
      ∃ ys : List ℝ, callV hz2camsV (kwOpt "degree" degree) (fs.map some) = .ok (ys.map some) ∧
        callV cams2hzV (kwOpt "degree" degree) (ys.map some) = .ok (fs.map some)) ∧
    ((degree ≠ some "linear" → ∀ f ∈ fs, f ≠ 43) →
      ∃ ys : List ℝ, callV cams2hzV (kwOpt "degree" degree) (fs.map some) = .ok (ys.map some) ∧
      callV hz2camsV (kwOpt "degree" degree) (ys.map some) = .ok (fs.map some)) := by
  have h1 := fun hf : ∀ f ∈ fs, 0 ≤ f => inverse_of C34_hz2cams C34_cams2hz fs
    (fun f h => hzQ_camsQ f (by have := hf f h; linarith))
  have h2 := fun hc : ∀ f ∈ fs, f ≠ 43 => inverse_of C34_cams2hz C34_hz2cams fs
    (fun f h => camsQ_hzQ f (hc f h))
  have h3 := fun hf : ∀ f ∈ fs, 0 ≤ f => inverse_of C34_hz2cams_linear C34_cams2hz_linear fs
    (fun f h => by
      obtain ⟨y, h1, h2⟩ := hzL_camsL f (by have := hf f h; linarith)
      exact ⟨y, h1, by rw [h2]⟩)
  have h4 := inverse_of C34_cams2hz_linear C34_hz2cams_linear fs
    (fun f _ => ⟨hzL f, rfl, camsL_hzL f⟩)
  have a1 := callV_eq hz2camsV none (hz2cams, 1) rfl
  have a2 := callV_eq cams2hzV none (cams2hz, 1) rfl
  have b1 := callV_eq hz2camsV (some "quadratic") (hz2cams, 1) rfl
  have b2 := callV_eq cams2hzV (some "quadratic") (cams2hz, 1) rfl
  have c1 := callV_eq hz2camsV (some "linear") (hz2camsLinear, 0) rfl
  have c2 := callV_eq cams2hzV (some "linear") (cams2hzLinear, 0) rfl
  simp only [show hz2camsV.key = "degree" from rfl, show cams2hzV.key = "degree" from rfl] at *
  rcases hm with rfl | rfl | rfl
  · simp only [a1, a2]
    exact ⟨h1, fun h => h2 (h (by simp))⟩
  · simp only [b1, b2]
    exact ⟨h1, fun h => h2 (h (by decide))⟩
  · simp only [c1, c2]
    exact ⟨h3, fun _ => h4⟩

/-- C48: every other value of `mode` or `degree` is refused with `ValueError` by both functions of
a pair; Zwicker's formula has no inverse function. -/
theorem C48_unknown (x : List Cell) (opt : String) :
    (opt ≠ "traunmuller" → opt ≠ "wang" →
      callV bark2hzV (kwOpt "mode" (some opt)) x = .error .valueError ∧
      (opt ≠ "zwicker" → callV hz2barkV (kwOpt "mode" (some opt)) x = .error .valueError)) ∧
    (opt ≠ "default" → opt ≠ "fant" →
      callV hz2melV (kwOpt "mode" (some opt)) x = .error .valueError ∧
      callV mel2hzV (kwOpt "mode" (some opt)) x = .error .valueError) ∧
    (opt ≠ "quadratic" → opt ≠ "linear" →
      callV hz2camsV (kwOpt "degree" (some opt)) x = .error .valueError ∧
      callV cams2hzV (kwOpt "degree" (some opt)) x = .error .valueError ∧
      callV erbV (kwOpt "degree" (some opt)) x = .error .valueError) := by
  refine ⟨fun h1 h2 => ⟨?_, fun h3 => ?_⟩, fun h1 h2 => ⟨?_, ?_⟩, fun h1 h2 => ⟨?_, ?_, ?_⟩⟩
  · apply callV_unknown bark2hzV (some opt)
    simp [bark2hzV, Variants.register, withVariants, Dict.get?_set, Dict.get?, h1, h2]
  · apply callV_unknown hz2barkV (some opt)
    simp [hz2barkV, Variants.register, withVariants, Dict.get?_set, Dict.get?, h1, h2, h3]
  · apply callV_unknown hz2melV (some opt)
    simp [hz2melV, Variants.register, withVariants, Dict.get?_set, Dict.get?, h2, Ne.symm h1]
  · apply callV_unknown mel2hzV (some opt)
    simp [mel2hzV, Variants.register, withVariants, Dict.get?_set, Dict.get?, h2, Ne.symm h1]
  · apply callV_unknown hz2camsV (some opt)
    simp [hz2camsV, Variants.register, withVariants, Dict.get?_set, Dict.get?, h2, Ne.symm h1]
  · apply callV_unknown cams2hzV (some opt)
    simp [cams2hzV, Variants.register, withVariants, Dict.get?_set, Dict.get?, h2, Ne.symm h1]
  · apply callV_unknown erbV (some opt)
    simp [erbV, Variants.register, withVariants, Dict.get?_set, Dict.get?, h2, Ne.symm h1]

/-- Non-negative frequencies exist, e.g. 0 and 440 Hz. -/
example : ∃ ys : List ℝ, callV hz2melV (kwOpt "mode" none) [some 0, some 440] = .ok (ys.map some) ∧
    callV mel2hzV (kwOpt "mode" none) (ys.map some) = .ok [some 0, some 440] :=
  (C48_mel none (Or.inl rfl) [0, 440]).1 (by simp)

/-! ## C49 -/

/-- A body whose formula is strictly increasing on non-negative numbers. -/
theorem increasing_of {p : Prog Cell} {np : Nat} {sp : List Nat} {g : ℝ → Cell} (φ : ℝ → ℝ)
    (hp : Computes p np 1 sp (pw1 g)) (hg : ∀ f, 0 ≤ f → g f = some (φ f))
    (hφ : ∀ a b, 0 ≤ a → a < b → φ a < φ b) (fs : List ℝ) (h0 : ∀ f ∈ fs, 0 ≤ f)
    (hs : fs.Pairwise (· < ·)) :
    ret p np [fs.map some] = .ok ((fs.map φ).map some) ∧ (fs.map φ).Pairwise (· < ·) := by
  constructor
  · rw [ret_of_computes hp _ rfl]
    simp only [pw1, List.map_map]
    congr 1
    apply List.map_congr_left
    intro f hf
    simp [hg f (h0 f hf)]
  · rw [List.pairwise_map]
    exact List.Pairwise.imp_of_mem (fun ha _ hab => hφ _ _ (h0 _ ha) hab) hs

theorem barkZ_lt (a b : ℝ) (ha : 0 ≤ a) (hab : a < b) : barkZ a < barkZ b := by
  unfold barkZ
  have h1 : Real.arctan (0.00076 * a) < Real.arctan (0.00076 * b) :=
    Real.arctan_strictMono (by linarith)
  have h2 : Real.arctan ((a / 7500) ^ 2) ≤ Real.arctan ((b / 7500) ^ 2) := by
    apply Real.arctan_strictMono.monotone
    have : a / 7500 ≤ b / 7500 := by linarith
    have h0 : 0 ≤ a / 7500 := by positivity
    exact pow_le_pow_left₀ h0 this 2
  linarith

theorem barkT_lt (a b : ℝ) (ha : 0 ≤ a) (hab : a < b) :
    26.81 * a / (1960 + a) - 0.53 < 26.81 * b / (1960 + b) - 0.53 := by
  have h1 : 26.81 * a / (1960 + a) < 26.81 * b / (1960 + b) := by
    rw [div_lt_div_iff₀ (by linarith) (by linarith)]
    nlinarith
  linarith

theorem barkW_lt (a b : ℝ) (hab : a < b) : barkW a < barkW b := by
  unfold barkW
  have : Real.arsinh (a / 600) < Real.arsinh (b / 600) := Real.arsinh_strictMono (by linarith)
  linarith

theorem camsQ_lt (a b : ℝ) (ha : 0 ≤ a) (hab : a < b) :
    11.17 * Real.log ((a + 312) / (a + 14675)) + 43
      < 11.17 * Real.log ((b + 312) / (b + 14675)) + 43 := by
  have h1 : (a + 312) / (a + 14675) < (b + 312) / (b + 14675) := by
    rw [div_lt_div_iff₀ (by linarith) (by linarith)]
    nlinarith
  have h0 : 0 < (a + 312) / (a + 14675) := by positivity
  have := Real.log_lt_log h0 h1
  linarith

/-- C49.  On every strictly increasing list of non-negative frequencies every Hertz-to-scale
function, in every mode, gives a strictly increasing list of (finite) values. -/
theorem C49_increasing (fs : List ℝ) (h0 : ∀ f ∈ fs, 0 ≤ f) (hs : fs.Pairwise (· < ·)) :
    (∀ mode : Option String, mode = none ∨ mode = some "traunmuller" ∨ mode = some "wang" ∨
        mode = some "zwicker" →
      ∃ ys : List ℝ, callV hz2barkV (kwOpt "mode" mode) (fs.map some) = .ok (ys.map some) ∧
        ys.Pairwise (· < ·)) ∧
    (∀ mode : Option String, mode = none ∨ mode = some "default" ∨ mode = some "fant" →
      ∃ ys : List ℝ, callV hz2melV (kwOpt "mode" mode) (fs.map some) = .ok (ys.map some) ∧
        ys.Pairwise (· < ·)) ∧
    (∀ degree : Option String, degree = none ∨ degree = some "quadratic" ∨ degree = some "linear" →
      ∃ ys : List ℝ, callV hz2camsV (kwOpt "degree" degree) (fs.map some) = .ok (ys.map some) ∧
        ys.Pairwise (· < ·)) := by
  have logmono : ∀ (c a b : ℝ), 1 < c → 0 < a → a < b → Real.logb c a < Real.logb c b :=
    fun c a b hc ha hab => Real.logb_lt_logb hc ha hab
  have e1 := increasing_of (fun f => 26.81 * f / (1960 + f) - 0.53) C34_hz2bark_traunmuller
    (fun f hf => by rw [barkT, if_neg (by intro h; linarith)]) barkT_lt fs h0 hs
  have e2 := increasing_of barkW C34_hz2bark_wang (fun _ _ => rfl)
    (fun a b _ h => barkW_lt a b h) fs h0 hs
  have e3 := increasing_of barkZ C34_hz2bark_zwicker (fun _ _ => rfl) barkZ_lt fs h0 hs
  have e4 := increasing_of (fun f => 2595 * Real.logb 10 (1 + f / 700)) C34_hz2mel
    (fun f hf => by rw [mel, if_neg (by intro h; linarith)])
    (fun a b ha hab => by
      have := logmono 10 (1 + a / 700) (1 + b / 700) (by norm_num) (by positivity) (by linarith)
      linarith) fs h0 hs
  have e5 := increasing_of (fun f => 1000 * Real.logb 2 (1 + f / 1000)) C34_hz2mel_fant
    (fun f hf => by rw [melFant, if_neg (by intro h; linarith)])
    (fun a b ha hab => by
      have := logmono 2 (1 + a / 1000) (1 + b / 1000) (by norm_num) (by positivity) (by linarith)
      linarith) fs h0 hs
  have e6 := increasing_of (fun f => 11.17 * Real.log ((f + 312) / (f + 14675)) + 43) C34_hz2cams
    (fun f hf => by rw [camsQ, if_pos (by positivity)]) camsQ_lt fs h0 hs
  have e7 := increasing_of (fun f => 21.4 * Real.logb 10 (1 + 0.00437 * f)) C34_hz2cams_linear
    (fun f hf => by rw [camsL, if_pos (by positivity)])
    (fun a b ha hab => by
      have := logmono 10 (1 + 0.00437 * a) (1 + 0.00437 * b) (by norm_num) (by positivity)
        (by linarith)
      linarith) fs h0 hs
  refine ⟨?_, ?_, ?_⟩
  · rintro mode (rfl | rfl | rfl | rfl)
    · exact ⟨_, (callV_eq hz2barkV none (hz2barkTraunmuller, 1) rfl _).trans e1.1, e1.2⟩
    · exact ⟨_, (callV_eq hz2barkV (some "traunmuller") (hz2barkTraunmuller, 1) rfl _).trans e1.1,
        e1.2⟩
    · exact ⟨_, (callV_eq hz2barkV (some "wang") (hz2barkWang, 0) rfl _).trans e2.1, e2.2⟩
    · exact ⟨_, (callV_eq hz2barkV (some "zwicker") (hz2barkZwicker, 1) rfl _).trans e3.1, e3.2⟩
  · rintro mode (rfl | rfl | rfl)
    · exact ⟨_, (callV_eq hz2melV none (hz2mel, 0) rfl _).trans e4.1, e4.2⟩
    · exact ⟨_, (callV_eq hz2melV (some "default") (hz2mel, 0) rfl _).trans e4.1, e4.2⟩
    · exact ⟨_, (callV_eq hz2melV (some "fant") (hz2melFant, 0) rfl _).trans e5.1, e5.2⟩
  · rintro mode (rfl | rfl | rfl)
    · exact ⟨_, (callV_eq hz2camsV none (hz2cams, 1) rfl _).trans e6.1, e6.2⟩
    · exact ⟨_, (callV_eq hz2camsV (some "quadratic") (hz2cams, 1) rfl _).trans e6.1, e6.2⟩
    · exact ⟨_, (callV_eq hz2camsV (some "linear") (hz2camsLinear, 0) rfl _).trans e7.1, e7.2⟩

/-- C49.  The equivalent rectangular bandwidth, both degrees: positive (at least 24.7 Hz) and
strictly increasing for non-negative frequencies. -/
theorem C49_erb (fs : List ℝ) (h0 : ∀ f ∈ fs, 0 ≤ f) (hs : fs.Pairwise (· < ·))
    (degree : Option String)
    (hd : degree = none ∨ degree = some "quadratic" ∨ degree = some "linear") :
    ∃ ys : List ℝ, callV erbV (kwOpt "degree" degree) (fs.map some) = .ok (ys.map some) ∧
      ys.Pairwise (· < ·) ∧ ∀ y ∈ ys, 24.7 ≤ y := by
  have e1 := increasing_of erbQ C34_erb (fun _ _ => rfl)
    (fun a b ha hab => by unfold erbQ; nlinarith) fs h0 hs
  have e2 := increasing_of erbL C34_erb_linear (fun _ _ => rfl)
    (fun a b ha hab => by unfold erbL; linarith) fs h0 hs
  have p1 : ∀ y ∈ fs.map erbQ, 24.7 ≤ y := by
    intro y hy
    obtain ⟨f, hf, rfl⟩ := List.mem_map.1 hy
    have := h0 f hf
    unfold erbQ
    nlinarith [mul_nonneg this this]
  have p2 : ∀ y ∈ fs.map erbL, 24.7 ≤ y := by
    intro y hy
    obtain ⟨f, hf, rfl⟩ := List.mem_map.1 hy
    have := h0 f hf
    unfold erbL
    linarith
  rcases hd with rfl | rfl | rfl
  · exact ⟨_, (callV_eq erbV none (erb, 1) rfl _).trans e1.1, e1.2, p1⟩
  · exact ⟨_, (callV_eq erbV (some "quadratic") (erb, 1) rfl _).trans e1.1, e1.2, p1⟩
  · exact ⟨_, (callV_eq erbV (some "linear") (erbLinear, 0) rfl _).trans e2.1, e2.2, p2⟩

/-- Zwicker's scale at 0, 100 and 1000 Hz. -/
example : ∃ ys : List ℝ,
    callV hz2barkV (kwOpt "mode" (some "zwicker")) [some 0, some 100, some 1000]
      = .ok (ys.map some) ∧ ys.Pairwise (· < ·) :=
  (C49_increasing [0, 100, 1000] (by simp) (by norm_num)).1 (some "zwicker") (by simp)

end Verif.Psycho
