import Verif.Dsp.NormalizeModel
import Verif.Out.Props

/-!
# Normalisation (C37)
-/

set_option autoImplicit false
set_option linter.unusedSectionVars false
set_option linter.unusedSimpArgs false

namespace Verif.Dsp

open Verif.Out Verif.Utils

/-! ## Extremes of a list -/

theorem le_foldl_max (l : List ℝ) (a : ℝ) : a ≤ l.foldl max a ∧ ∀ v ∈ l, v ≤ l.foldl max a := by
  induction l generalizing a with
  | nil => simp
  | cons b l ih =>
    obtain ⟨h1, h2⟩ := ih (max a b)
    refine ⟨le_trans (le_max_left _ _) h1, ?_⟩
    intro v hv
    rcases List.mem_cons.1 hv with rfl | hv
    · exact le_trans (le_max_right _ _) h1
    · exact h2 v hv

theorem foldl_max_mem (l : List ℝ) (a : ℝ) : l.foldl max a = a ∨ l.foldl max a ∈ l := by
  induction l generalizing a with
  | nil => simp
  | cons b l ih =>
    simp only [List.foldl_cons, List.mem_cons]
    rcases ih (max a b) with h | h
    · rw [h]
      rcases max_choice a b with h' | h' <;> simp [h']
    · exact Or.inr (Or.inr h)

theorem foldl_min_le (l : List ℝ) (a : ℝ) : l.foldl min a ≤ a ∧ ∀ v ∈ l, l.foldl min a ≤ v := by
  induction l generalizing a with
  | nil => simp
  | cons b l ih =>
    obtain ⟨h1, h2⟩ := ih (min a b)
    refine ⟨le_trans h1 (min_le_left _ _), ?_⟩
    intro v hv
    rcases List.mem_cons.1 hv with rfl | hv
    · exact le_trans h1 (min_le_right _ _)
    · exact h2 v hv

theorem foldl_min_mem (l : List ℝ) (a : ℝ) : l.foldl min a = a ∨ l.foldl min a ∈ l := by
  induction l generalizing a with
  | nil => simp
  | cons b l ih =>
    simp only [List.foldl_cons, List.mem_cons]
    rcases ih (min a b) with h | h
    · rw [h]
      rcases min_choice a b with h' | h' <;> simp [h']
    · exact Or.inr (Or.inr h)

theorem maxOf_eq_iff (l : List ℝ) (hl : l ≠ []) (m : ℝ) :
    maxOf l = m ↔ m ∈ l ∧ ∀ v ∈ l, v ≤ m := by
  cases l with
  | nil => exact absurd rfl hl
  | cons a l =>
    have hmem : maxOf (a :: l) ∈ a :: l := by
      rcases foldl_max_mem l a with h | h
      · simp [maxOf, h]
      · exact List.mem_cons_of_mem _ h
    have hle : ∀ v ∈ a :: l, v ≤ maxOf (a :: l) := by
      intro v hv
      rcases List.mem_cons.1 hv with rfl | hv
      · exact (le_foldl_max l v).1
      · exact (le_foldl_max l a).2 v hv
    constructor
    · rintro rfl
      exact ⟨hmem, hle⟩
    · rintro ⟨h1, h2⟩
      exact le_antisymm (h2 _ hmem) (hle _ h1)

theorem minOf_eq_iff (l : List ℝ) (hl : l ≠ []) (m : ℝ) :
    minOf l = m ↔ m ∈ l ∧ ∀ v ∈ l, m ≤ v := by
  cases l with
  | nil => exact absurd rfl hl
  | cons a l =>
    have hmem : minOf (a :: l) ∈ a :: l := by
      rcases foldl_min_mem l a with h | h
      · simp [minOf, h]
      · exact List.mem_cons_of_mem _ h
    have hle : ∀ v ∈ a :: l, minOf (a :: l) ≤ v := by
      intro v hv
      rcases List.mem_cons.1 hv with rfl | hv
      · exact (foldl_min_le l v).1
      · exact (foldl_min_le l a).2 v hv
    constructor
    · rintro rfl
      exact ⟨hmem, hle⟩
    · rintro ⟨h1, h2⟩
      exact le_antisymm (hle _ h1) (h2 _ hmem)

/-! ## Values of the three bodies on finite arrays -/

theorem mode_peak (x : List Cell) (mode : Option String) (hm : mode = none ∨ mode = some "peak") :
    normalize mode x = ret normalizePeak 0 [x] := by
  rcases hm with rfl | rfl
  · exact callV_eq normalizeV none (normalizePeak, 0) rfl x
  · exact callV_eq normalizeV (some "peak") (normalizePeak, 0) rfl x

theorem mode_rms (x : List Cell) : normalize (some "rms") x = ret normalizeRms 0 [x] :=
  callV_eq normalizeV (some "rms") (normalizeRms, 0) rfl x

theorem mode_range (x : List Cell) : normalize (some "range") x = ret normalizeRange 0 [x] :=
  callV_eq normalizeV (some "range") (normalizeRange, 0) rfl x

theorem peak_eq (l : List ℝ) (hl : l ≠ []) :
    ret normalizePeak 0 [l.map some] =
      .ok (l.map fun v => div (some v) (some (maxOf (l.map abs)))) := by
  rw [(computes_ret (p := normalizePeak) (nt := 0) (n := 1) (sh := [0])
    (by simp [normalizePeak, ok, red]) (by simp [normalizePeak, arity, red])
    (by simp [normalizePeak, red]) (by simp [normalizePeak, red])).2 _ rfl]
  have h1 : (l.map some).map (Option.map abs) = (l.map abs).map some := by
    simp [List.map_map, Function.comp_def]
  have h2 : ((l.map abs).map some).isEmpty = false := by simpa using hl
  simp only [semOut, sem, normalizePeak, red, init, List.map_cons, List.map_nil,
    List.getD_cons_zero, npMax, h1, h2, Bool.false_eq_true, if_false, finite_map_some,
    Option.map_some, if_true]
  simp [List.map_map, Function.comp_def]

theorem rms_eq (l : List ℝ) (hl : l ≠ []) :
    ret normalizeRms 0 [l.map some] =
      .ok (l.map fun v => div (some (v - meanOf l))
        (some (if Real.sqrt (varOf l) = 0 then 1 else Real.sqrt (varOf l)))) := by
  rw [(computes_ret (p := normalizeRms) (nt := 0) (n := 1) (sh := [])
    (by simp [normalizeRms, ok, red]) (by simp [normalizeRms, arity, red])
    (by simp [normalizeRms, red]) (by simp [normalizeRms, red])).2 _ rfl]
  have hl' : l.isEmpty = false := by simpa using hl
  simp only [semOut, sem, normalizeRms, red, init, List.map_cons, List.map_nil,
    List.getD_cons_zero, npMean, npStdOr1, Bool.false_eq_true, if_false, finite_map_some,
    Option.bind_some, if_true, hl', List.map_map, Function.comp_def, op2, reduceCtorEq]
  congr 1
  apply List.map_congr_left
  intro v _
  by_cases h : Real.sqrt (varOf l) = 0 <;> simp [h]

theorem range_eq (l : List ℝ) (hl : l ≠ []) :
    ret normalizeRange 0 [l.map some] =
      .ok (l.map fun v => div (some (v - minOf l)) (some (maxOf (l.map (· - minOf l))))) := by
  rw [(computes_ret (p := normalizeRange) (nt := 0) (n := 1) (sh := [0])
    (by simp [normalizeRange, ok, red]) (by simp [normalizeRange, arity, red])
    (by simp [normalizeRange, red]) (by simp [normalizeRange, red])).2 _ rfl]
  have h1 : (l.map some).isEmpty = false := by simpa using hl
  have h2 : ((l.map (· - minOf l)).map some).isEmpty = false := by simpa using hl
  have h3 : ((l.map some).map fun v => op2 (fun a b => a - b) v (some (minOf l))) =
      (l.map (· - minOf l)).map some := by
    simp [List.map_map, Function.comp_def, op2]
  simp only [semOut, sem, normalizeRange, red, init, List.map_cons, List.map_nil,
    List.getD_cons_zero, npMin, npMax, h1, h2, h3, Bool.false_eq_true, if_false, finite_map_some,
    Option.map_some, if_true, reduceCtorEq]
  simp [List.map_map, Function.comp_def]

/-! ## C37: peak -/

theorem maxAbs_pos (l : List ℝ) (h : ∃ v ∈ l, v ≠ 0) : 0 < maxOf (l.map abs) := by
  obtain ⟨v, hv, h0⟩ := h
  have hne : l.map abs ≠ [] := by
    intro h'
    simp at h'
    simp [h'] at hv
  have := (maxOf_eq_iff (l.map abs) hne _).1 rfl
  exact lt_of_lt_of_le (abs_pos.2 h0) (this.2 _ (List.mem_map_of_mem hv))

/-- C37, mode `peak` (the default), for every signal that is not zero everywhere: the result is the
signal times a positive factor, its absolute values are at most 1 and one of them is 1, and
normalising again changes nothing. -/
theorem C37_peak (l : List ℝ) (h : ∃ v ∈ l, v ≠ 0) (mode : Option String)
    (hm : mode = none ∨ mode = some "peak") :
    ∃ c : ℝ, 0 < c ∧ normalize mode (l.map some) = .ok ((l.map (c * ·)).map some) ∧
      (∀ y ∈ l.map (c * ·), |y| ≤ 1) ∧ (∃ y ∈ l.map (c * ·), |y| = 1) ∧
      normalize mode ((l.map (c * ·)).map some) = .ok ((l.map (c * ·)).map some) := by
  have hpos := maxAbs_pos l h
  have hl : l ≠ [] := by rintro rfl; simp at h
  obtain ⟨hmem, hle⟩ := (maxOf_eq_iff (l.map abs) (by simpa using hl) _).1 rfl
  set m := maxOf (l.map abs) with hmdef
  have hle' : ∀ y ∈ l.map (m⁻¹ * ·), |y| ≤ 1 := by
    intro y hy
    obtain ⟨v, hv, rfl⟩ := List.mem_map.1 hy
    rw [abs_mul, abs_of_pos (inv_pos.2 hpos), inv_mul_le_iff₀ hpos, mul_one]
    exact hle _ (List.mem_map_of_mem hv)
  have hone : ∃ y ∈ l.map (m⁻¹ * ·), |y| = 1 := by
    obtain ⟨v, hv, hvm⟩ := List.mem_map.1 hmem
    refine ⟨m⁻¹ * v, List.mem_map_of_mem hv, ?_⟩
    rw [abs_mul, abs_of_pos (inv_pos.2 hpos), hvm, inv_mul_cancel₀ (ne_of_gt hpos)]
  refine ⟨m⁻¹, inv_pos.2 hpos, ?_, hle', hone, ?_⟩
  · rw [mode_peak _ _ hm, peak_eq l hl, List.map_map]
    congr 1
    apply List.map_congr_left
    intro v _
    simp only [← hmdef, div, ne_of_gt hpos, if_false, Function.comp_apply, Option.some.injEq]
    rw [div_eq_inv_mul]
  · have hl2 : l.map (m⁻¹ * ·) ≠ [] := by simpa using hl
    rw [mode_peak _ _ hm, peak_eq _ hl2]
    have : maxOf ((l.map (m⁻¹ * ·)).map abs) = 1 := by
      rw [maxOf_eq_iff _ (by simpa using hl)]
      constructor
      · obtain ⟨y, hy, h1⟩ := hone
        exact h1 ▸ List.mem_map_of_mem hy
      · intro v hv
        obtain ⟨y, hy, rfl⟩ := List.mem_map.1 hv
        exact hle' y hy
    rw [this]
    congr 1
    apply List.map_congr_left
    intro v _
    simp [div]

/-! ## C37: rms -/

theorem varOf_nonneg (l : List ℝ) : 0 ≤ varOf l := by
  unfold varOf meanOf
  apply div_nonneg
  · apply List.sum_nonneg
    intro v hv
    obtain ⟨w, _, rfl⟩ := List.mem_map.1 hv
    positivity
  · positivity

theorem sum_sq_zero (l : List ℝ) (c : ℝ) (h : (l.map fun v => (v - c) ^ 2).sum = 0) :
    ∀ v ∈ l, v = c := by
  induction l with
  | nil => simp
  | cons a l ih =>
    have h2 : 0 ≤ (l.map fun v => (v - c) ^ 2).sum := by
      apply List.sum_nonneg
      intro v hv
      obtain ⟨w, _, rfl⟩ := List.mem_map.1 hv
      positivity
    simp only [List.map_cons, List.sum_cons] at h
    have h1 : 0 ≤ (a - c) ^ 2 := by positivity
    have ha : (a - c) ^ 2 = 0 := by linarith
    have hs : (l.map fun v => (v - c) ^ 2).sum = 0 := by linarith
    intro v hv
    rcases List.mem_cons.1 hv with rfl | hv
    · have := pow_eq_zero_iff (two_ne_zero) |>.1 ha
      linarith
    · exact ih hs v hv

theorem varOf_zero_iff (l : List ℝ) (hl : l ≠ []) : varOf l = 0 ↔ ∃ c, ∀ v ∈ l, v = c := by
  have hn : (l.length : ℝ) ≠ 0 := by simpa using hl
  constructor
  · intro h
    refine ⟨meanOf l, sum_sq_zero l _ ?_⟩
    unfold varOf at h
    rw [meanOf, List.length_map, div_eq_zero_iff] at h
    rcases h with h | h
    · exact h
    · exact absurd h hn
  · rintro ⟨c, hc⟩
    have hl' : l = List.replicate l.length c := List.eq_replicate_iff.2 ⟨rfl, hc⟩
    have hm : meanOf l = c := by
      rw [hl', meanOf]
      simp
      field_simp
    unfold varOf
    rw [hm]
    have : (l.map fun v => (v - c) ^ 2) = l.map fun _ => (0 : ℝ) :=
      List.map_congr_left fun v hv => by rw [hc v hv]; ring
    rw [this]
    simp [meanOf]

theorem sum_map_mul (l : List ℝ) (c : ℝ) : (l.map (c * ·)).sum = c * l.sum := by
  induction l with
  | nil => simp
  | cons a l ih => simp only [List.map_cons, List.sum_cons, ih]; ring

theorem sum_sub_mean (l : List ℝ) (hl : l ≠ []) : (l.map (· - meanOf l)).sum = 0 := by
  have h := meanOf_sub l (meanOf l) hl
  have hn : (l.length : ℝ) ≠ 0 := by simpa using hl
  rw [meanOf, List.length_map, sub_self, div_eq_zero_iff] at h
  rcases h with h | h
  · exact h
  · exact absurd h hn

/-- C37, mode `rms`, for every signal with at least two different samples: the result is an
increasing affine image of the signal, has mean zero (the samples sum to 0) and mean square one
(the squares sum to the number of samples), and normalising again changes nothing. -/
theorem C37_rms (l : List ℝ) (h : ∃ v ∈ l, ∃ w ∈ l, v ≠ w) :
    ∃ c m : ℝ, 0 < c ∧
      normalize (some "rms") (l.map some) = .ok ((l.map fun v => c * (v - m)).map some) ∧
      (l.map fun v => c * (v - m)).sum = 0 ∧
      ((l.map fun v => c * (v - m)).map (· ^ 2)).sum = (l.length : ℝ) ∧
      normalize (some "rms") ((l.map fun v => c * (v - m)).map some)
        = .ok ((l.map fun v => c * (v - m)).map some) := by
  have hl : l ≠ [] := by rintro rfl; simp at h
  have hn : (l.length : ℝ) ≠ 0 := by simpa using hl
  have hv : varOf l ≠ 0 := by
    rw [Ne, varOf_zero_iff l hl]
    rintro ⟨c, hc⟩
    obtain ⟨v, hv, w, hw, hne⟩ := h
    exact hne ((hc v hv).trans (hc w hw).symm)
  have hvpos : 0 < varOf l := lt_of_le_of_ne (varOf_nonneg l) (Ne.symm hv)
  have hs : 0 < Real.sqrt (varOf l) := Real.sqrt_pos.2 hvpos
  set s := Real.sqrt (varOf l) with hsdef
  set m := meanOf l with hmdef
  have hsum : (l.map fun v => s⁻¹ * (v - m)).sum = 0 := by
    have : (l.map fun v => s⁻¹ * (v - m)) = (l.map (· - m)).map (s⁻¹ * ·) := by
      simp [List.map_map, Function.comp_def]
    rw [this, sum_map_mul, hmdef, sum_sub_mean l hl, mul_zero]
  have hsq : ((l.map fun v => s⁻¹ * (v - m)).map (· ^ 2)).sum = (l.length : ℝ) := by
    have : ((l.map fun v => s⁻¹ * (v - m)).map (· ^ 2)) =
        (l.map fun v => (v - m) ^ 2).map ((s ^ 2)⁻¹ * ·) := by
      simp only [List.map_map, Function.comp_def]
      apply List.map_congr_left
      intro v _
      rw [mul_pow, inv_pow]
    rw [this, sum_map_mul]
    have h2 : s ^ 2 = varOf l := Real.sq_sqrt (varOf_nonneg l)
    have h3 : varOf l = (l.map fun v => (v - m) ^ 2).sum / l.length := by
      rw [varOf, meanOf, List.length_map]
    rw [h2, h3]
    rw [h3] at hv
    have h4 : (l.map fun v => (v - m) ^ 2).sum ≠ 0 := by
      intro h'
      rw [h'] at hv
      simp at hv
    field_simp
  refine ⟨s⁻¹, m, inv_pos.2 hs, ?_, hsum, hsq, ?_⟩
  · rw [mode_rms, rms_eq l hl, List.map_map]
    congr 1
    apply List.map_congr_left
    intro v _
    simp only [← hsdef, ← hmdef, ne_of_gt hs, if_false, div, Function.comp_apply,
      Option.some.injEq]
    rw [div_eq_inv_mul]
  · generalize hl2 : (l.map fun v => s⁻¹ * (v - m)) = l2 at *
    have hlen : l2.length = l.length := by rw [← hl2]; simp
    have hne2 : l2 ≠ [] := by
      rw [← hl2]
      simpa using hl
    have hm2 : meanOf l2 = 0 := by rw [meanOf, hsum, zero_div]
    have hv2 : varOf l2 = 1 := by
      rw [varOf, hm2]
      simp only [sub_zero]
      rw [meanOf, hsq, List.length_map, hlen, div_self hn]
    rw [mode_rms, rms_eq l2 hne2, hm2, hv2]
    congr 1
    apply List.map_congr_left
    intro v _
    simp [div]

/-! ## C37: range -/

/-- C37, mode `range`, for every signal with at least two different samples: the result is an
increasing affine image of the signal, its smallest value is 0, its largest is 1, and normalising
again changes nothing. -/
theorem C37_range (l : List ℝ) (h : ∃ v ∈ l, ∃ w ∈ l, v ≠ w) :
    ∃ c m : ℝ, 0 < c ∧
      normalize (some "range") (l.map some) = .ok ((l.map fun v => c * (v - m)).map some) ∧
      (∀ y ∈ l.map fun v => c * (v - m), 0 ≤ y ∧ y ≤ 1) ∧
      0 ∈ (l.map fun v => c * (v - m)) ∧ 1 ∈ (l.map fun v => c * (v - m)) ∧
      normalize (some "range") ((l.map fun v => c * (v - m)).map some)
        = .ok ((l.map fun v => c * (v - m)).map some) := by
  have hl : l ≠ [] := by rintro rfl; simp at h
  obtain ⟨hmin, hminle⟩ := (minOf_eq_iff l hl _).1 rfl
  have hl1 : l.map (· - minOf l) ≠ [] := by simpa using hl
  obtain ⟨hmax, hmaxle⟩ := (maxOf_eq_iff _ hl1 _).1 rfl
  set m := minOf l with hmdef
  set d := maxOf (l.map (· - m)) with hddef
  have hd : 0 < d := by
    obtain ⟨v, hv, w, hw, hne⟩ := h
    have h1 := hmaxle _ (List.mem_map_of_mem hv)
    have h2 := hmaxle _ (List.mem_map_of_mem hw)
    have h3 := hminle v hv
    have h4 := hminle w hw
    rcases lt_or_gt_of_ne hne with h5 | h5 <;> linarith
  have hb : ∀ y ∈ l.map fun v => d⁻¹ * (v - m), 0 ≤ y ∧ y ≤ 1 := by
    intro y hy
    obtain ⟨v, hv, rfl⟩ := List.mem_map.1 hy
    have h1 := hmaxle _ (List.mem_map_of_mem hv)
    have h2 := hminle v hv
    constructor
    · exact mul_nonneg (inv_nonneg.2 hd.le) (by linarith)
    · rw [inv_mul_le_iff₀ hd, mul_one]
      exact h1
  have h0 : 0 ∈ l.map fun v => d⁻¹ * (v - m) :=
    List.mem_map.2 ⟨m, hmin, by simp⟩
  have h1 : 1 ∈ l.map fun v => d⁻¹ * (v - m) := by
    obtain ⟨v, hv, hvd⟩ := List.mem_map.1 hmax
    exact List.mem_map.2 ⟨v, hv, by rw [hvd, inv_mul_cancel₀ (ne_of_gt hd)]⟩
  refine ⟨d⁻¹, m, inv_pos.2 hd, ?_, hb, h0, h1, ?_⟩
  · rw [mode_range, range_eq l hl, List.map_map]
    congr 1
    apply List.map_congr_left
    intro v _
    simp only [← hmdef, ← hddef, ne_of_gt hd, if_false, div, Function.comp_apply,
      Option.some.injEq]
    rw [div_eq_inv_mul]
  · generalize hl2 : (l.map fun v => d⁻¹ * (v - m)) = l2 at *
    have hne2 : l2 ≠ [] := List.ne_nil_of_mem h0
    have hm2 : minOf l2 = 0 := (minOf_eq_iff l2 hne2 0).2 ⟨h0, fun v hv => (hb v hv).1⟩
    rw [mode_range, range_eq l2 hne2, hm2]
    have hmx : maxOf (l2.map (· - 0)) = 1 := by
      simp only [sub_zero, List.map_id']
      exact (maxOf_eq_iff l2 hne2 1).2 ⟨h1, fun v hv => (hb v hv).2⟩
    rw [hmx]
    congr 1
    apply List.map_congr_left
    intro v _
    simp [div]

/-! ## C37: degenerate signals, other modes -/

/-- C37, degenerate signals.  Zero signals in mode `peak` and constant signals in mode `range` give
no finite value at any sample (0/0); constant signals in mode `rms` give zeros. -/
theorem C37_degenerate (n : Nat) (c : ℝ) :
    normalize (some "peak") (List.replicate (n + 1) (some 0)) = .ok (List.replicate (n + 1) none) ∧
    normalize (some "range") (List.replicate (n + 1) (some c)) = .ok (List.replicate (n + 1) none) ∧
    normalize (some "rms") (List.replicate (n + 1) (some c))
      = .ok (List.replicate (n + 1) (some 0)) := by
  have hr : ∀ c : ℝ, List.replicate (n + 1) (some c) = (List.replicate (n + 1) c).map some := by
    intro c; simp
  have hne : ∀ c : ℝ, List.replicate (n + 1) c ≠ [] := by intro c; simp
  refine ⟨?_, ?_, ?_⟩
  · rw [hr, mode_peak _ _ (Or.inr rfl), peak_eq _ (hne 0)]
    have : maxOf ((List.replicate (n + 1) (0 : ℝ)).map abs) = 0 := by
      rw [List.map_replicate, abs_zero]
      rw [maxOf_eq_iff _ (hne 0)]
      simp
    rw [this]
    simp [div]
  · rw [hr, mode_range, range_eq _ (hne c)]
    have h1 : minOf (List.replicate (n + 1) c) = c := by
      rw [minOf_eq_iff _ (hne c)]
      simp
    rw [h1]
    simp only [List.map_replicate, sub_self]
    have h2 : maxOf (List.replicate (n + 1) (0 : ℝ)) = 0 := by
      rw [maxOf_eq_iff _ (hne 0)]
      simp
    rw [h2]
    simp [div]
  · rw [hr, mode_rms, rms_eq _ (hne c)]
    have hv : varOf (List.replicate (n + 1) c) = 0 :=
      (varOf_zero_iff _ (hne c)).2 ⟨c, fun v hv => List.eq_of_mem_replicate hv⟩
    have hm : meanOf (List.replicate (n + 1) c) = c := by
      have : ((n : ℝ) + 1) ≠ 0 := by positivity
      rw [meanOf]
      simp
      field_simp
    rw [hv, hm]
    simp [div]

/-- C37: an empty signal has no peak and no range (`ValueError`), and an unknown mode is refused
(`ValueError`). -/
theorem C37_refused (x : List Cell) (mode : String) :
    normalize none [] = .error .valueError ∧
    normalize (some "range") [] = .error .valueError ∧
    normalize (some "rms") [] = .ok [] ∧
    (mode ≠ "peak" → mode ≠ "rms" → mode ≠ "range" →
      normalize (some mode) x = .error .valueError) := by
  refine ⟨?_, ?_, ?_, ?_⟩
  · rw [mode_peak _ _ (Or.inl rfl)]
    simp [ret, numpyOut, shapes, run, exec, normalizePeak, red, npMax, bindOf, outRef, baseRef]
  · rw [mode_range]
    simp [ret, numpyOut, shapes, run, exec, normalizeRange, red, npMin, bindOf, outRef, baseRef]
  · rw [mode_rms]
    simp [ret, numpyOut, shapes, run, exec, normalizeRms, red, npMean, npStdOr1, bindOf, outRef,
      baseRef, Mem.write]
  · intro h1 h2 h3
    apply callV_unknown normalizeV (some mode)
    simp [normalizeV, Variants.register, withVariants, Dict.get?_set, Dict.get?, Ne.symm h1, h2, h3]

/-- The peak of `[1, -4]` is at the second sample. -/
example : ∃ c : ℝ, 0 < c ∧ normalize none [some 1, some (-4)] = .ok [some (c * 1), some (c * -4)] ∧
    |c * -4| ≤ 1 := by
  obtain ⟨c, h1, h2, h3, _⟩ := C37_peak [1, -4] ⟨1, by simp, by norm_num⟩ none (Or.inl rfl)
  exact ⟨c, h1, h2, h3 _ (by simp)⟩

end Verif.Dsp
