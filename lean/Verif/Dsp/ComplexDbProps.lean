import Mathlib.Analysis.SpecialFunctions.Log.Base
import Mathlib.Analysis.SpecialFunctions.Pow.Real
import Mathlib.Tactic.Linarith
import Verif.Dsp.ComplexDbModel

/-!
# C170: decibels of complex values and panels of resynthesis
-/

set_option autoImplicit false
set_option linter.unusedSectionVars false
set_option linter.unusedSimpArgs false

namespace Verif.Dsp

theorem a2db_pos (a : ℝ) (h : 0 < a) : a2dbFloorless a = some (20 * Real.logb 10 a) := by
  simp [a2dbFloorless, npLog10, h]

/-- C170.  Without a floor: the level of the modulus, minus infinity exactly for zero; levels of products add. -/
theorem C170_level (fd : Bool) :
    (∀ c : ℂ, complex2db c none fd = none ↔ c = 0) ∧
    (∀ c : ℂ, c ≠ 0 → complex2db c none fd = some (20 * Real.logb 10 ‖c‖)) ∧
    ∀ (c e : ℂ) (x y : ℝ), complex2db c none fd = some x → complex2db e none fd = some y →
      complex2db (c * e) none fd = some (x + y) := by
  have h1 : ∀ c : ℂ, c ≠ 0 → complex2db c none fd = some (20 * Real.logb 10 ‖c‖) := fun c hc =>
    a2db_pos _ (norm_pos_iff.mpr hc)
  have h2 : complex2db 0 none fd = none := by simp [complex2db, a2db, a2dbFloorless, npLog10]
  refine ⟨fun c => ⟨fun h => ?_, fun h => by rw [h, h2]⟩, h1, ?_⟩
  · by_contra hc
    rw [h1 c hc] at h
    cases h
  · intro c e x y hx hy
    have hc : c ≠ 0 := fun h => by rw [h, h2] at hx; cases hx
    have he : e ≠ 0 := fun h => by rw [h, h2] at hy; cases hy
    rw [h1 c hc, Option.some.injEq] at hx
    rw [h1 e he, Option.some.injEq] at hy
    rw [h1 _ (mul_ne_zero hc he), norm_mul,
      Real.logb_mul (norm_pos_iff.mpr hc).ne' (norm_pos_iff.mpr he).ne', ← hx, ← hy]
    ring_nf

/-- C170.  Phases do not matter: values of the same modulus have the same level, with or without a floor. -/
theorem C170_phase (c u : ℂ) (hu : ‖u‖ = 1) (floor : Option ℝ) (fd : Bool) :
    complex2db (u * c) floor fd = complex2db c floor fd ∧
    complex2db ((starRingEnd ℂ) c) floor fd = complex2db c floor fd := by
  constructor
  · rw [complex2db, norm_mul, hu, one_mul, complex2db]
  · rw [complex2db, RCLike.norm_conj, complex2db]

example : ‖Complex.I‖ = 1 := Complex.norm_I

/-- C170.  With a floor in decibels there is always a number, the larger one of the level and the floor, and conversion
back gives the modulus, raised to the floor. -/
theorem C170_floor (c : ℂ) (d : ℝ) :
    ∃ v : ℝ, complex2db c (some d) true = some v ∧ d ≤ v ∧
      ((10 : ℝ) ^ (d / 20) ≤ ‖c‖ → v = 20 * Real.logb 10 ‖c‖) ∧ (‖c‖ ≤ (10 : ℝ) ^ (d / 20) → v = d) ∧
      (10 : ℝ) ^ (v / 20) = max ‖c‖ ((10 : ℝ) ^ (d / 20)) := by
  have hp : (0 : ℝ) < (10 : ℝ) ^ (d / 20) := Real.rpow_pos_of_pos (by norm_num) _
  have hm : 0 < max ‖c‖ ((10 : ℝ) ^ (d / 20)) := lt_max_of_lt_right hp
  have hd : 20 * Real.logb 10 ((10 : ℝ) ^ (d / 20)) = d := by
    rw [Real.logb_rpow (by norm_num) (by norm_num)]
    ring
  refine ⟨20 * Real.logb 10 (max ‖c‖ ((10 : ℝ) ^ (d / 20))), ?_, ?_, ?_, ?_, ?_⟩
  · simp only [complex2db, a2db, a2dbFloored, if_true, db2a]
    exact a2db_pos _ hm
  · have := Real.logb_le_logb_of_le (b := 10) (by norm_num) hp (le_max_right ‖c‖ ((10 : ℝ) ^ (d / 20)))
    linarith
  · intro h
    rw [max_eq_left h]
  · intro h
    rw [max_eq_right h, hd]
  · rw [mul_div_cancel_left₀ _ (by norm_num : (20 : ℝ) ≠ 0), Real.rpow_logb (by norm_num) (by norm_num) hm]

/-- C170.  A larger modulus never has a smaller level. -/
theorem C170_order (c e : ℂ) (h : ‖c‖ ≤ ‖e‖) (d v w : ℝ) (hv : complex2db c (some d) true = some v)
    (hw : complex2db e (some d) true = some w) : v ≤ w := by
  obtain ⟨v', h1, -, -, -, h2⟩ := C170_floor c d
  obtain ⟨w', h3, -, -, -, h4⟩ := C170_floor e d
  rw [h1] at hv
  rw [h3] at hw
  cases hv
  cases hw
  have : (10 : ℝ) ^ (v / 20) ≤ (10 : ℝ) ^ (w / 20) := by rw [h2, h4]; exact max_le_max h le_rfl
  have := (Real.rpow_le_rpow_left_iff (by norm_num : (1 : ℝ) < 10)).mp this
  linarith

/-- C170.  A floor that is a positive amplitude gives a number; zero or a negative floor does not prevent minus
infinity for zero. -/
theorem C170_linear (f : ℝ) :
    (0 < f → ∀ c : ℂ, complex2db c (some f) false = some (20 * Real.logb 10 (max ‖c‖ f))) ∧
    (f ≤ 0 → complex2db 0 (some f) false = none) := by
  constructor
  · intro hf c
    simp only [complex2db, a2db, a2dbFloored]
    exact a2db_pos _ (lt_max_of_lt_right hf)
  · intro hf
    simp [complex2db, a2db, a2dbFloored, a2dbFloorless, npLog10, hf]

section Panels

variable {V : Type} (num : ℝ → V) (stft : List ℝ → List (String × V) → Except PyErr (List ℝ × List (List ℂ)))

/-- C170.  With `db_floor`, each panel has the matrix of the short-time Fourier transform in decibels, entry by entry, all
numbers and none below the floor, between the first and the last frequency. -/
theorem C170_panel (kwargs : List (String × V)) (hk : ∀ k ∈ kwargs, k.1 ≠ "fs") (fs d : ℝ) (x : List ℝ) (lo hi : ℝ)
    (mid : List ℝ) (m : List (List ℂ))
    (h : stft x (("fs", num fs) :: kwargs) = .ok (lo :: (mid ++ [hi]), m)) :
    ∃ M : List (List ℝ), panel (tfOf num stft kwargs) (some d) fs x = .ok (.db (lo, hi) (M.map (List.map some))) ∧
      List.Forall₂ (List.Forall₂ fun c v => d ≤ v ∧ (10 : ℝ) ^ (v / 20) = max ‖c‖ ((10 : ℝ) ^ (d / 20))) m M := by
  have hany : (([("fs", num fs)] : List (String × V)).any fun k => kwargs.any fun l => k.1 == l.1) = false := by
    rw [Bool.eq_false_iff]
    intro hc
    simp only [List.any_cons, List.any_nil, Bool.or_false, List.any_eq_true, beq_iff_eq] at hc
    obtain ⟨k, hk1, hk2⟩ := hc
    exact hk k hk1 hk2.symm
  have ht : tfOf num stft kwargs x fs = .ok ((lo, hi), m) := by
    unfold tfOf stft4resynthesis
    rw [hany]
    simp only [Bool.false_eq_true, if_false, List.cons_append, List.nil_append, h, List.head?_cons]
    have : (lo :: (mid ++ [hi])).getLast? = some hi := by
      rw [← List.cons_append]; exact List.getLast?_concat
    rw [this]
  choose F hF using fun c => C170_floor c d
  refine ⟨m.map (List.map F), ?_, ?_⟩
  · unfold panel
    rw [ht]
    simp only [List.map_map]
    congr 2
    refine List.map_congr_left fun r _ => ?_
    simp only [Function.comp, List.map_map]
    exact List.map_congr_left fun c _ => (hF c).1
  · rw [List.forall₂_map_right_iff]
    refine List.forall₂_same.mpr fun r _ => ?_
    rw [List.forall₂_map_right_iff]
    exact List.forall₂_same.mpr fun c _ => ⟨(hF c).2.1, (hF c).2.2.2.2⟩

/-- A transform with three frequencies. -/
example : ∃ stft : List ℝ → List (String × ℝ) → Except PyErr (List ℝ × List (List ℂ)),
    stft [1, 2] (("fs", id 8) :: [("nperseg", 4)]) = .ok (0 :: ([2] ++ [4]), [[1, 0], [0, 2], [0, 0]]) :=
  ⟨fun _ _ => .ok ([0, 2, 4], [[1, 0], [0, 2], [0, 0]]), rfl⟩

/-- C170.  Without `db_floor` the complex matrix is drawn. -/
theorem C170_raw (tf : List ℝ → ℝ → Except PyErr ((ℝ × ℝ) × List (List ℂ))) (fs : ℝ) (x : List ℝ) (flim : ℝ × ℝ)
    (m : List (List ℂ)) (h : tf x fs = .ok (flim, m)) : panel tf none fs x = .ok (.raw flim m) := by
  unfold panel
  rw [h]

/-- C170.  A time-frequency function for which `fs` was chosen before cannot be used: every panel is a `TypeError`. -/
theorem C170_twice (kwargs : List (String × V)) (v : V) (hk : ("fs", v) ∈ kwargs) (dbFloor : Option ℝ) (fs : ℝ)
    (x : List ℝ) : panel (tfOf num stft kwargs) dbFloor fs x = .error .typeError := by
  have hany : (([("fs", num fs)] : List (String × V)).any fun k => kwargs.any fun l => k.1 == l.1) = true := by
    simp only [List.any_cons, List.any_nil, Bool.or_false, List.any_eq_true, beq_iff_eq]
    exact ⟨_, hk, rfl⟩
  unfold panel tfOf stft4resynthesis
  rw [hany]
  rfl

/-- C170.  Exceptions of the transform are passed on. -/
theorem C170_error (kwargs : List (String × V)) (hk : ∀ k ∈ kwargs, k.1 ≠ "fs") (dbFloor : Option ℝ) (fs : ℝ)
    (x : List ℝ) (e : PyErr) (h : stft x (("fs", num fs) :: kwargs) = .error e) :
    panel (tfOf num stft kwargs) dbFloor fs x = .error e := by
  have hany : (([("fs", num fs)] : List (String × V)).any fun k => kwargs.any fun l => k.1 == l.1) = false := by
    rw [Bool.eq_false_iff]
    intro hc
    simp only [List.any_cons, List.any_nil, Bool.or_false, List.any_eq_true, beq_iff_eq] at hc
    obtain ⟨k, hk1, hk2⟩ := hc
    exact hk k hk1 hk2.symm
  unfold panel tfOf stft4resynthesis
  rw [hany]
  simp [h]

end Panels

end Verif.Dsp
