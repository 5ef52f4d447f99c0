import Verif.Out.Props
import Verif.Dsp.DbModel

/-!
# Decibel conversions (C38)
-/

set_option autoImplicit false
set_option linter.unusedSectionVars false
set_option linter.unusedSimpArgs false

namespace Verif.Dsp

open Verif.Out

/-- `a2db(a, floor=floor, floor_db=floor_db)`, `sample/utils/dsp.py:76-97`, which body is run.  The
floor is an array of the size of `a` (a scalar floor is the constant array). -/
noncomputable def a2dbCall (a : List Cell) (floor : Option (List Cell)) (floorDb : Bool) :
    Except PyErr (List Cell) :=
  match floor with
  | none => ret Out.a2dbFloorless 0 [a]
  | some f => if floorDb then ret Out.a2dbFloorDb 1 [a, f] else ret Out.a2dbFloored 0 [a, f]

/-- `db2a(d)`. -/
noncomputable def db2aCall (d : List Cell) : Except PyErr (List Cell) := ret Out.db2a 0 [d]

theorem db2aCall_eq (ds : List ℝ) :
    db2aCall (ds.map some) = .ok ((ds.map fun d => (10 : ℝ) ^ (d / 20)).map some) := by
  rw [db2aCall, ret_of_computes C34_db2a _ rfl]
  simp [pw1, List.map_map, Function.comp_def]

theorem a2dbCall_eq (as : List ℝ) (h : ∀ a ∈ as, 0 < a) (floorDb : Bool) :
    a2dbCall (as.map some) none floorDb = .ok ((as.map fun a => 20 * Real.logb 10 a).map some) := by
  rw [a2dbCall, ret_of_computes C34_a2db _ rfl]
  simp only [pw1, List.map_map]
  congr 1
  apply List.map_congr_left
  intro a ha
  simp [a2dbFloorless, npLog10, h a ha]

theorem rpow_logb_20 (a : ℝ) (h : 0 < a) : (10 : ℝ) ^ (20 * Real.logb 10 a / 20) = a := by
  rw [mul_div_cancel_left₀ _ (by norm_num : (20 : ℝ) ≠ 0),
    Real.rpow_logb (by norm_num) (by norm_num) h]

/-- C38: `a2db(db2a(d)) = d` for all levels, `db2a(a2db(a)) = a` for all positive amplitudes. -/
theorem C38_inverse (floorDb : Bool) :
    (∀ ds : List ℝ, ∃ ys : List ℝ, db2aCall (ds.map some) = .ok (ys.map some) ∧ (∀ y ∈ ys, 0 < y) ∧
      a2dbCall (ys.map some) none floorDb = .ok (ds.map some)) ∧
    (∀ as : List ℝ, (∀ a ∈ as, 0 < a) →
      ∃ ys : List ℝ, a2dbCall (as.map some) none floorDb = .ok (ys.map some) ∧
        db2aCall (ys.map some) = .ok (as.map some)) := by
  constructor
  · intro ds
    have hpos : ∀ y ∈ ds.map fun d => (10 : ℝ) ^ (d / 20), 0 < y := by
      intro y hy
      obtain ⟨d, _, rfl⟩ := List.mem_map.1 hy
      exact Real.rpow_pos_of_pos (by norm_num) _
    refine ⟨_, db2aCall_eq ds, hpos, ?_⟩
    rw [a2dbCall_eq _ hpos, List.map_map, List.map_map]
    congr 1
    apply List.map_congr_left
    intro d _
    simp only [Function.comp_apply, Option.some.injEq]
    rw [Real.logb_rpow (by norm_num) (by norm_num)]
    ring
  · intro as h
    refine ⟨_, a2dbCall_eq as h floorDb, ?_⟩
    rw [db2aCall_eq, List.map_map, List.map_map]
    congr 1
    apply List.map_congr_left
    intro a ha
    simp only [Function.comp_apply, Option.some.injEq]
    exact rpow_logb_20 a (h a ha)

/-- C38: an amplitude that is not positive has no finite level if no floor is given. -/
theorem C38_no_floor (as : List ℝ) (h : ∀ a ∈ as, a ≤ 0) (floorDb : Bool) :
    a2dbCall (as.map some) none floorDb = .ok (as.map fun _ => none) := by
  rw [a2dbCall, ret_of_computes C34_a2db _ rfl]
  simp only [pw1, List.map_map]
  congr 1
  apply List.map_congr_left
  intro a ha
  simp [a2dbFloorless, npLog10, not_lt.2 (h a ha)]

/-- C38, floors: a list of pairs (amplitude, floor).  With positive floors every level is finite,
is the level of the larger of the two, is not below the level of the floor, and is the level of the
amplitude itself if that is not below the floor.  A floor in decibel (`floor_db`) acts as the
amplitude of that level, and no level is below it. -/
theorem C38_floor (ps : List (ℝ × ℝ)) :
    ((∀ p ∈ ps, 0 < p.2) →
      ∃ ys : List ℝ,
        a2dbCall (ps.map fun p => some p.1) (some (ps.map fun p => some p.2)) false
          = .ok (ys.map some) ∧
        db2aCall (ys.map some) = .ok (ps.map fun p => some (max p.1 p.2)) ∧
        List.Forall₂ (fun p y => (∀ d, db2aCall [some d] = .ok [some p.2] → d ≤ y) ∧
          (p.2 ≤ p.1 → db2aCall [some y] = .ok [some p.1])) ps ys) ∧
    (∃ ys : List ℝ,
      a2dbCall (ps.map fun p => some p.1) (some (ps.map fun p => some p.2)) true
        = .ok (ys.map some) ∧
      List.Forall₂ (fun p y => p.2 ≤ y ∧
          (∀ f, db2aCall [some p.2] = .ok [some f] → db2aCall [some y] = .ok [some (max p.1 f)]))
        ps ys) := by
  have db1 : ∀ d : ℝ, db2aCall [some d] = .ok [some ((10 : ℝ) ^ (d / 20))] := by
    intro d
    simpa using db2aCall_eq [d]
  have zip : ∀ (g : ℝ → ℝ → Cell), List.zipWith
      (fun a b : Cell => a.bind fun a => b.bind fun b => g a b)
      (ps.map fun p => some p.1) (ps.map fun p => some p.2) = ps.map fun p => g p.1 p.2 := by
    intro g
    induction ps with
    | nil => rfl
    | cons p ps ih => simp [ih]
  constructor
  · intro hpos
    have e1 : a2dbCall (ps.map fun p => some p.1) (some (ps.map fun p => some p.2)) false
        = .ok ((ps.map fun p => 20 * Real.logb 10 (max p.1 p.2)).map some) := by
      simp only [a2dbCall, Bool.false_eq_true, if_false]
      rw [ret_of_computes C34_a2db_floor _ rfl]
      simp only [pw2, List.length_map, if_true, zip, List.map_map]
      congr 1
      apply List.map_congr_left
      intro p hp
      have : 0 < max p.1 p.2 := lt_of_lt_of_le (hpos p hp) (le_max_right _ _)
      simp [a2dbFloored, a2dbFloorless, npLog10, this]
    refine ⟨_, e1, ?_, ?_⟩
    · rw [db2aCall_eq, List.map_map, List.map_map]
      congr 1
      apply List.map_congr_left
      intro p hp
      have : 0 < max p.1 p.2 := lt_of_lt_of_le (hpos p hp) (le_max_right _ _)
      simp only [Function.comp_apply, Option.some.injEq]
      exact rpow_logb_20 _ this
    · rw [List.forall₂_map_right_iff, List.forall₂_same]
      intro p hp
      have hp2 := hpos p hp
      have hm : 0 < max p.1 p.2 := lt_of_lt_of_le hp2 (le_max_right _ _)
      constructor
      · intro d hd
        rw [db1] at hd
        simp at hd
        have h1 : Real.logb 10 p.2 ≤ Real.logb 10 (max p.1 p.2) :=
          Real.logb_le_logb_of_le (by norm_num) hp2 (le_max_right _ _)
        have h2 : Real.logb 10 p.2 = d / 20 := by
          rw [← hd, Real.logb_rpow (by norm_num) (by norm_num)]
        linarith
      · intro hle
        rw [db1, max_eq_left hle, rpow_logb_20 _ (lt_of_lt_of_le hp2 hle)]
  · have hpos : ∀ d : ℝ, 0 < (10 : ℝ) ^ (d / 20) := fun d =>
      Real.rpow_pos_of_pos (by norm_num) _
    have e1 : a2dbCall (ps.map fun p => some p.1) (some (ps.map fun p => some p.2)) true
        = .ok ((ps.map fun p => 20 * Real.logb 10 (max p.1 ((10 : ℝ) ^ (p.2 / 20)))).map some) := by
      simp only [a2dbCall, if_true]
      rw [ret_of_computes C34_a2db_floor_db _ rfl]
      simp only [pw2, List.length_map, if_true, zip, List.map_map]
      congr 1
      apply List.map_congr_left
      intro p hp
      have : 0 < max p.1 ((10 : ℝ) ^ (p.2 / 20)) := lt_of_lt_of_le (hpos _) (le_max_right _ _)
      simp [a2dbFloored, a2dbFloorless, npLog10, this]
    refine ⟨_, e1, ?_⟩
    rw [List.forall₂_map_right_iff, List.forall₂_same]
    intro p hp
    have hm : 0 < max p.1 ((10 : ℝ) ^ (p.2 / 20)) := lt_of_lt_of_le (hpos _) (le_max_right _ _)
    constructor
    · have h1 : Real.logb 10 ((10 : ℝ) ^ (p.2 / 20))
          ≤ Real.logb 10 (max p.1 ((10 : ℝ) ^ (p.2 / 20))) :=
        Real.logb_le_logb_of_le (by norm_num) (hpos _) (le_max_right _ _)
      rw [Real.logb_rpow (by norm_num) (by norm_num)] at h1
      linarith
    · intro f hf
      rw [db1] at hf
      simp at hf
      rw [db1, rpow_logb_20 _ hm, hf]

/-- C38: both conversions are strictly increasing. -/
theorem C38_increasing (x y : ℝ) (h : x < y) :
    (∃ a b : ℝ, db2aCall [some x, some y] = .ok [some a, some b] ∧ a < b) ∧
    (0 < x → ∃ a b : ℝ, a2dbCall [some x, some y] none false = .ok [some a, some b] ∧ a < b) := by
  constructor
  · refine ⟨_, _, by simpa using db2aCall_eq [x, y], ?_⟩
    exact Real.rpow_lt_rpow_of_exponent_lt (by norm_num) (by linarith)
  · intro hx
    refine ⟨_, _, by simpa using a2dbCall_eq [x, y] (by simp; exact ⟨hx, hx.trans h⟩) false, ?_⟩
    have := Real.logb_lt_logb (by norm_num : (1 : ℝ) < 10) hx h
    linarith

/-- C38: adding `DOUBLE_DB` (`a2db(2)`) to a level doubles the amplitude. -/
theorem C38_double (d : ℝ) :
    ∃ dd a : ℝ, a2dbCall [some 2] none false = .ok [some dd] ∧ doubleDb = some dd ∧
      db2aCall [some d] = .ok [some a] ∧ db2aCall [some (d + dd)] = .ok [some (2 * a)] := by
  have db1 : ∀ d : ℝ, db2aCall [some d] = .ok [some ((10 : ℝ) ^ (d / 20))] := by
    intro d
    simpa using db2aCall_eq [d]
  refine ⟨20 * Real.logb 10 2, (10 : ℝ) ^ (d / 20), by simpa using a2dbCall_eq [2] (by simp) false,
    by simp [doubleDb, a2db, a2dbFloorless, npLog10], db1 d, ?_⟩
  rw [db1, add_div, Real.rpow_add (by norm_num), rpow_logb_20 2 (by norm_num), mul_comm]

/-- A level below the floor: amplitude 0 with a floor of -60 dB. -/
example : ∃ y : ℝ, a2dbCall [some 0] (some [some (-60)]) true = .ok [some y] ∧ -60 ≤ y := by
  obtain ⟨ys, h1, h2⟩ := (C38_floor [(0, -60)]).2
  cases h2 with
  | cons h h' =>
    cases h'
    exact ⟨_, h1, h.1⟩

end Verif.Dsp
