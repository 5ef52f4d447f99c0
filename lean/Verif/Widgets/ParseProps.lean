import Mathlib.Data.Rat.Floor
import Mathlib.Tactic.Linarith
import Mathlib.Tactic.NormNum
import Verif.Widgets.ParseModel

/-!
# C60: what the settings parsers accept and return

For every conversion from strings to floats.  Beside each theorem an example with the conversion
`demo`, which knows a few strings.
-/

set_option autoImplicit false
set_option linter.unusedSectionVars false
set_option linter.unusedSimpArgs false

namespace Verif.Widgets

variable {K : Type} [Field K] [LinearOrder K] [IsStrictOrderedRing K]

/-- A conversion for the examples. -/
def demo : Parse ℚ := fun s =>
  if s = "nan" then some .nan
  else if s = "inf" then some .inf
  else if s = "-inf" then some .ninf
  else if s = "0" then some (.fin 0)
  else if s = "2.5" then some (.fin (5 / 2))
  else if s = "-3" then some (.fin (-3))
  else if s = "1000" then some (.fin 1000)
  else none

/-! ### Numbers -/

/-- **C60** (numbers): never an exception; the number that the text encodes (NaN and infinities
included), or zero for a text that is not a number. -/
theorem C60_float (parse : Parse K) (s : String) :
    (∀ v, parse s = some v → tryFloat parse s = .ok v) ∧
    (parse s = none → tryFloat parse s = .ok (.fin 0)) := by
  constructor
  · intro v h; simp [tryFloat, tryFunc, pyFloat, h]
  · intro h; simp [tryFloat, tryFunc, pyFloat, h]

example : (tryFloat demo "2.5").toOption = some (.fin (5 / 2)) ∧
    (tryFloat demo "abc").toOption = some (.fin 0) := by decide +kernel

/-- **C60** (exceptions): `try_func` lets all other exceptions through. -/
theorem C60_try {α β : Type} (func : α → Except PyErr β) (exc : PyErr → Bool) (default : β) (x : α) :
    (∀ v, func x = .ok v → tryFunc func exc default x = .ok v) ∧
    (∀ e, func x = .error e → exc e = true → tryFunc func exc default x = .ok default) ∧
    (∀ e, func x = .error e → exc e = false → tryFunc func exc default x = .error e) := by
  refine ⟨fun v h => ?_, fun e h he => ?_, fun e h he => ?_⟩ <;> simp [tryFunc, h, *]

example : (tryFunc (fun n : Nat => if n = 0 then .error .valueError else .ok n)
    (fun e => decide (e = .valueError)) 7 0).toOption = some 7 := by decide +kernel

/-! ### Booleans -/

/-- **C60** (booleans): false exactly for the listed texts and for numbers equal to zero. -/
theorem C60_bool (parse : Parse K) (lower : String → String) (s : String) :
    ∃ b, customBool parse lower s = .ok b ∧
      (b = false ↔ lower s = "false" ∨ lower s = "f" ∨ lower s = "" ∨ parse s = some (.fin 0)) := by
  unfold customBool
  by_cases h : lower s ∈ ["false", "f", ""]
  · rw [if_pos h]
    refine ⟨false, rfl, ?_⟩
    simp only [List.mem_cons, List.not_mem_nil, or_false] at h
    tauto
  · rw [if_neg h]
    simp only [List.mem_cons, List.not_mem_nil, or_false, not_or] at h
    cases hp : parse s with
    | none => exact ⟨true, rfl, by simp [h]⟩
    | some v =>
      refine ⟨v.truthy, rfl, ?_⟩
      cases v <;> simp [Flt.truthy, h]

example : (customBool demo String.toLower "False").toOption = some false ∧
    (customBool demo String.toLower "no").toOption = some true := by decide +kernel

/-! ### Strip time -/

/-- **C60** (strip time): a positive number is returned as it is; text and numbers that are not
positive mean `None`. -/
theorem C60_strip (parse : Parse K) (s : String) :
    (∀ v : K, parse s = some (.fin v) → 0 < v → stripTime parse s = .ok (some (.fin v))) ∧
    (∀ v : K, parse s = some (.fin v) → v ≤ 0 → stripTime parse s = .ok none) ∧
    (parse s = some .inf → stripTime parse s = .ok (some .inf)) ∧
    (parse s = some .ninf ∨ parse s = none → stripTime parse s = .ok none) := by
  refine ⟨fun v h hv => ?_, fun v h hv => ?_, fun h => ?_, fun h => ?_⟩
  · simp [stripTime, h, Flt.le, Flt.lt, Flt.eq, not_lt.2 hv.le, hv.ne']
  · rcases hv.lt_or_eq with h1 | h1 <;> simp [stripTime, h, Flt.le, Flt.lt, Flt.eq, h1]
  · simp [stripTime, h, Flt.le, Flt.lt, Flt.eq]
  · rcases h with h | h <;> simp [stripTime, h, Flt.le, Flt.lt, Flt.eq]

example : (stripTime demo "2.5").toOption = some (some (.fin (5 / 2))) ∧
    (stripTime demo "-3").toOption = some none := by decide +kernel

/-- **C60** (finding): NaN is not a positive number, but it is returned. -/
theorem C60_strip_nan (parse : Parse K) (s : String) (h : parse s = some .nan) :
    stripTime parse s = .ok (some .nan) := by
  simp [stripTime, h, Flt.le, Flt.lt, Flt.eq]

example : (stripTime demo "nan").toOption = some (some .nan) := by decide +kernel

/-! ### Clipped numbers -/

/-- **C60** (clipping): for a text that encodes a number, infinities and NaN included, the result is
within the bounds given (the left not greater than the right), it is a finite number when both are,
and numbers within the bounds are unchanged. -/
theorem C60_clip (parse : Parse K) (left right default : Option K)
    (hlr : ∀ l r, left = some l → right = some r → l ≤ r) (s : String) (v : Flt K)
    (hv : parse s = some v) :
    ∃ x, floatClip parse left right default s = .ok x ∧
      (∀ l, left = some l → Flt.le (.fin l) x = true) ∧
      (∀ r, right = some r → Flt.le x (.fin r) = true) ∧
      (∀ l r, left = some l → right = some r → ∃ y, x = .fin y ∧ l ≤ y ∧ y ≤ r) ∧
      (∀ y, v = .fin y → (∀ l, left = some l → l ≤ y) → (∀ r, right = some r → y ≤ r) →
        x = .fin y) := by
  refine ⟨clipRight right (clipLeft left v), by simp [floatClip, hv], ?_⟩
  have ne : ∀ a b : K, a < b → (a = b ↔ False) := fun a b h => ⟨fun e => (e ▸ h).ne rfl, False.elim⟩
  cases left with
  | none =>
    cases right with
    | none => simp [clipRight, clipLeft]
    | some r =>
      cases v with
      | fin y =>
        by_cases h : y < r
        · simp [clipRight, clipLeft, Flt.min, Flt.max, Flt.le, Flt.lt, Flt.eq, h]
        · simp [clipRight, clipLeft, Flt.min, Flt.max, Flt.le, Flt.lt, Flt.eq, h]
          intro h2; exact le_antisymm (not_lt.1 h) h2
      | _ => simp [clipRight, clipLeft, Flt.min, Flt.max, Flt.le, Flt.lt, Flt.eq]
  | some l =>
    cases right with
    | none =>
      cases v with
      | fin y =>
        by_cases h : l < y
        · simp [clipRight, clipLeft, Flt.min, Flt.max, Flt.le, Flt.lt, Flt.eq, h]
        · simp [clipRight, clipLeft, Flt.min, Flt.max, Flt.le, Flt.lt, Flt.eq, h]
          intro h2; exact le_antisymm h2 (not_lt.1 h)
      | _ => simp [clipRight, clipLeft, Flt.min, Flt.max, Flt.le, Flt.lt, Flt.eq]
    | some r =>
      have hl := hlr l r rfl rfl
      cases v with
      | fin y =>
        by_cases h : l < y
        · by_cases h2 : y < r
          · simp [clipRight, clipLeft, Flt.min, Flt.max, Flt.le, Flt.lt, Flt.eq, h, h2, h.le, h2.le]
          · simp only [clipRight, clipLeft, Flt.min, Flt.max, Flt.le, Flt.lt, Flt.eq, h, h2,
              decide_true, decide_false, if_true, Bool.false_eq_true, if_false]
            refine ⟨?_, ?_, ?_, ?_⟩
            · intro l' e; cases e; simpa using le_iff_lt_or_eq.1 hl
            · intro r' e; cases e; simp
            · intro l' r' e e'; cases e; cases e'; exact ⟨r, rfl, hl, le_rfl⟩
            · intro y' e h3 h4; cases e; exact congrArg _ (le_antisymm (not_lt.1 h2) (h4 r rfl))
        · have h3 := not_lt.1 h
          rcases hl.lt_or_eq with h2 | h2
          · simp only [clipRight, clipLeft, Flt.min, Flt.max, Flt.le, Flt.lt, Flt.eq, h, h2,
              decide_true, decide_false, if_true, Bool.false_eq_true, if_false]
            refine ⟨?_, ?_, ?_, ?_⟩
            · intro l' e; cases e; simp
            · intro r' e; cases e; simp [h2]
            · intro l' r' e e'; cases e; cases e'; exact ⟨l, rfl, le_rfl, hl⟩
            · intro y' e h3' h4; cases e; exact congrArg _ (le_antisymm (h3' l rfl) h3)
          · subst h2
            simp only [clipRight, clipLeft, Flt.min, Flt.max, Flt.le, Flt.lt, Flt.eq, h,
              decide_true, decide_false, if_true, Bool.false_eq_true, if_false, lt_irrefl]
            refine ⟨?_, ?_, ?_, ?_⟩
            · intro l' e; cases e; simp
            · intro r' e; cases e; simp
            · intro l' r' e e'; cases e; cases e'; exact ⟨l, rfl, le_rfl, hl⟩
            · intro y' e h3' h4; cases e; exact congrArg _ (le_antisymm (h3' l rfl) h3)
      | _ =>
        rcases hl.lt_or_eq with h2 | h2
        · simp [clipRight, clipLeft, Flt.min, Flt.max, Flt.le, Flt.lt, Flt.eq, h2, h2.le]
        · subst h2
          simp [clipRight, clipLeft, Flt.min, Flt.max, Flt.le, Flt.lt, Flt.eq]

example : (floatClip demo (some 2) (some 50) (some 12) "1000").toOption = some (.fin 50) ∧
    (floatClip demo (some 2) (some 50) (some 12) "-3").toOption = some (.fin 2) ∧
    (floatClip demo (some 2) (some 50) (some 12) "nan").toOption = some (.fin 2) ∧
    (floatClip demo (some 2) (some 50) (some 12) "2.5").toOption = some (.fin (5 / 2)) := by
  decide +kernel

/-- **C60** (default of clipping): a text that is not a number gives the default; one that is not
given is within the bounds.  A given default is not clipped. -/
theorem C60_clip_default (parse : Parse K) (left right : Option K)
    (hlr : ∀ l r, left = some l → right = some r → l ≤ r) (s : String) (hv : parse s = none) :
    (∀ d, floatClip parse left right (some d) s = .ok (.fin d)) ∧
    ∃ x, floatClip parse left right none s = .ok (.fin x) ∧
      (∀ l, left = some l → l ≤ x) ∧ (∀ r, right = some r → x ≤ r) := by
  constructor
  · intro d; simp [floatClip, hv, clipDefault]
  · refine ⟨clipDefault left right none, by simp [floatClip, hv], ?_, ?_⟩
    · intro l e
      subst e
      cases right with
      | none => simp [clipDefault]
      | some r =>
        have := hlr l r rfl rfl
        simp only [clipDefault]
        linarith
    · intro r e
      subst e
      cases left with
      | none => simp [clipDefault]
      | some l =>
        have := hlr l r rfl rfl
        simp only [clipDefault]
        linarith

example : (floatClip demo (some 2) (some 50) none "abc").toOption = some (.fin 26) ∧
    (floatClip demo (some 2) (some 50) (some 99) "abc").toOption = some (.fin 99) := by
  decide +kernel

/-! ### Positive integers -/

section floor
variable [FloorRing K]

/-- **C60** (positive integers): a text that encodes a finite number (or minus infinity) gives the
integer part of it, but at least one; other text gives the default. -/
theorem C60_positive_int (parse : Parse K) (dflt : Option Int) (s : String) :
    (∀ v : K, parse s = some (.fin v) → ∃ n : Int, customPositiveInt parse dflt s = .ok (some n) ∧
      1 ≤ n ∧ (1 ≤ v → (n : K) ≤ v ∧ v < n + 1) ∧ (v < 1 → n = 1)) ∧
    (parse s = some .ninf → customPositiveInt parse dflt s = .ok (some 1)) ∧
    (parse s = none → customPositiveInt parse dflt s = .ok dflt) := by
  refine ⟨fun v h => ?_, fun h => ?_, fun h => ?_⟩
  · by_cases h1 : v < 1
    · exact ⟨1, by simp [customPositiveInt, h, Flt.max, Flt.lt, h1, Flt.toInt], le_rfl,
        fun h2 => absurd h1 (not_lt.2 h2), fun _ => rfl⟩
    · have h2 := not_lt.1 h1
      refine ⟨⌊v⌋, ?_, ?_, fun _ => ⟨Int.floor_le v, Int.lt_floor_add_one v⟩, fun h3 => absurd h3 h1⟩
      · simp [customPositiveInt, h, Flt.max, Flt.lt, h1, Flt.toInt, zero_le_one.trans h2]
      · exact Int.le_floor.2 (by simpa using h2)
  · simp [customPositiveInt, h, Flt.max, Flt.lt, Flt.toInt]
  · simp [customPositiveInt, h]

example : (customPositiveInt demo (some 4) "2.5").toOption = some (some 2) ∧
    (customPositiveInt demo (some 4) "-3").toOption = some (some 1) ∧
    (customPositiveInt demo (some 4) "abc").toOption = some (some 4) := by decide +kernel

/-- **C60** (finding): the texts of NaN and infinity raise, with or without a default. -/
theorem C60_positive_int_raises (parse : Parse K) (dflt : Option Int) (s : String) :
    (parse s = some .nan → customPositiveInt parse dflt s = .error .valueError) ∧
    (parse s = some .inf → customPositiveInt parse dflt s = .error .overflowError) := by
  constructor <;> intro h <;> simp [customPositiveInt, h, Flt.max, Flt.lt, Flt.toInt]

example : (customPositiveInt demo (some 4) "nan").toOption = none ∧
    (customPositiveInt demo (some 4) "inf").toOption = none := by decide +kernel

/-- **C61** (FFT size): a text that encodes a finite number gives the least power of two that is not
less than its integer part (raised to one). -/
theorem C61_power (parse : Parse K) (s : String) (v : K) (h : parse s = some (.fin v)) :
    ∃ e : Nat, nextPowerOf2 parse s = .ok (2 ^ e) ∧
      ∀ j : Nat, max 1 ⌊v⌋ ≤ (2 : Int) ^ j ↔ e ≤ j := by
  obtain ⟨n, hn, h1, h2, h3⟩ := (C60_positive_int parse (some 1) s).1 v h
  refine ⟨bitLength (n - 1), by simp [nextPowerOf2, hn], fun j => ?_⟩
  have hmax : max 1 ⌊v⌋ = n := by
    by_cases hv : 1 ≤ v
    · obtain ⟨ha, hb⟩ := h2 hv
      rw [Int.floor_eq_iff.2 ⟨ha, hb⟩]
      exact max_eq_right h1
    · rw [h3 (not_le.1 hv)]
      exact max_eq_left (Int.le_of_lt_add_one (Int.floor_lt.2 (by push_cast; linarith [not_le.1 hv])))
  rw [hmax]
  obtain ⟨m, rfl⟩ : ∃ m : Nat, n = m + 1 := ⟨(n - 1).toNat, by omega⟩
  have : bitLength ((m : Int) + 1 - 1) = m.size := by simp [bitLength]
  rw [this, Nat.size_le]
  constructor
  · intro hj
    have : ((m + 1 : Nat) : Int) ≤ ((2 ^ j : Nat) : Int) := by push_cast; exact hj
    have := Int.ofNat_le.1 this
    omega
  · intro hj
    have : ((m + 1 : Nat) : Int) ≤ ((2 ^ j : Nat) : Int) := Int.ofNat_le.2 hj
    push_cast at this
    exact this

example : (nextPowerOf2 demo "1000").toOption = some 1024 ∧
    (nextPowerOf2 demo "2.5").toOption = some 2 ∧ (nextPowerOf2 demo "-3").toOption = some 1 := by
  decide +kernel

/-- **C61** (FFT size, other texts): one, or an exception for NaN and infinity. -/
theorem C61_power_other (parse : Parse K) (s : String) :
    (parse s = none ∨ parse s = some .ninf → nextPowerOf2 parse s = .ok 1) ∧
    (parse s = some .nan → nextPowerOf2 parse s = .error .valueError) ∧
    (parse s = some .inf → nextPowerOf2 parse s = .error .overflowError) := by
  refine ⟨?_, fun h => ?_, fun h => ?_⟩
  · rintro (h | h)
    · simp [nextPowerOf2, (C60_positive_int parse (some 1) s).2.2 h, bitLength]
    · simp [nextPowerOf2, (C60_positive_int parse (some 1) s).2.1 h, bitLength]
  · simp [nextPowerOf2, (C60_positive_int_raises parse (some 1) s).1 h]
  · simp [nextPowerOf2, (C60_positive_int_raises parse (some 1) s).2 h]

example : (nextPowerOf2 demo "abc").toOption = some 1 := by decide +kernel

end floor

end Verif.Widgets
