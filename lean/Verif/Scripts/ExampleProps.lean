import Verif.Scripts.ExampleModel
import Verif.Widgets.TrimProps
import Mathlib.Algebra.Order.BigOperators.Group.List
import Mathlib.Tactic

/-!
# C91, C92, C93: reading, cropping and level of audio
-/

set_option autoImplicit false
set_option linter.unusedSectionVars false
set_option linter.unusedSimpArgs false

namespace Verif.Scripts

open Verif.Widgets (IsEnd IsRegion)

section Load

variable {K : Type} [Field K] [LinearOrder K] [IsStrictOrderedRing K]

/-! ## C91: samples of a file -/

/-- Frames of integers that fit in a signed type with `bits` bits, each with at least one channel. -/
def InRange (bits : Nat) : Frames Int → Prop
  | .mono x => ∀ i ∈ x, -(2 : Int) ^ (bits - 1) ≤ i ∧ i < 2 ^ (bits - 1)
  | .multi x => ∀ fr ∈ x, fr ≠ [] ∧ ∀ i ∈ fr, -(2 : Int) ^ (bits - 1) ≤ i ∧ i < 2 ^ (bits - 1)

/-- The mean of the channels of each frame, divided by the number of positive levels. -/
def normalized (bits : Nat) : Frames Int → List K
  | .mono x => x.map fun (i : Int) => (i : K) / 2 ^ (bits - 1)
  | .multi x => x.map fun fr => ((fr.sum : Int) : K) / fr.length / 2 ^ (bits - 1)

theorem allSome_map {α : Type} (l : List α) : allSome (l.map some) = some l := by
  induction l with
  | nil => rfl
  | cons a l ih => simp [allSome, ih]

theorem sum_div (l : List Int) (c : K) :
    (l.map fun (i : Int) => (i : K) / c).sum = ((l.sum : Int) : K) / c := by
  induction l with
  | nil => simp
  | cons a l ih =>
    rw [List.map_cons, List.sum_cons, ih, List.sum_cons]
    push_cast
    rw [add_div]

theorem npDiv_signed (bits : Nat) (i : Int) :
    npDiv (i : K) ((-iinfoMin true bits : Int) : K) = some ((i : K) / 2 ^ (bits - 1)) := by
  have h : ((-iinfoMin true bits : Int) : K) = 2 ^ (bits - 1) := by
    simp [iinfoMin]
  rw [h, npDiv, if_neg (by positivity)]

theorem load_signed (bits : Nat) (x : Frames Int) (hx : InRange bits x) :
    toMono (x.map fun (i : Int) => npDiv (i : K) ((-iinfoMin true bits : Int) : K)) =
      (normalized bits x).map some := by
  cases x with
  | mono x =>
    simp only [Frames.map, toMono, normalized, List.map_map]
    apply List.map_congr_left
    intro i _
    exact npDiv_signed bits i
  | multi x =>
    simp only [Frames.map, toMono, normalized, List.map_map]
    apply List.map_congr_left
    intro fr hfr
    have hne := (hx fr hfr).1
    simp only [Function.comp, frameMean]
    have e : (fr.map fun (i : Int) => npDiv (i : K) ((-iinfoMin true bits : Int) : K)) =
        (fr.map fun (i : Int) => (i : K) / 2 ^ (bits - 1)).map some := by
      rw [List.map_map]
      apply List.map_congr_left
      intro i _
      exact npDiv_signed bits i
    rw [e, allSome_map]
    simp only
    rw [if_neg (by simpa using hne), sum_div, List.length_map, div_right_comm]

/-- Signed integers: the script and the GUI read the same samples, one for each frame: the mean of the
channels divided by `2 ^ (bits - 1)`.  All of them are at least -1 and less than 1. -/
theorem C91_signed (bits : Nat) (x : Frames Int) (hx : InRange bits x) :
    loadAudio (K := K) (.ints true bits x) = (normalized bits x).map some ∧
      guiLoad (K := K) (.ints true bits x) = .ok ((normalized bits x).map some) ∧
      ∀ v ∈ (normalized bits x : List K), -1 ≤ v ∧ v < 1 := by
  refine ⟨load_signed bits x hx, congrArg Except.ok (load_signed bits x hx), ?_⟩
  have hp : (0 : K) < 2 ^ (bits - 1) := by positivity
  cases x with
  | mono x =>
    intro v hv
    obtain ⟨i, hi, rfl⟩ := List.mem_map.1 hv
    obtain ⟨h1, h2⟩ := hx i hi
    have h1' : -(2 : K) ^ (bits - 1) ≤ (i : K) := by exact_mod_cast h1
    have h2' : (i : K) < 2 ^ (bits - 1) := by exact_mod_cast h2
    exact ⟨by rw [le_div_iff₀ hp]; linarith, by rw [div_lt_iff₀ hp]; linarith⟩
  | multi x =>
    intro v hv
    obtain ⟨fr, hfr, rfl⟩ := List.mem_map.1 hv
    obtain ⟨hne, hfr⟩ := hx fr hfr
    have hl : 0 < fr.length := List.length_pos_of_ne_nil hne
    have hlK : (0 : K) < fr.length := by exact_mod_cast hl
    have hlo : -(2 : Int) ^ (bits - 1) * fr.length ≤ fr.sum := by
      have := List.card_nsmul_le_sum fr (-(2 : Int) ^ (bits - 1)) fun i hi => (hfr i hi).1
      rw [nsmul_eq_mul] at this
      linarith
    have hhi : fr.sum ≤ ((2 : Int) ^ (bits - 1) - 1) * fr.length := by
      have := List.sum_le_card_nsmul fr ((2 : Int) ^ (bits - 1) - 1) fun i hi => by
        have := (hfr i hi).2; omega
      rw [nsmul_eq_mul] at this
      linarith
    have hlo' : -(2 : K) ^ (bits - 1) * fr.length ≤ ((fr.sum : Int) : K) := by exact_mod_cast hlo
    have hhi' : ((fr.sum : Int) : K) ≤ ((2 : K) ^ (bits - 1) - 1) * fr.length := by exact_mod_cast hhi
    constructor
    · rw [le_div_iff₀ hp, le_div_iff₀ hlK]; linarith
    · rw [div_lt_iff₀ hp, div_lt_iff₀ hlK]; nlinarith

/-- Equal channels: the samples are those of one channel. -/
theorem C91_equal_channels (bits c : Nat) (hc : 0 < c) (x : List Int) :
    (normalized bits (.multi (x.map fun i => List.replicate c i)) : List K) = normalized bits (.mono x) := by
  simp only [normalized, List.map_map]
  apply List.map_congr_left
  intro i _
  have : (c : K) ≠ 0 := by exact_mod_cast hc.ne'
  simp only [Function.comp, List.sum_replicate, List.length_replicate, nsmul_eq_mul]
  push_cast
  rw [mul_div_cancel_left₀ _ this]

/-- Files of unsigned integers (8 bits): all samples are infinite or NaN, in the script and in the GUI. -/
theorem C91_unsigned (bits : Nat) (x : List Int) :
    loadAudio (K := K) (.ints false bits (.mono x)) = x.map (fun _ => none) ∧
      guiLoad (K := K) (.ints false bits (.mono x)) = .ok (x.map fun _ => none) := by
  have h : ∀ i : Int, npDiv (i : K) ((-iinfoMin false bits : Int) : K) = none := by
    intro i
    simp [npDiv, iinfoMin]
  simp only [loadAudio, guiLoad, Frames.map, toMono, h, and_self]

/-- Files of floating-point numbers: the script reads them as they are, the GUI raises. -/
theorem C91_floats (x : List K) :
    loadAudio (.floats (.mono x)) = x.map some ∧
      guiLoad (.floats (.mono x)) = .error .valueError := ⟨rfl, rfl⟩

/-- Two channels, 16 bits. -/
example : loadAudio (K := ℚ) (.ints true 16 (.multi [[-32768, -32768], [32767, 1], [0, -16384]])) =
    [some (-1), some (1 / 2), some (-1 / 4)] := by decide +kernel

example : InRange 16 (.multi [[-32768, -32768], [32767, 1], [0, -16384]]) := by
  simp [InRange]

end Load

/-! ## C92: cropping -/

section Crop

variable {A : Type}

theorem foldl_min_mem (a : Int) (l : List Int) :
    (l.foldl min a ∈ a :: l) ∧ ∀ b ∈ a :: l, l.foldl min a ≤ b := by
  induction l generalizing a with
  | nil => simp
  | cons c l ih =>
    obtain ⟨h1, h2⟩ := ih (min a c)
    rw [List.foldl_cons]
    constructor
    · rcases List.mem_cons.1 h1 with h | h
      · rw [h]
        rcases min_choice a c with e | e <;> rw [e] <;> simp
      · exact List.mem_cons_of_mem _ (List.mem_cons_of_mem _ h)
    · intro b hb
      have hm := h2 (min a c) List.mem_cons_self
      rcases List.mem_cons.1 hb with rfl | hb
      · exact le_trans hm (min_le_left _ _)
      · rcases List.mem_cons.1 hb with rfl | hb
        · exact le_trans hm (min_le_right _ _)
        · exact h2 b (List.mem_cons_of_mem _ hb)

theorem foldl_max_mem (a : Int) (l : List Int) :
    (l.foldl max a ∈ a :: l) ∧ ∀ b ∈ a :: l, b ≤ l.foldl max a := by
  induction l generalizing a with
  | nil => simp
  | cons c l ih =>
    obtain ⟨h1, h2⟩ := ih (max a c)
    rw [List.foldl_cons]
    constructor
    · rcases List.mem_cons.1 h1 with h | h
      · rw [h]
        rcases max_choice a c with e | e <;> rw [e] <;> simp
      · exact List.mem_cons_of_mem _ (List.mem_cons_of_mem _ h)
    · intro b hb
      have hm := h2 (max a c) List.mem_cons_self
      rcases List.mem_cons.1 hb with rfl | hb
      · exact le_trans (le_max_left _ _) hm
      · rcases List.mem_cons.1 hb with rfl | hb
        · exact le_trans (le_max_right _ _) hm
        · exact h2 b (List.mem_cons_of_mem _ hb)

theorem minDefault_spec (d : Int) (l : List Int) :
    (l = [] ∧ minDefault d l = d) ∨ (minDefault d l ∈ l ∧ ∀ b ∈ l, minDefault d l ≤ b) := by
  cases l with
  | nil => exact .inl ⟨rfl, rfl⟩
  | cons a l => exact .inr (foldl_min_mem a l)

theorem maxDefault_spec (d : Int) (l : List Int) :
    (l = [] ∧ maxDefault d l = d) ∨ (maxDefault d l ∈ l ∧ ∀ b ∈ l, b ≤ maxDefault d l) := by
  cases l with
  | nil => exact .inl ⟨rfl, rfl⟩
  | cons a l => exact .inr (foldl_max_mem a l)

/-- A slice with bounds in the range. -/
theorem slice_of_bounds (x : List A) {a b : Int} (ha : 0 ≤ a) (hab : a ≤ b) (hb : b ≤ x.length) :
    Np.slice x (some a) (some b) = (x.drop a.toNat).take (b - a).toNat := by
  have h1 : ¬ a < 0 := by omega
  have h2 : ¬ b < 0 := by omega
  have h3 : min a.toNat x.length = a.toNat := by omega
  have h4 : min b.toNat x.length = b.toNat := by omega
  have h5 : b.toNat - a.toNat = (b - a).toNat := by omega
  simp only [Np.slice, Np.lower, Np.upper, Np.bound, h1, h2, if_false, h3, h4, h5]

/-- The next end of a region after a point before the end of the audio. -/
theorem next_end (m : List Bool) (n : Nat) {i0 : Int} (h0 : i0 < n) :
    let b := minDefault n (((Np.flatnonzero m).map Int.ofNat ++ [(n : Int)]).filter
      fun o => decide (i0 < o))
    IsEnd m n b ∧ i0 < b ∧ ∀ p, i0 < p → IsEnd m n p → b ≤ p := by
  intro b
  have hmem : (n : Int) ∈ ((Np.flatnonzero m).map Int.ofNat ++ [(n : Int)]).filter
      fun o => decide (i0 < o) := List.mem_filter.2 ⟨by simp, by simpa using h0⟩
  rcases minDefault_spec n (((Np.flatnonzero m).map Int.ofNat ++ [(n : Int)]).filter
      fun o => decide (i0 < o)) with ⟨h1, -⟩ | ⟨h1, h2⟩
  · rw [h1] at hmem; cases hmem
  · have h3 := List.mem_filter.1 h1
    refine ⟨(Widgets.mem_onsets m n _).1 h3.1, of_decide_eq_true h3.2, fun p hp hpe => ?_⟩
    exact h2 p (List.mem_filter.2 ⟨(Widgets.mem_onsets m n p).2 hpe, by simpa using hp⟩)

/-- With no bound the script crops the region that the GUI selects (`longest`, `C58_auto`). -/
theorem cropBounds_auto (m : List Bool) (n : Nat) (hm : m.length = n)
    (ho : ∃ i : Nat, m[i]? = some true) :
    cropBounds none none n ((Np.flatnonzero m).map Int.ofNat ++ [(n : Int)]) =
      Widgets.longest ((Np.flatnonzero m).map Int.ofNat ++ [(n : Int)]) := by
  have hreg := Widgets.region_iff m n hm
  have hnext := fun i0 (h : i0 < (n : Int)) => next_end m n h
  obtain ⟨i, hi⟩ := ho
  have hmem := (Widgets.mem_flatnonzero m i).2 hi
  obtain ⟨o, os, hos⟩ := List.exists_cons_of_ne_nil (List.ne_nil_of_mem hmem)
  have hlen : ¬ ((Np.flatnonzero m).map Int.ofNat ++ [(n : Int)]).length < 2 := by
    rw [hos]; simp
  have hne : Widgets.diffs ((Np.flatnonzero m).map Int.ofNat ++ [(n : Int)]) ≠ [] := by
    rw [hos]
    cases os <;> simp [Widgets.diffs]
  simp only [cropBounds, hlen, if_false, Widgets.longest]
  cases ham : Widgets.argmax (Widgets.diffs ((Np.flatnonzero m).map Int.ofNat ++ [(n : Int)])) with
  | none => exact absurd ((Widgets.argmax_none _).1 ham) hne
  | some p =>
    obtain ⟨k, v⟩ := p
    obtain ⟨h1, -, -⟩ := Widgets.argmax_spec _ k v ham
    obtain ⟨a, b, ha, hb, -⟩ := (Widgets.diffs_get _ k v).1 h1
    have ia : Np.index ((Np.flatnonzero m).map Int.ofNat ++ [(n : Int)]) (k : Int) = .ok a := by
      unfold Np.index
      rw [if_neg (by omega)]
      simp [getE, ha]
    have ib : Np.index ((Np.flatnonzero m).map Int.ofNat ++ [(n : Int)]) ((k : Int) + 1) = .ok b := by
      unfold Np.index
      rw [if_neg (by omega)]
      have : ((k : Int) + 1).toNat = k + 1 := by omega
      simp [this, getE, hb]
    simp only [ia, ib, Except.ok.injEq, Prod.mk.injEq, true_and]
    obtain ⟨-, hbe, hab, hno⟩ := (hreg a b).2 ⟨k, ha, hb⟩
    have hbn : b ≤ n := by
      rcases hbe with rfl | ⟨j, rfl, hj⟩
      · exact le_rfl
      · have := (List.getElem?_eq_some_iff.1 hj).1
        omega
    obtain ⟨h3, h4, h5⟩ := hnext a (by omega)
    have h6 := h5 b hab hbe
    refine le_antisymm h6 ?_
    refine Classical.byContradiction fun hlt => hno _ h4 (by omega) h3

/-- With no bound given, and at least one onset: the longest region between an onset and the next one (or the
end), the first one if there are several. -/
theorem C92_auto {detect : List A → Except PyErr (List Bool)} {x : List A} {m : List Bool}
    (hd : detect x = .ok m) (hm : m.length = x.length) (ho : ∃ i : Nat, m[i]? = some true) :
    ∃ a b : Int, cropAudio ⟨false, none, none⟩ detect x = .ok ((x.drop a.toNat).take (b - a).toNat) ∧
      IsRegion m x.length a b ∧ 0 ≤ a ∧ b ≤ x.length ∧
      (∀ c d, IsRegion m x.length c d → d - c ≤ b - a) ∧
      (∀ c d, IsRegion m x.length c d → c < a → d - c < b - a) := by
  obtain ⟨a, b, h1, h2, h3, h4⟩ := (Widgets.C58_auto detect
    { audio := some x, sr := none, start := none, stop := none } x rfl m hd hm).1 ho
  have hl : Widgets.longest ((Np.flatnonzero m).map Int.ofNat ++ [(x.length : Int)]) = .ok (a, b) := by
    simp only [Widgets.autoTrim, hd] at h1
    split at h1
    · simp at h1
    · rename_i a' b' hl
      simp only [Prod.mk.injEq, Widgets.TrimState.mk.injEq, Option.some.injEq, and_true, true_and] at h1
      rw [hl, h1.1, h1.2]
  have ha : 0 ≤ a := by
    obtain ⟨⟨i, rfl, -⟩, -⟩ := h2
    omega
  have hb : b ≤ x.length := by
    rcases h2.2.1 with rfl | ⟨j, rfl, hj⟩
    · exact le_rfl
    · have := (List.getElem?_eq_some_iff.1 hj).1
      omega
  refine ⟨a, b, ?_, h2, ha, hb, h3, h4⟩
  simp only [cropAudio, Bool.false_eq_true, if_false, hd, true_or, if_true,
    cropBounds_auto m x.length hm ho, hl]
  rw [slice_of_bounds x ha h2.2.2.1.le hb]

/-- With no bound given and no onset nothing is cropped; with `--no-crop` neither. -/
theorem C92_none {detect : List A → Except PyErr (List Bool)} {x : List A} {m : List Bool}
    (hd : detect x = .ok m) (ho : ∀ i : Nat, m[i]? ≠ some true) (start stop : Option Int) :
    cropAudio ⟨false, none, none⟩ detect x = .ok x ∧ cropAudio ⟨true, start, stop⟩ detect x = .ok x := by
  have hnil : Np.flatnonzero m = [] := by
    apply List.eq_nil_iff_forall_not_mem.2
    intro i hi
    exact ho i ((Widgets.mem_flatnonzero m i).1 hi)
  refine ⟨?_, by simp [cropAudio]⟩
  simp only [cropAudio, Bool.false_eq_true, if_false, hd, true_or, if_true, hnil, List.map_nil,
    List.nil_append, cropBounds, List.length_singleton, show (1 < 2) from by decide]
  rw [slice_of_bounds x (le_refl 0) (by omega) le_rfl]
  simp

/-- With a start in the audio: up to the next onset, or to the end. -/
theorem C92_start {detect : List A → Except PyErr (List Bool)} {x : List A} {m : List Bool}
    (hd : detect x = .ok m) (hm : m.length = x.length) {i0 : Int} (h0 : 0 ≤ i0) (h1 : i0 < x.length) :
    ∃ b : Int, cropAudio ⟨false, some i0, none⟩ detect x =
        .ok ((x.drop i0.toNat).take (b - i0).toNat) ∧
      i0 < b ∧ IsEnd m x.length b ∧ ∀ p, i0 < p → p < b → ¬ IsEnd m x.length p := by
  obtain ⟨h3, h4, h5⟩ := next_end m x.length h1
  refine ⟨_, ?_, h4, h3, fun p hp1 hp2 hpe => absurd (h5 p hp1 hpe) (by omega)⟩
  have hb : minDefault x.length (((Np.flatnonzero m).map Int.ofNat ++ [(x.length : Int)]).filter
      fun o => decide (i0 < o)) ≤ x.length := by
    rcases h3 with h | ⟨j, h, hj⟩
    · rw [h]
    · rw [h]
      have := (List.getElem?_eq_some_iff.1 hj).1
      omega
  simp only [cropAudio, Bool.false_eq_true, if_false, hd, or_true, if_true, cropBounds]
  rw [slice_of_bounds x h0 h4.le hb]

/-- With an end in the audio: from the last onset before it, or from the beginning if there is none. -/
theorem C92_stop {detect : List A → Except PyErr (List Bool)} {x : List A} {m : List Bool}
    (hd : detect x = .ok m) {i1 : Int} (h0 : 0 < i1) (h1 : i1 ≤ x.length) :
    ∃ a : Int, cropAudio ⟨false, none, some i1⟩ detect x =
        .ok ((x.drop a.toNat).take (i1 - a).toNat) ∧
      0 ≤ a ∧ a < i1 ∧ (a = 0 ∨ ∃ i : Nat, a = i ∧ m[i]? = some true) ∧
      ∀ i : Nat, a < i → (i : Int) < i1 → m[i]? ≠ some true := by
  set l := ((Np.flatnonzero m).map Int.ofNat ++ [(x.length : Int)]).filter fun o => decide (o < i1)
    with hl
  have hon : ∀ i : Nat, (i : Int) < i1 → m[i]? = some true → (i : Int) ∈ l := by
    intro i hi him
    exact List.mem_filter.2 ⟨(Widgets.mem_onsets m _ _).2 (.inr ⟨i, rfl, him⟩), by simpa using hi⟩
  have hcr : cropAudio ⟨false, none, some i1⟩ detect x =
      .ok (Np.slice x (some (maxDefault 0 l)) (some i1)) := by
    simp only [cropAudio, Bool.false_eq_true, if_false, hd, true_or, if_true, cropBounds, hl]
  rcases maxDefault_spec 0 l with ⟨h2, h3⟩ | ⟨h2, h3⟩
  · refine ⟨0, ?_, le_rfl, h0, .inl rfl, fun i _ hi him => ?_⟩
    · rw [hcr, h3, slice_of_bounds x le_rfl h0.le h1]
    · have := hon i hi him
      rw [h2] at this
      cases this
  · have h4 := List.mem_filter.1 h2
    have h5 : maxDefault 0 l < i1 := by simpa using h4.2
    rcases (Widgets.mem_onsets m _ _).1 h4.1 with h6 | ⟨j, h6, hj⟩
    · omega
    · refine ⟨maxDefault 0 l, ?_, by omega, h5, .inr ⟨j, h6, hj⟩, fun i hi1 hi2 him => ?_⟩
      · rw [hcr, slice_of_bounds x (by omega) h5.le h1]
      · have := h3 _ (hon i hi2 him)
        omega

/-- With both bounds: the slice, without onset detection. -/
theorem C92_both (detect : List A → Except PyErr (List Bool)) (x : List A) (i0 i1 : Int) :
    cropAudio ⟨false, some i0, some i1⟩ detect x = .ok (Np.slice x (some i0) (some i1)) := by
  simp [cropAudio, cropBounds]

/-- With an end after the end of the audio and no start nothing is left: the end of the audio is taken for
an onset. -/
theorem C92_beyond {detect : List A → Except PyErr (List Bool)} {x : List A} {m : List Bool}
    (hd : detect x = .ok m) (hm : m.length = x.length) {i1 : Int} (h1 : x.length < i1) :
    cropAudio ⟨false, none, some i1⟩ detect x = .ok [] := by
  set l := ((Np.flatnonzero m).map Int.ofNat ++ [(x.length : Int)]).filter fun o => decide (o < i1)
    with hl
  have hmem : (x.length : Int) ∈ l := List.mem_filter.2 ⟨by simp, by simpa using h1⟩
  have hmax : maxDefault 0 l = x.length := by
    rcases maxDefault_spec 0 l with ⟨h2, -⟩ | ⟨h2, h3⟩
    · rw [h2] at hmem; cases hmem
    · refine le_antisymm ?_ (h3 _ hmem)
      rcases (Widgets.mem_onsets m _ _).1 (List.mem_filter.1 h2).1 with h6 | ⟨j, h6, hj⟩
      · rw [h6]
      · have := (List.getElem?_eq_some_iff.1 hj).1
        omega
  have hcr : cropAudio ⟨false, none, some i1⟩ detect x =
      .ok (Np.slice x (some (maxDefault 0 l)) (some i1)) := by
    simp only [cropAudio, Bool.false_eq_true, if_false, hd, true_or, if_true, cropBounds, hl]
  rw [hcr, hmax]
  have h2 : ¬ ((x.length : Int) < 0) := by omega
  simp [Np.slice, Np.lower, Np.bound, h2]

/-- If onset detection raises, cropping raises. -/
theorem C92_error {detect : List A → Except PyErr (List Bool)} {x : List A} {e : PyErr}
    (hd : detect x = .error e) {start stop : Option Int} (h : start = none ∨ stop = none) :
    cropAudio ⟨false, start, stop⟩ detect x = .error e := by
  simp [cropAudio, hd, h]

namespace CropEx

/-- Onsets at 1 and 4 of ten samples. -/
def detect (_ : List Nat) : Except PyErr (List Bool) :=
  .ok [false, true, false, false, true, false, false, false, false, false]

def x : List Nat := List.range 10

example : (cropAudio ⟨false, none, none⟩ detect x).toOption = some [4, 5, 6, 7, 8, 9] := by decide +kernel

example : (cropAudio ⟨false, some 2, none⟩ detect x).toOption = some [2, 3] := by decide +kernel

example : (cropAudio ⟨false, none, some 3⟩ detect x).toOption = some [1, 2] := by decide +kernel

example : (cropAudio ⟨false, none, some 11⟩ detect x).toOption = some [] := by decide +kernel

example : ∃ i : Nat, ([false, true, false] : List Bool)[i]? = some true := ⟨1, rfl⟩

end CropEx

end Crop

/-! ## C93: level of the output -/

section Level

variable {K : Type} [Field K] [LinearOrder K] [IsStrictOrderedRing K]

theorem foldl_abs_spec (a : K) (ha : 0 ≤ a) (l : List K) :
    a ≤ l.foldl (fun m b => max m |b|) a ∧ (∀ v ∈ l, |v| ≤ l.foldl (fun m b => max m |b|) a) ∧
      (l.foldl (fun m b => max m |b|) a = a ∨ ∃ v ∈ l, |v| = l.foldl (fun m b => max m |b|) a) := by
  induction l generalizing a with
  | nil => simp
  | cons c l ih =>
    obtain ⟨h1, h2, h3⟩ := ih (max a |c|) (le_trans ha (le_max_left _ _))
    rw [List.foldl_cons]
    refine ⟨le_trans (le_max_left _ _) h1, fun v hv => ?_, ?_⟩
    · rcases List.mem_cons.1 hv with rfl | hv
      · exact le_trans (le_max_right _ _) h1
      · exact h2 v hv
    · rcases h3 with h3 | ⟨v, hv, h3⟩
      · rw [h3]
        rcases max_choice a |c| with e | e
        · exact .inl e
        · exact .inr ⟨c, List.mem_cons_self, e.symm⟩
      · exact .inr ⟨v, List.mem_cons_of_mem _ hv, h3⟩

theorem peak_spec {y : List K} {p : K} (h : peak y = .ok p) :
    (∀ v ∈ y, |v| ≤ p) ∧ ∃ v ∈ y, |v| = p := by
  cases y with
  | nil => cases h
  | cons a l =>
    simp only [peak, Except.ok.injEq] at h
    subst h
    obtain ⟨h1, h2, h3⟩ := foldl_abs_spec |a| (abs_nonneg a) l
    refine ⟨fun v hv => ?_, ?_⟩
    · rcases List.mem_cons.1 hv with rfl | hv
      · exact h1
      · exact h2 v hv
    · rcases h3 with h3 | ⟨v, hv, h3⟩
      · exact ⟨a, List.mem_cons_self, h3.symm⟩
      · exact ⟨v, List.mem_cons_of_mem _ hv, h3⟩

/-- The output is the prediction with a gain that is positive and at most 1.  Without `--clip` no sample is
above the threshold; the gain is 1 if no sample of the prediction is above the threshold, otherwise the
threshold is reached.  With `--clip` the gain is 1.  Only an empty prediction raises. -/
theorem C93_level (clip : Bool) {th : K} (hth : 0 < th) {y : List K} (hy : y ≠ []) :
    ∃ (y' : List K) (g : K), limitPeak clip th y = .ok y' ∧ y' = y.map (· * g) ∧ 0 < g ∧ g ≤ 1 ∧
      ((clip = true ∨ ∀ v ∈ y, |v| ≤ th) → g = 1) ∧
      (clip = false → (∀ v ∈ y', |v| ≤ th) ∧ ((∃ v ∈ y, th < |v|) → ∃ v ∈ y', |v| = th)) := by
  cases hp : peak y with
  | error e => cases y with
    | nil => exact absurd rfl hy
    | cons a l => cases hp
  | ok p =>
    obtain ⟨h1, v0, hv0, h2⟩ := peak_spec hp
    by_cases hc : th < p ∧ clip = false
    · have hpp : 0 < p := lt_trans hth hc.1
      refine ⟨_, th / p, by simp only [limitPeak, hp, hc, and_self, if_true], rfl,
        div_pos hth hpp, (div_le_one hpp).2 hc.1.le, ?_, fun _ => ⟨?_, fun _ => ?_⟩⟩
      · rintro (h | h)
        · rw [hc.2] at h; cases h
        · exact absurd (h v0 hv0) (by rw [h2]; exact not_le.2 hc.1)
      · intro v hv
        obtain ⟨w, hw, rfl⟩ := List.mem_map.1 hv
        rw [abs_mul, abs_of_pos (div_pos hth hpp), ← mul_div_assoc, div_le_iff₀ hpp, mul_comm]
        exact mul_le_mul_of_nonneg_left (h1 w hw) hth.le
      · refine ⟨v0 * (th / p), List.mem_map.2 ⟨v0, hv0, rfl⟩, ?_⟩
        rw [abs_mul, h2, abs_of_pos (div_pos hth hpp), mul_div_cancel₀ _ hpp.ne']
    · refine ⟨y, 1, by simp only [limitPeak, hp, hc, if_false], by simp, one_pos, le_rfl,
        fun _ => rfl, fun hcl => ?_⟩
      have hle : p ≤ th := by
        refine Classical.byContradiction fun h => hc ⟨not_le.1 h, hcl⟩
      refine ⟨fun v hv => le_trans (h1 v hv) hle, ?_⟩
      rintro ⟨v, hv, hlt⟩
      exact absurd (le_trans (h1 v hv) hle) (not_le.2 hlt)

theorem C93_empty (clip : Bool) (th : K) : limitPeak clip th ([] : List K) = .error .valueError := rfl

example : (limitPeak false (1 / 2 : ℚ) [1 / 4, -2, 1]).toOption = some [1 / 16, -1 / 2, 1 / 4] := by
  decide +kernel

example : (limitPeak true (1 / 2 : ℚ) [1 / 4, -2, 1]).toOption = some [1 / 4, -2, 1] := by
  decide +kernel

end Level

end Verif.Scripts
