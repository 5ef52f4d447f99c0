import Mathlib.Algebra.Order.Field.Basic
import Mathlib.Analysis.Complex.ExponentialBounds
import Verif.Beat.RegressionModel
import Verif.Beat.BeatProps
import Verif.Sample.SynthProps

/-!
# C46: sorting of the partials, C79: starting values, C78: disambiguation
-/

set_option autoImplicit false
set_option linter.unusedSectionVars false
set_option linter.unusedSimpArgs false

namespace Verif.Beat

open Verif.Out

/-! ## C46 -/

section SortProps

variable {K : Type*} [Field K] [LinearOrder K]

/-- The partials in the other order. -/
def other (p : Octet K) : Octet K :=
  { a0 := p.a1, f0 := p.f1, d0 := p.d1, p0 := p.p1, a1 := p.a0, f1 := p.f0, d1 := p.d0, p1 := p.p0 }

/-- C46.  Sorting gives the two partials, in the same order or in the other one. -/
theorem C46_partials (p : Octet K) (key : Octet K → Option K × Option K) (desc : Bool) :
    sortParams p key desc = p ∨ sortParams p key desc = other p := by
  unfold sortParams
  simp only
  split
  · exact Or.inr rfl
  · exact Or.inl rfl

/-- C46.  If the feature of every partial does not depend on the order of the partials, sorting puts
the features in the order asked for. -/
theorem C46_sorted (p : Octet K) (key : Octet K → Option K × Option K)
    (hk : ∀ q, key (other q) = ((key q).2, (key q).1)) (x y : K) (hp : key p = (some x, some y))
    (desc : Bool) :
    ∃ x' y', key (sortParams p key desc) = (some x', some y') ∧
      if desc then y' ≤ x' else x' ≤ y' := by
  have h : sortParams p key desc = if (desc ^^ argmin2 (key p)) then other p else p := rfl
  rw [h, hp]
  by_cases hlt : y < x
  · have ha : argmin2 (some x, some y) = true := by simp [argmin2, hlt]
    rw [ha]
    cases desc with
    | false =>
      exact ⟨y, x, by simp [hk, hp], by simpa using hlt.le⟩
    | true => exact ⟨x, y, by simp [hp], by simpa using hlt.le⟩
  · have ha : argmin2 (some x, some y) = false := by simp [argmin2, hlt]
    rw [ha]
    cases desc with
    | false => exact ⟨x, y, by simp [hp], by simpa using not_lt.mp hlt⟩
    | true => exact ⟨y, x, by simp [hk, hp], by simpa using not_lt.mp hlt⟩

/-- C46.  By default the feature is the energy `a² d / 4` of a partial. -/
theorem C46_energy (p : Octet K) :
    (sortParams p paramEnergies false).a0 ^ 2 * (sortParams p paramEnergies false).d0 / 4 ≤
        (sortParams p paramEnergies false).a1 ^ 2 * (sortParams p paramEnergies false).d1 / 4 ∧
      (sortParams p paramEnergies true).a1 ^ 2 * (sortParams p paramEnergies true).d1 / 4 ≤
        (sortParams p paramEnergies true).a0 ^ 2 * (sortParams p paramEnergies true).d0 / 4 := by
  constructor
  · obtain ⟨x, y, h1, h2⟩ := C46_sorted p paramEnergies (fun _ => rfl) _ _ rfl false
    simp only [paramEnergies, Sample.modalEnergy, Prod.mk.injEq, Option.some.injEq] at h1
    simp only [Bool.false_eq_true, if_false] at h2
    rw [h1.1, h1.2]
    exact h2
  · obtain ⟨x, y, h1, h2⟩ := C46_sorted p paramEnergies (fun _ => rfl) _ _ rfl true
    simp only [paramEnergies, Sample.modalEnergy, Prod.mk.injEq, Option.some.injEq] at h1
    simp only [if_true] at h2
    rw [h1.1, h1.2]
    exact h2

/-- C46.  Sorting twice in ascending order is sorting once. -/
theorem C46_idempotent (p : Octet K) (key : Octet K → Option K × Option K)
    (hk : ∀ q, key (other q) = ((key q).2, (key q).1)) (x y : K) (hp : key p = (some x, some y)) :
    sortParams (sortParams p key false) key false = sortParams p key false := by
  obtain ⟨x', y', h1, h2⟩ := C46_sorted p key hk x y hp false
  simp only [Bool.false_eq_true, if_false] at h2
  have h : ∀ q, sortParams q key false = if argmin2 (key q) then other q else q := fun q => by
    simp [sortParams, other]
  rw [h (sortParams p key false), h1]
  simp [argmin2, h2]

/-- C46.  In descending order partials with the same feature are exchanged every time. -/
theorem C46_descending_ties (p : Octet K) (key : Octet K → Option K × Option K) (x : K)
    (hp : key p = (some x, some x)) : sortParams p key true = other p := by
  simp [sortParams, hp, argmin2, other]

/-- C46.  A feature that is not a number comes first in ascending order and last in descending
order. -/
theorem C46_nan (p : Octet K) (key : Octet K → Option K × Option K)
    (hk : ∀ q, key (other q) = ((key q).2, (key q).1)) (x : K)
    (hp : key p = (some x, none) ∨ key p = (none, some x)) :
    key (sortParams p key false) = (none, some x) ∧ key (sortParams p key true) = (some x, none) := by
  have h : ∀ d, sortParams p key d = if (d ^^ argmin2 (key p)) then other p else p := fun _ => rfl
  rw [h, h]
  rcases hp with hp | hp <;> rw [hp] <;> simp [argmin2, hk, hp]

example : sortParams (⟨2, 1, 440, 442, 1, 1, 0, 3⟩ : Octet ℚ) paramEnergies false =
    ⟨1, 2, 442, 440, 1, 1, 3, 0⟩ := by decide +kernel

example : sortParams (⟨2, 1, 440, 442, 1, 1, 0, 3⟩ : Octet ℚ) paramEnergies true =
    ⟨2, 1, 440, 442, 1, 1, 0, 3⟩ := by decide +kernel

/-- Two partials with the same energy. -/
example : sortParams (⟨2, 2, 440, 442, 1, 1, 0, 3⟩ : Octet ℚ) paramEnergies true =
    ⟨2, 2, 442, 440, 1, 1, 3, 0⟩ := by decide +kernel

end SortProps

/-! ## C79 -/

/-- The smallest and the largest value. -/
theorem foldl_min_le (l : List ℝ) (x : ℝ) : (l.foldl min x ≤ x) ∧ (∀ y ∈ l, l.foldl min x ≤ y) ∧
    (l.foldl min x = x ∨ l.foldl min x ∈ l) := by
  induction l generalizing x with
  | nil => simp
  | cons a l ih =>
    obtain ⟨h1, h2, h3⟩ := ih (min x a)
    simp only [List.foldl_cons]
    refine ⟨h1.trans (min_le_left _ _), ?_, ?_⟩
    · intro y hy
      rcases List.mem_cons.mp hy with rfl | hy
      · exact h1.trans (min_le_right _ _)
      · exact h2 y hy
    · rcases h3 with h3 | h3
      · rcases min_choice x a with h | h
        · left; rw [h3, h]
        · right; rw [h3, h]; simp
      · right; exact List.mem_cons_of_mem _ h3

theorem foldl_le_max (l : List ℝ) (x : ℝ) : (x ≤ l.foldl max x) ∧ (∀ y ∈ l, y ≤ l.foldl max x) ∧
    (l.foldl max x = x ∨ l.foldl max x ∈ l) := by
  induction l generalizing x with
  | nil => simp
  | cons a l ih =>
    obtain ⟨h1, h2, h3⟩ := ih (max x a)
    simp only [List.foldl_cons]
    refine ⟨(le_max_left _ _).trans h1, ?_, ?_⟩
    · intro y hy
      rcases List.mem_cons.mp hy with rfl | hy
      · exact (le_max_right _ _).trans h1
      · exact h2 y hy
    · rcases h3 with h3 | h3
      · rcases max_choice x a with h | h
        · left; rw [h3, h]
        · right; rw [h3, h]; simp
      · right; exact List.mem_cons_of_mem _ h3

theorem npMin_ok (l : List ℝ) (h : l ≠ []) :
    ∃ m, npMin l = .ok m ∧ m ∈ l ∧ ∀ y ∈ l, m ≤ y := by
  cases l with
  | nil => exact absurd rfl h
  | cons x l =>
    obtain ⟨h1, h2, h3⟩ := foldl_min_le l x
    refine ⟨_, rfl, ?_, ?_⟩
    · rcases h3 with h3 | h3
      · rw [h3]; simp
      · exact List.mem_cons_of_mem _ h3
    · intro y hy
      rcases List.mem_cons.mp hy with rfl | hy
      · exact h1
      · exact h2 y hy

theorem npMax_ok (l : List ℝ) (h : l ≠ []) :
    ∃ m, npMax l = .ok m ∧ m ∈ l ∧ ∀ y ∈ l, y ≤ m := by
  cases l with
  | nil => exact absurd rfl h
  | cons x l =>
    obtain ⟨h1, h2, h3⟩ := foldl_le_max l x
    refine ⟨_, rfl, ?_, ?_⟩
    · rcases h3 with h3 | h3
      · rw [h3]; simp
      · exact List.mem_cons_of_mem _ h3
    · intro y hy
      rcases List.mem_cons.mp hy with rfl | hy
      · exact h1
      · exact h2 y hy

/-- When the amplitudes of the starting value are strictly inside their bounds. -/
theorem ampBounds_iff (lo hi a : ℝ) (h0 : 0 < lo) (hle : lo ≤ hi) (ha : 0 < a) :
    ((ampBounds lo hi a a).1 < a ∧ a < (ampBounds lo hi a a).2) ↔ (lo ≠ hi ∨ a < hi) := by
  unfold ampBounds
  by_cases h : lo = hi
  · subst h
    rw [if_pos rfl, if_neg h0.ne]
    simp [ha]
  · have hlt : lo < hi := lt_of_le_of_ne hle h
    rw [if_neg h]
    simp only
    constructor
    · intro _; exact Or.inl h
    · intro _
      have e1 : a ≤ max (max hi a) a := le_max_right _ _
      have e2 : min (min lo a) a ≤ a := min_le_right _ _
      have e3 : hi ≤ max (max hi a) a := (le_max_left _ _).trans (le_max_left _ _)
      have e4 : min (min lo a) a ≤ lo := (min_le_left _ _).trans (min_le_left _ _)
      constructor
      · apply max_lt ha
        linarith
      · linarith

/-- When the frequencies of the starting value are strictly inside their bounds. -/
theorem freqBounds_iff (lo hi c am : ℝ) (h1 : lo ≤ c) (h2 : c ≤ hi) :
    ((freqBounds lo hi (c + am) (c - am)).1 < c + am ∧
      (freqBounds lo hi (c + am) (c - am)).1 < c - am ∧
      c + am < (freqBounds lo hi (c + am) (c - am)).2 ∧
      c - am < (freqBounds lo hi (c + am) (c - am)).2) ↔ lo ≠ hi := by
  unfold freqBounds
  simp only
  have e1 : c + am ≤ max (max (c + am) (c - am)) hi := (le_max_left _ _).trans (le_max_left _ _)
  have e2 : c - am ≤ max (max (c + am) (c - am)) hi := (le_max_right _ _).trans (le_max_left _ _)
  have e3 : min (min (c + am) (c - am)) lo ≤ c + am := (min_le_left _ _).trans (min_le_left _ _)
  have e4 : min (min (c + am) (c - am)) lo ≤ c - am := (min_le_left _ _).trans (min_le_right _ _)
  constructor
  · rintro ⟨-, -, h3, h4⟩ rfl
    have hc : c = lo := le_antisymm h2 h1
    subst hc
    rw [sub_self, min_eq_left (by norm_num : (0 : ℝ) ≤ 1), add_zero] at h3 h4
    rcases max_cases (c + am) (c - am) with ⟨h, h'⟩ | ⟨h, h'⟩ <;> rw [h] at h3 h4 <;>
      rcases max_cases (c + am) c with ⟨g, g'⟩ | ⟨g, g'⟩ <;>
      rcases max_cases (c - am) c with ⟨k, k'⟩ | ⟨k, k'⟩ <;>
      (first | rw [g] at h3 h4 | skip) <;> (first | rw [k] at h3 h4 | skip) <;> linarith
  · intro h
    have hlt : lo < hi := lt_of_le_of_ne (h1.trans h2) h
    have : 0 < min (hi - lo) 1 := lt_min (by linarith) one_pos
    refine ⟨by linarith, by linarith, by linarith, by linarith⟩

theorem mean_between (f : List ℝ) (lo hi : ℝ) (hf : f ≠ []) (h : ∀ x ∈ f, lo ≤ x ∧ x ≤ hi) :
    lo ≤ f.sum / f.length ∧ f.sum / f.length ≤ hi := by
  have hl : (0 : ℝ) < f.length := by
    have := List.length_pos_of_ne_nil hf
    exact_mod_cast this
  have key : lo * f.length ≤ f.sum ∧ f.sum ≤ hi * f.length := by
    clear hf hl
    induction f with
    | nil => simp
    | cons a f ih =>
      obtain ⟨i1, i2⟩ := ih fun x hx => h x (List.mem_cons_of_mem _ hx)
      obtain ⟨j1, j2⟩ := h a (by simp)
      simp only [List.sum_cons, List.length_cons]
      push_cast
      constructor <;> linarith
  rw [le_div_iff₀ hl, div_le_iff₀ hl]
  exact key

/-- The tracks from which the regression can start: the frequency is not constant, the magnitude is
not constant either (or lies above the starting amplitude), the trend of the magnitude decays, and
its decay time is below 100 seconds. -/
def Startable (eps : ℝ) (a f : List ℝ) (k q : ℝ) : Prop :=
  (∃ x ∈ f, ∃ y ∈ f, x ≠ y) ∧
  ((∃ x ∈ a, ∃ y ∈ a, x ≠ y) ∨ ∀ x ∈ a, (10 : ℝ) ^ (q / 20) / 2 < (10 : ℝ) ^ (x / 20)) ∧
  k < 0 ∧ eps < 40 * Real.logb 10 (Real.exp 1) / -k ∧ 40 * Real.logb 10 (Real.exp 1) / -k < 100

/-- All parameters are in an interval. -/
structure Between (lo p hi : Octet ℝ) : Prop where
  a0 : lo.a0 ≤ p.a0 ∧ p.a0 ≤ hi.a0
  a1 : lo.a1 ≤ p.a1 ∧ p.a1 ≤ hi.a1
  f0 : lo.f0 ≤ p.f0 ∧ p.f0 ≤ hi.f0
  f1 : lo.f1 ≤ p.f1 ∧ p.f1 ≤ hi.f1
  d0 : lo.d0 ≤ p.d0 ∧ p.d0 ≤ hi.d0
  d1 : lo.d1 ≤ p.d1 ∧ p.d1 ≤ hi.d1
  p0 : lo.p0 ≤ p.p0 ∧ p.p0 ≤ hi.p0
  p1 : lo.p1 ≤ p.p1 ∧ p.p1 ≤ hi.p1

theorem ne_of_extremes (l : List ℝ) (m M : ℝ) (hm : m ∈ l) (hM : M ∈ l) (h1 : ∀ y ∈ l, m ≤ y)
    (h2 : ∀ y ∈ l, y ≤ M) : (∃ x ∈ l, ∃ y ∈ l, x ≠ y) ↔ m ≠ M := by
  constructor
  · rintro ⟨x, hx, y, hy, hne⟩ rfl
    exact hne (le_antisymm ((h2 x hx).trans (h1 y hy)) ((h2 y hy).trans (h1 x hx)))
  · intro h
    exact ⟨m, hm, M, hM, h⟩

theorem db2a_pos (x : ℝ) : 0 < Dsp.db2a x := by
  unfold Dsp.db2a
  positivity

theorem db2a_lt (x y : ℝ) : Dsp.db2a x < Dsp.db2a y ↔ x < y := by
  unfold Dsp.db2a
  rw [Real.rpow_lt_rpow_left_iff (by norm_num)]
  constructor <;> intro h <;> linarith

theorem db2a_inj (x y : ℝ) (h : Dsp.db2a x = Dsp.db2a y) : x = y := by
  rcases lt_trichotomy x y with h' | h' | h'
  · exact absurd h ((db2a_lt x y).mpr h').ne
  · exact h'
  · exact absurd h.symm ((db2a_lt y x).mpr h').ne

theorem log10_e_pos : 0 < Real.logb 10 (Real.exp 1) :=
  Real.logb_pos (by norm_num) (by simpa using Real.one_lt_exp_iff.mpr one_pos)

/-- The decay time is inside its bounds. -/
theorem decay_iff (eps k d : ℝ) (he : 0 < eps) (hk : k ≠ 0) (hd : d = Sample.d2kConst / k) :
    (eps < d ∧ d < 100) ↔ (k < 0 ∧ eps < 40 * Real.logb 10 (Real.exp 1) / -k ∧
      40 * Real.logb 10 (Real.exp 1) / -k < 100) := by
  have h : 40 * Real.logb 10 (Real.exp 1) / -k = d := by
    rw [hd, Sample.d2kConst, div_neg, neg_mul, neg_div]
  rw [h]
  constructor
  · rintro ⟨h1, h2⟩
    refine ⟨?_, h1, h2⟩
    by_contra h3
    have hkp : 0 < k := lt_of_le_of_ne (not_lt.mp h3) (Ne.symm hk)
    have : d < 0 := by
      rw [hd]
      apply div_neg_of_neg_of_pos _ hkp
      unfold Sample.d2kConst
      linarith [log10_e_pos]
    linarith
  · rintro ⟨-, h1, h2⟩
    exact ⟨h1, h2⟩

/-- The starting value is strictly inside the bounds. -/
def Inside (p : Start) (d : ℝ) (lo hi : Octet ℝ) : Prop :=
  lo.a0 < p.a0 ∧ lo.a1 < p.a1 ∧ lo.f0 < p.f0 ∧ lo.f1 < p.f1 ∧ lo.d0 < d ∧ lo.d1 < d ∧
    lo.p0 < p.p0 ∧ lo.p1 < p.p1 ∧ p.a0 < hi.a0 ∧ p.a1 < hi.a1 ∧ p.f0 < hi.f0 ∧ p.f1 < hi.f1 ∧
    d < hi.d0 ∧ d < hi.d1 ∧ p.p0 < hi.p0 ∧ p.p1 < hi.p1

theorem feasible_some (p : Start) (d : ℝ) (lo hi : Octet ℝ) (h0 : p.d0 = some d)
    (h1 : p.d1 = some d) (h : Inside p d lo hi) :
    feasible p lo hi = some ⟨p.a0, p.a1, p.f0, p.f1, d, d, p.p0, p.p1⟩ := by
  unfold feasible
  rw [h0, h1]
  exact if_pos h

theorem feasible_none (p : Start) (d : ℝ) (lo hi : Octet ℝ) (h0 : p.d0 = some d)
    (h1 : p.d1 = some d) (h : ¬ Inside p d lo hi) : feasible p lo hi = none := by
  unfold feasible
  rw [h0, h1]
  exact if_neg h

/-- C79.  Whatever the starting value and the bounds, the optimiser starts from the starting value itself, and only if
this is finite and strictly inside the bounds in all eight coordinates. -/
theorem C79_inside (p : Start) (lo hi x : Octet ℝ) : feasible p lo hi = some x ↔
    (p.a0 = x.a0 ∧ p.a1 = x.a1 ∧ p.f0 = x.f0 ∧ p.f1 = x.f1 ∧ p.d0 = some x.d0 ∧ p.d1 = some x.d1 ∧ p.p0 = x.p0 ∧
      p.p1 = x.p1) ∧
    (lo.a0 < x.a0 ∧ x.a0 < hi.a0) ∧ (lo.a1 < x.a1 ∧ x.a1 < hi.a1) ∧ (lo.f0 < x.f0 ∧ x.f0 < hi.f0) ∧
    (lo.f1 < x.f1 ∧ x.f1 < hi.f1) ∧ (lo.d0 < x.d0 ∧ x.d0 < hi.d0) ∧ (lo.d1 < x.d1 ∧ x.d1 < hi.d1) ∧
    (lo.p0 < x.p0 ∧ x.p0 < hi.p0) ∧ (lo.p1 < x.p1 ∧ x.p1 < hi.p1) := by
  obtain ⟨a0, a1, f0, f1, d0, d1, p0, p1⟩ := p
  obtain ⟨b0, b1, g0, g1, e0, e1, q0, q1⟩ := x
  unfold feasible
  cases d0 with
  | none => simp
  | some d0 =>
    cases d1 with
    | none => simp
    | some d1 =>
      simp only [Option.ite_none_right_eq_some, Option.some.injEq, Octet.mk.injEq]
      constructor
      · rintro ⟨h, rfl, rfl, rfl, rfl, rfl, rfl, rfl, rfl⟩
        tauto
      · rintro ⟨⟨rfl, rfl, rfl, rfl, rfl, rfl, rfl, rfl⟩, h⟩
        tauto

/-- Different decay times of the partials. -/
example : feasible ⟨1, 2, 3, 4, some 5, some 6, 0, 1⟩ ⟨0, 0, 0, 0, 0, 0, -1, 0⟩ ⟨7, 7, 7, 7, 7, 7, 1, 2⟩ =
    some ⟨1, 2, 3, 4, 5, 6, 0, 1⟩ := by
  rw [C79_inside]
  norm_num

/-- C79.  With the default starting value and bounds the optimiser is called exactly for the tracks
of at least two points that are `Startable`, with a starting value inside the bounds; for all others
there is a `ValueError`. -/
theorem C79_start (reg : List ℝ → List ℝ → Except PyErr (ℝ × ℝ))
    (peaks : List ℝ → List ℝ → List ℝ) (phat : List ℝ → List ℝ → ℝ → ℝ) (fs eps : ℝ) (he : 0 < eps)
    (solve : Octet ℝ → Octet ℝ → Octet ℝ → Except PyErr (Octet ℝ)) (t a f : List ℝ)
    (ha : a.length = t.length) (hf : f.length = t.length) (k q : ℝ) (hr : reg t a = .ok (k, q)) :
    (2 ≤ t.length ∧ Startable eps a f k q → ∃ x0 lo hi,
      fitBeat (defaultInit reg peaks phat fs) (defaultBounds eps) solve t a f = solve x0 lo hi ∧
      Between lo x0 hi ∧ 0 ≤ lo.a0 ∧ 0 ≤ lo.a1 ∧ lo.d0 = eps ∧ lo.d1 = eps ∧ hi.d0 = 100 ∧
      hi.d1 = 100 ∧
      -- half of the amplitude at time zero, frequencies on both sides of the mean, the decay of the
      -- trend
      (∃ δ φ, x0 = ⟨10 ^ (q / 20) / 2, 10 ^ (q / 20) / 2, f.sum / f.length + δ, f.sum / f.length - δ,
        40 * Real.logb 10 (Real.exp 1) / -k, 40 * Real.logb 10 (Real.exp 1) / -k, 0, φ⟩ ∧
        (∀ l ls, peaks t a = l :: ls → δ = fs / (2 * l)) ∧ (peaks t a = [] → δ = 0))) ∧
    (¬ (2 ≤ t.length ∧ Startable eps a f k q) →
      fitBeat (defaultInit reg peaks phat fs) (defaultBounds eps) solve t a f =
        .error .valueError) := by
  simp only [fitBeat, defaultInit, hr, defaultBounds]
  by_cases hl : t.length ≤ 1
  · rw [if_pos hl]
    refine ⟨fun h => absurd h.1 (by omega), fun _ => rfl⟩
  rw [if_neg hl]
  have hane : a.map Dsp.db2a ≠ [] := by
    intro h
    have := congrArg List.length h
    simp only [List.length_map, List.length_nil] at this
    omega
  have hfne : f ≠ [] := by
    intro h
    rw [h, List.length_nil] at hf
    omega
  obtain ⟨am, am1, am2, am3⟩ := npMin_ok _ hane
  obtain ⟨aM, aM1, aM2, aM3⟩ := npMax_ok _ hane
  obtain ⟨fm, fm1, fm2, fm3⟩ := npMin_ok _ hfne
  obtain ⟨fM, fM1, fM2, fM3⟩ := npMax_ok _ hfne
  rw [am1, aM1, fm1, fM1]
  simp only
  have hmean := mean_between f fm fM hfne fun x hx => ⟨fm3 x hx, fM3 x hx⟩
  set c := f.sum / f.length with hc
  set w := amFreq fs (peaks t a) with hw
  set ph := -2 * phat t a w with hph
  have hF : (∃ x ∈ f, ∃ y ∈ f, x ≠ y) ↔ fm ≠ fM := ne_of_extremes f fm fM fm2 fM2 fm3 fM3
  have hA : (∃ x ∈ a, ∃ y ∈ a, x ≠ y) ↔ am ≠ aM := by
    rw [← ne_of_extremes _ am aM am2 aM2 am3 aM3]
    constructor
    · rintro ⟨x, hx, y, hy, h⟩
      exact ⟨_, List.mem_map_of_mem hx, _, List.mem_map_of_mem hy, fun e => h (db2a_inj x y e)⟩
    · rintro ⟨x', hx, y', hy, h⟩
      obtain ⟨x, hx', rfl⟩ := List.mem_map.mp hx
      obtain ⟨y, hy', rfl⟩ := List.mem_map.mp hy
      exact ⟨x, hx', y, hy', fun e => h (by rw [e])⟩
  have hpos : 0 < am := by
    obtain ⟨x, -, rfl⟩ := List.mem_map.mp am2
    exact db2a_pos x
  have hle : am ≤ aM := am3 _ aM2
  have hA0 : 0 < Dsp.db2a q / 2 := by linarith [db2a_pos q]
  have hAmp : (am ≠ aM ∨ Dsp.db2a q / 2 < aM) ↔ ((∃ x ∈ a, ∃ y ∈ a, x ≠ y) ∨
      ∀ x ∈ a, (10 : ℝ) ^ (q / 20) / 2 < (10 : ℝ) ^ (x / 20)) := by
    rw [hA]
    by_cases he : am = aM
    · simp only [he, ne_eq, not_true, false_or]
      constructor
      · intro h x hx
        have h1 := am3 _ (List.mem_map_of_mem (f := Dsp.db2a) hx)
        have : Dsp.db2a q / 2 < Dsp.db2a x := by linarith
        simpa only [Dsp.db2a] using this
      · intro h
        obtain ⟨x, hx, hxe⟩ := List.mem_map.mp aM2
        rw [← hxe]
        exact h x hx
    · simp [he]
  have hab := ampBounds_iff am aM (Dsp.db2a q / 2) hpos hle hA0
  rw [hAmp] at hab
  have hfb := freqBounds_iff fm fM c w hmean.1 hmean.2
  rw [← hF] at hfb
  have hlo : 0 ≤ (ampBounds am aM (Dsp.db2a q / 2) (Dsp.db2a q / 2)).1 := by
    unfold ampBounds
    split
    · exact le_refl _
    · exact le_max_left _ _
  have hpi := Real.pi_pos
  by_cases hk : k = 0
  · have hS : ¬ Startable eps a f k q := fun h => by
      have := h.2.2.1
      rw [hk] at this
      exact lt_irrefl _ this
    refine ⟨fun h => absurd h.2 hS, fun _ => ?_⟩
    simp [feasible, boundsOf, Sample.slopeToDecay, hk]
  · have hsl : Sample.slopeToDecay k = some (Sample.d2kConst / k) := by simp [Sample.slopeToDecay, hk]
    have hd := decay_iff eps k _ he hk rfl
    by_cases hS : Startable eps a f k q
    · obtain ⟨s1, s2, s3⟩ := hS
      obtain ⟨f1, f2, f3, f4⟩ := hfb.mpr s1
      obtain ⟨a1, a2⟩ := hab.mpr s2
      obtain ⟨d1, d2⟩ := hd.mpr s3
      refine ⟨fun _ => ?_, fun h => absurd ⟨by omega, s1, s2, s3⟩ h⟩
      rw [feasible_some _ _ _ _ hsl hsl ⟨a1, a1, f1, f2, d1, d1, by simp [boundsOf, hpi],
        by simp [boundsOf, hpi], a2, a2, f3, f4, d2, d2, by simp [boundsOf, hpi],
        by simp [boundsOf, hpi]⟩]
      refine ⟨_, _, _, rfl, ?_⟩
      refine ⟨⟨⟨a1.le, a2.le⟩, ⟨a1.le, a2.le⟩, ⟨f1.le, f3.le⟩, ⟨f2.le, f4.le⟩, ⟨d1.le, d2.le⟩,
        ⟨d1.le, d2.le⟩, ⟨?_, ?_⟩, ⟨?_, ?_⟩⟩, hlo, hlo, rfl, rfl, rfl, rfl, w, ph, ?_, ?_, ?_⟩
      · simp [boundsOf, hpi.le]
      · simp [boundsOf, hpi.le]
      · simp [boundsOf, hpi.le]
      · simp [boundsOf, hpi.le]
      · have : Sample.d2kConst / k = 40 * Real.logb 10 (Real.exp 1) / -k := by
          rw [Sample.d2kConst, div_neg, neg_mul, neg_div]
        simp only [this, Dsp.db2a, hc]
      · intro l ls hp
        rw [hw, hp, amFreq]
      · intro hp
        rw [hw, hp, amFreq]
    · refine ⟨fun h => absurd h.2 hS, fun _ => ?_⟩
      rw [feasible_none _ _ _ _ hsl hsl]
      rintro ⟨a1, -, f1, f2, d1, -, -, -, a2, -, f3, f4, d2, -, -, -⟩
      exact hS ⟨hfb.mp ⟨f1, f2, f3, f4⟩, hab.mp ⟨a1, a2⟩, hd.mp ⟨d1, d2⟩⟩

/-- C79.  A track with a constant frequency, a track whose magnitude does not decay and a track of
less than two points are a `ValueError`, whatever the optimiser does. -/
theorem C79_unfeasible (reg : List ℝ → List ℝ → Except PyErr (ℝ × ℝ))
    (peaks : List ℝ → List ℝ → List ℝ) (phat : List ℝ → List ℝ → ℝ → ℝ) (fs eps : ℝ) (he : 0 < eps)
    (solve : Octet ℝ → Octet ℝ → Octet ℝ → Except PyErr (Octet ℝ)) (t a f : List ℝ)
    (ha : a.length = t.length) (hf : f.length = t.length) (k q : ℝ) (hr : reg t a = .ok (k, q))
    (h : (∃ c, ∀ x ∈ f, x = c) ∨ 0 ≤ k ∨ t.length < 2) :
    fitBeat (defaultInit reg peaks phat fs) (defaultBounds eps) solve t a f =
      .error .valueError := by
  apply (C79_start reg peaks phat fs eps he solve t a f ha hf k q hr).2
  rintro ⟨h2, ⟨x, hx, y, hy, hne⟩, -, hk, -⟩
  rcases h with ⟨c, hc⟩ | h | h
  · exact hne ((hc x hx).trans (hc y hy).symm)
  · linarith
  · omega

/-- C79.  If the optimiser stays inside the bounds that it is given, the amplitudes are not negative
and the decay times are positive and at most 100 seconds. -/
theorem C79_result (reg : List ℝ → List ℝ → Except PyErr (ℝ × ℝ))
    (peaks : List ℝ → List ℝ → List ℝ) (phat : List ℝ → List ℝ → ℝ → ℝ) (fs eps : ℝ) (he : 0 < eps)
    (solve : Octet ℝ → Octet ℝ → Octet ℝ → Except PyErr (Octet ℝ))
    (hs : ∀ x0 lo hi r, Between lo x0 hi → solve x0 lo hi = .ok r → Between lo r hi) (t a f : List ℝ)
    (ha : a.length = t.length) (hf : f.length = t.length) (r : Octet ℝ)
    (h : fitBeat (defaultInit reg peaks phat fs) (defaultBounds eps) solve t a f = .ok r) :
    0 ≤ r.a0 ∧ 0 ≤ r.a1 ∧ 0 < r.d0 ∧ r.d0 ≤ 100 ∧ 0 < r.d1 ∧ r.d1 ≤ 100 := by
  cases hr : reg t a with
  | error e => simp [fitBeat, defaultInit, hr] at h
  | ok kq =>
    obtain ⟨k, q⟩ := kq
    obtain ⟨h1, h2⟩ := C79_start reg peaks phat fs eps he solve t a f ha hf k q hr
    by_cases hS : 2 ≤ t.length ∧ Startable eps a f k q
    · obtain ⟨x0, lo, hi, e1, e2, e3, e4, e5, e6, e7, e8, -⟩ := h1 hS
      rw [e1] at h
      have hb := hs _ _ _ _ e2 h
      exact ⟨e3.trans hb.a0.1, e4.trans hb.a1.1, by linarith [hb.d0.1], by linarith [hb.d0.2],
        by linarith [hb.d1.1], by linarith [hb.d1.2]⟩
    · rw [h2 hS] at h
      cases h

/-- A track from which the regression can start. -/
example : Startable (1 / 10 ^ 15) [0, -20] [440, 442] (-20) 0 := by
  have h := log10_e_pos
  have h1 : Real.logb 10 (Real.exp 1) < 1 := by
    rw [Real.logb_lt_iff_lt_rpow (by norm_num) (Real.exp_pos 1), Real.rpow_one]
    have := Real.exp_one_lt_d9
    linarith
  have h2 : 1 / 10 < Real.logb 10 (Real.exp 1) := by
    rw [Real.lt_logb_iff_rpow_lt (by norm_num) (Real.exp_pos 1)]
    calc (10 : ℝ) ^ (1 / 10 : ℝ) ≤ (2 ^ (10 : ℕ) : ℝ) ^ (1 / 10 : ℝ) := by
          apply Real.rpow_le_rpow <;> norm_num
      _ = 2 := by
          rw [← Real.rpow_natCast, ← Real.rpow_mul (by norm_num)]
          norm_num
      _ < Real.exp 1 := by linarith [Real.exp_one_gt_d9]
  refine ⟨⟨440, by simp, 442, by simp, by norm_num⟩, Or.inl ⟨0, by simp, -20, by simp, by norm_num⟩,
    by norm_num, ?_, ?_⟩
  · norm_num
    linarith
  · norm_num
    linarith

/-! ## C78 -/

/-- The sum of the partials with the parameters `p`. -/
noncomputable def octetSum (p : Octet ℝ) : ℝ → ℂ :=
  modalSum (fun s => p.a0 * Real.exp (-2 / p.d0 * s)) (fun s => p.a1 * Real.exp (-2 / p.d1 * s))
    p.f0 p.f1 p.p0 p.p1

/-- The beat with the parameters `p`. -/
noncomputable def octetBeat (p : Octet ℝ) : Beat :=
  ⟨(expDecay p.a0 p.d0).par, (expDecay p.a1 p.d1).par, .num p.f0, .num p.f1, .num p.p0, .num p.p1,
    .fn fun t => p.a0 * Real.exp (-2 / p.d0 * t) * (-2 / p.d0),
    .fn fun t => p.a1 * Real.exp (-2 / p.d1 * t) * (-2 / p.d1)⟩

theorem octetBeat_eq (p : Octet ℝ) (h0 : p.d0 ≠ 0) (h1 : p.d1 ≠ 0) :
    modalBeat p.a0 p.a1 p.f0 p.f1 p.d0 p.d1 p.p0 p.p1 = .ok (octetBeat p) := by
  rw [modalBeat, if_neg (by tauto)]
  rfl

theorem octetBeat_fit (p : Octet ℝ) : Fit (octetBeat p) := ⟨trivial, trivial, trivial⟩

theorem octetBeat_z (p : Octet ℝ) : (octetBeat p).z = octetSum p := rfl

/-- The amplitudes of the beat with the parameters `p`. -/
noncomputable def ampTrack (p : Octet ℝ) (ts : List ℝ) : List ℝ := ts.map fun t => ‖octetSum p t‖

open Classical in
/-- The absolute frequencies (in Hertz) of the beat with the parameters `p`. -/
noncomputable def freqTrack (p : Octet ℝ) (ts : List ℝ) : List Cell :=
  ts.map fun t => if octetSum p t = 0 then none
    else some |(deriv (octetSum p) t / octetSum p t).im / (2 * Real.pi)|

theorem octet_modal (p : Octet ℝ) (t : ℝ) :
    Modal (expDecay p.a0 p.d0) (expDecay p.a1 p.d1) p.f0 p.f1 p.p0 p.p1 (octetBeat p) t := by
  refine ⟨rfl, trivial, ?_, ?_⟩
  · intro d e
    obtain ⟨q, q1, q2⟩ := C44_decay p.a0 p.d0 t
    rw [q1] at e
    cases e
    exact q2
  · intro d e
    obtain ⟨q, q1, q2⟩ := C44_decay p.a1 p.d1 t
    rw [q1] at e
    cases e
    exact q2

/-- The residuals in terms of the two tracks. -/
theorem residuals_eq (L : Loss) (ts : List ℝ) (aLin fAbs : List Cell) (p : Octet ℝ) (h0 : p.d0 ≠ 0)
    (h1 : p.d1 ≠ 0) :
    residuals L ts aLin fAbs p =
      if (L.amp aLin ((ampTrack p ts).map some)).length =
          ((L.freq fAbs (L.clip (freqTrack p ts))).map fun c => c.map fun v => L.w * v).length then
        .ok (L.amp aLin ((ampTrack p ts).map some),
          (L.freq fAbs (L.clip (freqTrack p ts))).map fun c => c.map fun v => L.w * v)
      else .error .valueError := by
  classical
  have ham := am_ar (octetBeat p) ts (octetBeat_fit p)
  have hfm := fm_ar (octetBeat p) ts (octetBeat_fit p)
  have e1 : (ts.map fun t => some (Real.sqrt (vAlpha2 (octetBeat p) t) * 2)) =
      (ampTrack p ts).map some := by
    rw [ampTrack, List.map_map]
    apply List.map_congr_left
    intro t _
    rw [two_sqrt, octetBeat_z]
    rfl
  rw [e1] at ham
  unfold residuals
  rw [octetBeat_eq p h0 h1]
  simp only
  rw [show (Val.ar (ts.map some)) = axis ts from rfl, ham, hfm]
  simp only [elems, List.map_map]
  have e2 : (List.map ((fun c => Option.map (fun v : ℝ => |v / (2 * Real.pi)|) c) ∘ fun t =>
      if vAlpha2 (octetBeat p) t = 0 then none
      else some ((vAo (octetBeat p) t * vAh (octetBeat p) t *
        (2 * Real.pi * (((octetBeat p).f0.at t - (octetBeat p).f1.at t) / 2)) + vG (octetBeat p) t) /
        vAlpha2 (octetBeat p) t + 2 * Real.pi *
          (((octetBeat p).f0.at t + (octetBeat p).f1.at t) / 2))) ts) = freqTrack p ts := by
    unfold freqTrack
    apply List.map_congr_left
    intro t _
    simp only [Function.comp_apply]
    have hz := vAlpha2_zero (octetBeat p) t
    rw [octetBeat_z] at hz
    by_cases h : octetSum p t = 0
    · rw [if_pos h, if_pos (hz.mpr h)]
      rfl
    · have hα : vAlpha2 (octetBeat p) t ≠ 0 := fun e => h (hz.mp e)
      rw [if_neg h, if_neg hα]
      have hm := octet_modal p t
      have := vFm_eq hm hα _ (modal_deriv hm).differentiableAt.hasDerivAt
      simp only [Option.map_some]
      rw [show (deriv (octetSum p) t / octetSum p t).im = vFm (octetBeat p) t from this.symm]
      rfl
  rw [e2]

/-- Residuals exist only for decay times that are not zero. -/
theorem residuals_decays (L : Loss) (ts : List ℝ) (aLin fAbs : List Cell) (p : Octet ℝ)
    (r : List Cell × List Cell) (h : residuals L ts aLin fAbs p = .ok r) : p.d0 ≠ 0 ∧ p.d1 ≠ 0 := by
  by_contra hc
  have : p.d0 = 0 ∨ p.d1 = 0 := by tauto
  rw [residuals, modalBeat, if_pos this] at h
  cases h

/-- Both hypotheses have the same amplitudes. -/
theorem ampTrack_exchange (p : Octet ℝ) (ts : List ℝ) : ampTrack (exchange p) ts = ampTrack p ts := by
  unfold ampTrack
  apply List.map_congr_left
  intro t _
  rw [← octetBeat_z, ← octetBeat_z, ← two_sqrt, ← two_sqrt]
  have : vPh (octetBeat (exchange p)) t = -vPh (octetBeat p) t := by
    simp only [vPh, octetBeat, exchange, Par.at]
    ring
  rw [vAlpha2, vAlpha2, this, Real.cos_neg]
  rfl

/-- Both hypotheses have finite frequencies at the same times. -/
theorem octetSum_exchange (p : Octet ℝ) (t : ℝ) : octetSum (exchange p) t = 0 ↔ octetSum p t = 0 := by
  have := ampTrack_exchange p [t]
  simp only [ampTrack, List.map_cons, List.map_nil, List.cons.injEq, and_true] at this
  rw [← norm_eq_zero, this, norm_eq_zero]

/-- C78.  The residuals of the amplitudes are the same for both associations of frequencies with
amplitudes: only the frequencies tell them apart. -/
theorem C78_amplitude (L : Loss) (ts : List ℝ) (aLin fAbs : List Cell) (p : Octet ℝ)
    (A F A' F' : List Cell) (h : residuals L ts aLin fAbs p = .ok (A, F))
    (h' : residuals L ts aLin fAbs (exchange p) = .ok (A', F')) : A' = A := by
  obtain ⟨d0, d1⟩ := residuals_decays L ts aLin fAbs p _ h
  rw [residuals_eq L ts aLin fAbs p d0 d1] at h
  rw [residuals_eq L ts aLin fAbs (exchange p) d0 d1, ampTrack_exchange] at h'
  split at h
  · split at h'
    · injection h with h
      injection h' with h'
      rw [← (Prod.mk.inj h).1, ← (Prod.mk.inj h').1]
    · cases h'
  · cases h

/-- C78.  Whatever the comparison does with values that are not finite, the result is one of the two
hypotheses, and every partial keeps its amplitude and decay time. -/
theorem C78_one_of (lt : Cell → Cell → Bool) (L : Loss) (ts : List ℝ) (aLin fAbs : List Cell)
    (p r : Octet ℝ) (h : disambiguate lt L ts aLin fAbs p = .ok r) :
    r = p ∨ r = { p with f0 := p.f1, f1 := p.f0, p0 := p.p1, p1 := p.p0 } := by
  unfold disambiguate at h
  split at h
  · split at h
    · exact Or.inr (Except.ok.inj h).symm
    · exact Or.inl (Except.ok.inj h).symm
  · cases h
  · cases h

/-- C78.  With finite sums of squares the result is the hypothesis with the smaller one, and the
parameters of the optimiser if they are equal. -/
theorem C78_choice (lt : Cell → Cell → Bool) (hlt : ∀ x y : ℝ, lt (some x) (some y) = decide (x < y))
    (L : Loss) (ts : List ℝ) (aLin fAbs : List Cell) (p : Octet ℝ) (s s' : ℝ)
    (h : ssr L ts aLin fAbs p = .ok (some s))
    (h' : ssr L ts aLin fAbs (exchange p) = .ok (some s')) :
    ∃ r, disambiguate lt L ts aLin fAbs p = .ok r ∧ ssr L ts aLin fAbs r = .ok (some (min s s')) ∧
      (s ≤ s' → r = p) ∧
      (s' < s → r = { p with f0 := p.f1, f1 := p.f0, p0 := p.p1, p1 := p.p0 }) := by
  unfold disambiguate
  rw [h, h']
  simp only [hlt]
  by_cases hs : s' < s
  · exact ⟨exchange p, by simp [hs], by rw [min_eq_right hs.le, h'], fun h => absurd hs (not_lt.mpr h),
      fun _ => rfl⟩
  · exact ⟨p, by simp [hs], by rw [min_eq_left (not_lt.mp hs), h], fun _ => rfl,
      fun h => absurd h hs⟩

theorem sumSq_some (l : List ℝ) : sumSq (l.map some) = some (l.map (· ^ 2)).sum := by
  induction l with
  | nil => rfl
  | cons a l ih => simp [sumSq, ih, lift2]

/-- C78.  The association is exchanged exactly if that makes the sum of the squared residuals of the
frequencies smaller. -/
theorem C78_frequency (lt : Cell → Cell → Bool)
    (hlt : ∀ x y : ℝ, lt (some x) (some y) = decide (x < y)) (L : Loss) (ts : List ℝ)
    (aLin fAbs : List Cell) (p : Octet ℝ) (A F A' F' : List ℝ)
    (h : residuals L ts aLin fAbs p = .ok (A.map some, F.map some))
    (h' : residuals L ts aLin fAbs (exchange p) = .ok (A'.map some, F'.map some)) :
    disambiguate lt L ts aLin fAbs p = .ok
      (if (F'.map (· ^ 2)).sum < (F.map (· ^ 2)).sum then
        { p with f0 := p.f1, f1 := p.f0, p0 := p.p1, p1 := p.p0 } else p) := by
  have hA : A' = A := by
    have := C78_amplitude L ts aLin fAbs p _ _ _ _ h h'
    exact (List.map_injective_iff.mpr (Option.some_injective _)) this
  subst hA
  have e : ssr L ts aLin fAbs p = .ok (some ((A'.map (· ^ 2)).sum + (F.map (· ^ 2)).sum)) := by
    simp only [ssr, h, ← List.map_append, sumSq_some, List.sum_append]
    simp
  have e' : ssr L ts aLin fAbs (exchange p) =
      .ok (some ((A'.map (· ^ 2)).sum + (F'.map (· ^ 2)).sum)) := by
    simp only [ssr, h', ← List.map_append, sumSq_some, List.sum_append]
    simp
  unfold disambiguate
  rw [e, e']
  simp only [hlt, add_lt_add_iff_left]
  by_cases hs : (F'.map (· ^ 2)).sum < (F.map (· ^ 2)).sum <;> simp [hs, exchange]

/-- C78.  The regression with disambiguation disambiguates the result of the optimiser; without it
returns that result; errors are passed on. -/
theorem C78_fit (dis : Bool) (lt : Cell → Cell → Bool) (L : Loss)
    (init : List ℝ → List ℝ → List ℝ → Except PyErr Start)
    (bounds : List ℝ → List ℝ → List ℝ → Start → Except PyErr (Octet ℝ × Octet ℝ))
    (solve : Octet ℝ → Octet ℝ → Octet ℝ → Except PyErr (Octet ℝ)) (t a f : List ℝ) (r : Octet ℝ)
    (h : fitDual dis lt L init bounds solve t a f = .ok r) :
    ∃ p, fitBeat init bounds solve t a f = .ok p ∧
      (dis = false → r = p) ∧
      (dis = true → disambiguate lt L t (a.map fun x => some ((10 : ℝ) ^ (x / 20)))
        (f.map fun x => some |x|) p = .ok r) := by
  unfold fitDual at h
  cases hp : fitBeat init bounds solve t a f with
  | error e =>
    rw [hp] at h
    cases h
  | ok p =>
    rw [hp] at h
    refine ⟨p, rfl, ?_, ?_⟩
    · rintro rfl
      exact (Except.ok.inj h).symm
    · rintro rfl
      exact h

theorem zip_finite (x y : List ℝ) (h : x.length = y.length) :
    List.zipWith (lift2 fun u v : ℝ => some (u - v)) (x.map some) (y.map some) =
      (List.zipWith (fun u v => u - v) x y).map some := by
  induction x generalizing y with
  | nil => rfl
  | cons a x ih =>
    cases y with
    | nil => simp at h
    | cons b y =>
      simp only [List.map_cons, List.zipWith_cons_cons, lift2, Option.bind_some, List.cons.injEq,
        true_and]
      exact ih y (by simpa using h)

/-- The Mel scale where it is defined. -/
noncomputable def melOf (f : ℝ) : ℝ := 2595 * Real.logb 10 (1 + f / 700)

theorem mel_finite (l : List ℝ) (h : ∀ x ∈ l, 0 ≤ x) :
    (l.map some).map (fun c => c.bind mel) = (l.map melOf).map some := by
  simp only [List.map_map]
  apply List.map_congr_left
  intro x hx
  have : ¬ x ≤ -700 := by
    have := h x hx
    linarith
  simp [mel, this, melOf]

/-- The frequencies where the sum of the partials is not zero. -/
noncomputable def freqOf (p : Octet ℝ) (ts : List ℝ) : List ℝ :=
  ts.map fun t => |(deriv (octetSum p) t / octetSum p t).im / (2 * Real.pi)|

theorem freqTrack_finite (p : Octet ℝ) (ts : List ℝ) (h : ∀ t ∈ ts, octetSum p t ≠ 0) :
    freqTrack p ts = (freqOf p ts).map some := by
  unfold freqTrack freqOf
  rw [List.map_map]
  apply List.map_congr_left
  intro t ht
  rw [if_neg (h t ht)]
  rfl

theorem freqOf_nonneg (p : Octet ℝ) (ts : List ℝ) : ∀ x ∈ freqOf p ts, 0 ≤ x := by
  intro x hx
  obtain ⟨t, -, rfl⟩ := List.mem_map.mp hx
  exact abs_nonneg _

/-- The default losses. -/
noncomputable def defaultLoss (w : ℝ) (clip : List Cell → List Cell) : Loss :=
  ⟨defaultAmpLoss, defaultFreqLoss, w, clip⟩

/-- C78.  With the default losses the residuals are the differences of the amplitudes and, weighted, the
differences of the limited absolute frequencies on the Mel scale. -/
theorem C78_residuals (w : ℝ) (clip : List Cell → List Cell) (ts x y : List ℝ)
    (hx : x.length = ts.length) (hy : y.length = ts.length) (hy0 : ∀ v ∈ y, 0 ≤ v)
    (p : Octet ℝ) (h0 : p.d0 ≠ 0) (h1 : p.d1 ≠ 0) (c : List ℝ)
    (hc : clip (freqTrack p ts) = c.map some) (hcl : c.length = ts.length) (hc0 : ∀ v ∈ c, 0 ≤ v) :
    residuals (defaultLoss w clip) ts (x.map some) (y.map some) p =
      .ok ((List.zipWith (fun u v => u - v) x (ampTrack p ts)).map some,
        ((List.zipWith (fun u v => u - v) (y.map melOf) (c.map melOf)).map (w * ·)).map some) := by
  rw [residuals_eq _ _ _ _ p h0 h1]
  have hl : (ampTrack p ts).length = ts.length := by simp [ampTrack]
  have e1 : (defaultLoss w clip).amp (x.map some) ((ampTrack p ts).map some) =
      (List.zipWith (fun u v => u - v) x (ampTrack p ts)).map some := zip_finite _ _ (by omega)
  have e2 : (defaultLoss w clip).freq (y.map some) ((defaultLoss w clip).clip (freqTrack p ts)) =
      (List.zipWith (fun u v => u - v) (y.map melOf) (c.map melOf)).map some := by
    rw [show (defaultLoss w clip).clip (freqTrack p ts) = c.map some from hc]
    show defaultFreqLoss _ _ = _
    rw [defaultFreqLoss, mel_finite y hy0, mel_finite c hc0]
    exact zip_finite _ _ (by simp [hy, hcl])
  rw [e1, e2]
  rw [if_pos (by simp [hx, hy, hcl, hl])]
  simp [defaultLoss, Function.comp_def]

theorem sum_sq_nonneg (l : List ℝ) : 0 ≤ (l.map (· ^ 2)).sum := by
  apply List.sum_nonneg
  intro x hx
  obtain ⟨y, -, rfl⟩ := List.mem_map.mp hx
  positivity

theorem zip_self_sq (l : List ℝ) : ((List.zipWith (fun u v => u - v) l l).map (· ^ 2)).sum = 0 := by
  induction l with
  | nil => rfl
  | cons a l ih => simp [ih]

theorem zip_sq_eq (x y : List ℝ) (h : x.length = y.length)
    (h0 : ((List.zipWith (fun u v => u - v) x y).map (· ^ 2)).sum = 0) : x = y := by
  induction x generalizing y with
  | nil => simpa using h.symm
  | cons a x ih =>
    cases y with
    | nil => simp at h
    | cons b y =>
      simp only [List.zipWith_cons_cons, List.map_cons, List.sum_cons] at h0
      have h1 := sum_sq_nonneg (List.zipWith (fun u v => u - v) x y)
      have h2 : 0 ≤ (a - b) ^ 2 := by positivity
      have h3 : (a - b) ^ 2 = 0 := by linarith
      have h4 : a = b := sub_eq_zero.mp (pow_eq_zero_iff two_ne_zero |>.mp h3)
      rw [h4, ih y (by simpa using h) (by linarith)]

theorem melOf_inj (x y : ℝ) (hx : 0 ≤ x) (hy : 0 ≤ y) (h : melOf x = melOf y) : x = y := by
  have h1 : Real.logb 10 (1 + x / 700) = Real.logb 10 (1 + y / 700) := by
    unfold melOf at h
    linarith
  have := Real.logb_injOn_pos (by norm_num : (1 : ℝ) < 10) (x₁ := 1 + x / 700) (x₂ := 1 + y / 700)
    (by simp only [Set.mem_Ioi]; positivity) (by simp only [Set.mem_Ioi]; positivity) h1
  linarith

theorem map_mel_inj (x y : List ℝ) (hx : ∀ v ∈ x, 0 ≤ v) (hy : ∀ v ∈ y, 0 ≤ v)
    (h : x.map melOf = y.map melOf) : x = y := by
  induction x generalizing y with
  | nil => simpa using h.symm
  | cons a x ih =>
    cases y with
    | nil => simp at h
    | cons b y =>
      simp only [List.map_cons, List.cons.injEq] at h
      rw [melOf_inj a b (hx a (by simp)) (hy b (by simp)) h.1,
        ih y (fun v hv => hx v (by simp [hv])) (fun v hv => hy v (by simp [hv])) h.2]

/-- C78.  If the tracks are exactly those of a beat and the optimiser finds the beat or the beat with
the wrong association, the regression (default losses) returns parameters without residuals.  `clip`
is any limitation of the frequencies that keeps them finite and not negative and does not touch the
frequencies of the data. -/
theorem C78_exact (lt : Cell → Cell → Bool) (hlt : ∀ x y : ℝ, lt (some x) (some y) = decide (x < y))
    (w : ℝ) (clip : List Cell → List Cell)
    (hclip : ∀ l : List ℝ, (∀ x ∈ l, 0 ≤ x) →
      ∃ l' : List ℝ, clip (l.map some) = l'.map some ∧ l'.length = l.length ∧ ∀ x ∈ l', 0 ≤ x)
    (init : List ℝ → List ℝ → List ℝ → Except PyErr Start)
    (bounds : List ℝ → List ℝ → List ℝ → Start → Except PyErr (Octet ℝ × Octet ℝ))
    (solve : Octet ℝ → Octet ℝ → Octet ℝ → Except PyErr (Octet ℝ)) (t a f : List ℝ)
    (g : Octet ℝ) (h0 : g.d0 ≠ 0) (h1 : g.d1 ≠ 0) (hz : ∀ u ∈ t, octetSum g u ≠ 0)
    (ha : a.map (fun x => (10 : ℝ) ^ (x / 20)) = t.map fun u => ‖octetSum g u‖)
    (hf : f.map (fun x => |x|) =
      t.map fun u => |(deriv (octetSum g) u / octetSum g u).im / (2 * Real.pi)|)
    (hfix : clip (f.map fun x => some |x|) = f.map fun x => some |x|)
    (p : Octet ℝ) (hp : fitBeat init bounds solve t a f = .ok p)
    (hpg : p = g ∨ p = { g with f0 := g.f1, f1 := g.f0, p0 := g.p1, p1 := g.p0 }) :
    ∃ r, fitDual true lt (defaultLoss w clip) init bounds solve t a f = .ok r ∧
      (r = g ∨ r = { g with f0 := g.f1, f1 := g.f0, p0 := g.p1, p1 := g.p0 }) ∧
      ssr (defaultLoss w clip) t (a.map fun x => some ((10 : ℝ) ^ (x / 20)))
        (f.map fun x => some |x|) r = .ok (some 0) := by
  set x := a.map (fun x => (10 : ℝ) ^ (x / 20)) with hx
  set y := f.map (fun x => |x|) with hy
  have hxs : (a.map fun x => some ((10 : ℝ) ^ (x / 20))) = x.map some := by simp [hx]
  have hys : (f.map fun x => some |x|) = y.map some := by simp [hy]
  have hxg : x = ampTrack g t := ha
  have hyg : y = freqOf g t := hf
  have hxl : x.length = t.length := by rw [ha]; simp
  have hyl : y.length = t.length := by rw [hf]; simp
  have hy0 : ∀ v ∈ y, 0 ≤ v := by rw [hyg]; exact freqOf_nonneg g t
  rw [hys] at hfix ⊢
  rw [hxs]
  have hze : ∀ u ∈ t, octetSum (exchange g) u ≠ 0 := fun u hu h => hz u hu ((octetSum_exchange g u).mp h)
  obtain ⟨c, c1, c2, c3⟩ := hclip (freqOf (exchange g) t) (freqOf_nonneg _ _)
  have r1 := C78_residuals w clip t x y hxl hyl hy0 g h0 h1 y
    (by rw [freqTrack_finite g t hz, ← hyg, hfix]) hyl hy0
  have r2 := C78_residuals w clip t x y hxl hyl hy0 (exchange g) h0 h1 c
    (by rw [freqTrack_finite _ t hze, c1]) (by rw [c2]; simp [freqOf]) c3
  have s1 : ssr (defaultLoss w clip) t (x.map some) (y.map some) g = .ok (some 0) := by
    simp only [ssr, r1, ← List.map_append, sumSq_some]
    rw [List.map_append, List.sum_append, ← hxg, zip_self_sq]
    have : ((List.zipWith (fun u v => u - v) (y.map melOf) (y.map melOf)).map (w * ·)).map (· ^ 2) =
        ((List.zipWith (fun u v => u - v) (y.map melOf) (y.map melOf)).map (· ^ 2)).map (w ^ 2 * ·) := by
      simp [Function.comp_def, mul_pow]
    rw [this, List.sum_map_mul_left, List.map_id', zip_self_sq]
    simp
  obtain ⟨s, hs, s2⟩ : ∃ s : ℝ, 0 ≤ s ∧
      ssr (defaultLoss w clip) t (x.map some) (y.map some) (exchange g) = .ok (some s) := by
    simp only [ssr, r2, ← List.map_append, sumSq_some]
    exact ⟨_, sum_sq_nonneg _, rfl⟩
  have hfd : fitDual true lt (defaultLoss w clip) init bounds solve t a f =
      disambiguate lt (defaultLoss w clip) t (x.map some) (y.map some) p := by
    rw [fitDual, hp, ← hxs, ← hys]
    rfl
  rw [hfd]
  rcases hpg with rfl | hpe
  · obtain ⟨r, e1, e2, e3, -⟩ := C78_choice lt hlt _ _ _ _ p 0 s s1 s2
    exact ⟨r, e1, Or.inl (e3 hs), by rw [e2, min_eq_left hs]⟩
  · have hpe' : p = exchange g := hpe
    subst hpe'
    obtain ⟨r, e1, e2, e3, e4⟩ := C78_choice lt hlt _ _ _ _ (exchange g) s 0 s2 s1
    refine ⟨r, e1, ?_, by rw [e2, min_eq_right hs]⟩
    rcases eq_or_lt_of_le hs with h | h
    · exact Or.inr (e3 h.symm.le)
    · exact Or.inl (e4 h)

/-- C78.  In that case, without a limitation of the frequencies, the beat that is returned has the
amplitudes and the frequencies of the data. -/
theorem C78_recovers (lt : Cell → Cell → Bool)
    (hlt : ∀ x y : ℝ, lt (some x) (some y) = decide (x < y)) (w : ℝ) (hw : w ≠ 0)
    (init : List ℝ → List ℝ → List ℝ → Except PyErr Start)
    (bounds : List ℝ → List ℝ → List ℝ → Start → Except PyErr (Octet ℝ × Octet ℝ))
    (solve : Octet ℝ → Octet ℝ → Octet ℝ → Except PyErr (Octet ℝ)) (t a f : List ℝ)
    (g : Octet ℝ) (h0 : g.d0 ≠ 0) (h1 : g.d1 ≠ 0) (hz : ∀ u ∈ t, octetSum g u ≠ 0)
    (ha : a.map (fun x => (10 : ℝ) ^ (x / 20)) = t.map fun u => ‖octetSum g u‖)
    (hf : f.map (fun x => |x|) =
      t.map fun u => |(deriv (octetSum g) u / octetSum g u).im / (2 * Real.pi)|)
    (p : Octet ℝ) (hp : fitBeat init bounds solve t a f = .ok p)
    (hpg : p = g ∨ p = { g with f0 := g.f1, f1 := g.f0, p0 := g.p1, p1 := g.p0 }) :
    ∃ r, fitDual true lt (defaultLoss w id) init bounds solve t a f = .ok r ∧
      (t.map fun u => ‖octetSum r u‖) = a.map (fun x => (10 : ℝ) ^ (x / 20)) ∧
      (t.map fun u => |(deriv (octetSum r) u / octetSum r u).im / (2 * Real.pi)|) =
        f.map fun x => |x| := by
  obtain ⟨r, e1, e2, e3⟩ := C78_exact lt hlt w id (fun l hl => ⟨l, rfl, rfl, hl⟩) init bounds solve t a f
    g h0 h1 hz ha hf rfl p hp hpg
  refine ⟨r, e1, ?_, ?_⟩
  · rcases e2 with rfl | rfl
    · exact ha.symm
    · exact (ampTrack_exchange g t).trans ha.symm
  · have hd : r.d0 ≠ 0 ∧ r.d1 ≠ 0 := by
      rcases e2 with rfl | rfl
      · exact ⟨h0, h1⟩
      · exact ⟨h0, h1⟩
    have hze : ∀ u ∈ t, octetSum r u ≠ 0 := by
      rcases e2 with rfl | rfl
      · exact hz
      · exact fun u hu h => hz u hu ((octetSum_exchange g u).mp h)
    have hys : (f.map fun x => some |x|) = (f.map fun x => |x|).map some := by simp
    have hxs : (a.map fun x => some ((10 : ℝ) ^ (x / 20))) =
        (a.map fun x => (10 : ℝ) ^ (x / 20)).map some := by simp
    have hy0 : ∀ v ∈ (f.map fun x => |x|), 0 ≤ v := by
      intro v hv
      obtain ⟨u, -, rfl⟩ := List.mem_map.mp hv
      exact abs_nonneg _
    rw [hys, hxs, ssr, C78_residuals w id t _ _ (by rw [ha]; simp) (by rw [hf]; simp) hy0 r hd.1 hd.2
      (freqOf r t) (by rw [freqTrack_finite r t hze]; rfl) (by simp [freqOf]) (freqOf_nonneg r t)] at e3
    simp only [← List.map_append, sumSq_some, Except.ok.injEq, Option.some.injEq] at e3
    rw [List.map_append, List.sum_append] at e3
    have n1 := sum_sq_nonneg (List.zipWith (fun u v => u - v) (a.map fun x => (10 : ℝ) ^ (x / 20))
      (ampTrack r t))
    have n2 := sum_sq_nonneg ((List.zipWith (fun u v => u - v) ((f.map fun x => |x|).map melOf)
      ((freqOf r t).map melOf)).map (w * ·))
    have n3 : (((List.zipWith (fun u v => u - v) ((f.map fun x => |x|).map melOf)
      ((freqOf r t).map melOf)).map (w * ·)).map (· ^ 2)).sum = 0 := by linarith
    have n4 : ((List.zipWith (fun u v => u - v) ((f.map fun x => |x|).map melOf)
      ((freqOf r t).map melOf)).map (w * ·)).map (· ^ 2) =
        ((List.zipWith (fun u v => u - v) ((f.map fun x => |x|).map melOf)
          ((freqOf r t).map melOf)).map (· ^ 2)).map (w ^ 2 * ·) := by
      simp [Function.comp_def, mul_pow]
    rw [n4, List.sum_map_mul_left, List.map_id', mul_eq_zero] at n3
    rcases n3 with n3 | n3
    · exact absurd n3 (pow_ne_zero 2 hw)
    · have := zip_sq_eq _ _ (by rw [hf]; simp [freqOf]) n3
      exact (map_mel_inj _ _ hy0 (freqOf_nonneg r t) this).symm

/-- Data that meet the hypotheses: two partials of 440 Hz and 442 Hz at time zero, where they do not
cancel. -/
example : ∃ (g : Octet ℝ) (a f : List ℝ), g.d0 ≠ 0 ∧ g.d1 ≠ 0 ∧ g.f0 ≠ g.f1 ∧ g.a0 ≠ g.a1 ∧
    (∀ u ∈ [(0 : ℝ)], octetSum g u ≠ 0) ∧
    a.map (fun x => (10 : ℝ) ^ (x / 20)) = [(0 : ℝ)].map (fun u => ‖octetSum g u‖) ∧
    f.map (fun x => |x|) =
      [(0 : ℝ)].map fun u => |(deriv (octetSum g) u / octetSum g u).im / (2 * Real.pi)| := by
  set g : Octet ℝ := ⟨1, 2, 440, 442, 1, 1, 0, 0⟩ with hg
  have h3 : octetSum g 0 = 3 := by
    simp [octetSum, modalSum, sumAt, partialAt, hg]
    norm_num
  refine ⟨g, [20 * Real.logb 10 3], [(deriv (octetSum g) 0 / octetSum g 0).im / (2 * Real.pi)],
    by simp [hg], by simp [hg], by norm_num [hg], by norm_num [hg], by simp [h3], ?_, by simp⟩
  simp only [List.map_cons, List.map_nil, h3, List.cons.injEq, and_true]
  rw [mul_div_cancel_left₀ _ (by norm_num : (20 : ℝ) ≠ 0),
    Real.rpow_logb (by norm_num) (by norm_num) (by norm_num)]
  simp

end Verif.Beat
