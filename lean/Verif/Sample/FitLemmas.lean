import Verif.Sample.FitModel
import Verif.Sample.FitSpec
import Verif.Sample.Props
import Verif.Sample.SynthProps
import Verif.Sms.FitProps
import Verif.Hinge.Props
import Verif.Training.Props

/-!
# Lemmas for the whole of `SAMPLE.fit`
-/

set_option autoImplicit false
set_option linter.unusedSectionVars false
set_option linter.unusedSimpArgs false

namespace Verif.Tracker

variable {K : Type*} [Field K] [LinearOrder K] [IsStrictOrderedRing K]

theorem mean_map_affine (α β : K) (l : List K) (hl : l ≠ []) :
    mean (l.map fun x => α * x + β) = α * mean l + β := by
  have hn : (l.length : K) ≠ 0 := by
    have := List.length_pos_iff.2 hl
    positivity
  have hs : (l.map fun x => α * x + β).sum = α * l.sum + l.length * β := by
    clear hl hn
    induction l with
    | nil => simp
    | cons a l ih => simp only [List.map_cons, List.sum_cons, ih, List.length_cons]; push_cast; ring
  simp only [mean, hs, List.length_map]
  field_simp

/-- The slope under a change of units and origins. -/
theorem olsSlope_affine (α β γ : K) (hα : α ≠ 0) (xs ys : List K) (hx : xs ≠ []) (hy : ys ≠ []) :
    olsSlope (xs.map fun x => α * x + β) (ys.map fun y => y + γ) = olsSlope xs ys / α := by
  have e1 := mean_map_affine α β xs hx
  have e2 : mean (ys.map fun y => y + γ) = mean ys + γ := by
    have := mean_map_affine 1 γ ys hy
    simpa using this
  have hnum : ∀ (a b : K) (xs ys : List K),
      (((xs.map fun x => α * x + β).zip (ys.map fun y => y + γ)).map fun p =>
        (p.1 - (α * a + β)) * (p.2 - (b + γ))).sum =
      α * ((xs.zip ys).map fun p => (p.1 - a) * (p.2 - b)).sum := by
    intro a b xs
    induction xs with
    | nil => simp
    | cons x xs ih =>
      intro ys
      cases ys with
      | nil => simp
      | cons y ys =>
        simp only [List.map_cons, List.zip_cons_cons, List.sum_cons, ih ys]
        ring
  have hden : ∀ (a : K) (xs : List K),
      ((xs.map fun x => α * x + β).map fun x => (x - (α * a + β)) ^ 2).sum =
      α ^ 2 * (xs.map fun x => (x - a) ^ 2).sum := by
    intro a xs
    induction xs with
    | nil => simp
    | cons x xs ih =>
      simp only [List.map_cons, List.sum_cons, ih]
      ring
  unfold olsSlope
  rw [e1, e2, hnum, hden]
  by_cases h0 : (xs.map fun x => (x - mean xs) ^ 2).sum = 0
  · simp [h0]
  · field_simp

theorem mean_pos (l : List K) (hl : l ≠ []) (h : ∀ a ∈ l, 0 < a) : 0 < mean l := by
  have hn : (0 : K) < l.length := by exact_mod_cast List.length_pos_iff.2 hl
  exact div_pos (List.sum_pos _ h hl) hn

theorem mean_lt (l : List K) (hl : l ≠ []) {b : K} (h : ∀ a ∈ l, a < b) : mean l < b := by
  have hn : (0 : K) < l.length := by exact_mod_cast List.length_pos_iff.2 hl
  unfold mean
  rw [div_lt_iff₀ hn]
  clear hn
  induction l with
  | nil => simp at hl
  | cons a l ih =>
    simp only [List.sum_cons, List.length_cons, Nat.cast_add, Nat.cast_one]
    have h1 := h a (by simp)
    by_cases hl' : l = []
    · subst hl'; simpa using h1
    · have := ih hl' fun c hc => h c (by simp [hc])
      linarith

end Verif.Tracker

namespace Verif.Sample

open Verif.Tracker

theorem allSome_map {α : Type*} (l : List α) : allSome (l.map some) = some l := by
  induction l with
  | nil => rfl
  | cons a l ih => simp [allSome, ih]

theorem npMean_map (l : List ℝ) (hl : l ≠ []) : npMean (l.map some) = some (mean l) := by
  cases l with
  | nil => simp at hl
  | cons a l => simp only [npMean, allSome_map]

theorem sampleAt_freq {K : Type*} [Field K] [LinearOrder K] (t : Track K) (ht : t.Aligned) (i : Nat)
    (hi : i < t.mag.length) :
    (t.sampleAt (t.start + i)).map (fun pk => pk.freq) = t.freq.getD i none := by
  obtain ⟨h1, h2, h3⟩ := ht
  have hf : i < t.freq.length := by omega
  have hp : i < t.phase.length := by omega
  have h4 := h3 i
  simp only [Track.sampleAt, Nat.le_add_right, if_true, Nat.add_sub_cancel_left,
    List.getElem?_eq_getElem hi, List.getElem?_eq_getElem hf, List.getElem?_eq_getElem hp,
    List.getD_eq_getElem?_getD, Option.getD_some, Option.some.injEq] at h4 ⊢
  cases e1 : t.mag[i] with
  | none =>
    rw [h4.1.2 e1]
    rfl
  | some m =>
    rw [e1] at h4
    cases e2 : t.freq[i] with
    | none => exact absurd (h4.1.1 e2) (by simp)
    | some f =>
      cases e3 : t.phase[i] with
      | none => exact absurd (h4.2.1 e3) (by simp)
      | some ph => rfl

theorem kept_freq {K : Type*} [Field K] [LinearOrder K] (t : Track K) (ht : t.Aligned) :
    (kept t).map (fun e => e.2.freq) = t.freq.filterMap id := by
  have e : t.freq = (List.range t.mag.length).map fun i => t.freq.getD i none := by
    rw [← ht.1]; exact eq_map_range t.freq none
  conv_rhs => rw [e]
  rw [List.filterMap_map, kept, List.map_filterMap, List.range'_eq_map_range, List.filterMap_map]
  apply List.filterMap_congr
  intro i hi
  simp only [Function.comp, Option.map_map, id]
  rw [← sampleAt_freq t ht i (List.mem_range.1 hi)]
  rfl

theorem sampleAt_mag {K : Type*} [Field K] [LinearOrder K] (t : Track K) (ht : t.Aligned) (i : Nat)
    (hi : i < t.mag.length) :
    (t.sampleAt (t.start + i)).map (fun pk => pk.mag) = t.mag.getD i none := by
  obtain ⟨h1, h2, h3⟩ := ht
  have hf : i < t.freq.length := by omega
  have hp : i < t.phase.length := by omega
  have h4 := h3 i
  simp only [Track.sampleAt, Nat.le_add_right, if_true, Nat.add_sub_cancel_left,
    List.getElem?_eq_getElem hi, List.getElem?_eq_getElem hf, List.getElem?_eq_getElem hp,
    List.getD_eq_getElem?_getD, Option.getD_some, Option.some.injEq] at h4 ⊢
  cases e1 : t.mag[i] with
  | none =>
    rw [h4.1.2 e1]
    rfl
  | some m =>
    rw [e1] at h4
    cases e2 : t.freq[i] with
    | none => exact absurd (h4.1.1 e2) (by simp)
    | some f =>
      cases e3 : t.phase[i] with
      | none => exact absurd (h4.2.1 e3) (by simp)
      | some ph => rfl

theorem kept_mag {K : Type*} [Field K] [LinearOrder K] (t : Track K) (ht : t.Aligned) :
    (kept t).map (fun e => e.2.mag) = t.mag.filterMap id := by
  have e := eq_map_range t.mag none
  conv_rhs => rw [e]
  rw [List.filterMap_map, kept, List.map_filterMap, List.range'_eq_map_range, List.filterMap_map]
  apply List.filterMap_congr
  intro i hi
  simp only [Function.comp, Option.map_map, id]
  rw [← sampleAt_mag t ht i (List.mem_range.1 hi)]
  rfl

theorem kept_frames_eq {K : Type*} [Field K] [LinearOrder K] (t : Track K) (ht : t.Aligned)
    (hn : none ∉ t.mag) :
    (kept t).map (fun e => e.1) = List.range' t.start t.mag.length := by
  have : ∀ k ∈ List.range' t.start t.mag.length,
      ((t.sampleAt k).map fun pk => (k, pk)).map (fun e => e.1) = some k := by
    intro k hk
    obtain ⟨i, hi, rfl⟩ := List.mem_range'.1 hk
    simp only [one_mul] at *
    have h := sampleAt_mag t ht i hi
    cases hs : t.sampleAt (t.start + i) with
    | none =>
      rw [hs] at h
      exfalso
      apply hn
      simp only [Option.map_none, List.getD_eq_getElem?_getD, List.getElem?_eq_getElem hi,
        Option.getD_some] at h
      rw [h]
      exact List.getElem_mem hi
    | some pk => rfl
  rw [kept, List.map_filterMap]
  rw [List.filterMap_congr this]
  simp

theorem kept_frames {K : Type*} (t : Track K) : (kept t).Pairwise fun a b => a.1 < b.1 := by
  rw [kept, List.pairwise_filterMap]
  refine List.Pairwise.imp ?_ (List.pairwise_lt_range' (s := t.start) (n := t.mag.length))
  intro a b hab x hx y hy
  obtain ⟨_, _, rfl⟩ := Option.map_eq_some_iff.1 hx
  obtain ⟨_, _, rfl⟩ := Option.map_eq_some_iff.1 hy
  exact hab

theorem points_spread (p : Sms.Params ℝ) (hh : 1 ≤ p.hop) (hfs : 0 < p.tracker.fs) (t : Track ℝ)
    (h2 : 2 ≤ (kept t).length) :
    0 < (((trackPoints p t).map Prod.fst).map fun x =>
      (x - mean ((trackPoints p t).map Prod.fst)) ^ 2).sum := by
  have hf := kept_frames t
  rcases hk : kept t with _ | ⟨a, _ | ⟨b, l⟩⟩
  · rw [hk] at h2; simp at h2
  · rw [hk] at h2; simp at h2
  · rw [hk] at hf
    have hab : a.1 < b.1 := (List.pairwise_cons.1 hf).1 b (by simp)
    apply sum_sq_pos _ _ (pointTime p a.1) (pointTime p b.1)
    · simp [trackPoints, hk]
    · simp [trackPoints, hk]
    · have h1 : (0 : ℝ) < p.hop := by exact_mod_cast hh
      have h3 : (a.1 : ℝ) < b.1 := by exact_mod_cast hab
      unfold pointTime
      intro h
      rw [div_left_inj' hfs.ne', mul_left_inj' h1.ne'] at h
      split at h <;> linarith

end Verif.Sample
