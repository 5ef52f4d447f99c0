import Verif.Out.PlotsModel
import Mathlib.Data.List.Basic
import Mathlib.Algebra.Order.Field.Basic
import Mathlib.Algebra.Order.Ring.Rat
import Mathlib.Tactic.Linarith
import Mathlib.Tactic.Ring
import Mathlib.Tactic.FieldSimp
import Mathlib.Tactic.NormNum
import Mathlib.Tactic.Positivity

/-!
# C107, C108: plots
-/

set_option autoImplicit false
set_option linter.unusedSectionVars false
set_option linter.unusedSimpArgs false

namespace Verif.Plots

open Verif.Tracker Verif.Sample

variable {K : Type*} [Field K] [LinearOrder K] [IsStrictOrderedRing K]

/-! ## C107: tracks -/

/-- What `SAMPLE` reads from the same model. -/
def analysis (m : Plotted K) (wsize : Nat) (padded : Bool) (doubleDb : K) : Analysis K :=
  ⟨m.fs, m.h, wsize, padded, m.reverse, doubleDb⟩

theorem foldl_max_ge (l : List K) (a : K) : a ≤ l.foldl max a ∧ ∀ x ∈ l, x ≤ l.foldl max a := by
  induction l generalizing a with
  | nil => exact ⟨le_refl _, by simp⟩
  | cons y l ih =>
    obtain ⟨h1, h2⟩ := ih (max a y)
    refine ⟨(le_max_left _ _).trans h1, ?_⟩
    intro x hx
    rcases List.mem_cons.1 hx with rfl | hx
    · exact (le_max_right _ _).trans h1
    · exact h2 x hx

theorem foldl_max_mem (l : List K) (a : K) : l.foldl max a = a ∨ l.foldl max a ∈ l := by
  induction l generalizing a with
  | nil => exact .inl rfl
  | cons y l ih =>
    rcases ih (max a y) with h | h
    · rw [List.foldl_cons, h]
      rcases max_choice a y with h' | h' <;> rw [h']
      · exact .inl rfl
      · exact .inr (by simp)
    · exact .inr (by rw [List.foldl_cons]; exact List.mem_cons_of_mem _ h)

/-- **C107.** In `sine_tracking_2d` the points of all the tracks are shifted in time by one and the same amount
against the times that `SAMPLE` fits the tracks at: by half a window to the left for an analysis without
padding, and for a reversed analysis by the difference between the end of the plot and the end of the sound
besides.  Each track has a point for each of its frames.  A plot of a reversed analysis without tracks and
without saved frames raises an error. -/
theorem C107_shift (m : Plotted K) (wsize : Nat) (padded : Bool) (doubleDb : K) (xsize : Nat) (hfs : m.fs ≠ 0)
    (hh : m.h ≠ 0) :
    (m.reverse = true ∧ m.saved = none ∧ m.tracks = [] ∧ times2d m = .error .valueError) ∨
    ∃ tm, tmax m = .ok tm ∧ ∃ ts, times2d m = .ok ts ∧ ts.length = m.tracks.length ∧
      ∀ (j : Nat) (t : Track K), m.tracks[j]? = some t → ∃ l, ts[j]? = some l ∧ l.length = t.freq.length ∧
        ∀ i, i < t.freq.length → l[i]? = some (frameTime (analysis m wsize padded doubleDb) xsize t.start i +
          (if m.reverse then tm - (xsize : K) / m.fs else 0) +
          (if padded then 0 else (if m.reverse then 1 else -1) * ((wsize : K) / 2 / m.fs))) := by
  cases htm : tmax m with
  | error e =>
    left
    unfold tmax at htm
    by_cases hr : m.reverse = true
    · rw [if_pos hr] at htm
      cases hs : m.saved with
      | some n => rw [hs] at htm; simp at htm
      | none =>
        rw [hs] at htm
        cases ht : m.tracks with
        | nil =>
          refine ⟨hr, rfl, rfl, ?_⟩
          unfold times2d tmax
          simp [hr, hs, ht, maxE]
        | cons t ts => rw [ht] at htm; simp [maxE] at htm
    · rw [if_neg hr] at htm
      simp at htm
  | ok tm =>
    right
    refine ⟨tm, rfl, _, by unfold times2d; rw [htm], by simp, ?_⟩
    intro j t hj
    refine ⟨_, by rw [List.getElem?_map, hj]; rfl, by simp, ?_⟩
    intro i hi
    rw [List.getElem?_map, List.getElem?_range hi]
    simp only [Option.map_some, Option.some.injEq]
    unfold plotTime frameTime analysis
    have h1 : ((i : K) + (t.start : K)) / (m.fs / m.h) = ((t.start : K) + (i : K)) * m.h / m.fs := by
      field_simp; ring
    simp only [h1]
    cases m.reverse <;> cases padded <;> simp <;> ring

/-- **C107.** In `sine_tracking_3d` the same holds for an analysis that is not reversed; that of a reversed
analysis is drawn backwards: the later a frame is, the earlier it is drawn. -/
theorem C107_3d (m : Plotted K) (wsize : Nat) (padded : Bool) (doubleDb : K) (xsize : Nat) (hfs : m.fs ≠ 0)
    (hh : m.h ≠ 0) (j : Nat) (t : Track K) (hj : m.tracks[j]? = some t) :
    ∃ l, (times3d m)[j]? = some l ∧ l.length = t.freq.length ∧ ∀ i, i < t.freq.length → ∃ p, l[i]? = some p ∧
      if m.reverse then
        p + frameTime (analysis m wsize padded doubleDb) xsize t.start i =
          (xsize : K) / m.fs - (if padded then 0 else (wsize : K) / 2 / m.fs)
      else
        p = frameTime (analysis m wsize padded doubleDb) xsize t.start i -
          (if padded then 0 else (wsize : K) / 2 / m.fs) := by
  refine ⟨_, by unfold times3d; rw [List.getElem?_map, hj]; rfl, by simp, ?_⟩
  intro i hi
  refine ⟨plotTime m t.start i, by rw [List.getElem?_map, List.getElem?_range hi]; rfl, ?_⟩
  unfold plotTime frameTime analysis
  have h1 : ((i : K) + (t.start : K)) / (m.fs / m.h) = ((t.start : K) + (i : K)) * m.h / m.fs := by
    field_simp; ring
  simp only [h1]
  cases m.reverse <;> cases padded <;> simp <;> ring

/-- **C107.** No point of `sine_tracking_2d` is before time zero, if the saved frames include those of the
tracks. -/
theorem C107_positive (m : Plotted K) (hfs : 0 < m.fs) (hh : 0 < m.h)
    (hsaved : ∀ n, m.saved = some n → ∀ t ∈ m.tracks, t.start + t.freq.length ≤ n) (ts : List (List K))
    (h : times2d m = .ok ts) : ∀ l ∈ ts, ∀ p ∈ l, 0 ≤ p := by
  unfold times2d at h
  cases htm : tmax m with
  | error e => rw [htm] at h; simp at h
  | ok tm =>
    rw [htm] at h
    simp only [Except.ok.injEq] at h
    subst h
    intro l hl p hp
    obtain ⟨t, ht, rfl⟩ := List.mem_map.1 hl
    obtain ⟨i, hi, rfl⟩ := List.mem_map.1 hp
    have hi' := List.mem_range.1 hi
    by_cases hr : m.reverse = true
    · rw [if_pos hr]
      have hle : ((t.start : K) + (t.freq.length : K)) * m.h / m.fs ≤ tm := by
        unfold tmax at htm
        rw [if_pos hr] at htm
        cases hs : m.saved with
        | some n =>
          rw [hs] at htm
          simp only [Except.ok.injEq] at htm
          rw [← htm]
          have := hsaved n hs t ht
          have h' : ((t.start : K) + (t.freq.length : K)) ≤ n := by exact_mod_cast this
          gcongr
        | none =>
          rw [hs] at htm
          simp only at htm
          cases hts : m.tracks with
          | nil => rw [hts] at ht; simp at ht
          | cons u us =>
            rw [hts] at htm ht
            simp only [List.map_cons, maxE, Except.ok.injEq] at htm
            obtain ⟨h1, h2⟩ := foldl_max_ge (us.map fun t => ((t.start : K) + (t.freq.length : K)) * m.h / m.fs)
              (((u.start : K) + (u.freq.length : K)) * m.h / m.fs)
            rw [htm] at h1 h2
            rcases List.mem_cons.1 ht with rfl | ht
            · exact h1
            · exact h2 _ (List.mem_map_of_mem (f := fun t : Track K => ((t.start : K) + (t.freq.length : K)) * m.h / m.fs) ht)
      have hlt : plotTime m t.start i ≤ ((t.start : K) + (t.freq.length : K)) * m.h / m.fs := by
        unfold plotTime
        have : ((i : Nat) : K) ≤ t.freq.length := by exact_mod_cast hi'.le
        gcongr
      linarith
    · rw [if_neg hr]
      unfold plotTime
      positivity

/-- **C107.** Tracks are dashed exactly when the decision for the beat was saved and positive. -/
theorem C107_dashed (decisions : Option (List Bool)) (i : Nat) :
    dashed decisions i = .ok true ↔ ∃ ds, decisions = some ds ∧ ds[i]? = some true := by
  cases decisions with
  | none => simp [dashed]
  | some ds =>
    simp only [dashed, getE, Option.some.injEq, exists_eq_left']
    cases ds[i]? <;> simp

/-! ## C108: time-frequency plots, resynthesis, players -/

/-- Spec: the limits shown, the whole matrix if none are given. -/
def shown : Option (K × K) → K × K → K × K
  | some lim, _ => lim
  | none, whole => whole

/-- **C108.** A time-frequency plot: the matrix is drawn between its own limits, the axes show the given ones, or all
of the matrix; the plot is `aspect_ratio` times as wide as it is high (`aspect` is the height of a unit of the
vertical axis in units of the horizontal one), and so is the figure, which is left as it is if axes are given. -/
theorem C108_aspect (tlim flim : K × K) (xlim ylim : Option (K × K)) (hasAx : Bool) (ratio width : K) (hr : ratio ≠ 0)
    (hx : (shown xlim tlim).2 ≠ (shown xlim tlim).1) (hy : (shown ylim flim).2 ≠ (shown ylim flim).1) :
    let r := tfPlot tlim flim xlim ylim hasAx ratio width
    r.extent = (tlim, flim) ∧ r.xlim = shown xlim tlim ∧ r.ylim = shown ylim flim ∧
    (r.xlim.2 - r.xlim.1) / ((r.ylim.2 - r.ylim.1) * r.aspect) = ratio ∧
    (hasAx = true → r.size = none) ∧
    (hasAx = false → ∃ w h, r.size = some (w, h) ∧ h = width ∧ w = ratio * h) := by
  have e : ∀ (o : Option (K × K)) (m : K × K), tfLim o m = shown o m := by intro o m; cases o <;> rfl
  have h1 : (shown xlim tlim).2 - (shown xlim tlim).1 ≠ 0 := sub_ne_zero.2 hx
  have h2 : (shown ylim flim).2 - (shown ylim flim).1 ≠ 0 := sub_ne_zero.2 hy
  refine ⟨rfl, e _ _, e _ _, ?_, fun h => by simp [tfPlot, h], fun h => ⟨ratio * width, 1 * width, by simp [tfPlot, h], one_mul _, by
    rw [one_mul]⟩⟩
  simp only [tfPlot, e, tfAspect]
  field_simp

/-- **C108.** `resynthesis` draws the original (if wanted), then each model in the order of the dictionary, each
on its own axes, and calls `foreach` with its number, its label and its signal; there are as many axes as are
needed.  The models are asked for the times of all the samples of the original. -/
theorem C108_resynthesis (original : Option String) (x : List K) (fs : K)
    (models : List (String × (List K → List K))) :
    let calls := resynthCalls original x (resynthTimes fs x.length) models
    calls.length + 1 = resynthAxes original models.length ∧
    (∀ (i : Nat) (c : Nat × Nat × String × List K), calls[i]? = some c → c.1 = i + 1 ∧ c.2.1 = i) ∧
    (∀ k, original = some k → calls[0]? = some (1, 0, k, x)) ∧
    ∀ (j : Nat) (k : String) (p : List K → List K), models[j]? = some (k, p) →
      ∃ i, i = j + (if original.isSome then 1 else 0) ∧
        calls[i]? = some (i + 1, i, k, p ((List.range x.length).map fun (n : Nat) => (n : K) / fs)) := by
  intro calls
  have hlen : (resynthWavs original x (resynthTimes fs x.length) models).length =
      models.length + (if original.isSome then 1 else 0) := by
    unfold resynthWavs
    cases original <;> simp [Nat.add_comm]
  refine ⟨?_, ?_, ?_, ?_⟩
  · simp only [calls, resynthCalls, resynthAxes, List.length_map, List.length_zipIdx, hlen]
    omega
  · intro i c h
    simp only [calls, resynthCalls, List.getElem?_map, List.getElem?_zipIdx, Option.map_map,
      Option.map_eq_some_iff, Function.comp] at h
    obtain ⟨w, -, rfl⟩ := h
    simp
  · rintro k rfl
    simp [calls, resynthCalls, resynthWavs, List.zipIdx_cons]
  · intro j k p hj
    refine ⟨_, rfl, ?_⟩
    simp only [calls, resynthCalls, List.getElem?_map, List.getElem?_zipIdx, Option.map_map]
    have : (resynthWavs original x (resynthTimes fs x.length) models)[j + (if original.isSome then 1 else 0)]? =
        some (k, p (resynthTimes fs x.length)) := by
      unfold resynthWavs
      cases original with
      | none => simp [hj]
      | some k' => simp [hj]
    rw [this]
    simp [resynthTimes]

/-- **C108.** The sample rate of a resynthesis is the given one, else the greatest of those of the models, else
44100. -/
theorem C108_rate (modelFs : List K) :
    (∀ f, resynthFs (some f) modelFs = f) ∧ (modelFs = [] → resynthFs none modelFs = 44100) ∧
    (modelFs ≠ [] → resynthFs none modelFs ∈ modelFs ∧ ∀ f ∈ modelFs, f ≤ resynthFs none modelFs) := by
  refine ⟨fun _ => by cases modelFs <;> rfl, by rintro rfl; rfl, ?_⟩
  intro h
  cases modelFs with
  | nil => exact absurd rfl h
  | cons f l =>
    obtain ⟨h1, h2⟩ := foldl_max_ge l f
    refine ⟨?_, ?_⟩
    · rcases foldl_max_mem l f with h' | h'
      · simp [resynthFs, h']
      · simp only [resynthFs]; exact List.mem_cons_of_mem _ h'
    · intro g hg
      rcases List.mem_cons.1 hg with rfl | hg
      · exact h1
      · exact h2 g hg

/-- **C108.** Samples within the range are played as they are, also without normalisation; no others are. -/
theorem C108_played (y : List K) :
    played true y = y ∧ (played false y).length = y.length ∧ (∀ v ∈ played false y, -1 ≤ v ∧ v ≤ 1) ∧
    ((∀ v ∈ y, -1 ≤ v ∧ v ≤ 1) → played false y = y) := by
  refine ⟨rfl, by simp [played], ?_, ?_⟩
  · intro v hv
    simp only [played, Bool.false_eq_true, if_false] at hv
    obtain ⟨u, -, rfl⟩ := List.mem_map.1 hv
    exact ⟨le_min (le_max_right _ _) (by norm_num), min_le_right _ _⟩
  · intro h
    simp only [played, Bool.false_eq_true, if_false]
    conv_rhs => rw [← List.map_id y]
    refine List.map_congr_left fun v hv => ?_
    obtain ⟨h1, h2⟩ := h v hv
    rw [max_eq_left h1, min_eq_left h2]
    rfl

/-- **C108.** There is a heading exactly when a number or a text is given; it has the text (if it is not empty,
or there is no number), and begins with the number counted from one. -/
theorem C108_label (i : Option Nat) (k : Option String) :
    (labelText i k = none ↔ i = none ∧ k = none) ∧
    (∀ t, i = none → k = some t → labelText i k = some t) ∧
    (∀ n, i = some n → ∃ rest, labelText i k = some (toString (n + 1) ++ rest) ∧
      (rest = "" ↔ k = none ∨ k = some "") ∧ ∀ t, k = some t → t ≠ "" → rest = " - " ++ t) := by
  refine ⟨?_, ?_, ?_⟩
  · cases i <;> cases k <;> simp [labelText]
    split <;> simp
  · rintro t rfl rfl
    rfl
  · rintro n rfl
    cases k with
    | none => exact ⟨"", by simp [labelText], by simp, by simp⟩
    | some t =>
      by_cases h : t = ""
      · subst h
        exact ⟨"", by simp [labelText], by simp, by simp⟩
      · refine ⟨" - " ++ t, by simp [labelText, h, String.append_assoc], ?_, by simp⟩
        simp only [Option.some.injEq, reduceCtorEq, false_or, h, iff_false]
        intro hc
        have := congrArg String.toList hc
        simp at this

/-! ## Cases -/

/-- A track of three frames, analysed in reverse. -/
example : (times2d (⟨10, 5, true, some 6, [⟨1, [some 1, some 1, some 1], [none, none, none], [none, none, none]⟩]⟩ : Plotted ℚ)).toOption =
      some [[5 / 2, 2, 3 / 2]] ∧
    (times2d (⟨10, 5, true, none, []⟩ : Plotted ℚ)).toOption = none ∧
    times3d (⟨10, 5, true, some 6, [⟨1, [some 1, some 1, some 1], [none, none, none], [none, none, none]⟩]⟩ : Plotted ℚ) =
      [[1 / 2, 1, 3 / 2]] := by
  decide +kernel

/-- Two models with the original. -/
example : resynthCalls (some "Original") [1, (2 : ℚ)] (resynthTimes 2 2) [("a", id), ("b", List.reverse)] =
    [(1, 0, "Original", [1, 2]), (2, 1, "a", [0, 1 / 2]), (3, 2, "b", [1 / 2, 0])] := by
  decide +kernel

end Verif.Plots
