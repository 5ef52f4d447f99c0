import Verif.Tracker.DecayLemmas

/-!
# Lemmas: tracking of partials that sound from the beginning, for some number of frames
-/

set_option autoImplicit false
set_option linter.unusedSectionVars false
set_option linter.unusedSimpArgs false

namespace Verif.Tracker

/-- Index in time of the analysis frame `l` among `L` frames. -/
def timeIndex (rev : Bool) (L l : Nat) : Nat := if rev then L - 1 - l else l

open Classical in
/-- The peaks of partials (labelled by the numbers in `S`); the partial `b` has the peak `P e b` in the frames
`e = 0, ..., N b - 1`, counted in time.  `rev`: time runs backwards. -/
noncomputable def lastPart (rev : Bool) (L : Nat) (S : List Nat) (N : Nat → Nat) (P : Nat → Nat → Peak ℝ)
    (l b : Nat) : Option (Peak ℝ) :=
  if b ∈ S ∧ timeIndex rev L l < N b then some (P (timeIndex rev L l) b) else none

/-- The track of such a partial. -/
def lastTrack (rev : Bool) (L N : Nat) (P : Nat → Peak ℝ) : Track ℝ :=
  ⟨if rev then L - N else 0, (List.range N).map fun i => some (P (timeIndex rev N i)).freq,
    (List.range N).map fun i => some (P (timeIndex rev N i)).mag,
    (List.range N).map fun i => some (P (timeIndex rev N i)).phase⟩

section

variable {rev : Bool} {L : Nat} {S : List Nat} {N : Nat → Nat} {P : Nat → Nat → Peak ℝ}

theorem lastPart_some {l b : Nat} {p : Peak ℝ} : lastPart rev L S N P l b = some p ↔
    (b ∈ S ∧ timeIndex rev L l < N b) ∧ P (timeIndex rev L l) b = p := by
  unfold lastPart
  split
  · rename_i h; simp [h]
  · rename_i h; simp [h]

theorem lastPart_none {l b : Nat} : lastPart rev L S N P l b = none ↔
    ¬ (b ∈ S ∧ timeIndex rev L l < N b) := by
  unfold lastPart
  split <;> simp_all

theorem last_run (hN : ∀ b ∈ S, N b ≤ L) (b i j : Nat) : Run (lastPart rev L S N P) L b i j ↔
    b ∈ S ∧ 0 < N b ∧ i = (if rev then L - N b else 0) ∧ j = i + N b := by
  constructor
  · rintro ⟨hs, hend⟩
    have hlt := hs.lt
    have hjL : j ≤ L := by rcases hend with h | h <;> omega
    obtain ⟨p, hp⟩ := hs.some i (le_refl _) hlt
    obtain ⟨⟨hb, h1⟩, _⟩ := lastPart_some.1 hp
    obtain ⟨q, hq⟩ := hs.some (j - 1) (by omega) (by omega)
    obtain ⟨⟨_, h2⟩, _⟩ := lastPart_some.1 hq
    have h3 := hN b hb
    refine ⟨hb, by omega, ?_⟩
    cases rev with
    | false =>
      simp only [timeIndex, Bool.false_eq_true, if_false] at h1 h2 ⊢
      have hi : i = 0 := by
        by_contra h0
        have := hs.first (i - 1) (by omega)
        rw [lastPart_none] at this
        exact this ⟨hb, by simp only [timeIndex, Bool.false_eq_true, if_false]; omega⟩
      refine ⟨hi, ?_⟩
      rcases hend with h | ⟨h, h'⟩
      · omega
      · rw [lastPart_none] at h'
        by_contra h0
        exact h' ⟨hb, by simp only [timeIndex, Bool.false_eq_true, if_false]; omega⟩
    | true =>
      simp only [timeIndex, if_true] at h1 h2 ⊢
      have hj : j = L := by
        rcases hend with h | ⟨h, h'⟩
        · exact h
        · exfalso
          rw [lastPart_none] at h'
          exact h' ⟨hb, by simp only [timeIndex, if_true]; omega⟩
      have hi : i = L - N b := by
        by_contra h0
        have := hs.first (i - 1) (by omega)
        rw [lastPart_none] at this
        exact this ⟨hb, by simp only [timeIndex, if_true]; omega⟩
      exact ⟨hi, by omega⟩
  · rintro ⟨hb, h0, hi, rfl⟩
    have h3 := hN b hb
    cases rev with
    | false =>
      simp only [Bool.false_eq_true, if_false] at hi
      subst hi
      refine ⟨⟨by omega, ?_, by omega⟩, ?_⟩
      · intro k _ hk
        exact ⟨_, lastPart_some.2 ⟨⟨hb, by simp only [timeIndex, Bool.false_eq_true, if_false]; omega⟩, rfl⟩⟩
      · by_cases h : 0 + N b = L
        · exact Or.inl h
        · refine Or.inr ⟨by omega, lastPart_none.2 ?_⟩
          rintro ⟨_, h⟩
          simp only [timeIndex, Bool.false_eq_true, if_false] at h
          omega
    | true =>
      simp only [if_true] at hi
      subst hi
      refine ⟨⟨by omega, ?_, ?_⟩, Or.inl (by omega)⟩
      · intro k h1 h2
        exact ⟨_, lastPart_some.2 ⟨⟨hb, by simp only [timeIndex, if_true]; omega⟩, rfl⟩⟩
      · intro k hk
        refine lastPart_none.2 ?_
        rintro ⟨_, h⟩
        simp only [timeIndex, if_true] at h
        omega

theorem last_apart (hN : ∀ b ∈ S, N b ≤ L) (c : ModalCfg ℝ) : Apart c (lastPart rev L S N P) L := by
  intro b i j b' i' j' p d h1 h2 _ _ hlt _ _
  rw [last_run hN] at h1 h2
  obtain ⟨hb, _, h3, h4⟩ := h1
  obtain ⟨hb', h5, h6, h7⟩ := h2
  have := hN b hb
  have := hN b' hb'
  cases rev with
  | false => simp at h6; omega
  | true => simp at h3 h6; omega

/-- The values of a run. -/
theorem last_value {b : Nat} (hb : b ∈ S) (hbL : N b ≤ L) (i : Nat) (hi : i < N b) :
    lastPart rev L S N P ((if rev then L - N b else 0) + i) b = some (P (timeIndex rev (N b) i) b) := by
  rw [lastPart_some]
  have : timeIndex rev L ((if rev then L - N b else 0) + i) = timeIndex rev (N b) i := by
    cases rev <;> simp [timeIndex]; omega
  rw [this]
  refine ⟨⟨hb, ?_⟩, rfl⟩
  unfold timeIndex
  split <;> omega

theorem last_segment {b : Nat} (hb : b ∈ S) (hbL : N b ≤ L) :
    segment (lastPart rev L S N P) b (if rev then L - N b else 0) ((if rev then L - N b else 0) + N b) =
      lastTrack rev L (N b) (fun e => P e b) := by
  unfold segment lastTrack
  rw [Nat.add_sub_cancel_left, List.range'_eq_map_range]
  simp only [List.map_map]
  congr 1 <;>
  · apply List.map_congr_left
    intro i hi
    rw [List.mem_range] at hi
    simp only [Function.comp]
    rw [last_value hb hbL i hi]
    rfl

theorem timeIndex_reverse (α : Type*) (N : Nat) (f : Nat → α) :
    (List.range N).map (fun i => f (timeIndex true N i)) = ((List.range N).map f).reverse := by
  apply List.ext_getElem
  · simp
  · intro i h1 h2
    simp [timeIndex]

theorem zipIdx_map_range (N : Nat) (f : Nat → ℝ) :
    (((List.range N).map f).zipIdx).map (fun p => ((p.2 : ℝ), p.1)) = (List.range N).map fun (e : Nat) => ((e : ℝ), f e) := by
  apply List.ext_getElem
  · simp
  · intro i h1 h2
    simp

theorem last_points {b : Nat} (hb : b ∈ S) (hbL : N b ≤ L) :
    forwardPoints rev (magsOf (lastPart rev L S N P) b (if rev then L - N b else 0)
      ((if rev then L - N b else 0) + N b)) = (List.range (N b)).map fun (e : Nat) => ((e : ℝ), (P e b).mag) := by
  have h : magsOf (lastPart rev L S N P) b (if rev then L - N b else 0) ((if rev then L - N b else 0) + N b) =
      (List.range (N b)).map fun i => (P (timeIndex rev (N b) i) b).mag := by
    unfold magsOf
    rw [Nat.add_sub_cancel_left, List.range'_eq_map_range, List.filterMap_map]
    apply filterMap_some_map
    intro i hi
    rw [List.mem_range] at hi
    simp only [Function.comp]
    rw [last_value hb hbL i hi]
    rfl
  rw [h]
  unfold forwardPoints
  cases rev with
  | false =>
    simp only [timeIndex, Bool.false_eq_true, if_false]
    exact zipIdx_map_range (N b) fun e => (P e b).mag
  | true =>
    rw [timeIndex_reverse ℝ (N b) (fun e => (P e b).mag)]
    simp only [if_true, List.reverse_reverse]
    exact zipIdx_map_range (N b) fun e => (P e b).mag

theorem last_freqs {b : Nat} (hb : b ∈ S) (hbL : N b ≤ L) :
    (freqsOf (lastPart rev L S N P) b (if rev then L - N b else 0) ((if rev then L - N b else 0) + N b)).sum =
      ((List.range (N b)).map fun e => (P e b).freq).sum := by
  have h : freqsOf (lastPart rev L S N P) b (if rev then L - N b else 0) ((if rev then L - N b else 0) + N b) =
      (List.range (N b)).map fun i => (P (timeIndex rev (N b) i) b).freq := by
    unfold freqsOf
    rw [Nat.add_sub_cancel_left, List.range'_eq_map_range, List.filterMap_map]
    apply filterMap_some_map
    intro i hi
    rw [List.mem_range] at hi
    simp only [Function.comp]
    rw [last_value hb hbL i hi]
    rfl
  rw [h]
  cases rev with
  | false => rfl
  | true => rw [timeIndex_reverse ℝ (N b) (fun e => (P e b).freq), List.sum_reverse]

/-- Which runs a modal tracker accepts. -/
theorem last_accepted (c : ModalCfg ℝ) (hrev : c.reverse = rev) {b : Nat} (hb : b ∈ S) (hbL : N b ≤ L) :
    Accepted c (lastPart rev L S N P) b (if rev then L - N b else 0) ((if rev then L - N b else 0) + N b) ↔
      max 2 ⌈c.minSineDur * (c.fs / c.h)⌉ ≤ (N b : ℤ) ∧
      (∀ lo, c.freqLo = some lo → lo ≤ ((List.range (N b)).map fun e => (P e b).freq).sum / N b) ∧
      (∀ hi, c.freqHi = some hi → ((List.range (N b)).map fun e => (P e b).freq).sum / N b ≤ hi) ∧
      ∃ k q, LeastSquares ((List.range (N b)).map fun (e : Nat) => ((e : ℝ), (P e b).mag)) k q ∧ k ≤ 0 ∧
        c.peakThreshold ≤ q := by
  have h1 : (if rev then L - N b else 0) + N b - (if rev then L - N b else 0) = N b := Nat.add_sub_cancel_left ..
  have h2 := last_freqs (rev := rev) (P := P) hb hbL
  have h3 := last_points (rev := rev) (P := P) hb hbL
  constructor
  · rintro ⟨a1, a2, a3, a4⟩
    rw [h1] at a1 a2 a3
    rw [h2] at a2 a3
    rw [hrev, h3] at a4
    exact ⟨a1, a2, a3, a4⟩
  · rintro ⟨a1, a2, a3, a4⟩
    refine ⟨?_, ?_, ?_, ?_⟩
    · rw [h1]; exact a1
    · rw [h1, h2]; exact a2
    · rw [h1, h2]; exact a3
    · rw [hrev, h3]; exact a4

end

end Verif.Tracker
