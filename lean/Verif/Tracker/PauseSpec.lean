import Verif.Tracker.SeparatedSpec

/-! # Independent specification: partials that pause -/

set_option autoImplicit false

namespace Verif.Tracker

variable {K : Type*} [Field K] [LinearOrder K] {L : Type*}

/-- The peaks of the frames are those of partials that stay in bands of frequencies: the band
`[lo b, hi b]` of the partial `b` is narrower than the allowed deviation, and the bands of
different partials are at least the allowed deviation apart. -/
structure Banded (c : Cfg K) (frames : List (Frame K)) (part : Nat → L → Option (Peak K))
    (lo hi : L → K) : Prop where
  /-- the peaks of a frame are those of the partials -/
  mem : ∀ (k : Nat) (f : Frame K), frames[k]? = some f → ∀ p, p ∈ f.peaks ↔ ∃ b, part k b = some p
  /-- no peak is listed twice -/
  distinct : ∀ f ∈ frames, f.peaks.Nodup
  /-- there are never more partials than tracks allowed -/
  room : ∀ f ∈ frames, f.peaks.length ≤ c.maxNSines
  /-- a partial stays in its band -/
  inside : ∀ (k : Nat), k < frames.length → ∀ b p, part k b = some p → lo b ≤ p.freq ∧ p.freq ≤ hi b
  /-- the band is narrow -/
  narrow : ∀ (k : Nat), k < frames.length → ∀ b p, part k b = some p →
    hi b - lo b < c.freqDevOffset + c.freqDevSlope * p.freq
  /-- the bands are apart -/
  apart : ∀ (k : Nat), k < frames.length → ∀ b b' p, b ≠ b' → part k b' = some p →
    hi b + (c.freqDevOffset + c.freqDevSlope * p.freq) ≤ lo b' ∨
      hi b' + (c.freqDevOffset + c.freqDevSlope * p.freq) ≤ lo b

/-- `u` is one track made of all the intervals of frames `R i j` (from `i` to `j - 1`): it goes from
the start of the first one to the stop of the last one, its samples in the intervals are those of
`val`, and it is NaN in between. -/
structure WholeOf (R : Nat → Nat → Prop) (val : Nat → Option (Peak K)) (u : Track K) : Prop where
  aligned : u.Aligned
  first : ∃ j, R u.start j
  last : ∃ i, R i u.stop
  bounds : ∀ i j, R i j → u.start ≤ i ∧ j ≤ u.stop
  sounding : ∀ i j k, R i j → i ≤ k → k < j → u.sampleAt k = val k
  silent : ∀ k, (∀ i j, R i j → i ≤ k → ¬k < j) → u.sampleAt k = none

/-- An accepted maximal run that ended before the last one of `n` frames. -/
def Done [FloorRing K] (c : ModalCfg K) (part : Nat → L → Option (Peak K)) (n : Nat) (b : L)
    (i j : Nat) : Prop :=
  Run part n b i j ∧ j < n ∧ Accepted c part b i j

end Verif.Tracker
