import Verif.Tracker.ModalSpec

/-!
# Independent specification: partials that a tracker should follow

Only the data types of the model are used here (peaks, frames, tracks).
-/

set_option autoImplicit false

namespace Verif.Tracker

variable {K : Type*} [Field K] [LinearOrder K] {L : Type*}

/-- `part k b` is the peak of the partial `b` in frame `k` (`none`: the partial is silent).  The
peaks of the frames are exactly those of the partials, a partial moves by less than the allowed
deviation from one frame to the next, and any other partial of the previous frame is either too
far from its peak, or farther from it than the partial itself, or (if the partial is new) goes on
with a louder peak. -/
structure Separated (c : Cfg K) (frames : List (Frame K)) (part : Nat → L → Option (Peak K)) :
    Prop where
  /-- the peaks of a frame are those of the partials -/
  mem : ∀ (k : Nat) (f : Frame K), frames[k]? = some f → ∀ p, p ∈ f.peaks ↔ ∃ b, part k b = some p
  /-- no peak is listed twice -/
  distinct : ∀ f ∈ frames, f.peaks.Nodup
  /-- two partials never share a peak -/
  label : ∀ (k : Nat), k < frames.length → ∀ b b' p, part k b = some p → part k b' = some p → b = b'
  /-- a partial moves by less than the allowed deviation -/
  near : ∀ (k : Nat), k + 1 < frames.length → ∀ b p q, part k b = some p → part (k + 1) b = some q →
    |p.freq - q.freq| < c.freqDevOffset + c.freqDevSlope * q.freq
  /-- other partials are too far, or farther than the partial itself, or go on louder than the new
  partial -/
  own : ∀ (k : Nat), k + 1 < frames.length → ∀ b b' p q, b ≠ b' → part k b = some p →
    part (k + 1) b' = some q →
    c.freqDevOffset + c.freqDevSlope * q.freq ≤ |p.freq - q.freq| ∨
      (∃ p', part k b' = some p' ∧ |p'.freq - q.freq| < |p.freq - q.freq|) ∨
      (part k b' = none ∧ ∃ r, part (k + 1) b = some r ∧ q.mag < r.mag)
  /-- there are never more partials than tracks allowed -/
  room : ∀ f ∈ frames, f.peaks.length ≤ c.maxNSines

/-- The partial `b` sounds from frame `i` to frame `j - 1`, and not just before. -/
structure Sounds (part : Nat → L → Option (Peak K)) (b : L) (i j : Nat) : Prop where
  lt : i < j
  some : ∀ k, i ≤ k → k < j → ∃ p, part k b = Option.some p
  first : ∀ k, k + 1 = i → part k b = none

/-- The frames from `i` to `j - 1` are one maximal run of sounding frames of the partial `b`, among
`n` frames. -/
def Run (part : Nat → L → Option (Peak K)) (n : Nat) (b : L) (i j : Nat) : Prop :=
  Sounds part b i j ∧ (j = n ∨ (j < n ∧ part j b = none))

/-- The track of the partial `b` over the frames from `i` to `j - 1`. -/
def segment (part : Nat → L → Option (Peak K)) (b : L) (i j : Nat) : Track K :=
  ⟨i, (List.range' i (j - i)).map fun k => (part k b).map Peak.freq,
    (List.range' i (j - i)).map fun k => (part k b).map Peak.mag,
    (List.range' i (j - i)).map fun k => (part k b).map Peak.phase⟩

/-- The frequencies of the partial `b` in the frames from `i` to `j - 1`. -/
def freqsOf (part : Nat → L → Option (Peak K)) (b : L) (i j : Nat) : List K :=
  (List.range' i (j - i)).filterMap fun k => (part k b).map Peak.freq

/-- The magnitudes of the partial `b` in the frames from `i` to `j - 1`. -/
def magsOf (part : Nat → L → Option (Peak K)) (b : L) (i j : Nat) : List K :=
  (List.range' i (j - i)).filterMap fun k => (part k b).map Peak.mag

/-- The partial `b` over the frames from `i` to `j - 1` is what a modal tracker accepts: long
enough, of average frequency within the bounds, and with a least-squares magnitude line that does
not grow and starts at or above the threshold. -/
structure Accepted [FloorRing K] (c : ModalCfg K) (part : Nat → L → Option (Peak K)) (b : L)
    (i j : Nat) : Prop where
  long : max 2 ⌈c.minSineDur * (c.fs / c.h)⌉ ≤ ((j - i : Nat) : ℤ)
  lo : ∀ lo, c.freqLo = some lo → lo ≤ (freqsOf part b i j).sum / ((j - i : Nat) : K)
  hi : ∀ hi, c.freqHi = some hi → (freqsOf part b i j).sum / ((j - i : Nat) : K) ≤ hi
  fit : ∃ k q, LeastSquares (forwardPoints c.reverse (magsOf part b i j)) k q ∧ k ≤ 0 ∧
    c.peakThreshold ≤ q

/-- The onset of a run (its end, in reverse mode) is in the strip at the beginning of the sound,
among `n` frames. -/
def InStrip [FloorRing K] (c : ModalCfg K) (n i j : Nat) : Prop :=
  ∀ t, c.stripT = some t →
    (if c.reverse then (n : ℤ) - (j : ℤ) else (i : ℤ)) ≤ ⌈t * (c.fs / c.h)⌉

/-- No accepted run is followed by another accepted run (after a pause of at least one frame) whose
frequency differs by less than the allowed deviation. -/
def Apart [FloorRing K] (c : ModalCfg K) (part : Nat → L → Option (Peak K)) (n : Nat) : Prop :=
  ∀ b i j b' i' j' p d, Run part n b i j → Run part n b' i' j' → Accepted c part b i j →
    Accepted c part b' i' j' → j < i' → part i' b' = some p →
    FreqDiff c.mergeStrategy (segment part b i j) (segment part b' i' j') d →
    c.freqDevOffset + c.freqDevSlope * p.freq ≤ d

end Verif.Tracker
