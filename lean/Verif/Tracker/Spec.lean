import Verif.Tracker.Model

/-!
# Independent specification of the sine tracker

Only the data types of the model are used here (peaks, tracks, states), none of its loops.
-/

set_option autoImplicit false

namespace Verif.Tracker

variable {K : Type*} [Field K] [LinearOrder K]

/-- The (frequency, magnitude, phase) triple that a finished track reports for absolute frame
`k`, if it has a proper (non-NaN) sample there. -/
def Track.sampleAt (t : Track K) (k : Nat) : Option (Peak K) :=
  if t.start ≤ k then
    match t.freq[k - t.start]?, t.mag[k - t.start]?, t.phase[k - t.start]? with
    | some (some f), some (some m), some (some p) => some ⟨f, m, p⟩
    | _, _, _ => none
  else none

/-- All samples that a list of tracks reports for frame `k`. -/
def samplesAt (k : Nat) (ts : List (Track K)) : List (Peak K) :=
  ts.filterMap (·.sampleAt k)

/-- All tracks known to the tracker, finished or not. -/
def State.everyTrack (s : State K) : List (Track K) := s.tracks ++ s.active.map numpyTrack

/-- `m` is a loudest-first, nearest-track matching of `peaks` to the tracks `A`: the entry `i` of
`m` is the index of the peak given to track `i` (if any). -/
structure Greedy (c : Cfg K) (A : List (ATrack K)) (peaks : List (Peak K))
    (m : List (Option Nat)) : Prop where
  /-- one entry per track -/
  len : m.length = A.length
  /-- entries are peak indices -/
  valid : ∀ p, some p ∈ m → p < peaks.length
  /-- a peak goes to at most one track -/
  inj : ∀ (i j p : Nat), m[i]? = some (some p) → m[j]? = some (some p) → i = j
  /-- matched pairs are closer than the threshold at the peak's frequency -/
  near : ∀ (i p : Nat) (t : ATrack K) (pk : Peak K) (f : K), m[i]? = some (some p) → A[i]? = some t → peaks[p]? = some pk →
    t.freq.getLast? = some f → |f - pk.freq| < c.freqDevOffset + c.freqDevSlope * pk.freq
  /-- a track nearer to a matched peak than its partner (or equally near and earlier in the list)
  was given to a peak at least as loud -/
  nearest : ∀ (i j p : Nat) (t u : ATrack K) (pk : Peak K) (f g : K), m[i]? = some (some p) → A[i]? = some t → A[j]? = some u →
    peaks[p]? = some pk → t.freq.getLast? = some f → u.freq.getLast? = some g →
    (|g - pk.freq| < |f - pk.freq| ∨ (|g - pk.freq| = |f - pk.freq| ∧ j < i)) →
    ∃ q qk, m[j]? = some (some q) ∧ peaks[q]? = some qk ∧ pk.mag ≤ qk.mag
  /-- ties between equally loud peaks are resolved in one order: the peaks can be ranked such that
  a track nearer to a matched peak than its partner was given to a peak of smaller rank -/
  ordered : ∃ rank : Nat → Nat, ∀ (i j p : Nat) (t u : ATrack K) (pk : Peak K) (f g : K),
    m[i]? = some (some p) → A[i]? = some t → A[j]? = some u →
    peaks[p]? = some pk → t.freq.getLast? = some f → u.freq.getLast? = some g →
    (|g - pk.freq| < |f - pk.freq| ∨ (|g - pk.freq| = |f - pk.freq| ∧ j < i)) →
    ∃ q, m[j]? = some (some q) ∧ rank q < rank p
  /-- an unmatched peak is below the threshold only for tracks given to peaks at least as loud -/
  loudest : ∀ (p j : Nat) (u : ATrack K) (pk : Peak K) (g : K), some p ∉ m → peaks[p]? = some pk → A[j]? = some u →
    u.freq.getLast? = some g → |g - pk.freq| < c.freqDevOffset + c.freqDevSlope * pk.freq →
    ∃ q qk, m[j]? = some (some q) ∧ peaks[q]? = some qk ∧ pk.mag ≤ qk.mag

/-- Tracks that were matched, each extended by its peak, in order. -/
def continued (A : List (ATrack K)) (peaks : List (Peak K)) (m : List (Option Nat)) :
    List (ATrack K) :=
  (A.zip m).filterMap fun tm => (tm.2.bind fun p => peaks[p]?).map fun pk =>
    ⟨tm.1.start, tm.1.freq ++ [pk.freq], tm.1.mag ++ [pk.mag], tm.1.phase ++ [pk.phase]⟩

/-- Tracks that were not matched, in order. -/
def dropped (A : List (ATrack K)) (m : List (Option Nat)) : List (ATrack K) :=
  ((A.zip m).filter fun tm => tm.2.isNone).map Prod.fst

/-- Peaks that were not matched, in index order. -/
def unused (peaks : List (Peak K)) (m : List (Option Nat)) : List (Peak K) :=
  (peaks.zipIdx.filter fun pi => decide (some pi.2 ∉ m)).map Prod.fst

/-- A track that starts at frame `k` with one peak. -/
def newborn (k : Nat) (pk : Peak K) : ATrack K := ⟨k, [pk.freq], [pk.mag], [pk.phase]⟩

/-- One tracker update, given the matching `m`.  `save` is what happens to the list of finished
tracks when a track is finished. -/
structure StepSpec (save : List (Track K) → ATrack K → List (Track K)) (c : Cfg K)
    (peaks : List (Peak K)) (m : List (Option Nat)) (s s' : State K) : Prop where
  greedy : Greedy c s.active peaks m
  active : s'.active = continued s.active peaks m ++
    ((unused peaks m).take (c.maxNSines - (continued s.active peaks m).length)).map
      (newborn s.frame)
  tracks : s'.tracks = (dropped s.active m).reverse.foldl save s.tracks
  frame : s'.frame = s.frame + 1

end Verif.Tracker
