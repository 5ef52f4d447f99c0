import Verif.Tracker.Spec
import Verif.Tracker.ModalModel

/-! # Independent specification of the modal tracker -/

set_option autoImplicit false

namespace Verif.Tracker

variable {K : Type*} [Field K] [LinearOrder K]

/-- Sum of squared residuals of the line `k * x + q` on the points. -/
def ssr (pts : List (K × K)) (k q : K) : K :=
  (pts.map fun p => (p.2 - (k * p.1 + q)) ^ 2).sum

/-- `k * x + q` is a least-squares line for the points. -/
def LeastSquares (pts : List (K × K)) (k q : K) : Prop :=
  ∀ k' q', ssr pts k q ≤ ssr pts k' q'

/-- Magnitudes as points in forward time: in reverse mode the analysed audio was flipped, so the
last magnitude of the track is the earliest one. -/
def forwardPoints (reverse : Bool) (mags : List K) : List (K × K) :=
  ((if reverse then mags.reverse else mags).zipIdx).map fun p => ((p.2 : K), p.1)

/-- First frame after the track. -/
def Track.stop (t : Track K) : Nat := t.start + t.mag.length

/-- `d` is the frequency difference of the earlier track `u` and the later track `t`:
for `"average"` the difference of the averages of the (non-NaN) frequencies, for `"single"` the
difference of the last frequency of `u` and the first one of `t`. -/
def FreqDiff (strategy : String) (u t : Track K) (d : K) : Prop :=
  (strategy = "average" ∧ u.freq.filterMap id ≠ [] ∧ t.freq.filterMap id ≠ [] ∧
    d = |(u.freq.filterMap id).sum / ((u.freq.filterMap id).length : K) -
      (t.freq.filterMap id).sum / ((t.freq.filterMap id).length : K)|) ∨
  (strategy = "single" ∧ ∃ a b, u.freq.getLast? = some (some a) ∧ t.freq.head? = some (some b) ∧
    d = |a - b|)

/-- `v` is `u` followed by `t`, on the same frame clock: it starts with `u`, stops with `t`, has
the samples of both at their frames and NaN in the three arrays in between. -/
structure MergedFrom (u t v : Track K) : Prop where
  start : v.start = u.start
  lens : v.freq.length = t.stop - u.start ∧ v.mag.length = t.stop - u.start ∧
    v.phase.length = t.stop - u.start
  left : ∀ j, j < u.stop - u.start →
    v.freq[j]? = u.freq[j]? ∧ v.mag[j]? = u.mag[j]? ∧ v.phase[j]? = u.phase[j]?
  gap : ∀ j, u.stop - u.start ≤ j → j < t.start - u.start →
    v.freq[j]? = some none ∧ v.mag[j]? = some none ∧ v.phase[j]? = some none
  right : ∀ j, j < t.stop - t.start → v.freq[t.start - u.start + j]? = t.freq[j]? ∧
    v.mag[t.start - u.start + j]? = t.mag[j]? ∧ v.phase[t.start - u.start + j]? = t.phase[j]?

/-- The three arrays of a track have the same length and NaN at the same positions. -/
def Track.Aligned (t : Track K) : Prop :=
  t.freq.length = t.mag.length ∧ t.phase.length = t.mag.length ∧
    ∀ j : Nat, (t.freq[j]? = some none ↔ t.mag[j]? = some none) ∧
      (t.phase[j]? = some none ↔ t.mag[j]? = some none)

end Verif.Tracker
