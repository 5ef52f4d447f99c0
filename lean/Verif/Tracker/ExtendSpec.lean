import Verif.Tracker.ModalSpec

/-!
# Tracks that go on, and recordings that go on

Only the data types of the model are used here.
-/

set_option autoImplicit false

namespace Verif.Tracker

variable {K : Type*} [Field K] [LinearOrder K]

/-- `u'` starts where `u` starts and begins with all of its values. -/
structure Extends (u u' : Track K) : Prop where
  start : u'.start = u.start
  freq : u.freq <+: u'.freq
  mag : u.mag <+: u'.mag
  phase : u.phase <+: u'.phase

/-- `x` followed, in the direction of the analysis, by `y`. -/
def onward (reverse : Bool) (x y : List K) : List K := if reverse then y ++ x else x ++ y

/-- The number of frames of `w` samples, `hop` apart, that lie inside the first `len` samples of the analysis
(after `(w + 1) / 2` zeros if it is padded). -/
def sharedFrames (padded : Bool) (w hop len : Nat) : Nat :=
  if w ≤ len + (if padded then (w + 1) / 2 else 0) then
    1 + (len + (if padded then (w + 1) / 2 else 0) - w) / hop
  else 0

end Verif.Tracker
