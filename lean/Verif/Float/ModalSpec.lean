import Verif.Float.ModalModel
import Verif.Tracker.ModalSpec

/-! # Independent specification of the modal tracker in floating point -/

set_option autoImplicit false

namespace Verif.Float

open Verif.Tracker

variable {K : Type} [Field K] [LinearOrder K] [IsStrictOrderedRing K] (A : Arith K) (N : Numerics K)

/-- The computed frequency difference of the earlier track `u` and the later track `t`, NaN if one
of the two numbers is NaN: for `"single"` of the last frequency of `u` and the first one of `t`, for
`"average"` of the computed averages. -/
def FreqDiffF (strategy : String) (u t : Track K) (d : K) : Prop :=
  (strategy = "average" ∧ ∃ a b, N.nanmean u.freq = some a ∧ N.nanmean t.freq = some b ∧
    d = |A.rnd (a - b)|) ∨
  (strategy = "single" ∧ ∃ a b, u.freq.getLast? = some (some a) ∧ t.freq.head? = some (some b) ∧
    d = |A.rnd (a - b)|)

/-- All earlier tracks have a difference that is a number. -/
def Numeric (strategy : String) (tr : List (Track K)) (t : ATrack K) : Prop :=
  ∀ w ∈ tr, w.stop < t.start → ∃ e, FreqDiffF A N strategy w (numpyTrack t) e

end Verif.Float
