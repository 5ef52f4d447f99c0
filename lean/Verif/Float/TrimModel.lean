import Verif.Float.Basic
import Verif.Widgets.TrimModel

/-!
# Showing the trim bounds in floating point (`sample/widgets/audioload.py:64-76, 207-209, 289-293`)

The bounds are shown as times in seconds.  Writing them into the entries runs the callbacks of the
entries, which convert the times back to samples.
-/

set_option autoImplicit false

namespace Verif.Float

open Verif.Widgets

variable {K : Type} [Field K] [LinearOrder K] [IsStrictOrderedRing K] [FloorRing K] (A : Arith K)

/-- The time shown for the index `i`, `i / sr` (`sample/widgets/audioload.py:291-293`): both integers
are converted to floating point.  `float(str(t))` is `t` (Python and NumPy print as many digits as
needed). -/
def shownTime (sr i : Int) : K := A.div (A.rnd (i : K)) (A.rnd (sr : K))

/-- The product `value * self.audio_sr` of `set_trim` (`sample/widgets/audioload.py:209`) for the
time that is shown. -/
def readBack (sr i : Int) : K := A.mul (shownTime A sr i) (A.rnd (sr : K))

/-- The time that the entries pass to the model of `Widgets/TrimModel.lean`, where the product with
the sample rate is exact: its exact product is the rounded product of the time shown. -/
def retypeF (sr i : Int) : Flt K := .fin (readBack A sr i / (sr : K))

/-- The GUI is reloaded `n` times from its cache (`sample/widgets/settings.py:609-623`,
`sample/widgets/audioload.py:119-133`). -/
def reloads {X : Type} (detect : List X → Except PyErr (List Bool)) :
    Nat → TrimState X → TrimState X
  | 0, s => s
  | n + 1, s => reloads detect n (restore detect (retypeF A) s).1

end Verif.Float
