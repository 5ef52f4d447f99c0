import Verif.Float.Basic
import Verif.Optimize.Model

/-!
# Sizes of windows, hops and overlaps in floating point

`sample/optimize.py:60-69` and `sample/evaluation/metrics.py:69-82`: sizes that are given as fractions
are multiplied in floating point and then cut to integers.
-/

set_option autoImplicit false

namespace Verif.Float

open Verif.Optimize

variable {K : Type} [Field K] [LinearOrder K] [IsStrictOrderedRing K] [FloorRing K] (A : Arith K)

/-- `int(SAMPLE(**kwargs).sinusoidal.n * sinusoidal__wsize)`, `sample/optimize.py:61`: the integer is
converted to floating point and the product is rounded. -/
def windowSizeF (n : Nat) (frac : K) : Int := truncInt (A.mul (A.rnd (n : K)) frac)

/-- `max(min(int((1 - sinusoidal__overlap) * wsize), wsize), 1)`, `sample/optimize.py:67-68`. -/
def hopSizeF (overlap : K) (m : Nat) : Int :=
  max (min (truncInt (A.mul (A.sub 1 overlap) (A.rnd (m : K)))) (m : Int)) 1

/-- `int(olap * np.size(w))`, `sample/evaluation/metrics.py:69`. -/
def noverlapF (olap : K) (m : Nat) : Int := truncInt (A.mul olap (A.rnd (m : K)))

/-- The check of `scipy.signal.stft` (called in `sample/evaluation/metrics.py:70-82`): the overlap
must be less than the size of the window.  The result is the distance between two frames.  The rest
of the transform is not modelled here. -/
def stepF (olap : K) (m : Nat) : Except PyErr Int :=
  if (m : Int) ≤ noverlapF A olap m then .error .valueError else .ok ((m : Int) - noverlapF A olap m)

end Verif.Float
