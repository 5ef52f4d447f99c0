import Verif.Float.Basic
import Verif.Py

/-!
# `normalize` in floating point (`sample/utils/dsp.py:12-59`)

The input is an array of finite numbers.  `none` is NaN: the only division that is not of the form
finite by non-zero is zero by zero.  The three variants are three functions here; their choice by the
argument `mode` is in `Dsp/NormalizeModel`.
-/

set_option autoImplicit false

namespace Verif.Float

variable {K : Type} [Field K] [LinearOrder K] [IsStrictOrderedRing K] (A : Arith K)

/-- Largest element of a list that is not empty (`a` is the first one). -/
def maxL (a : K) (l : List K) : K := l.foldl max a

/-- Smallest element of a list that is not empty (`a` is the first one). -/
def minL (a : K) (l : List K) : K := l.foldl min a

/-- `np.true_divide` of two finite numbers; NaN if both are zero.  A non-zero number divided by zero
(infinite in NumPy) does not occur below. -/
def divN (x y : K) : Option K := if y = 0 then none else some (A.div x y)

/-- `normalize` in mode `"peak"`, `sample/utils/dsp.py:14-27`.  The maximum of an empty array is a
`ValueError`; `np.abs` and `max` are exact. -/
def normalizePeakF : List K → Except PyErr (List (Option K))
  | [] => .error .valueError
  | a :: l => .ok ((a :: l).map fun x => divN A x (maxL |a| (l.map abs)))

/-- `normalize` in mode `"range"`, `sample/utils/dsp.py:47-59`. -/
def normalizeRangeF : List K → Except PyErr (List (Option K))
  | [] => .error .valueError
  | a :: l =>
    let m := minL a l
    let a' := A.sub a m
    let l' := l.map fun x => A.sub x m
    .ok ((a' :: l').map fun x => divN A x (maxL a' l'))

/-- `normalize` in mode `"rms"`, `sample/utils/dsp.py:31-43`.  Simplification: the computed mean and
standard deviation are arguments (NumPy adds the elements in an order of its own). -/
def normalizeRmsF (mean std : K) (l : List K) : List (Option K) :=
  l.map fun x => divN A (A.sub x mean) (if std = 0 then 1 else std)

end Verif.Float
