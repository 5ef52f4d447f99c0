import Verif.Float.Basic
import Verif.Py

/-!
# `dychotomic_zero_crossing` in floating point (`sample/utils/dsp.py:153-185`)

The function that is searched is any function from numbers to numbers (its values are finite
floating-point numbers; NaN is not modelled).
-/

set_option autoImplicit false

namespace Verif.Float

variable {K : Type} [Field K] [LinearOrder K] [IsStrictOrderedRing K] (A : Arith K)

/-- `(lo + hi) / 2`, `sample/utils/dsp.py:175, 184`. -/
def midF (lo hi : K) : K := A.div (A.add lo hi) 2

/-- The loop, `sample/utils/dsp.py:176-184`.  The `break` keeps `a`. -/
def bisectLoopF (f : K → K) : Nat → K → K → K → K
  | 0, _, _, a => a
  | n + 1, lo, hi, a =>
    if f a < 0 then bisectLoopF f n a hi (midF A a hi)
    else if 0 < f a then bisectLoopF f n lo a (midF A lo a)
    else a

/-- `dychotomic_zero_crossing`, `sample/utils/dsp.py:153-185`. -/
def bisectF (f : K → K) (lo hi : K) (steps : Int) : Except PyErr K :=
  if 0 < A.mul (f lo) (f hi) then .error .valueError
  else
    let p := if f hi < f lo then (hi, lo) else (lo, hi)
    .ok (bisectLoopF A f steps.toNat p.1 p.2 (midF A p.1 p.2))

end Verif.Float
