import Mathlib.Algebra.Order.Field.Basic
import Verif.Py

/-!
# Model of `dychotomic_zero_crossing` (`sample/utils/dsp.py:153-185`)

Numbers are in an ordered field (no rounding).  The function that is searched is total.
-/

set_option autoImplicit false

namespace Verif.Dsp

variable {K : Type} [Field K] [LinearOrder K]

/-- The loop, `sample/utils/dsp.py:176-184`, with `a` the midpoint of `lo` and `hi`.  The `break`
keeps `a`. -/
def bisectLoop (f : K → K) : Nat → K → K → K → K
  | 0, _, _, a => a
  | n + 1, lo, hi, a =>
    if f a < 0 then bisectLoop f n a hi ((a + hi) / 2)
    else if 0 < f a then bisectLoop f n lo a ((lo + a) / 2)
    else a

/-- `dychotomic_zero_crossing`, `sample/utils/dsp.py:153-185`.  A negative number of steps makes no
step. -/
def bisect (f : K → K) (lo hi : K) (steps : Int) : Except PyErr K :=
  if 0 < f lo * f hi then .error .valueError
  else
    let p := if f hi < f lo then (hi, lo) else (lo, hi)
    .ok (bisectLoop f steps.toNat p.1 p.2 ((p.1 + p.2) / 2))

end Verif.Dsp
