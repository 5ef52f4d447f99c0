import Mathlib.Analysis.SpecialFunctions.Pow.Real
import Mathlib.Analysis.SpecialFunctions.Log.Base
import Verif.Py

/-!
# Model of the decibel conversions (`sample/utils/dsp.py:62-150`)

Scalars over the real numbers; the functions of the code work entry by entry.  `none` stands for a
result that is not a finite number (`np.log10` of zero or of a negative number).
-/

set_option autoImplicit false

namespace Verif.Dsp

/-- `db2a`, `sample/utils/dsp.py:62-73`: `np.power(10.0, d / 20.0)`. -/
noncomputable def db2a (d : ℝ) : ℝ := (10 : ℝ) ^ (d / 20)

/-- `np.log10`. -/
noncomputable def npLog10 (a : ℝ) : Option ℝ := if 0 < a then some (Real.logb 10 a) else none

/-- `_a2db_floorless`, `sample/utils/dsp.py:100-111`. -/
noncomputable def a2dbFloorless (a : ℝ) : Option ℝ := (npLog10 a).map (20 * ·)

/-- `_a2db_floored`, `sample/utils/dsp.py:117-132`. -/
noncomputable def a2dbFloored (a f : ℝ) : Option ℝ := a2dbFloorless (max a f)

/-- `a2db`, `sample/utils/dsp.py:76-97`. -/
noncomputable def a2db (a : ℝ) (floor : Option ℝ) (floorDb : Bool) : Option ℝ :=
  match floor with
  | none => a2dbFloorless a
  | some f => a2dbFloored a (if floorDb then db2a f else f)

/-- `DOUBLE_DB`, `sample/utils/dsp.py:493`: `a2db(2)`. -/
noncomputable def doubleDb : Option ℝ := a2db 2 none false

end Verif.Dsp
