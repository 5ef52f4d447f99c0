import Verif.Py
import Verif.Psycho.MelModel
import Mathlib.Analysis.SpecialFunctions.Log.Basic

/-!
# Logarithmically spaced values (`scripts/cim22/performance.py:131-169`)
-/

set_option autoImplicit false

namespace Verif.Logspace

open Verif.Psycho

/-- One value of `logspace_p`, `scripts/cim22/performance.py:131-150`; `none` is a value that is not a finite number.
The logarithm of zero is `-inf` and of a negative number NaN: with `start + offset ≤ 0` the value is always NaN; with
`stop + offset = 0` it is NaN for `p = 0` (`-inf * 0`), infinite for `p < 0`, and `exp(-inf) - offset` for `p > 0`. -/
noncomputable def logspaceP (start stop offset p : ℝ) : Option ℝ :=
  if start + offset ≤ 0 ∨ stop + offset < 0 then none
  else if stop + offset = 0 then (if 0 < p then some (0 - offset) else none)
  else some (Real.exp (Real.log (start + offset) + (Real.log (stop + offset) - Real.log (start + offset)) * p) - offset)

/-- `logspace(start, stop, num, offset=offset)`, `scripts/cim22/performance.py:153-169`, with the end point, as it is
used (221-230). -/
noncomputable def logspace (start stop offset : ℝ) (num : Int) : Except PyErr (List (Option ℝ)) :=
  match linspace 0 1 num with
  | .error e => .error e
  | .ok l => .ok (l.map (logspaceP start stop offset))

/-- The label of the tick at case number `i` of `n`, `scripts/cim22/performance.py:371-375, 379-382`. -/
noncomputable def tick (start stop offset : ℝ) (n i : Nat) : Option ℝ :=
  if n = 1 then none else logspaceP start stop offset ((i : ℝ) / ((n : ℝ) - 1))

end Verif.Logspace
