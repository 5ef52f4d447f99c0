import Mathlib.Data.List.Sort
import Verif.Beat.RegressionModel

/-!
# `freq_clip` of `DualBeatRegression` (`sample/beatsdrop/regression.py:448-451`)
-/

set_option autoImplicit false

namespace Verif.Beat

open Verif.Out

section Clip

variable {K : Type*} [Field K] [LinearOrder K]

/-- `np.quantile` of an array of numbers at `k / 4` for `k ≤ 4`, `sample/beatsdrop/regression.py:449`: linear
interpolation at the position `(n - 1) k / 4` of the sorted array.  For an empty array, where NumPy gives NaN or raises
`IndexError`, depending on its version, it is zero here. -/
def quartile (l : List K) (k : Nat) : K :=
  let s := l.insertionSort (· ≤ ·)
  let p := (l.length - 1) * k
  let a := s.getD (p / 4) 0
  let b := s.getD (min (p / 4 + 1) (l.length - 1)) 0
  a + (b - a) * (((p % 4 : Nat) : K) / 4)

/-- The limits of the frequencies, `sample/beatsdrop/regression.py:449-451`. -/
def clipLimits (c : K) (l : List K) : K × K :=
  let maxDf := c * (quartile l 3 - quartile l 1) / 2
  (quartile l 2 - maxDf, quartile l 2 + maxDf)

/-- `np.clip`, `sample/beatsdrop/regression.py:451`: the upper limit is applied last. -/
def clipTo (lim : K × K) (v : K) : K := min (max v lim.1) lim.2

/-- The limited frequencies, where all of them are numbers, `sample/beatsdrop/regression.py:448-451`. -/
def clipFreq (c : Option K) (l : List K) : List K :=
  match c with
  | none => l
  | some c => l.map (clipTo (clipLimits c l))

end Clip

/-- The limited frequencies, `sample/beatsdrop/regression.py:448-451`.  If one of them is NaN then so are the quantiles,
and `np.clip` with limits that are NaN gives NaN everywhere. -/
noncomputable def clipCells (c : Option ℝ) (l : List Cell) : List Cell :=
  match c with
  | none => l
  | some c =>
    if l.all Option.isSome then (clipFreq (some c) l.reduceOption).map some
    else l.map fun _ => none

end Verif.Beat
