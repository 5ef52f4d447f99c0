import Verif.Float.Basic
import Verif.Sample.Model

/-!
# Selection of modes with computed energies (`sample/sample.py:19-36, 229-252, 304-309`)
-/

set_option autoImplicit false

namespace Verif.Float

open Verif.Sample (Fitted)

variable {K : Type} [Field K] [LinearOrder K] [IsStrictOrderedRing K] (A : Arith K)

/-- `modal_energy`, `sample/sample.py:32-36`, one entry: square, product and quotient are rounded. -/
def energyF (a d : K) : K := A.div (A.mul (A.mul a a) d) 4

/-- `energies_`, `sample/sample.py:229-232`. -/
def energiesF (s : Fitted K) : List K := List.zipWith (energyF A) s.amps s.decays

/-- The indices of the modes used by `predict` with the default order, `sample/sample.py:304-309` with
`mode_argsort_` (lines 248-252); `argsort` is `np.argsort`. -/
def selectModesF (argsort : List K → List Nat) (s : Fitted K) (nModes : Option Int) : List Nat :=
  Np.slice (argsort (energiesF A s)).reverse none (some (s.nModes nModes))

end Verif.Float
