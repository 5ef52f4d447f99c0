import Verif.Float.BisectModel
import Verif.Hinge.Model

/-!
# Default start and bounds of the hinge regression in floating point (`sample/hinge.py:107-165`)
-/

set_option autoImplicit false

namespace Verif.Float

open Verif.Hinge (Coeffs npMin npMax)

variable {K : Type} [Field K] [LinearOrder K] [IsStrictOrderedRing K] (A : Arith K)

/-- `_default_coeffs_init`, `sample/hinge.py:107-125`. -/
def defaultCoeffsInitF (x _y : List K) (k q : K) : Except PyErr (Coeffs K) :=
  match npMin x, npMax x with
  | .ok lo, .ok hi => .ok ⟨A.div (A.add lo hi) 2, k, q⟩
  | .error e, _ => .error e
  | _, .error e => .error e

/-- Knee point bounds, `sample/hinge.py:142-150`. -/
def kneeBoundsF (x : List K) : Except PyErr (K × K) :=
  if x.length ≤ 1 then .error .valueError
  else
    match npMin x, npMax x with
    | .ok lo, .ok hi => if lo = hi then .ok (A.sub lo 1, A.add hi 1) else .ok (lo, hi)
    | .error e, _ => .error e
    | _, .error e => .error e

/-- Intercept bounds, `sample/hinge.py:153-155`. -/
def interceptBoundsF (y : List K) (q : K) : Except PyErr (K × K) :=
  match npMax (y.map fun v => |A.sub v q|) with
  | .error e => .error e
  | .ok m =>
    let dq := if m = 0 then 1 else m
    .ok (A.sub q dq, A.add q dq)

/-- Slope bounds, `sample/hinge.py:158-163`. -/
def slopeBoundsF (k : K) : K × K :=
  if k = 0 then (-1, 1)
  else (if k < 0 then A.mul 8 k else k, if k < 0 then k else A.mul 8 k)

/-- `_default_bounds`, `sample/hinge.py:127-165`. -/
def defaultBoundsF (x y : List K) (k q : K) : Except PyErr (Coeffs K × Coeffs K) :=
  match kneeBoundsF A x with
  | .error e => .error e
  | .ok (aMin, aMax) =>
    match interceptBoundsF A y q with
    | .error e => .error e
    | .ok (qMin, qMax) =>
      let (kMin, kMax) := slopeBoundsF A k
      .ok (⟨aMin, kMin, qMin⟩, ⟨aMax, kMax, qMax⟩)

end Verif.Float
