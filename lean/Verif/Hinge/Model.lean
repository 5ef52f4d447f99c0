import Mathlib.Algebra.Order.Field.Basic
import Verif.Py

/-!
# Model of `sample/hinge.py`

`hinge_function` (14-34), `HingeRegression` (43-234).
-/

set_option autoImplicit false

namespace Verif.Hinge

variable {K : Type*} [Field K] [LinearOrder K]

/-- `hinge_function`, `sample/hinge.py:14-34`, entry by entry (fresh output array). -/
def hingeFunction (x a k q : K) : K := q + k * min x a

/-- Coefficients `(a, k, q)`. -/
structure Coeffs (K : Type*) where
  a : K
  k : K
  q : K
  deriving DecidableEq, Repr

/-- `np.min`; `ValueError` for an empty array. -/
def npMin : List K → Except PyErr K
  | [] => .error .valueError
  | a :: l => .ok (l.foldl min a)

/-- `np.max`; `ValueError` for an empty array. -/
def npMax : List K → Except PyErr K
  | [] => .error .valueError
  | a :: l => .ok (l.foldl max a)

/-- `_default_coeffs_init`, `sample/hinge.py:107-125`. -/
def defaultCoeffsInit (x _y : List K) (k q : K) : Except PyErr (Coeffs K) :=
  match npMin x, npMax x with
  | .ok lo, .ok hi => .ok ⟨(lo + hi) / 2, k, q⟩
  | .error e, _ => .error e
  | _, .error e => .error e

/-- Knee point bounds, `sample/hinge.py:142-150`. -/
def kneeBounds (x : List K) : Except PyErr (K × K) :=
  if x.length ≤ 1 then .error .valueError
  else
    match npMin x, npMax x with
    | .ok lo, .ok hi => if lo = hi then .ok (lo - 1, hi + 1) else .ok (lo, hi)
    | .error e, _ => .error e
    | _, .error e => .error e

/-- Intercept bounds, `sample/hinge.py:153-155`. -/
def interceptBounds (y : List K) (q : K) : Except PyErr (K × K) :=
  match npMax (y.map fun v => |v - q|) with
  | .error e => .error e
  | .ok m =>
    let dq := if m = 0 then 1 else m
    .ok (q - dq, q + dq)

/-- Slope bounds, `sample/hinge.py:158-163`. -/
def slopeBounds (k : K) : K × K :=
  if k = 0 then (-1, 1)
  else (if k < 0 then 8 * k else k, if k < 0 then k else 8 * k)

/-- `_default_bounds`, `sample/hinge.py:127-165`. -/
def defaultBounds (x y : List K) (k q : K) : Except PyErr (Coeffs K × Coeffs K) :=
  match kneeBounds x with
  | .error e => .error e
  | .ok (aMin, aMax) =>
    match interceptBounds y q with
    | .error e => .error e
    | .ok (qMin, qMax) =>
      let (kMin, kMax) := slopeBounds k
      .ok (⟨aMin, kMin, qMin⟩, ⟨aMax, kMax, qMax⟩)

/-- `_residual`, `sample/hinge.py:177-193`: one residual per point. -/
def residuals (x y : List K) (p : Coeffs K) : List K :=
  List.zipWith (fun x y => hingeFunction x p.a p.k p.q - y) x y

/-- The checks at the beginning of `scipy.optimize.least_squares` (lower bounds strictly below upper
bounds, starting point within the bounds), then the search itself, `solve`. -/
def leastSquares (solve : (Coeffs K → List K) → Coeffs K → Coeffs K → Coeffs K →
      Except PyErr (Coeffs K))
    (f : Coeffs K → List K) (x0 lo hi : Coeffs K) : Except PyErr (Coeffs K) :=
  if ¬ (lo.a < hi.a ∧ lo.k < hi.k ∧ lo.q < hi.q) then .error .valueError
  else if ¬ (lo.a ≤ x0.a ∧ x0.a ≤ hi.a ∧ lo.k ≤ x0.k ∧ x0.k ≤ hi.k ∧ lo.q ≤ x0.q ∧ x0.q ≤ hi.q)
  then .error .valueError
  else solve f x0 lo hi

/-- `HingeRegression.fit`, `sample/hinge.py:210-234`: `lin` is the linear regressor (slope and
intercept), `coeffsInit` and `bounds` are the parameters of the same names.
Simplification: the input is a list (a column vector in the code). -/
def fit (lin : List K → List K → Except PyErr (K × K))
    (coeffsInit : List K → List K → K → K → Except PyErr (Coeffs K))
    (bounds : List K → List K → K → K → Except PyErr (Coeffs K × Coeffs K))
    (solve : (Coeffs K → List K) → Coeffs K → Coeffs K → Coeffs K → Except PyErr (Coeffs K))
    (x y : List K) : Except PyErr (Coeffs K) :=
  match lin x y with
  | .error e => .error e
  | .ok (k, q) =>
    match coeffsInit x y k q with
    | .error e => .error e
    | .ok x0 =>
      match bounds x y k q with
      | .error e => .error e
      | .ok (lo, hi) => leastSquares solve (residuals x y) x0 lo hi

/-- `HingeRegression.predict`, `sample/hinge.py:167-175`. -/
def predict (p : Coeffs K) (x : List K) : List K := x.map fun v => hingeFunction v p.a p.k p.q

end Verif.Hinge
