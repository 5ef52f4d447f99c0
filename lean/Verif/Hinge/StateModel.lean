import Verif.Hinge.Model

/-!
# Hinge regression as an object (`sample/hinge.py:43-234`)

The attributes of a `HingeRegression`, changed one by one by `fit`, which may raise at each call of
another function or be interrupted between two assignments, and read by `predict`, `a_`, `k_` and `q_`.
-/

set_option autoImplicit false

namespace Verif.Hinge

variable {K : Type*} [Field K] [LinearOrder K]

/-- The attributes: what the linear regressor has learned (`none`: not fitted; else slope and intercept),
`coeffs_`, and `result_` (its `x`). -/
structure Hr (K : Type*) where
  reg : Option (K × K)
  coeffs : Option (Coeffs K)
  result : Option (Coeffs K)

/-- A new object, `sample/hinge.py:76-89`. -/
def Hr.new : Hr K := ⟨none, none, none⟩

/-- The functions that `fit` calls: the fit of the linear regressor, from what it had learned before, with the slope
and intercept read from it; `coeffs_init`; `bounds`; the search of `least_squares`. -/
structure Steps (K : Type*) where
  lin : Option (K × K) → List K → List K → Option (K × K) × Except PyErr (K × K)
  init : List K → List K → K → K → Except PyErr (Coeffs K)
  bounds : List K → List K → K → K → Except PyErr (Coeffs K × Coeffs K)
  solve : (Coeffs K → List K) → Coeffs K → Coeffs K → Coeffs K → Except PyErr (Coeffs K)

/-- `fit`, `sample/hinge.py:221-234`: the states after each assignment, beginning with the state before, and the
exception.  `coeffs_` is assigned before the bounds are computed and the search is called. -/
def Steps.fit (S : Steps K) (s : Hr K) (x y : List K) : List (Hr K) × Option PyErr :=
  let r := S.lin s.reg x y
  let s1 := { s with reg := r.1 }
  match r.2 with
  | .error e => ([s, s1], some e)
  | .ok (k, q) =>
    match S.init x y k q with
    | .error e => ([s, s1], some e)
    | .ok c =>
      let s2 := { s1 with coeffs := some c }
      match S.bounds x y k q with
      | .error e => ([s, s1, s2], some e)
      | .ok (lo, hi) =>
        match leastSquares S.solve (residuals x y) c lo hi with
        | .error e => ([s, s1, s2], some e)
        | .ok p =>
          let s3 := { s2 with result := some p }
          ([s, s1, s2, s3, { s3 with coeffs := some p }], none)

/-- A call of `fit`; `stop = some k`: interrupted after `k` assignments (if there are as many). -/
structure Call (K : Type*) where
  steps : Steps K
  x : List K
  y : List K
  stop : Option Nat

/-- The state after a call. -/
def Call.run (s : Hr K) (c : Call K) : Hr K :=
  let tr := (c.steps.fit s c.x c.y).1
  match c.stop with
  | none => tr.getLastD s
  | some k => (tr[k]?).getD (tr.getLastD s)

/-- `predict`, `sample/hinge.py:167-175`; no `coeffs_` is an `AttributeError`. -/
def Hr.predict (s : Hr K) (x : List K) : Except PyErr (List K) :=
  match s.coeffs with
  | none => .error .attributeError
  | some p => .ok (Hinge.predict p x)

/-- `a_`, `k_` and `q_`, `sample/hinge.py:195-208`. -/
def Hr.akq (s : Hr K) : Except PyErr (K × K × K) :=
  match s.coeffs with
  | none => .error .attributeError
  | some p => .ok (p.a, p.k, p.q)

end Verif.Hinge
