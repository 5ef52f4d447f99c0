import Mathlib.Data.Real.Archimedean
import Verif.Sms.FitModel
import Verif.Hinge.Model
import Verif.Training.Model
import Verif.Sample.SynthModel

/-!
# Model of `SAMPLE.fit` as a whole

`sample/sample.py:152-195`, with the default regressor (`sample/hinge.py`) and the default
`freq_reduce` (`numpy.mean`).
-/

set_option autoImplicit false

namespace Verif.Sample

open Verif.Tracker

/-- The values in an array without NaN. -/
def allSome {α : Type*} : List (Option α) → Option (List α)
  | [] => some []
  | none :: _ => none
  | some a :: l => (allSome l).map (a :: ·)

/-- `LinearRegression().fit(x, y)`, slope and intercept (see `olsSlope`). -/
noncomputable def linearRegression (x y : List ℝ) : Except PyErr (ℝ × ℝ) :=
  .ok (olsSlope x y, olsIntercept x y)

/-- The default regressor, `HingeRegression().fit(t, mag)` with the attributes `k_` and `q_`,
`sample/sample.py:145-149`, `sample/hinge.py:210-234`.  `solve` is the search of
`scipy.optimize.least_squares`.  NaN in the data is a `ValueError` (scikit-learn's input checks). -/
noncomputable def hingeRegressor
    (solve : (Hinge.Coeffs ℝ → List ℝ) → Hinge.Coeffs ℝ → Hinge.Coeffs ℝ → Hinge.Coeffs ℝ →
      Except PyErr (Hinge.Coeffs ℝ))
    (t : List ℝ) (mag : List (Option ℝ)) : Except PyErr (ℝ × ℝ) :=
  match allSome mag with
  | none => .error .valueError
  | some y =>
    match Hinge.fit linearRegression Hinge.defaultCoeffsInit Hinge.defaultBounds solve t y with
    | .error e => .error e
    | .ok r => .ok (r.k, r.q)

/-- `np.mean`: NaN for an empty array and for an array with NaN. -/
noncomputable def npMean (l : List (Option ℝ)) : Option ℝ :=
  match allSome l with
  | none => none
  | some [] => none
  | some (a :: as) => some (mean (a :: as))

/-- What `_preprocess_track` reads, `sample/sample.py:111-125`. -/
noncomputable def analysis (p : Sms.Params ℝ) : Analysis ℝ :=
  ⟨p.cfg.fs, p.cfg.h, p.w.length, p.padded, p.reverse, 20 * Real.logb 10 2⟩

/-- `_track_preprocess_and_fit`, `sample/sample.py:152-154`. -/
noncomputable def trackParams (reg : List ℝ → List (Option ℝ) → Except PyErr (ℝ × ℝ))
    (freqReduce : List (Option ℝ) → Option ℝ) (p : Sms.Params ℝ) (xsize : Nat) (t : Track ℝ) :
    Except PyErr (List (List (Option ℝ))) :=
  match preprocessTrack (analysis p) xsize t with
  | .error e => .error e
  | .ok r => fitTrack reg freqReduce r

/-- `SAMPLE.fit`, `sample/sample.py:158-195`, after the keyword arguments have been set (see
`Training.fitKwargs`): the sinusoidal model after the fit and the rows of `param_matrix_`.
`poolGiven`, `nJobs` and `evs` are the training context (see `Training.contextMap`); the result is
`none` while the pool is still busy.  Simplification: the storages of the parallel fit are treated
separately (`Training.wrapAll`). -/
noncomputable def fit (spec : List ℝ → List ℝ × List ℝ) (sort : List (Peak ℝ) → List Nat)
    (reg : List ℝ → List (Option ℝ) → Except PyErr (ℝ × ℝ))
    (freqReduce : List (Option ℝ) → Option ℝ)
    (poolGiven : Bool) (nJobs : Option Int) (evs : List Training.Ev)
    (m : Sms.Model ℝ) (x : List ℝ) :
    Option (Except PyErr (Sms.Model ℝ × List (List (Option ℝ)))) :=
  if !Training.poolOk poolGiven nJobs then some (.error .valueError)
  else
    match Sms.timeFrames m.params.padded m.params.w.length m.params.hop x with
    | .error e => some (.error e)
    | .ok _ =>
      match m.fit spec sort x Sms.Kwargs.none with
      | .error e => some (.error e)
      | .ok m' =>
        match Training.contextMap poolGiven nJobs (trackParams reg freqReduce m'.params x.length)
            m'.tracks evs with
        | none => none
        | some (.error e) => some (.error e)
        | some (.ok cols) =>
          match cleanParams 3 cols.flatten with
          | .error e => some (.error e)
          | .ok rows => some (.ok (m', rows))

end Verif.Sample
