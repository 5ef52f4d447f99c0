import Verif.Float.FitModel
import Verif.Float.HingeModel
import Verif.Sample.Model
import Verif.Sample.FitModel
import Verif.Training.Model

/-!
# `SAMPLE.fit` as a whole in floating point (`sample/sample.py:107-195`, `sample/hinge.py`)

Analysis, time axis, start and bounds of the hinge regression, decay times are rounded operations; the
libraries of `Float/FitModel`, the linear regression, the search of `least_squares` and `db2a` are
arbitrary (`SampleLib`).
-/

set_option autoImplicit false

namespace Verif.Float

open Verif.Tracker (State Track Peak)
open Verif.Sms (Params)
open Verif.Sample (mask filterItem PreTrack allSome cleanParams)
open Verif.Hinge (Coeffs)

variable {K : Type} [Field K] [LinearOrder K] [IsStrictOrderedRing K] (A : Arith K)

/-- What the numerical libraries compute, in addition to `Libraries`: slope and intercept of
`LinearRegression().fit(x, y)` (`sample/hinge.py:221-223`), the search of
`scipy.optimize.least_squares` (`sample/hinge.py:226-231`), `db2a` (`sample/utils/dsp.py:62-73`), the
constants `_D2K_CONST` (`sample/sample.py:128`) and `DOUBLE_DB`. -/
structure SampleLib (K : Type) extends Libraries K where
  lin : List K → List K → Except PyErr (K × K)
  solve : (Coeffs K → List K) → Coeffs K → Coeffs K → Coeffs K → Except PyErr (Coeffs K)
  db2a : K → K
  d2k : K
  doubleDb : K

/-- `residual`, `sample/hinge.py:190-191`, with `hinge_function`, `sample/hinge.py:31-34`. -/
def residualsF (x y : List K) (p : Coeffs K) : List K :=
  List.zipWith (fun x y => A.sub (A.add p.q (A.mul p.k (min x p.a))) y) x y

variable (L : SampleLib K)

/-- `HingeRegression.fit` with the default start and bounds, `sample/hinge.py:210-234`. -/
def hingeFitF (x y : List K) : Except PyErr (Coeffs K) :=
  match L.lin x y with
  | .error e => .error e
  | .ok (k, q) =>
    match defaultCoeffsInitF A x y k q with
    | .error e => .error e
    | .ok x0 =>
      match defaultBoundsF A x y k q with
      | .error e => .error e
      | .ok (lo, hi) => Hinge.leastSquares L.solve (residualsF A x y) x0 lo hi

/-- The default regressor, `sample/sample.py:145`.  NaN in the data is a `ValueError` (scikit-learn's
input checks). -/
def hingeRegressorF (t : List K) (mag : List (Option K)) : Except PyErr (Coeffs K) :=
  match allSome mag with
  | none => .error .valueError
  | some y => hingeFitF A L t y

/-- The time of the frame with index `i` in the track, `sample/sample.py:112-116, 121-123`. -/
def frameTimeF (p : Params K) (xsize start i : Nat) : K :=
  let t := A.div (A.add (i : K) (start : K)) (A.div p.cfg.fs p.cfg.h)
  let t := if !p.padded then A.add t (A.div (A.mul (1 / 2) (p.w.length : K)) p.cfg.fs) else t
  if p.reverse then A.sub (A.div (xsize : K) p.cfg.fs) t else t

/-- `_preprocess_track`, `sample/sample.py:107-126` (see `Sample.preprocessTrack`). -/
def preprocessTrackF (p : Params K) (xsize : Nat) (t : Track K) : Except PyErr (PreTrack K) :=
  let notnans := t.mag.map Option.isSome
  match mask (List.range t.mag.length) notnans with
  | .error e => .error e
  | .ok idx =>
    match filterItem t.freq notnans, filterItem t.mag notnans, filterItem t.phase notnans with
    | .ok freq, .ok mag, .ok phase =>
      .ok ⟨idx.map (frameTimeF A p xsize t.start), freq,
        mag.map (fun m => m.map fun v => A.add v L.doubleDb), phase⟩
    | .error e, _, _ => .error e
    | _, .error e, _ => .error e
    | _, _, .error e => .error e

/-- `np.mean` of numbers that may be NaN: NaN for an empty array and for an array with NaN. -/
def freqReduceF (l : List (Option K)) : Option K :=
  match allSome l with
  | none => none
  | some [] => none
  | some (a :: as) => L.mean (a :: as)

/-- `_fit_track`, `sample/sample.py:130-150`; the decay time is infinite or NaN (`none`) if the slope
is zero. -/
def fitTrackF (t : PreTrack K) : Except PyErr (List (List (Option K))) :=
  match hingeRegressorF A L t.time t.mag with
  | .error e => .error e
  | .ok r => .ok [[freqReduceF L t.freq, if r.k = 0 then none else some (A.div L.d2k r.k),
      some (L.db2a r.q)]]

/-- `_track_preprocess_and_fit`, `sample/sample.py:152-154`. -/
def trackParamsF (p : Params K) (xsize : Nat) (t : Track K) : Except PyErr (List (List (Option K))) :=
  match preprocessTrackF A L p xsize t with
  | .error e => .error e
  | .ok r => fitTrackF A L r

/-- `SAMPLE.fit`, `sample/sample.py:158-195` (see `Sample.fit`): the tracker after the fit and the rows
of `param_matrix_`; `none` while the pool is still busy. -/
def fitSampleF [FloorRing K] (poolGiven : Bool) (nJobs : Option Int) (evs : List Training.Ev)
    (p : Params K) (prior : State K) (x : List K) :
    Option (Except PyErr (State K × List (List (Option K)))) :=
  if !Training.poolOk poolGiven nJobs then some (.error .valueError)
  else
    match Sms.timeFrames p.padded p.w.length p.hop x with
    | .error e => some (.error e)
    | .ok _ =>
      match fitF A L.toLibraries p prior x with
      | .error e => some (.error e)
      | .ok s =>
        match Training.contextMap poolGiven nJobs (trackParamsF A L p x.length)
            (tracksF A L.toLibraries p s) evs with
        | none => none
        | some (.error e) => some (.error e)
        | some (.ok cols) =>
          match cleanParams 3 cols.flatten with
          | .error e => some (.error e)
          | .ok rows => some (.ok (s, rows))

end Verif.Float
