import Verif.Beat.RegressionModel
import Verif.Sample.FitModel

/-!
# Beat decision (`sample/beatsdrop/decision.py`) and the SAMPLE model with beats
(`sample/beatsdrop/sample.py`)

Simplification: the optional storages for intermediate results are left out (they return the value
that is stored, `sample/utils/learn.py:270-293`).
-/

set_option autoImplicit false

namespace Verif.Beat

open Verif.Out Verif.Tracker Verif.Sample

/-- A decision function: track, beat parameters and single-partial parameters. -/
abbrev Decide := PreTrack ℝ → Octet ℝ → List Cell → Bool

/-- `BeatDecisor.decide_beat`, `sample/beatsdrop/decision.py:58-74`. -/
def neverBeat : Decide := fun _ _ _ => false

open Classical in
/-- `AlmostNotABeatDecisor.decide_beat`, `sample/beatsdrop/decision.py:124-151`; `eps` is the precision
of floats. -/
noncomputable def almostNotABeat (th eps : ℝ) : Decide := fun _ p _ =>
  [|p.f0 - p.f1|, |p.a0|, |p.a1|].all fun v => decide (th * eps < v)

/-- `output_params`, `sample/beatsdrop/decision.py:30-41`. -/
def outputParams (params : List Cell) : List (List Cell) := [params ++ [some 0]]

/-- `output_beat_params`, `sample/beatsdrop/decision.py:43-55`. -/
def outputBeatParams (p : Octet ℝ) : List (List Cell) :=
  [[some p.f0, some p.d0, some p.a0, some p.p0], [some p.f1, some p.d1, some p.a1, some p.p1]]

/-- `track_params` with `fit=True`, `sample/beatsdrop/decision.py:76-106`.  `beat` is the fit of the beat
regression, with its attribute `params_` as a result. -/
def decisorParams (decide : Decide) (beat : PreTrack ℝ → Except PyErr (Octet ℝ)) (t : PreTrack ℝ)
    (params : List Cell) : Except PyErr (List (List Cell)) :=
  match beat t with
  | .error e => .error e
  | .ok p => .ok (if decide t p params then outputBeatParams p else outputParams params)

/-- `SAMPLEBeatsDROP._fit_track`, `sample/beatsdrop/sample.py:87-106`. -/
noncomputable def beatFitTrack (reg : List ℝ → List (Option ℝ) → Except PyErr (ℝ × ℝ))
    (freqReduce : List (Option ℝ) → Option ℝ) (decide : Decide)
    (beat : PreTrack ℝ → Except PyErr (Octet ℝ)) (t : PreTrack ℝ) : Except PyErr (List (List Cell)) :=
  match fitTrack reg freqReduce t with
  | .error e => .error e
  | .ok [] => .error .indexError
  | .ok (params :: _) => decisorParams decide beat t params

/-- `DualBeatRegression.fit` on a track, `sample/beatsdrop/decision.py:96-97`, with default initialiser
and bounds (`sample/beatsdrop/regression.py:159-165`); NaN in a track is a `ValueError` (in the linear
regression, or because the starting value is not feasible). -/
noncomputable def defaultBeat (linreg : List ℝ → List ℝ → Except PyErr (ℝ × ℝ))
    (peaks : List ℝ → List ℝ → List ℝ) (phat : List ℝ → List ℝ → ℝ → ℝ) (eps : ℝ)
    (solve : Octet ℝ → Octet ℝ → Octet ℝ → Except PyErr (Octet ℝ)) (dis : Bool)
    (lt : Cell → Cell → Bool) (L : Loss) (fs : ℝ) (t : PreTrack ℝ) : Except PyErr (Octet ℝ) :=
  match allSome t.mag, allSome t.freq with
  | some a, some f =>
    fitDual dis lt L (defaultInit linreg peaks phat fs) (defaultBounds eps) solve t.time a f
  | _, _ => .error .valueError

/-- `_track_preprocess_and_fit`, `sample/sample.py:152-154`, of `SAMPLEBeatsDROP`; the beat regression
gets the sample rate of the sinusoidal model (`sample/beatsdrop/sample.py:98-99`). -/
noncomputable def beatTrackParams (reg : List ℝ → List (Option ℝ) → Except PyErr (ℝ × ℝ))
    (freqReduce : List (Option ℝ) → Option ℝ) (decide : Decide)
    (beat : ℝ → PreTrack ℝ → Except PyErr (Octet ℝ)) (p : Sms.Params ℝ) (xsize : Nat)
    (t : Track ℝ) : Except PyErr (List (List Cell)) :=
  match preprocessTrack (analysis p) xsize t with
  | .error e => .error e
  | .ok r => beatFitTrack reg freqReduce decide (beat p.cfg.fs) r

/-- `SAMPLE.fit`, `sample/sample.py:158-195`, with `_track_preprocess_and_fit` and `_PARAM_MATRIX_NROWS`
of a subclass (see `Sample.fit`). -/
noncomputable def fitWith (nrows : Nat)
    (trackFn : Sms.Params ℝ → Nat → Track ℝ → Except PyErr (List (List Cell)))
    (spec : List ℝ → List ℝ × List ℝ) (sort : List (Peak ℝ) → List Nat)
    (poolGiven : Bool) (nJobs : Option Int) (evs : List Training.Ev)
    (m : Sms.Model ℝ) (x : List ℝ) : Option (Except PyErr (Sms.Model ℝ × List (List Cell))) :=
  if !Training.poolOk poolGiven nJobs then some (.error .valueError)
  else
    match Sms.timeFrames m.params.padded m.params.w.length m.params.hop x with
    | .error e => some (.error e)
    | .ok _ =>
      match m.fit spec sort x Sms.Kwargs.none with
      | .error e => some (.error e)
      | .ok m' =>
        match Training.contextMap poolGiven nJobs (trackFn m'.params x.length) m'.tracks evs with
        | none => none
        | some (.error e) => some (.error e)
        | some (.ok cols) =>
          match cleanParams nrows cols.flatten with
          | .error e => some (.error e)
          | .ok rows => some (.ok (m', rows))

/-- `SAMPLEBeatsDROP.fit`, `sample/beatsdrop/sample.py:85` and `sample/sample.py:158-195`. -/
noncomputable def fitBeatsDrop (reg : List ℝ → List (Option ℝ) → Except PyErr (ℝ × ℝ))
    (freqReduce : List (Option ℝ) → Option ℝ) (decide : Decide)
    (beat : ℝ → PreTrack ℝ → Except PyErr (Octet ℝ)) :=
  fitWith 4 (beatTrackParams reg freqReduce decide beat)

/-- The keyword argument `phases` of `predict`: missing, `None`, a string or an array. -/
inductive PhaseArg
  | absent
  | pyNone
  | str (s : String)
  | arr (l : List ℝ)

/-- `SAMPLE.predict`, `sample/sample.py:282-313`, with the argument `phases` as it is given: anything
but a string is indexed (line 310), which is a `TypeError` for `None` (after the modes have been
sorted). -/
noncomputable def predictWith (argsort : List ℝ → List Nat) (draw : Nat → List ℝ)
    (s : Fitted ℝ) (x : List ℝ) (nModes : Option Int) (order : String) (reverse : Bool)
    (phases : PhaseArg) (analytic : Bool) : Except PyErr Audio :=
  match phases with
  | .absent => s.predict argsort draw x nModes order reverse .none analytic
  | .str p => s.predict argsort draw x nModes order reverse (.str p) analytic
  | .arr l => s.predict argsort draw x nModes order reverse (.arr l) analytic
  | .pyNone =>
    match s.selectModes argsort nModes order reverse with
    | .error e => .error e
    | .ok _ => .error .typeError

/-- `SAMPLEBeatsDROP.predict`, `sample/beatsdrop/sample.py:108-124`; `phases_` is the fourth row. -/
noncomputable def predictBeats (argsort : List ℝ → List Nat) (draw : Nat → List ℝ)
    (s : Fitted ℝ) (phases_ : List ℝ) (x : List ℝ) (nModes : Option Int) (order : String)
    (reverse : Bool) (phases : PhaseArg) (analytic : Bool) : Except PyErr Audio :=
  match phases with
  | .absent => predictWith argsort draw s x nModes order reverse (.arr phases_) analytic
  | p => predictWith argsort draw s x nModes order reverse p analytic

end Verif.Beat
