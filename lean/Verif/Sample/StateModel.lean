import Verif.Sms.FitModel
import Verif.Sample.Model
import Verif.Training.Model

/-!
# `SAMPLE` as an object (`sample/sample.py:75-227`)

The settings, the tracker and the parameter matrix of a model, changed one after the other by `set_params`,
`fit` (which may raise at each step, or be interrupted) and the setters of `freqs_`, `decays_` and `amps_`.
-/

set_option autoImplicit false

namespace Verif.Sample.Hist

open Verif.Tracker

variable {K : Type*} [Field K] [LinearOrder K]

/-- The settings that matter here: those of the sinusoidal model and `max_n_modes`. -/
structure Settings (K : Type*) where
  params : Sms.Params K
  maxNModes : Option Int

/-- The object: settings, attributes of the tracker (`none`: never reset), and the rows of `param_matrix_` (`none`:
no such attribute; an entry `none` is NaN or an infinity). -/
structure Obj (K : Type*) where
  settings : Settings K
  state : Option (State K)
  matrix : Option (List (List (Option K)))

/-- A model that was never fitted. -/
def Obj.new (σ : Settings K) : Obj K := ⟨σ, none, none⟩

/-- What a call of `fit` uses: the FFT and argsort (see `Sms.fitLoop`), `_PARAM_MATRIX_NROWS`, the entry into the
training context, `_track_preprocess_and_fit` (of the class, with its regressors), and what is left of the tracker
when an update or a reset is left in the middle (any function). -/
structure Env (K : Type*) where
  spec : List K → List K × List K
  sort : List (Peak K) → List Nat
  nrows : Nat
  enter : Except PyErr Unit
  trackParams : Sms.Params K → Nat → Track K → Except PyErr (List (List (Option K)))
  lost : Option (State K) → Option (State K)

/-- One frame, the body of the loop in `sample/sms/sm.py:323-330`, as in `Sms.fitLoop`, without the storage. -/
def frameStep [FloorRing K] (E : Env K) (p : Sms.Params K) (w x : List K) (s : State K) :
    Except PyErr (State K) :=
  match Sms.dft E.spec x w p.n with
  | .error e => .error e
  | .ok (mx, px) =>
    match Sms.peakDetectInterp mx px (some p.t) with
    | .error e => .error e
    | .ok pk =>
      match Sms.toPeaks p.cfg.fs p.n pk with
      | .error e => .error e
      | .ok peaks => call p.deact p.cfg.toCfg (E.sort peaks) peaks s

/-- The loop of `SinusoidalModel.fit`, `sample/sms/sm.py:323-330`: the states of the tracker, within and after each
update, and the last one or the exception. -/
def framesTrace [FloorRing K] (E : Env K) (p : Sms.Params K) (w : List K) :
    List (List K) → State K → List (Option (State K)) × Except PyErr (State K)
  | [], s => ([], .ok s)
  | x :: xs, s =>
    match frameStep E p w x s with
    | .error e => ([E.lost (some s)], .error e)
    | .ok s' =>
      let r := framesTrace E p w xs s'
      (E.lost (some s) :: some s' :: r.1, r.2)

/-- `tracks_` of the sinusoidal model, `sample/sms/sm.py:333-336`, from settings and tracker. -/
def tracksOf [FloorRing K] (p : Sms.Params K) (s : State K) : List (Track K) :=
  if p.modal then modalAllTracks p.cfg s else allTracks p.cfg.toCfg s

/-- The three assignments to `param_matrix_`, `sample/sample.py:188-193`: the array of all columns, the empty matrix if
there are none, the finite columns. -/
def cleanTrace (nrows : Nat) (cols : List (List (Option K))) :
    List (List (List (Option K))) × Option PyErr :=
  match (if cols.isEmpty then .ok [] else stack nrows cols) with
  | .error e => ([], some e)
  | .ok m =>
    let m' := if cols.isEmpty then List.replicate nrows [] else m
    match maskColumns (validParams m') m' with
    | .error e => ([m, m'], some e)
    | .ok r => ([m, m', r], none)

/-- `SAMPLE.fit`, `sample/sample.py:158-195`, with `SinusoidalModel.fit`, `sample/sms/sm.py:298-331`: the states after
each step, beginning with the state before, and the exception.  `kw` is `set_params` with the keyword arguments: the
new settings, and an exception.  The tracks are processed one after the other (see C56 for pools).  Simplification:
the storages and `w_` are left out. -/
def fit [FloorRing K] (E : Env K) (kw : Settings K → Settings K × Option PyErr) (x : List K) (s : Obj K) :
    List (Obj K) × Option PyErr :=
  let σ := (kw s.settings).1
  let s1 := { s with settings := σ }
  match (kw s.settings).2 with
  | some e => ([s, s1], some e)
  | none =>
    match E.enter with
    | .error e => ([s, s1], some e)
    | .ok () =>
      match Sms.timeFrames σ.params.padded σ.params.w.length σ.params.hop x with
      | .error e => ([s, s1], some e)
      | .ok _ =>
        let s2 : Obj K := { s1 with state := some ⟨[], [], 0⟩ }
        let pre := [s, s1, { s1 with state := E.lost s1.state }, s2]
        match Sms.normalizedWindow σ.params.w with
        | .error e => (pre, some e)
        | .ok w =>
          match Sms.timeFrames σ.params.padded σ.params.w.length σ.params.hop
              (if σ.params.reverse then x.reverse else x) with
          | .error e => (pre, some e)
          | .ok frames =>
            let r := framesTrace E σ.params w frames ⟨[], [], 0⟩
            let tr := pre ++ r.1.map (fun st => { s1 with state := st })
            match r.2 with
            | .error e => (tr, some e)
            | .ok st =>
              match Training.starmapList (E.trackParams σ.params x.length) (tracksOf σ.params st) with
              | .error e => (tr, some e)
              | .ok cols =>
                let c := cleanTrace E.nrows cols.flatten
                (tr ++ c.1.map (fun m => ⟨σ, some st, some m⟩), c.2)

/-- `tracks_`: without a tracker that was reset an `AttributeError`. -/
def Obj.tracks [FloorRing K] (s : Obj K) : Except PyErr (List (Track K)) :=
  match s.state with
  | none => .error .attributeError
  | some st => .ok (tracksOf s.settings.params st)

/-- `freqs_`, `decays_`, `amps_` (and `phases_` of `SAMPLEBeatsDROP`): row `r` of the matrix,
`sample/sample.py:202-227`. -/
def Obj.row (s : Obj K) (r : Nat) : Except PyErr (List (Option K)) :=
  match s.matrix with
  | none => .error .attributeError
  | some m => getE m r

/-- The setters, `sample/sample.py:207-227`: `self.param_matrix_[r, :] = v`; one value is broadcast. -/
def Obj.setRow (s : Obj K) (r : Nat) (v : List (Option K)) : Except PyErr (Obj K) :=
  match s.matrix with
  | none => .error .attributeError
  | some m =>
    match getE m r with
    | .error e => .error e
    | .ok old =>
      if v.length = old.length then .ok { s with matrix := some (m.set r v) }
      else
        match v with
        | [a] => .ok { s with matrix := some (m.set r (List.replicate old.length a)) }
        | _ => .error .valueError

/-- What a user does with the object: `set_params` (as in `fit`), `fit` (`stop = some k`: interrupted after `k` steps,
if there are as many), an assignment to a row. -/
inductive Op (K : Type*) where
  | set (f : Settings K → Settings K × Option PyErr)
  | fit (E : Env K) (kw : Settings K → Settings K × Option PyErr) (x : List K) (stop : Option Nat)
  | row (r : Nat) (v : List (Option K))

/-- The object afterwards. -/
def Op.run [FloorRing K] (s : Obj K) : Op K → Obj K
  | .set f => { s with settings := (f s.settings).1 }
  | .fit E kw x stop =>
    let tr := (Hist.fit E kw x s).1
    match stop with
    | none => tr.getLastD s
    | some k => (tr[k]?).getD (tr.getLastD s)
  | .row r v =>
    match s.setRow r v with
    | .error _ => s
    | .ok s' => s'

end Verif.Sample.Hist
