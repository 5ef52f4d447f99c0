import Verif.Widgets.TrimModel

/-!
# A session of the GUI: load, trim, analyse, listen, export (`sample/widgets/analysis.py:129-327`)

The state is what the tabs share (`sample/widgets/utils.py:88-102`).  Callbacks run one after the other, except
that an analysis runs the main loop of Tk while it updates the progress bar, and with it other callbacks, each of
which ends before the analysis goes on: an analysis is a first event, any number of changes of the model with other
callbacks in between, and a last event.  `K` are the samples in exact arithmetic (no NaN); `M` are the states of
the SAMPLE object, of which prediction and parameters are arbitrary functions that may raise.
-/

set_option autoImplicit false

namespace Verif.Widgets

open Verif

/-- What the session depends on: `sample_object.predict`, `sample_object.sdt_params_`, onset detection and the
time shown in an entry (as in `TrimModel`). -/
structure SEnv (K M J : Type) where
  predict : M → List K → Except PyErr (List K)
  params : M → Except PyErr J
  detect : List K → Except PyErr (List Bool)
  retype : Int → Int → Flt K

/-- The shared attributes: audio and trimming, `sample_object`, `audio_resynth_x`, and whether the analysis lock
is taken. -/
structure Session (K M : Type) where
  tab : TrimState K := {}
  model : Option M := none
  resynth : Option (List K) := none
  busy : Bool := false

/-- The messages. -/
inductive Msg where
  | noAudio
  | notAnalyzed
  | failed
  deriving DecidableEq

/-- What the user gets: a sound, a file with sound, a file with parameters, a message, an exception reported by
Tk, or nothing. -/
inductive Output (K J : Type) where
  | sound (x : List K) (sr : Int)
  | wav (x : List K) (sr : Int)
  | json (j : J)
  | message (m : Msg)
  | raised (e : PyErr)
  | nothing

/-- Events.  `analyse made`: the button is pressed, and `made` is the new model, or `none` if making it raises;
`drawn` is whether the first part of the plot succeeds.  `work m`: the fit changes its model to `m`.
`finish drawn`: the fit has ended, with or without an exception.  For exports, `chosen` is whether a file is
chosen. -/
inductive SOp (K M : Type) where
  | tab (op : TrimOp K K)
  | analyse (made : Option M) (drawn : Bool)
  | work (m : M)
  | finish (failed drawn : Bool)
  | playOriginal
  | playResynth
  | exportWav (chosen : Bool)
  | exportJson (chosen : Bool)

variable {K M J : Type} [Field K] [LinearOrder K] [FloorRing K]

/-- `numpy.clip(x, -1, +1)`. -/
def clip (x : List K) : List K := x.map fun v => min (max v (-1)) 1

/-- The audio between the trim bounds and the sample rate, if `audio_loaded`,
`sample/widgets/utils.py:104-112`; `sample/widgets/analysis.py:237`. -/
def region (t : TrimState K) : Option (List K × Int) :=
  match t.audio, t.sr, t.start, t.stop with
  | some x, some sr, some a, some b => some (Np.slice x (some a) (some b), sr)
  | _, _, _, _ => none

/-- `numpy.arange(x.size) / self.audio_sr`.  Simplification: the sample rate is not zero. -/
def times (n : Nat) (sr : Int) : List K := (List.range n).map fun (i : Nat) => (i : K) / (sr : K)

/-- The resynthesis, `sample/widgets/analysis.py:165-168,242-244`; a missing model has no `predict`. -/
def synthesize (env : SEnv K M J) (model : Option M) (r : List K × Int) : Except PyErr (List K) :=
  match model with
  | none => .error .attributeError
  | some m =>
    match env.predict m (times r.1.length r.2) with
    | .error e => .error e
    | .ok y => .ok (clip y)

/-- `update_plot` after `audio_resynth_x = None`, `sample/widgets/analysis.py:228-229,129-168`: the state
and whether it raises.  If `drawn` is false the plot raises before the resynthesis.  Without audio, slicing
`None` raises. -/
def redraw (env : SEnv K M J) (s : Session K M) (drawn : Bool) : Session K M × Option PyErr :=
  let s := { s with resynth := none }
  if drawn then
    match region s.tab with
    | none => (s, some .typeError)
    | some r =>
      match synthesize env s.model r with
      | .error e => (s, some e)
      | .ok y => ({ s with resynth := some y }, none)
  else (s, some .attributeError)

/-- What a callback gives that has shown a message or not and then redrawn. -/
def afterDraw (failed : Bool) : Option PyErr → Output K J
  | some e => .raised e
  | none => if failed then .message .failed else .nothing

/-- `_get_audio(resynth=True)`, `sample/widgets/analysis.py:231-251`: the state and the samples, or what the user
gets instead. -/
def getResynth (env : SEnv K M J) (s : Session K M) : Session K M × Except (Output K J) (List K × Int) :=
  match region s.tab with
  | none => (s, .error (.message .noAudio))
  | some r =>
    match s.resynth with
    | some y => (s, .ok (y, r.2))
    | none =>
      match synthesize env s.model r with
      | .error .attributeError => (s, .error (.message .notAnalyzed))
      | .error e => (s, .error (.raised e))
      | .ok y => ({ s with resynth := some y }, .ok (y, r.2))

/-- One event.  `analysis_cbk`, `sample/widgets/analysis.py:207-229`; `play_cbk`, 253-263; `wav_export_cbk`,
271-295 (Simplification: writing the file succeeds, and nothing happens while the dialog is open);
`export_cbk`, 297-327 (likewise). -/
def SOp.run (env : SEnv K M J) (s : Session K M) : SOp K M → Session K M × Output K J
  | .tab op =>
    let r := op.run env.detect env.retype s.tab
    ({ s with tab := r.1 }, match r.2 with | none => .nothing | some e => .raised e)
  | .analyse made drawn =>
    match region s.tab with
    | none => (s, .message .noAudio)
    | some _ =>
      if s.busy then (s, .nothing)
      else
        match made with
        | none => let r := redraw env s drawn; (r.1, afterDraw true r.2)
        | some m => ({ s with model := some m, busy := true }, .nothing)
  | .work m => if s.busy then ({ s with model := some m }, .nothing) else (s, .nothing)
  | .finish failed drawn =>
    if s.busy then
      let r := redraw env s drawn
      ({ r.1 with busy := false }, afterDraw failed r.2)
    else (s, .nothing)
  | .playOriginal =>
    match region s.tab with
    | none => (s, .message .noAudio)
    | some r => (s, .sound r.1 r.2)
  | .playResynth =>
    match getResynth env s with
    | (s, .error o) => (s, o)
    | (s, .ok r) => (s, .sound r.1 r.2)
  | .exportWav chosen =>
    match getResynth env s with
    | (s, .error o) => (s, o)
    | (s, .ok r) => (s, if chosen then .wav r.1 r.2 else .nothing)
  | .exportJson chosen =>
    match s.model with
    | none => (s, .message .notAnalyzed)
    | some m =>
      match env.params m with
      | .error .attributeError => (s, .message .notAnalyzed)
      | .error e => (s, .raised e)
      | .ok j => (s, if chosen then .json j else .nothing)

/-- The state after a history of events. -/
def runSession (env : SEnv K M J) : Session K M → List (SOp K M) → Session K M
  | s, [] => s
  | s, op :: ops => runSession env (op.run env s).1 ops

end Verif.Widgets
