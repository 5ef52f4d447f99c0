import Verif.Np
import Verif.Widgets.ParseModel

/-!
# The tab for loading and trimming audio (`sample/widgets/audioload.py:17-300`)

The state is what the tabs share (`sample/widgets/utils.py:88-112`) and the state of a mouse drag.
Callbacks run one after the other in the main loop of Tk; a callback that raises is reported and the
main loop goes on with the state left behind.  Drawing, sound and dialogs are not modelled.  The samples
may have any type `A`; onset detection is an arbitrary function of the audio.
-/

set_option autoImplicit false

namespace Verif.Widgets

open Verif

/-- The shared attributes `audio_x`, `audio_sr`, `audio_trim_start`, `audio_trim_stop`, the attribute
`_trim_side` and whether a button of the toolbar is on, `sample/widgets/audioload.py:39,135-138`;
`sample/widgets/utils.py:88-102`. -/
structure TrimState (A : Type) where
  audio : Option (List A) := none
  sr : Option Int := none
  start : Option Int := none
  stop : Option Int := none
  side : Option Bool := none
  toolbar : Bool := false

/-- `x * sr` for a float and an integer. -/
def Flt.mulInt {K : Type} [Field K] (x : Flt K) (n : Int) : Flt K :=
  match x with
  | .fin v => .fin (v * n)
  | .nan => .nan
  | .inf => if n = 0 then .nan else if 0 < n then .inf else .ninf
  | .ninf => if n = 0 then .nan else if 0 < n then .ninf else .inf

/-- A trim value: samples, or seconds (`None` for a mouse event outside of the axes). -/
inductive TrimVal (K : Type) where
  | samples (n : Int)
  | seconds (x : Option (Flt K))

variable {A K : Type} [Field K] [LinearOrder K] [FloorRing K]

/-- `int(value * self.audio_sr)`, `sample/widgets/audioload.py:208-209,228`; `None * sr` is a
`TypeError`. -/
def toSamples (sr : Int) (x : Option (Flt K)) : Except PyErr Int :=
  match x with
  | none => .error .typeError
  | some x => (x.mulInt sr).toInt

/-- The new indices in `set_trim`, `sample/widgets/audioload.py:210-216`. -/
def setIndex (s : TrimState A) (size : Nat) (a b : Int) (start : Bool) (v : Int) : TrimState A :=
  if start then { s with start := some (min (b - 1) (max 0 v)) }
  else { s with stop := some (max (a + 1) (min size v)) }

/-- `set_trim` without `update`, `sample/widgets/audioload.py:189-216`; the first condition is
`audio_loaded`, `sample/widgets/utils.py:104-112`. -/
def setTrim (s : TrimState A) (v : TrimVal K) (start : Bool) : TrimState A × Option PyErr :=
  match s.audio, s.sr, s.start, s.stop with
  | some x, some sr, some a, some b =>
    match v with
    | .samples n => (setIndex s x.length a b start n, none)
    | .seconds t =>
      match toSamples sr t with
      | .error e => (s, some e)
      | .ok n => (setIndex s x.length a b start n, none)
  | _, _, _, _ => (s, none)

/-- An entry is written, `sample/widgets/audioload.py:64-76`; a text that is not a number (`none`) is
taken as zero. -/
def entryCbk (s : TrimState A) (text : Option (Flt K)) (start : Bool) : TrimState A × Option PyErr :=
  setTrim s (.seconds (K := K) (some (text.getD (.fin 0)))) start

/-- `update_plot(update_vars=True)`, `sample/widgets/audioload.py:289-293`: both entries are written,
which runs `entryCbk` with the times shown.  `retype sr i` is `float(str(i / sr))`, an arbitrary function.
An exception in a callback of an entry does not reach the caller.  Simplification: a sample rate of
zero, for which `i / sr` may raise, is like the others. -/
def updateVars (retype : Int → Int → Flt K) (s : TrimState A) : TrimState A :=
  match s.audio, s.sr, s.start, s.stop with
  | some _, some sr, some a, some _ =>
    let s := (entryCbk s (some (retype sr a)) true).1
    match s.stop with
    | none => s
    | some b => (entryCbk s (some (retype sr b)) false).1
  | _, _, _, _ => s

/-- `np.diff`. -/
def diffs : List Int → List Int
  | a :: b :: l => (b - a) :: diffs (b :: l)
  | _ => []

/-- `np.argmax` with the value: the first maximum. -/
def argmax : List Int → Option (Nat × Int)
  | [] => none
  | a :: l =>
    match argmax l with
    | none => some (0, a)
    | some (j, v) => if a < v then some (j + 1, v) else some (0, a)

/-- The bounds chosen by `auto_trim`, `sample/widgets/audioload.py:183-185`, as start and stop.  Without
onsets `argmax` of an empty array is a `ValueError`. -/
def longest (onsets : List Int) : Except PyErr (Int × Int) :=
  match argmax (diffs onsets) with
  | none => .error .valueError
  | some (i, _) =>
    match Np.index onsets (i + 1), Np.index onsets i with
    | .ok b, .ok a => .ok (a, b)
    | .error e, _ => .error e
    | _, .error e => .error e

/-- `auto_trim`, `sample/widgets/audioload.py:178-185`. -/
def autoTrim (detect : List A → Except PyErr (List Bool)) (s : TrimState A) :
    TrimState A × Option PyErr :=
  match s.audio with
  | none => (s, some .attributeError)
  | some x =>
    match detect x with
    | .error e => (s, some e)
    | .ok mask =>
      match longest ((Np.flatnonzero mask).map Int.ofNat ++ [(x.length : Int)]) with
      | .error e => (s, some e)
      | .ok (a, b) => ({ s with start := some a, stop := some b }, none)

/-- `load_cbk`, `sample/widgets/audioload.py:148-176`; `none` when no file is chosen or reading or
conversion fails, otherwise sample rate and samples. -/
def loadCbk (detect : List A → Except PyErr (List Bool)) (retype : Int → Int → Flt K)
    (s : TrimState A) (file : Option (Int × List A)) : TrimState A × Option PyErr :=
  match file with
  | none => (s, none)
  | some (sr, x) =>
    match autoTrim detect { s with audio := some x, sr := some sr } with
    | (s, some e) => (s, some e)
    | (s, none) => (updateVars retype s, none)

/-- `manual_trim_cbk_press`, `sample/widgets/audioload.py:220-230`. -/
def pressCbk (s : TrimState A) (xdata : Option (Flt K)) : TrimState A × Option PyErr :=
  if s.toolbar then ({ s with side := none }, none)
  else
    match s.audio, s.sr, s.start, s.stop, s.side with
    | some _, some sr, some a, some b, none =>
      match toSamples sr xdata with
      | .error e => (s, some e)
      | .ok i => ({ s with side := some (decide ((i - a).natAbs < (i - b).natAbs)) }, none)
    | _, _, _, _, _ => (s, none)

/-- `manual_trim_cbk_release`, `sample/widgets/audioload.py:232-247`. -/
def releaseCbk (retype : Int → Int → Flt K) (s : TrimState A) (xdata : Option (Flt K)) :
    TrimState A × Option PyErr :=
  if s.toolbar then ({ s with side := none }, none)
  else
    match s.audio, s.sr, s.start, s.stop, s.side with
    | some _, some _, some _, some _, some side =>
      match setTrim s (.seconds xdata) side with
      | (s, some e) => (s, some e)
      | (s, none) => ({ updateVars retype s with side := none }, none)
    | _, _, _, _, _ => (s, none)

/-- What the user (or a program using the public method `set_trim`) can do. -/
inductive TrimOp (A K : Type) where
  | load (file : Option (Int × List A))
  | entry (text : Option (Flt K)) (start : Bool)
  | setTrim (v : TrimVal K) (start updateVars : Bool)
  | press (xdata : Option (Flt K))
  | release (xdata : Option (Flt K))
  | toolbar (on : Bool)

/-- One operation: the state after it and the exception, if any. -/
def TrimOp.run (detect : List A → Except PyErr (List Bool)) (retype : Int → Int → Flt K)
    (s : TrimState A) : TrimOp A K → TrimState A × Option PyErr
  | .load file => loadCbk detect retype s file
  | .entry text start => entryCbk s text start
  | .setTrim v start upd =>
    match Widgets.setTrim s v start with
    | (s, some e) => (s, some e)
    | (s, none) => (if upd then updateVars retype s else s, none)
  | .press xdata => pressCbk s xdata
  | .release xdata => releaseCbk retype s xdata
  | .toolbar on => ({ s with toolbar := on }, none)

/-- A history of operations. -/
def runTrims (detect : List A → Except PyErr (List Bool)) (retype : Int → Int → Flt K) :
    TrimState A → List (TrimOp A K) → TrimState A
  | s, [] => s
  | s, op :: ops => runTrims detect retype (op.run detect retype s).1 ops

/-- The constructor with a cache file, `sample/widgets/audioload.py:119-133`; `c` is the cached state
(saved at `sample/widgets/settings.py:616-623`). -/
def restore (detect : List A → Except PyErr (List Bool)) (retype : Int → Int → Flt K)
    (c : TrimState A) : TrimState A × Option PyErr :=
  match c.audio with
  | none => (⟨none, c.sr, c.start, c.stop, none, false⟩, none)
  | some x =>
    let s : TrimState A := ⟨some x, some (c.sr.getD 44100), c.start, c.stop, none, false⟩
    match c.start, c.stop with
    | some _, some _ => (updateVars retype s, none)
    | _, _ =>
      match autoTrim detect s with
      | (s, some e) => (s, some e)
      | (s, none) => (updateVars retype s, none)

end Verif.Widgets
