import Verif.Py

/-!
# The callback of the button "Analyze" and its lock (`sample/widgets/analysis.py:17-32,207-229`)

Callbacks may overlap: the analysis updates the progress bar, which runs the main loop of Tk and with it
further callbacks.  The model allows every interleaving of any number of callbacks, at the places where
they touch shared state; nested callbacks of one thread are among these.
-/

set_option autoImplicit false

namespace Verif.Widgets

/-- How a callback has ended: message "No audio", ignored, normally, with an exception. -/
inductive Ending where
  | noAudio
  | ignored
  | finished
  | raised
  deriving DecidableEq

/-- Where a callback is: before the check of `audio_loaded` (line 209); before `lock.acquire` (28); inside
the `try` statement before (218-222) and after (223) the assignment of `sample_object`; in the `finally`
clause (228-229), with whether the object was assigned and whether an exception that is not an
`Exception` is on its way; in the `finally` clause of `_non_block_lock` (30-32), with `owned`
and whether an exception is on its way; at its end. -/
inductive Pc where
  | start
  | loaded
  | making
  | fitting
  | drawing (made base : Bool)
  | leaving (owned raised : Bool)
  | done (e : Ending)
  deriving DecidableEq

/-- What may happen in a step: nothing, an `Exception`, another exception (`KeyboardInterrupt`). -/
inductive Outcome where
  | ok
  | exc
  | base
  deriving DecidableEq

/-- Shared state: `audio_loaded`, the lock (as `threading.Lock` does not know its owner), by which callback
`sample_object` was made, the positions of all callbacks, and which object each of them has drawn. -/
structure LState where
  audio : Bool
  locked : Bool
  obj : Option Nat
  pc : Nat → Pc
  shown : Nat → Option Nat

/-- Change the value of a function at one place. -/
def setAt {β : Type} (f : Nat → β) (i : Nat) (v : β) : Nat → β := fun j => if j = i then v else f j

/-- One step of the callback `i`, `sample/widgets/analysis.py:207-229`.  `leaving` is the end of
`_non_block_lock`, `sample/widgets/analysis.py:26-32`: a generator that gets control back at `yield`, with or
without an exception, and then runs its `finally` clause. -/
def stepCbk (s : LState) (i : Nat) (o : Outcome) : LState :=
  match s.pc i with
  | .start =>
    if s.audio then { s with pc := setAt s.pc i .loaded }
    else { s with pc := setAt s.pc i (.done .noAudio) }
  | .loaded =>
    if s.locked then { s with pc := setAt s.pc i (.leaving false false) }
    else { s with locked := true, pc := setAt s.pc i .making }
  | .making =>
    match o with
    | .ok => { s with obj := some i, pc := setAt s.pc i .fitting }
    | .exc => { s with pc := setAt s.pc i (.drawing false false) }
    | .base => { s with pc := setAt s.pc i (.drawing false true) }
  | .fitting =>
    match o with
    | .base => { s with pc := setAt s.pc i (.drawing true true) }
    | _ => { s with pc := setAt s.pc i (.drawing true false) }
  | .drawing _ base =>
    { s with shown := setAt s.shown i s.obj,
             pc := setAt s.pc i (.leaving true (base || decide (o ≠ .ok))) }
  | .leaving owned raised =>
    { s with
      locked := if owned then false else s.locked
      pc := setAt s.pc i (.done (if raised then .raised else if owned then .finished else .ignored)) }
  | .done _ => s

/-- An event: a step of a callback, or audio is loaded (or not). -/
inductive LEvent where
  | step (i : Nat) (o : Outcome)
  | audio (b : Bool)
  deriving DecidableEq

/-- The state after one event. -/
def LEvent.run (s : LState) : LEvent → LState
  | .step i o => stepCbk s i o
  | .audio b => { s with audio := b }

/-- The state after a history of events. -/
def exec : LState → List LEvent → LState
  | s, [] => s
  | s, e :: es => exec (e.run s) es

/-- The state of a new tab, `sample/widgets/analysis.py:59`. -/
def initL : LState := ⟨false, false, none, fun _ => .start, fun _ => none⟩

end Verif.Widgets
