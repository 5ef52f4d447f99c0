import Verif.Py
import Mathlib.Logic.Function.Basic

/-!
# Audio playback with a shared lock (`sample/widgets/audio.py:11-60`)

Calls of `TempAudio.play` and `TempAudio.__del__` by threads, as single steps.  A `__del__` may begin in any thread
between any two steps, also within another call: Python runs it when the last reference disappears or when the
garbage collector finds the object.  Buffers are numbered; `rate b` is the sample rate of buffer `b`.

The lock is that of the class, hence one for all the objects.  `threading.Lock` does not know its owner; the owner
is kept here to be able to speak about it, and is only compared with none.

Simplifications: writing the samples to the buffer (`__init__`) is not modelled; a thread makes one call of `play` at
a time; an exception of pygame comes instead of the effect of the function.
-/

set_option autoImplicit false

namespace Verif.Player

/-- The calls to pygame: `close_pygame`, `open_pygame`, `mixer.music.load`, `mixer.music.play`. -/
inductive Op (R : Type) where
  | quit
  | init (rate : R)
  | load (b : Nat)
  | start
  deriving DecidableEq

/-- The method that is running. -/
inductive Job where
  | play (b : Nat)
  | del (b : Nat)
  deriving DecidableEq

/-- Where it is: before the lock; before `self.buf.closed` is read; before one of the calls; before the lock is
released. -/
inductive Pc where
  | wait | check | quit | init | load | start | close | release
  deriving DecidableEq

/-- A running call. -/
structure Frame where
  job : Job
  pc : Pc
  deriving DecidableEq

/-- The lock, which buffers are closed, what was done with pygame, and for each thread the running calls, the
innermost first. -/
structure St (R : Type) where
  lock : Option Nat
  closed : Nat → Bool
  log : List (Op R)
  stack : Nat → List Frame

/-- The innermost call of a thread goes on at another place. -/
def St.put {R : Type} (s : St R) (t : Nat) (f : Frame) (rest : List Frame) : St R :=
  { s with stack := Function.update s.stack t (f :: rest) }

/-- The next step of the innermost call of thread `t`: `play`, `sample/widgets/audio.py:47-54`, with `close_pygame`,
32-38, and `open_pygame`, 40-45; `__del__`, 56-60.  `none`: there is no call, or it waits for the lock. -/
def advance {R : Type} (rate : Nat → R) (s : St R) (t : Nat) : Option (St R) :=
  match s.stack t with
  | [] => none
  | ⟨j, pc⟩ :: rest =>
    match j, pc with
    | j, .wait => if s.lock = none then some ({ s with lock := some t }.put t ⟨j, .check⟩ rest) else none
    | .play b, .check => some (s.put t ⟨.play b, if s.closed b then .release else .quit⟩ rest)
    | .play b, .quit => some ({ s with log := s.log ++ [Op.quit] }.put t ⟨.play b, .init⟩ rest)
    | .play b, .init => some ({ s with log := s.log ++ [Op.init (rate b)] }.put t ⟨.play b, .load⟩ rest)
    | .play b, .load => some ({ s with log := s.log ++ [Op.load b] }.put t ⟨.play b, .start⟩ rest)
    | .play b, .start => some ({ s with log := s.log ++ [Op.start] }.put t ⟨.play b, .release⟩ rest)
    | .del b, .check => some (s.put t ⟨.del b, if s.closed b then .release else .close⟩ rest)
    | .del b, .close =>
      some ({ s with closed := Function.update s.closed b true }.put t ⟨.del b, .release⟩ rest)
    | _, .release => some { s with lock := none, stack := Function.update s.stack t rest }
    | _, _ => none

/-- An exception in one of the calls to pygame: `with self.lock` releases the lock,
`sample/widgets/audio.py:49-54`. -/
def fail {R : Type} (s : St R) (t : Nat) : Option (St R) :=
  match s.stack t with
  | [] => none
  | ⟨j, pc⟩ :: rest =>
    match j, pc with
    | .play b, .quit => some (s.put t ⟨.play b, .release⟩ rest)
    | .play b, .init => some (s.put t ⟨.play b, .release⟩ rest)
    | .play b, .load => some (s.put t ⟨.play b, .release⟩ rest)
    | .play b, .start => some (s.put t ⟨.play b, .release⟩ rest)
    | _, _ => none

/-- What can happen: a call of `play` (`sample/widgets/analysis.py:261`, `sample/widgets/audioload.py:146`), a `__del__`
begins, a step, an exception. -/
inductive Ev where
  | call (t b : Nat)
  | collect (t b : Nat)
  | step (t : Nat)
  | fail (t : Nat)
  deriving DecidableEq

/-- One event; `none` if it cannot happen. -/
def next {R : Type} (rate : Nat → R) (s : St R) : Ev → Option (St R)
  | .call t b => if s.stack t = [] then some (s.put t ⟨.play b, .wait⟩ []) else none
  | .collect t b => some (s.put t ⟨.del b, .wait⟩ (s.stack t))
  | .step t => advance rate s t
  | .fail t => fail s t

/-- Events one after the other. -/
def run {R : Type} (rate : Nat → R) (s : St R) : List Ev → Option (St R)
  | [] => some s
  | e :: es =>
    match next rate s e with
    | none => none
    | some s' => run rate s' es

/-- At the beginning: no calls, all buffers are open. -/
def start {R : Type} : St R := ⟨none, fun _ => false, [], fun _ => []⟩

end Verif.Player
