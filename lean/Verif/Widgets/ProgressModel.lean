import Verif.Training.Model

/-!
# Progress of an analysis (`sample/widgets/sample.py:20-55`, `scripts/beatsdrop/example.py:184-224`)

The two classes of fit arguments with a progress bar are the same up to the bar and `progress_stop`.  The bar has a
value and a maximum; it may be missing.  `throttle.wrap` skips calls that come too soon after another one: which
calls are skipped is arbitrary.  Updating the bar is assumed not to raise.  It runs other callbacks of the GUI,
which do not use this lock, since there is one per analysis.
-/

set_option autoImplicit false

namespace Verif.Widgets

/-- The progress bar. -/
structure PBar where
  value : Int
  maximum : Int
  deriving DecidableEq

/-- `_current_progress` and the bar, if there is one. -/
structure Prog where
  cur : Int
  bar : Option PBar
  deriving DecidableEq

/-- A call of `progress_start` or `progress_update`; `shown` is false if the inner function is skipped. -/
inductive PCall where
  | start (maximum value : Int)
  | update (value : Option Int) (shown : Bool)
  deriving DecidableEq

/-- The new value, `sample/widgets/sample.py:31,44-46`; `scripts/beatsdrop/example.py:197,212-214`. -/
def PCall.value (cur : Int) : PCall → Int
  | .start _ v => v
  | .update (some v) _ => v
  | .update none _ => cur + 1

/-- The new bar, `sample/widgets/sample.py:32-35,49-55`; `scripts/beatsdrop/example.py:198-202,217-224`. -/
def PCall.newBar (v : Int) (bar : Option PBar) : PCall → Option PBar
  | .start m _ => bar.map fun _ => ⟨v, m⟩
  | .update _ true => bar.map fun b => { b with value := v }
  | .update _ false => bar

/-! ## Threads -/

/-- Where a thread is: outside of the methods; with the lock; with the lock and the local variable `value`; after
the assignment of `_current_progress`; after the change of the bar, before the release of the lock. -/
inductive PPc where
  | idle
  | entered (c : PCall)
  | have (c : PCall) (v : Int)
  | assigned (c : PCall) (v : Int)
  | leaving

/-- The lock and its owner, the progress, and for each thread its place and the calls still to make.  `order` are
the calls in the order in which the lock was acquired; the program does not have it. -/
structure PMachine where
  lock : Option Nat
  prog : Prog
  pc : Nat → PPc
  todo : Nat → List PCall
  order : List (Nat × PCall)

/-- Change of a function at one place. -/
def upd {β : Type} (f : Nat → β) (i : Nat) (v : β) : Nat → β := fun j => if j = i then v else f j

/-- One step of a thread in `progress_start` or `progress_update`, `sample/widgets/sample.py:28-47`;
`scripts/beatsdrop/example.py:194-215`.  A thread that waits for the lock does nothing. -/
def PMachine.step (s : PMachine) (i : Nat) : PMachine :=
  match s.pc i with
  | .idle =>
    match s.todo i, s.lock with
    | c :: cs, none =>
      { s with lock := some i, pc := upd s.pc i (.entered c), todo := upd s.todo i cs,
               order := s.order ++ [(i, c)] }
    | _, _ => s
  | .entered c => { s with pc := upd s.pc i (.have c (c.value s.prog.cur)) }
  | .have c v => { s with prog := { s.prog with cur := v }, pc := upd s.pc i (.assigned c v) }
  | .assigned c v =>
    { s with prog := { s.prog with bar := c.newBar v s.prog.bar }, pc := upd s.pc i .leaving }
  | .leaving => { s with lock := none, pc := upd s.pc i .idle }

/-- A schedule. -/
def PMachine.run : PMachine → List Nat → PMachine
  | s, [] => s
  | s, i :: is => PMachine.run (s.step i) is

/-- The state at the beginning. -/
def PMachine.init (p : Prog) (todo : Nat → List PCall) : PMachine :=
  ⟨none, p, fun _ => .idle, todo, []⟩

/-! ## One analysis -/

/-- A call without other threads. -/
def PCall.apply (p : Prog) (c : PCall) : Prog :=
  ⟨c.value p.cur, c.newBar (c.value p.cur) p.bar⟩

/-- Calls one after the other. -/
def runCalls (p : Prog) (cs : List PCall) : Prog := cs.foldl PCall.apply p

/-- `n` calls of `progress_update()`; `shown` tells which of them are not skipped. -/
def updates (n : Nat) (shown : Nat → Bool) : List PCall := (List.range n).map fun i => .update none (shown i)

/-- Calls of `progress_update(value)`, `sample/_training.py:71`. -/
def reportCalls (reports : List Nat) (shown : Nat → Bool) : List PCall :=
  reports.zipIdx.map fun r => .update (some (r.1 : Int)) (shown r.2)

/-- The calls of `SAMPLE.fit` in the GUI, `sample/sample.py:178-187`, `sample/sms/sm.py:329-330`,
`sample/_training.py:41-48`: `frames` frames and `tracks` tracks.  `reports` are those of `_progress_starmap` (none
without a pool).  `progress_stop` is `progress_start(1, 1)`, `sample/widgets/sample.py:37-39`.  The three functions
tell which updates are not skipped. -/
def fitCalls (frames tracks : Nat) (reports : List Nat) (s1 s2 s3 : Nat → Bool) : List PCall :=
  .start frames 0 :: updates frames s1 ++ .start 1 1 ::
    .start tracks 0 :: reportCalls reports s2 ++ updates tracks s3 ++ [.start 1 1]

end Verif.Widgets
