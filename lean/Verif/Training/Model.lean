import Verif.Py
import Verif.PyDict
import Verif.Learn.Model

/-!
# Model of `sample/_training.py`

`FitArgs.starmap_progress` (37-48), `_progress_starmap` (60-75), `sample_training_context` (78-127),
`_wrap_as_managed` (130-152), and the keyword arguments of `SAMPLE.fit` (`sample/sample.py:171-177`).
-/

set_option autoImplicit false
universe u v

namespace Verif.Training

open Verif.Learn

/-! ## Mapping over tasks -/

/-- `list(itertools.starmap(f, tasks))`: one task after the other, the first exception ends it. -/
def starmapList {α : Type u} {β : Type v} (f : α → Except PyErr β) : List α → Except PyErr (List β)
  | [] => .ok []
  | a :: as =>
    match f a with
    | .error e => .error e
    | .ok b =>
      match starmapList f as with
      | .error e => .error e
      | .ok bs => .ok (b :: bs)

/-- An event seen by the main process: task `i` has finished in some worker, or the main loop looks
at the results again (after its timeout). -/
inductive Ev where
  | finish (i : Nat)
  | poll
  deriving DecidableEq

/-- State of `_progress_starmap`: the result of each task (if finished), the indices that the loop
still waits for, and the progress values reported so far. -/
structure PState (β : Type v) where
  slots : List (Option (Except PyErr β))
  notReady : List Nat
  reports : List Nat

/-- `results = [pool.apply_async(...) ...]; not_ready = results.copy()` and the first report,
`sample/_training.py:68-71`. -/
def PState.start {β : Type v} (n : Nat) : PState β :=
  ⟨List.replicate n none, List.range n, if n = 0 then [] else [0]⟩

/-- One event, `sample/_training.py:70-74`.  A worker puts the outcome of its task in the slot of
that task; the loop keeps the results that are not ready and, if there are any, reports progress
and goes on waiting. -/
def PState.step {α : Type u} {β : Type v} (f : α → Except PyErr β) (tasks : List α) (s : PState β) :
    Ev → PState β
  | .finish i =>
    match tasks[i]? with
    | none => s
    | some a => { s with slots := s.slots.set i (some (f a)) }
  | .poll =>
    match s.notReady with
    | [] => s
    | _ =>
      let nr := s.notReady.filter fun i => ((s.slots[i]?).getD none).isNone
      { s with notReady := nr,
               reports := if nr = [] then s.reports else s.reports ++ [tasks.length - nr.length] }

/-- A run. -/
def PState.run {α : Type u} {β : Type v} (f : α → Except PyErr β) (tasks : List α)
    (evs : List Ev) : PState β := evs.foldl (PState.step f tasks) (.start tasks.length)

/-- `list(r.get() for r in results)`, `sample/_training.py:75`: in the order of the tasks, the first
exception is raised again; `none` if some result is missing (the call would block). -/
def collect {β : Type v} : List (Option (Except PyErr β)) → Option (Except PyErr (List β))
  | [] => some (.ok [])
  | none :: _ => none
  | some (.error e) :: _ => some (.error e)
  | some (.ok b) :: rs =>
    match collect rs with
    | none => none
    | some (.error e) => some (.error e)
    | some (.ok bs) => some (.ok (b :: bs))

/-- `_progress_starmap` followed by `list`: the outcome once the loop has ended. -/
def progressStarmap {α : Type u} {β : Type v} (f : α → Except PyErr β) (tasks : List α)
    (evs : List Ev) : Option (Except PyErr (List β)) :=
  let s := PState.run f tasks evs
  if s.notReady = [] then collect s.slots else none

/-- How tasks are mapped. -/
inductive Starmap where
  | sequential
  | pool
  deriving DecidableEq

/-- `sample_training_context`, `sample/_training.py:78-127`: the mapping that the body of the
`with` statement gets; a given pool, or a number of jobs different from zero (also `None`) select
the pool. -/
def contextStarmap (poolGiven : Bool) (nJobs : Option Int) : Starmap :=
  if poolGiven = false ∧ nJobs = some 0 then .sequential else .pool

/-- Whether there is a pool or one can be made: `multiprocessing.Pool(processes=n_jobs)`,
`sample/_training.py:114`, raises `ValueError` for a negative number (`None`: as many as there are
processors; zero: no pool is made, line 100). -/
def poolOk (poolGiven : Bool) (nJobs : Option Int) : Bool :=
  poolGiven || match nJobs with
    | none => true
    | some n => decide (0 ≤ n)

/-- `list(fit_args.starmap_progress(f, tasks))` in the body of the `with` statement,
`sample/_training.py:37-48`: the values are passed on in the order in which the mapping gives them.
`evs` is the schedule of the pool (not used without a pool); `none`: still waiting.  The `with`
statement itself raises if no pool can be made. -/
def contextMap {α : Type u} {β : Type v} (poolGiven : Bool) (nJobs : Option Int)
    (f : α → Except PyErr β) (tasks : List α) (evs : List Ev) : Option (Except PyErr (List β)) :=
  if poolOk poolGiven nJobs then
    match contextStarmap poolGiven nJobs with
    | .sequential => some (starmapList f tasks)
    | .pool => progressStarmap f tasks evs
  else some (.error .valueError)

/-! ## Managed storages -/

/-- Parameters of the model that hold storages, and the storage objects themselves (numbered). -/
structure World (V : Type u) where
  params : Dict Nat
  heap : List (Storage V)

/-- `_wrap_as_managed` for one key, `sample/_training.py:133-152`.  `known` tells whether the manager
can create managed objects of the storage's class.  `body` is the body of the `with` statement: it
may do anything with the world and may raise.  `set_params` is the assignment in the dictionary
(the key is valid). -/
def wrapOne {V : Type u} {ρ : Type v} (known : Bool) (key : String)
    (body : World V → World V × Except PyErr ρ) (w : World V) : World V × Except PyErr ρ :=
  match w.params.get? key with
  | none => body w
  | some original =>
    if !known then (w, .error .attributeError)
    else
      match w.heap[original]? with
      | none => (w, .error .attributeError)
      | some o =>
        let managed := w.heap.length
        let w1 : World V := ⟨w.params.set key managed, w.heap ++ [Storage.init o.save]⟩
        let (w2, r) := body w1
        let w3 : World V := match r with
          | .error _ => w2
          | .ok _ =>
            match w2.heap[managed]?, w2.heap[original]? with
            | some m, some o' => { w2 with heap := w2.heap.set original { o' with cache := some m.getState } }
            | _, _ => w2
        ({ w3 with params := w3.params.set key original }, r)

/-- `_wrap_as_managed` for several keys (nested), `sample/_training.py:133-137`. -/
def wrapAll {V : Type u} {ρ : Type v} (known : Bool) :
    List String → (World V → World V × Except PyErr ρ) → World V → World V × Except PyErr ρ
  | [], body => body
  | k :: ks, body => wrapOne known k (wrapAll known ks body)

/-! ## Keyword arguments of `SAMPLE.fit` -/

/-- `sample/sample.py:171-177`: the keyword arguments that are parameters of the model are set, all
others go to the training context. -/
def fitKwargs {V : Type u} (params kwargs : Dict V) : Dict V × Dict V :=
  (params.update (kwargs.filter fun kv => params.has kv.1),
    kwargs.filter fun kv => !params.has kv.1)

/-- What `sample_training_context` reads from its keyword arguments, `sample/_training.py:79-84,99`:
all others are swallowed by `**kwargs`. -/
def contextArgs {V : Type u} (kwargs : Dict V) : List (Option V) :=
  [kwargs.get? "n_jobs", kwargs.get? "mp_manager", kwargs.get? "pool", kwargs.get? "_fit_args"]

end Verif.Training
