import Verif.Learn.Model

/-!
# Model of concurrent calls of `OptionalStorage.append`

In a parallel fit the storage lives in a manager process, which serves every worker process in a
thread of its own (`sample/_training.py:17-27,104-122`); `append` (`sample/utils/learn.py:270-293`)
takes no lock.  The method is split here into its reads and writes of shared objects; threads are
interleaved at these points.
-/

set_option autoImplicit false
universe u

namespace Verif.Learn.Race

/-- Shared objects: the attribute `cache_` (a reference to a dictionary, or absent), dictionaries
(from keys to references to lists), lists. -/
structure Shared (V : Type u) where
  cache : Option Nat
  dicts : List (Dict Nat)
  lists : List (List (Option V))
  deriving DecidableEq

/-- One call `append(key, value, index)`; indices are track numbers
(`sample/beatsdrop/decision.py:98-104,150`), hence not negative. -/
structure Task (V : Type u) where
  key : String
  value : V
  index : Nat
  deriving DecidableEq

/-- Program counter of a call, named after the lines of `sample/utils/learn.py`. -/
inductive PC where
  | p282 | p283 | p284 | p285 | p289
  | p290a
  | p290b (l : Nat)
  | p290c (l n : Nat)
  | p292a
  | p292b (l : Nat)
  | done
  | err (e : PyErr)
  deriving DecidableEq

variable {V : Type u}

/-- The dictionary with a reference. -/
def Shared.dict (s : Shared V) (d : Nat) : Dict Nat := s.dicts.getD d []

/-- The list with a reference. -/
def Shared.list (s : Shared V) (l : Nat) : List (Option V) := s.lists.getD l []

/-- `self.cache_[key]`: a reference to a list. -/
def Shared.look (s : Shared V) (key : String) : Except PyErr Nat :=
  match s.cache with
  | none => .error .attributeError
  | some d =>
    match (s.dict d).get? key with
    | none => .error .keyError
    | some l => .ok l

/-- `storage[key]` as seen by a user, `sample/utils/learn.py:251-252`. -/
def Shared.getitem (s : Shared V) (key : String) : Except PyErr (List (Option V)) :=
  match s.look key with
  | .error _ => .error .keyError
  | .ok l => .ok (s.list l)

/-- One step of a call, `sample/utils/learn.py:281-293`, with `save` on and an index.
Simplification: loading `self.cache_` and using it in the same line 284 or 285 is one step. -/
def step (t : Task V) (s : Shared V) : PC → Shared V × PC
  | .p282 => (s, if s.cache.isNone then .p283 else .p284)
  | .p283 => ({ s with cache := some s.dicts.length, dicts := s.dicts ++ [[]] }, .p284)
  | .p284 =>
    match s.cache with
    | none => (s, .err .attributeError)
    | some d => (s, if (s.dict d).has t.key then .p289 else .p285)
  | .p285 =>
    match s.cache with
    | none => (s, .err .attributeError)
    | some d => ({ s with dicts := s.dicts.modify d fun x => Dict.set x t.key s.lists.length,
                          lists := s.lists ++ [[]] }, .p289)
  | .p289 =>
    match s.look t.key with
    | .error e => (s, .err e)
    | .ok l => (s, if (s.list l).length ≤ t.index then .p290a else .p292a)
  | .p290a =>
    match s.look t.key with
    | .error e => (s, .err e)
    | .ok l => (s, .p290b l)
  | .p290b l =>
    match s.look t.key with
    | .error e => (s, .err e)
    | .ok l' => (s, .p290c l (t.index + 1 - (s.list l').length))
  | .p290c l n => ({ s with lists := s.lists.modify l fun x => x ++ List.replicate n none }, .p292a)
  | .p292a =>
    match s.look t.key with
    | .error e => (s, .err e)
    | .ok l => (s, .p292b l)
  | .p292b l =>
    if t.index < (s.list l).length then
      ({ s with lists := s.lists.modify l fun x => x.set t.index (some t.value) }, .done)
    else (s, .err .indexError)
  | .done => (s, .done)
  | .err e => (s, .err e)

/-- Several calls in progress. -/
structure Sys (V : Type u) where
  shared : Shared V
  pcs : List PC

/-- Thread `i` makes a step. -/
def Sys.step (tasks : List (Task V)) (S : Sys V) (i : Nat) : Sys V :=
  match tasks[i]?, S.pcs[i]? with
  | some t, some pc =>
    let r := Race.step t S.shared pc
    ⟨r.1, S.pcs.set i r.2⟩
  | _, _ => S

/-- A schedule: which thread makes each step. -/
def Sys.run (tasks : List (Task V)) (s : Shared V) (sched : List Nat) : Sys V :=
  sched.foldl (Sys.step tasks) ⟨s, List.replicate tasks.length .p282⟩

/-- A storage that has just been created (or reset). -/
def Shared.empty : Shared V := ⟨none, [], []⟩

end Verif.Learn.Race
