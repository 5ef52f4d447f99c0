import Verif.Py

/-!
# Checkpoints of the evaluation script (`scripts/beatsdrop/evaluation.py:427-543`)

`load_results`, `run_tests` and `save_dataframe` as a program on files.  An output path is given
(`--output`); the files are the table `<output>.csv` and the checkpoints `<output>.ckpt-<number>`.
A file is a table of rows (seed, other fields), or it is unreadable for `pandas.read_csv`.  Writing a
table and reading it gives the same table (rounding of numbers in texts is not modelled).  Folders,
sound files (except for their existence), logging and reports are not modelled.  Seeds in files, the number of
cases and the period are natural numbers (a negative seed in a file edited by hand, or a negative period, is
not represented).
-/

set_option autoImplicit false

namespace Verif.Scripts

/-- Rows of a result table: the seed and the other fields. -/
abbrev Table (R : Type) := List (Nat × R)

/-- Contents of a file; `none` if `pandas.read_csv` raises. -/
abbrev Content (R : Type) := Option (Table R)

/-- The name of a file, `scripts/beatsdrop/evaluation.py:445-446`. -/
inductive FileName where
  | csv
  | ckpt (k : Nat)
  deriving DecidableEq

/-- The files with the given output path.  Simplification: there are no other files with names
`<output>.ckpt-*`. -/
structure Files (R : Type) where
  csv : Option (Content R) := none
  ckpts : List (Nat × Content R) := []

/-- A change of the files: write a table, delete a checkpoint. -/
inductive FileOp (R : Type) where
  | write (f : FileName) (c : Content R)
  | delete (k : Nat)

variable {R : Type}

/-- The files after a change. -/
def FileOp.apply (F : Files R) : FileOp R → Files R
  | .write .csv c => { F with csv := some c }
  | .write (.ckpt k) c => { F with ckpts := F.ckpts.filter (fun e => decide (e.1 ≠ k)) ++ [(k, c)] }
  | .delete k => { F with ckpts := F.ckpts.filter fun e => decide (e.1 ≠ k) }

/-- The files after a list of changes. -/
def applyOps : Files R → List (FileOp R) → Files R
  | F, [] => F
  | F, op :: ops => applyOps (op.apply F) ops

/-- Command-line arguments `--n-cases`, `--no-resume`, `--checkpoint`. -/
structure EvalArgs where
  n : Nat
  resume : Bool
  period : Option Nat

/-- What a test does, `scripts/beatsdrop/evaluation.py:210-384`: it returns its result, or an exception is
written to a log file and the result is `None`, or it raises. -/
inductive Outcome (R : Type) where
  | value (r : R)
  | logged
  | raises (e : PyErr)

/-- The result of a test, if there is one. -/
def Outcome.get? : Outcome R → Option R
  | .value r => some r
  | _ => none

/-- The state of the script: `args.results` (a result with seed `None` is `none`), `args.last_file`,
`args.last_checkpoint`. -/
structure EvalState (R : Type) where
  results : List (Option R)
  lastFile : Option FileName
  last : Int

/-- The number of the last readable checkpoint, `scripts/beatsdrop/evaluation.py:449-457`. -/
def lastReadable : List (Nat × Content R) → Option Nat
  | [] => none
  | (_, none) :: l => lastReadable l
  | (k, some _) :: l =>
    match lastReadable l with
    | none => some k
    | some j => some (max k j)

/-- Contents of a checkpoint. -/
def readCkpt (k : Nat) : List (Nat × Content R) → Option (Content R)
  | [] => none
  | (j, c) :: l => if j = k then some c else readCkpt k l

/-- The loop over the rows of the file, `scripts/beatsdrop/evaluation.py:463-467`. -/
def loadRows : List (Option R) → Table R → List (Option R)
  | results, [] => results
  | results, (seed, r) :: rows =>
    loadRows (if seed < results.length then results.set seed (some r) else results) rows

/-- `load_results`, `scripts/beatsdrop/evaluation.py:427-483`, up to the list of seeds.  Reading an
unreadable table raises (`ValueError` stands for the exceptions of `pandas`). -/
def loadResults (args : EvalArgs) (F : Files R) : Except PyErr (EvalState R) :=
  let empty : List (Option R) := List.replicate args.n none
  if args.resume then
    match lastReadable F.ckpts with
    | some k =>
      match readCkpt k F.ckpts with
      | some (some t) => .ok ⟨loadRows empty t, some (.ckpt k), k⟩
      | _ => .error .valueError
    | none =>
      match F.csv with
      | none => .ok ⟨empty, none, -1⟩
      | some none => .error .valueError
      | some (some t) => .ok ⟨loadRows empty t, some .csv, -1⟩
  else .ok ⟨empty, none, -1⟩

/-- The seeds to test, `scripts/beatsdrop/evaluation.py:436,469-482`: those without a result, and those for
which `wavMissing` holds (always false without `--wav`); all of them if no file was loaded. -/
def seedsToTest (wavMissing : Nat → Bool) (s : EvalState R) : List Nat :=
  match s.lastFile with
  | none => List.range s.results.length
  | some _ => (List.range s.results.length).filter fun i =>
      (s.results[i]?.join).isNone || wavMissing i

/-- `list2df`, `scripts/beatsdrop/evaluation.py:387-399`; `i` is the seed of the first result. -/
def list2df : Nat → List (Option R) → Table R
  | _, [] => []
  | i, none :: l => list2df (i + 1) l
  | i, some r :: l => (i, r) :: list2df (i + 1) l

/-- The loop over the results of the pool, `scripts/beatsdrop/evaluation.py:509-519`: changes of files and
either the final state or the exception.  `order` are the seeds in the order in which the pool returns the
results (any order), `i` is the loop index. -/
def testLoop (test : Nat → Outcome R) (period : Option Nat) :
    Nat → List Nat → EvalState R → List (FileOp R) × Except PyErr (EvalState R)
  | _, [], s => ([], .ok s)
  | i, seed :: order, s =>
    match test seed with
    | .raises e => ([], .error e)
    | o =>
      let s : EvalState R :=
        match o.get? with
        | some r => { s with results := s.results.set seed (some r) }
        | none => s
      match period with
      | none => testLoop test period (i + 1) order s
      | some p =>
        if p = 0 then ([], .error .zeroDivisionError)
        else if (i + 1) % p = 0 then
          let k := (s.last + 1).toNat
          let s : EvalState R := { s with lastFile := some (.ckpt k), last := s.last + 1 }
          let r := testLoop test period (i + 1) order s
          (.write (.ckpt k) (some (list2df 0 s.results)) :: r.1, r.2)
        else testLoop test period (i + 1) order s

/-- `save_dataframe`, `scripts/beatsdrop/evaluation.py:523-543`; `glob` are the checkpoints in the order in
which `glob.glob` returns them (any order). -/
def saveOps (args : EvalArgs) (s : EvalState R) (glob : List Nat) : List (FileOp R) :=
  (if s.lastFile ≠ some .csv ∨ args.resume = false then [.write .csv (some (list2df 0 s.results))]
    else []) ++ glob.map .delete

/-- A run of the script up to the report, `scripts/beatsdrop/evaluation.py:1000-1006`: changes of files, and
the data frame for the report or the exception. -/
def evalRun (test : Nat → Outcome R) (args : EvalArgs) (order glob : List Nat) (F : Files R) :
    List (FileOp R) × Except PyErr (Table R) :=
  match loadResults args F with
  | .error e => ([], .error e)
  | .ok s =>
    match testLoop test args.period 0 order s with
    | (ops, .error e) => (ops, .error e)
    | (ops, .ok s) => (ops ++ saveOps args s glob, .ok (list2df 0 s.results))

end Verif.Scripts
