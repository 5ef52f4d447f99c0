import Verif.Py
import Mathlib.Algebra.Field.Defs
import Mathlib.Algebra.Order.Field.Basic

/-!
# The benchmark script (`scripts/cim22/performance.py:180-294,351-366`)

Data are seven columns.  Values are of one type `V`; the measured times are given by an arbitrary function.
An interruption (Ctrl+C) can come between any two changes of the columns, or when a column has only been
extended by some of the values.  The text of the table is not modelled (reading it gives what was
written), nor is an interruption of the writing of the table.
-/

set_option autoImplicit false

namespace Verif.Scripts

/-- Columns, `scripts/cim22/performance.py:202-204`. -/
inductive Col where
  | method | stride | duration | methodI | strideI | durationI | timeit
  deriving DecidableEq

/-- Columns of data in the order of the dictionary, `scripts/cim22/performance.py:202-204`. -/
def Col.all : List Col := [.method, .stride, .duration, .methodI, .strideI, .durationI, .timeit]

variable {V : Type}

/-- Data, a list for each column. -/
abbrev BenchData (V : Type) := Col → List V

/-- One case of the benchmark, `scripts/cim22/performance.py:239`. -/
structure Case (V : Type) where
  method : V
  stride : V
  duration : V
  methodI : V
  strideI : V
  durationI : V

/-- The cases: all durations, strides and methods with their indices; the methods change first,
`scripts/cim22/performance.py:221-234`.  Durations, strides (`logspace`) and methods are given; `ofNat` makes
a value of an index. -/
def benchCases (ofNat : Nat → V) (durations strides methods : List V) : List (Case V) :=
  durations.zipIdx.flatMap fun d => strides.zipIdx.flatMap fun s => methods.zipIdx.map fun k =>
    ⟨k.1, s.1, d.1, ofNat k.2, ofNat s.2, ofNat d.2⟩

/-- Add values to a column (`list.extend`). -/
def extend (data : BenchData V) (c : Col) (vs : List V) : BenchData V :=
  fun c' => if c' = c then data c' ++ vs else data c'

/-- The changes made for one case, `scripts/cim22/performance.py:240-251`; `t` are the measured times. -/
def caseSteps (n : Nat) (c : Case V) (t : List V) : List (Col × List V) :=
  [(.method, List.replicate n c.method), (.duration, List.replicate n c.duration),
    (.stride, List.replicate n c.stride), (.methodI, List.replicate n c.methodI),
    (.durationI, List.replicate n c.durationI), (.strideI, List.replicate n c.strideI), (.timeit, t)]

/-- All the changes of `run_benchmarks` from case `start` on, `scripts/cim22/performance.py:236-252`;
`times j` are the times measured for the `j`-th case. -/
def benchSteps (n : Nat) (times : Nat → List V) (cases : List (Case V)) (start : Nat) :
    List (Col × List V) :=
  (cases.zipIdx.drop start).flatMap fun cj => caseSteps n cj.1 (times cj.2)

/-- Data after some changes. -/
def applySteps : BenchData V → List (Col × List V) → BenchData V
  | data, [] => data
  | data, (c, vs) :: l => applySteps (extend data c vs) l

/-- The minimum length of the columns, `scripts/cim22/performance.py:190`. -/
def minLen (data : BenchData V) : Nat :=
  (Col.all.map fun c => (data c).length).foldl min (data .method).length

/-- `clean_data`, `scripts/cim22/performance.py:180-191`. -/
def cleanData (n : Nat) (data : BenchData V) : Except PyErr (BenchData V) :=
  if n = 0 then .error .zeroDivisionError
  else .ok fun c => (data c).take (minLen data / n * n)

/-- `load_data`, `scripts/cim22/performance.py:194-209`; `none` if there is no output file. -/
def loadData (n : Nat) : Option (BenchData V) → Except PyErr (BenchData V)
  | none => .ok fun _ => []
  | some data => cleanData n data

/-- The index of the first case to run, `scripts/cim22/performance.py:235`. -/
def startIndex (n : Nat) (data : BenchData V) : Nat := (data .method).length / n

/-- The script up to the plot, `scripts/cim22/performance.py:352-363`, with the changes of the columns that
are made before an interruption; the data that are saved. -/
def benchRun (n : Nat) (file : Option (BenchData V)) (steps : Nat → List (Col × List V)) :
    Except PyErr (BenchData V) :=
  match loadData n file with
  | .error e => .error e
  | .ok data =>
    if n = 0 then .error .zeroDivisionError
    else cleanData n (applySteps data (steps (startIndex n data)))

/-! ## Speed-up -/

/-- A row of the table of results: names and indices of method, stride and duration; duration; time. -/
structure BenchRow (K : Type) where
  method : Nat
  strideI : Nat
  durationI : Nat
  duration : K
  timeit : K

variable {K : Type} [Field K] [LinearOrder K]

/-- Mean of a column of a group; there are no empty groups. -/
def groupMean (l : List K) : Option K := if l = [] then none else some (l.sum / l.length)

/-- An entry of `times_matrix`, `scripts/cim22/performance.py:255-276`; `none` is NaN.  The groups of a
`groupby` are the rows with equal keys. -/
def timesEntry (df : List (BenchRow K)) (method d s : Nat) (normalize : Bool := true) : Option K :=
  let rows := df.filter fun r => decide (r.method = method)
  let t := groupMean ((rows.filter fun r => decide (r.strideI = s ∧ r.durationI = d)).map (·.timeit))
  if normalize then
    match groupMean ((rows.filter fun r => decide (r.durationI = d)).map (·.duration)) with
    | some m => t.map (· / m)
    | none => t
  else t

/-- `numpy.minimum`: NaN if one is NaN. -/
def npMin (a b : Option K) : Option K := do return min (← a) (← b)

/-- An entry of `compute_speedup`, `scripts/cim22/performance.py:279-294`.  Simplification: the first of the
other methods is given apart (there are four); the division by zero of `numpy` (times are positive) is that
of the field. -/
def speedupEntry (df : List (BenchRow K)) (first : Nat) (others : List Nat) (target d s : Nat) :
    Option K := do
  let best ← others.foldl (fun a k => npMin a (timesEntry df k d s)) (timesEntry df first d s)
  return best / (← timesEntry df target d s)

end Verif.Scripts
