import Verif.Py
import Mathlib.Algebra.Field.Defs
import Mathlib.Algebra.Order.Field.Basic

/-!
# Reports of the evaluation script (`scripts/beatsdrop/evaluation.py:325-334,546-996`)

Values are in an ordered field; the statistical tests (`autorank`), the decision trees and the splits are
arbitrary functions.  Not modelled: the layout of the reports, the plots.
-/

set_option autoImplicit false

namespace Verif.Scripts

/-! ## Comparison of two populations -/

/-- The answers that are printed; other strings of `autorank` are `other`. -/
inductive Answer where
  | smaller | larger | equal | other (s : String)
  deriving DecidableEq

section
variable {K : Type*} [Field K] [LinearOrder K] [IsStrictOrderedRing K]

/-- The frequentist decision, `scripts/beatsdrop/evaluation.py:573-581`: `mean` are the mean ranks (`none`: no such
population, a `KeyError`), `cd` the critical difference. -/
def freqDecision (mean : String → Option K) (cd : K) (k1 k2 : String) : Except PyErr Answer :=
  match mean k1, mean k2 with
  | some m1, some m2 =>
    if |m2 - m1| < cd then .ok .equal
    else if m2 - m1 > 0 then .ok .smaller
    else .ok .larger
  | _, _ => .error .keyError
end

/-- A cell of the decision matrix: a string or NaN. -/
abbrev Matrix := String → String → Option (Option Answer)

/-- `smaller` and `larger` exchanged, `scripts/beatsdrop/evaluation.py:589-592`. -/
def swapAnswer : Answer → Answer
  | .smaller => .larger
  | .larger => .smaller
  | a => a

/-- The Bayesian decision, `scripts/beatsdrop/evaluation.py:584-593`; `m k1 k2` is `decision_matrix[k1][k2]`: `none`
if there is no such column or row, `some none` for NaN. -/
def bayesDecision (m : Matrix) (k1 k2 : String) : Except PyErr (Option Answer) :=
  match m k1 k2 with
  | none => .error .keyError
  | some (some a) => .ok (some a)
  | some none =>
    match m k2 k1 with
    | none => .error .keyError
    | some (some a) => .ok (some (swapAnswer a))
    | some none => .ok none

/-- The parameters that are compared, `scripts/beatsdrop/evaluation.py:555-556,681-682`. -/
def variablesToTest : List String := ["f0", "f1", "a0", "a1", "d0", "d1"]

/-- The comparisons of the two models, `scripts/beatsdrop/evaluation.py:632-634`. -/
def modelItems {R : Type*} (decision : String → String → Except PyErr R) :
    Except PyErr (List (String × R)) :=
  variablesToTest.mapM fun k =>
    match decision (k ++ "_br_ar") (k ++ "_dbr_ar") with
    | .error e => .error e
    | .ok a => .ok (k, a)

/-! ## The populations -/

section
variable {K : Type*} [Field K] [LinearOrder K] [IsStrictOrderedRing K]

/-- The absolute errors of a parameter of a model in the scale of the parameter,
`scripts/beatsdrop/evaluation.py:688-698`: `premap` is `hz2mel` for frequencies, `a2db` for amplitudes, nothing for
decays (`none`). -/
def absErrors (premap : Option (K → K)) (truth est : List K) : List K :=
  match premap with
  | none => List.zipWith (fun x y => |x - y|) truth est
  | some g => List.zipWith (fun x y => |x - y|) (truth.map g) (est.map g)
end

/-- The result of the tests that is reported, and the content of the file of results afterwards,
`scripts/beatsdrop/evaluation.py:684-686,699-716`: `output` tells whether there is an output path, `file` is what the
file of results holds. -/
def rankResult {D R : Type*} (autorank : D → R) (output : Bool) (file : Option R) (data : D) : R × Option R :=
  match output, file with
  | true, some r => (r, some r)
  | true, none => (autorank data, some (autorank data))
  | false, f => (autorank data, f)

/-! ## Decision rule -/

/-- `np.argmin` of the distances from a frequency, `scripts/beatsdrop/evaluation.py:328-334`: the first least one. -/
def argminAux {K : Type*} [LinearOrder K] : List K → Nat → Nat → K → Nat
  | [], _, best, _ => best
  | x :: xs, i, best, b => if x < b then argminAux xs (i + 1) i x else argminAux xs (i + 1) best b

/-- `np.argmin`; `ValueError` for no values. -/
def argminE {K : Type*} [LinearOrder K] : List K → Except PyErr Nat
  | [] => .error .valueError
  | x :: xs => .ok (argminAux xs 1 0 x)

/-- The decision for the track nearest to a frequency, `scripts/beatsdrop/evaluation.py:325-334`. -/
def nearestDecision {K : Type*} [Field K] [LinearOrder K] (medians : List K) (decisions : List Bool) (f : K) :
    Except PyErr Bool :=
  match argminE (medians.map fun m => |f - m|) with
  | .error e => .error e
  | .ok i => getE decisions i

/-- The true and the predicted classes, `scripts/beatsdrop/evaluation.py:734-737`. -/
def classes (beat single : List Bool) (n : Nat) : List Bool × List Bool :=
  (List.replicate n true ++ List.replicate n false, beat ++ single)

/-! ## Importance of the features -/

/-- The table of importances: a column for each feature, and that of the targets.  `none` is a cell of the
memory given by `np.empty` that was not written. -/
structure Importances (V : Type*) where
  cell : String → List (Option V)
  target : List (Option String)

/-- The targets, `scripts/beatsdrop/evaluation.py:828`. -/
def targets : List String := ["beat", "single"]

/-- One fit, `scripts/beatsdrop/evaluation.py:846-850`; `imp k` is the importance of feature `k`. -/
def writeRow {V : Type*} (features : List String) (idx : Nat) (t : String) (imp : String → V)
    (m : Importances V) : Importances V :=
  ⟨fun k => if k ∈ features then (m.cell k).set idx (some (imp k)) else m.cell k, m.target.set idx (some t)⟩

/-- The loop over the targets, `scripts/beatsdrop/evaluation.py:845-850`. -/
def writeTargets {V : Type*} (features : List String) (i : Nat) (imp : Nat → String → String → V) :
    Nat → List String → Importances V → Importances V
  | _, [], m => m
  | j, t :: ts, m => writeTargets features i imp (j + 1) ts (writeRow features (2 * i + j) t (imp i t) m)

/-- The loop over the splits, `scripts/beatsdrop/evaluation.py:844-850`. -/
def writeSplits {V : Type*} (features : List String) (imp : Nat → String → String → V) :
    List Nat → Importances V → Importances V
  | [], m => m
  | i :: is, m => writeSplits features imp is (writeTargets features i imp 0 targets m)

/-- The importances, `scripts/beatsdrop/evaluation.py:829-851`, with `n` splits: `imp i t k` is the importance of
feature `k` in the tree fitted to target `t` on split `i`; `mem` are the new arrays. -/
def importances {V : Type*} (features : List String) (tqdm : Bool) (n : Nat)
    (imp : Nat → String → String → V) (mem : Importances V) : Importances V :=
  if tqdm then writeSplits features imp (List.range n) mem else mem

/-! ## FFT size -/

/-- The numbers of the report, `scripts/beatsdrop/evaluation.py:986-991`: cases with two tracks at least, cases,
percentage, FFT size. -/
def fftReport {K : Type*} [Field K] (counts : List Nat) (testFft : Nat) : Except PyErr (Nat × Nat × K × Nat) :=
  if counts.length = 0 then .error .zeroDivisionError
  else
    .ok ((counts.filter (2 ≤ ·)).length, counts.length,
      ((counts.filter (2 ≤ ·)).length : K) * 100 / (counts.length : K), 2 ^ testFft)

end Verif.Scripts
