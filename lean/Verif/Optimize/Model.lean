import Verif.Utils.DeprecatedModel
import Verif.Utils.WarningsModel
import Mathlib.Algebra.Order.Floor.Ring
import Mathlib.Algebra.Order.Field.Basic

/-!
# Model of the hyperparameter optimiser

`sample/optimize.py`: the keyword remapper, the optimiser and the progress callback.
-/

set_option autoImplicit false

namespace Verif.Optimize

open Verif.Utils

variable {K : Type} [Field K] [LinearOrder K] [FloorRing K]

/-- Values of keyword arguments, as far as the remapper looks at them: `None`, integers, other
numbers, strings, arrays (of which only the size matters), other objects. -/
inductive RVal (K : Type) where
  | none
  | int (n : Int)
  | num (x : K)
  | str (s : String)
  | arr (size : Nat)
  | obj (id : Nat)
  deriving DecidableEq

/-- What is known of the objects: the FFT size and the window size of a sinusoidal model given as an
object, and whether a constructor call `SAMPLE(**kwargs)` and a window name are accepted. -/
structure Env (K : Type) where
  n : Nat → Int
  w : Nat → Nat
  accepts : Dict (RVal K) → Except PyErr Unit
  window : String → Bool

/-- The FFT size of `SAMPLE(**kwargs).sinusoidal` (`sample/sample.py:75-105`,
`sample/sms/sm.py:245-262`): the argument `sinusoidal__n`, else the value of the object given as
`sinusoidal`, else 2048. -/
def fftOf (env : Env K) (kw : Dict (RVal K)) : Except PyErr (RVal K) :=
  match kw.get? "sinusoidal__n" with
  | some v => .ok v
  | none =>
    match kw.get? "sinusoidal" with
    | some (.obj i) => .ok (.int (env.n i))
    | some .none => .ok (.int 2048)
    | none => .ok (.int 2048)
    | some _ => .error .attributeError

/-- The size of the window of `SAMPLE(**kwargs).sinusoidal`: the size of the argument
`sinusoidal__w` (`None` gives the default window of 2001 samples, a scalar has size 1), else that of
the object, else 2001. -/
def windowOf (env : Env K) (kw : Dict (RVal K)) : Except PyErr Nat :=
  match kw.get? "sinusoidal__w" with
  | some (.arr m) => .ok m
  | some .none => .ok 2001
  | some _ => .ok 1
  | none =>
    match kw.get? "sinusoidal" with
    | some (.obj i) => .ok (env.w i)
    | some .none => .ok 2001
    | none => .ok 2001
    | some _ => .error .attributeError

/-- `SAMPLE(**kwargs).sinusoidal.n`, `sample/optimize.py:61`. -/
def fftSize (env : Env K) (kw : Dict (RVal K)) : Except PyErr (RVal K) :=
  match env.accepts kw with
  | .error e => .error e
  | .ok _ => fftOf env kw

/-- `np.size(SAMPLE(**kwargs).sinusoidal.w)`, `sample/optimize.py:66`. -/
def windowSize (env : Env K) (kw : Dict (RVal K)) : Except PyErr Nat :=
  match env.accepts kw with
  | .error e => .error e
  | .ok _ => windowOf env kw

/-- `int(x)`: truncation towards zero. -/
def truncInt (x : K) : Int := if 0 ≤ x then ⌊x⌋ else ⌈x⌉

/-- A number as a value of `K`; anything else is not a number. -/
def RVal.toNum : RVal K → Except PyErr K
  | .int n => .ok (n : K)
  | .num x => .ok x
  | _ => .error .typeError

/-- `1 << log_n`. -/
def shift : RVal K → Except PyErr (RVal K)
  | .int n => if 0 ≤ n then .ok (.int (2 ^ n.toNat)) else .error .valueError
  | _ => .error .typeError

/-- `signal.get_window(window=wtype, Nx=size)`: SciPy rejects unknown names and negative sizes. -/
def getWindow (env : Env K) (wtype : RVal K) (size : Int) : Except PyErr (RVal K) :=
  match wtype with
  | .str s => if env.window s = true ∧ 0 ≤ size then .ok (.arr size.toNat) else .error .valueError
  | _ => .error .valueError

/-- The FFT size, `sample/optimize.py:56-58`. -/
def remapN (logn : RVal K) (kw : Dict (RVal K)) : Except PyErr (Dict (RVal K)) :=
  match logn with
  | .none => .ok kw
  | _ =>
    if kw.has "sinusoidal__n" then .ok kw
    else match shift logn with
      | .ok n => .ok (kw.set "sinusoidal__n" n)
      | .error e => .error e

/-- The window, `sample/optimize.py:60-63`. -/
def remapW (env : Env K) (wtype wsize : RVal K) (kw : Dict (RVal K)) :
    Except PyErr (Dict (RVal K)) :=
  if kw.has "sinusoidal__w" then .ok kw
  else do
    let n ← fftSize env kw
    let n ← n.toNum
    let r ← wsize.toNum
    let w ← getWindow env wtype (truncInt (n * r))
    return kw.set "sinusoidal__w" w

/-- The clipped hop size, `sample/optimize.py:67-68`. -/
def hopSize (overlap : K) (m : Nat) : Int :=
  max (min (truncInt ((1 - overlap) * (m : K))) (m : Int)) 1

/-- The hop size, `sample/optimize.py:65-69`. -/
def remapH (env : Env K) (overlap : RVal K) (kw : Dict (RVal K)) : Except PyErr (Dict (RVal K)) :=
  if kw.has "sinusoidal__tracker__h" then .ok kw
  else do
    let m ← windowSize env kw
    let o ← overlap.toNum
    return kw.set "sinusoidal__tracker__h" (.int (hopSize o m))

/-- Names of the parameters of the remapper. -/
def remapParams : List String :=
  ["sinusoidal__log_n", "sinusoidal__wtype", "sinusoidal__wsize", "sinusoidal__overlap"]

/-- `kwargs` of the remapper: the arguments that are not bound to its parameters. -/
def restOf (kw : Dict (RVal K)) : Dict (RVal K) :=
  remapParams.foldl Dict.erase kw

/-- `sample_kwargs_remapper(**kw)`, `sample/optimize.py:31-70`, without its decorators. -/
def remapperCore (env : Env K) (kw : Dict (RVal K)) : Except PyErr (Dict (RVal K)) := do
  let logn := (kw.get? "sinusoidal__log_n").getD .none
  let wtype := (kw.get? "sinusoidal__wtype").getD (.str "hamming")
  let wsize := (kw.get? "sinusoidal__wsize").getD (.num 1)
  let overlap := (kw.get? "sinusoidal__overlap").getD (.num (1 / 2))
  let kw ← remapN logn (restOf kw)
  let kw ← remapW env wtype wsize kw
  remapH env overlap kw

/-- `f(**a, **b)`: a repeated keyword is a TypeError. -/
def mergeKw {V : Type} (a b : Dict V) : Except PyErr (Dict V) :=
  if a.any fun e => b.has e.1 then .error .typeError else .ok (a ++ b)

/-- The call of the undecorated remapper: positional arguments are bound to its parameters in order
(`sample/optimize.py:31-35`). -/
def remapperEntry (env : Env K) : Fn (RVal K) (Dict (RVal K)) := fun args kw =>
  if remapParams.length < args.length then ([], .error .typeError)
  else ([], do
    let kw ← mergeKw (remapParams.zip args) kw
    remapperCore env kw)

/-- `sample_kwargs_remapper`, with its decorators, `sample/optimize.py:27-70`. -/
def remapper (env : Env K) : Fn (RVal K) (Dict (RVal K)) :=
  decorateAll (renames remapperNames) (remapperEntry env)

/-! ## The optimiser -/

section Optimizer

variable {V M Ω : Type}

/-- The operations on models: `base.clone`, `set_params`, `fit` with keyword arguments, and
`predict` with random phases `ω`; and the loss with its keyword arguments already bound
(`sample/optimize.py:119`). -/
structure Ops (K V M Ω : Type) where
  clone : M → M
  setParams : M → Dict V → Except PyErr M
  fit : M → List K → Dict V → Except PyErr M
  predict : M → List K → Ω → Except PyErr (List K)
  lossFn : List K → List K → Except PyErr K

/-- `SAMPLEOptimizer`, `sample/optimize.py:109-122`: `dims` are the names of the dimensions, in
order (their ranges only go to the minimiser). -/
structure Optimizer (V M : Type) where
  model : M
  dims : List String
  remap : Option (Dict V → Except PyErr (Dict V))
  clip : Bool

/-- `_kwargs`, `sample/optimize.py:128-144`. -/
def Optimizer.kwargs (o : Optimizer V M) (args : List V) (kw : Dict V) :
    Except PyErr (Dict V) :=
  if args.length ≠ o.dims.length then .error .valueError
  else match o.remap with
    | none => .ok kw
    | some f =>
      match mergeKw (o.dims.zip args) kw with
      | .error e => .error e
      | .ok kw => f kw

/-- `np.max(np.abs(x))`, `sample/optimize.py:157`: ValueError for an empty array. -/
def peak (x : List K) : Except PyErr K :=
  match x.map (fun a => |a|) with
  | [] => .error .valueError
  | a :: l => .ok (l.foldl max a)

/-- `np.clip(y, -p, p)`, `sample/optimize.py:168`. -/
def clipTo (p : K) (y : List K) : List K := y.map fun a => min (max a (-p)) p

/-- `np.arange(x.size) / fs`, `sample/optimize.py:165`. -/
def times (n : Nat) (fs : K) : List K := (List.range n).map fun (i : Nat) => (i : K) / fs

/-- The configured model, `sample/optimize.py:161-163` and `201-202`: a clone of the model with the
keyword arguments of a point; `fsv` is the sample rate as an argument value. -/
def Optimizer.configured (ops : Ops K V M Ω) (o : Optimizer V M) (args : List V) (kw : Dict V)
    (fsv : V) : Except PyErr M := do
  let kw ← mergeKw kw [("sinusoidal__tracker__fs", fsv)]
  let kw ← o.kwargs args kw
  ops.setParams (ops.clone o.model) kw

/-- The loss of a resynthesised sound, `sample/optimize.py:167-169`. -/
def Optimizer.compare (ops : Ops K V M Ω) (o : Optimizer V M) (x y : List K) : Except PyErr K :=
  if o.clip then do
    let p ← peak x
    ops.lossFn x (clipTo p y)
  else ops.lossFn x y

/-- `loss(x, fs)(args, **kw)`, `sample/optimize.py:146-171`.  Simplification: the peak is computed
at each call and not once before (an empty `x` raises ValueError in both cases), and `x` and
`sinusoidal__tracker__fs` are not overridden in the call. -/
def Optimizer.loss (ops : Ops K V M Ω) (o : Optimizer V M) (x : List K) (fs : K) (fsv : V)
    (args : List V) (kw : Dict V) (ω : Ω) : Except PyErr K := do
  let m ← o.configured ops args kw fsv
  let m ← ops.fit m x []
  let y ← ops.predict m (times x.length fs) ω
  o.compare ops x y

/-- The result of a minimisation: the best point, all points and their values. -/
structure Result (K V : Type) where
  x : List V
  xIters : List (List V)
  funcVals : List K

/-- Values of the keyword arguments of the minimiser. -/
inductive MVal (K V : Type) where
  | points (l : List (List V))
  | values (l : List K)
  | other (id : Nat)

/-- The keyword arguments passed on to `skopt.gp_minimize`, `sample/optimize.py:192-194`. -/
def minimizeKw (state : Option (Result K V)) (kw : Dict (MVal K V)) : Dict (MVal K V) :=
  match state with
  | none => kw
  | some s =>
    if kw.has "x0" || kw.has "y0" then kw
    else (kw.set "x0" (.points s.xIters)).set "y0" (.values s.funcVals)

/-- `gp_minimize`, `sample/optimize.py:173-204`.  The minimiser `skopt.gp_minimize` is an arbitrary
function of the loss, the number of dimensions and the keyword arguments, that may change the state
of the module `warnings`.  Simplification: the final `fit` does not touch that state. -/
def Optimizer.gpMinimize (ops : Ops K V M Ω) (o : Optimizer V M)
    (skopt : (List V → Ω → Except PyErr K) → Nat → Dict (MVal K V) → World →
      World × Except PyErr (Result K V))
    (x : List K) (fs : K) (fsv : V) (state : Option (Result K V)) (ignoreWarnings : Bool)
    (fitKw : Option (Dict V)) (kw : Dict (MVal K V)) (w : World) :
    World × Except PyErr (M × Result K V) :=
  let kw := minimizeKw state kw
  let w₁ := if ignoreWarnings then
    { w with filters := simplefilter ⟨"ignore", "Warning", 0⟩ false w.filters } else w
  let r := skopt (fun args ω => o.loss ops x fs fsv args [] ω) o.dims.length kw w₁
  (exitCatch w r.1, do
    let res ← r.2
    let m ← o.configured ops res.x [] fsv
    let m ← ops.fit m x (fillDefaults (fitKw.getD []) [])
    return (m, res))

/-! ## Deprecated constructor arguments -/

/-- The keyword arguments of the constructor `sample_fn` in the converter of the deprecated argument
`sample_fn`, `sample/optimize.py:95-98`, when `remap` is not given: the dictionary `sample_kw` (or
an empty one), an object `kwDict` here, is passed to the remapper as a positional argument. -/
def sampleFnKwargs (env : Env K) (kwDict : Nat) : Except PyErr (Dict (RVal K)) :=
  (remapper env [.obj kwDict] []).2

/-- The converter of the deprecated argument `sample_kw`, `sample/optimize.py:102-105`, for a call
with no positional argument but `self`: the model (`model`, else a new one) with the remapped
keyword arguments. -/
def sampleKwModel (env : Env K) (setParams : M → Dict (RVal K) → Except PyErr M) (model : M)
    (sampleKw : Dict (RVal K)) : Except PyErr M := do
  let kw ← (remapper env [] sampleKw).2
  setParams model kw

end Optimizer

/-! ## The progress callback -/

/-- A progress bar: total, number of updates, whether it is open, and the last postfix stage. -/
structure Bar where
  total : Nat
  n : Nat
  isOpen : Bool
  stage : Option String
  deriving DecidableEq, Repr

/-- `TqdmCallback`, `sample/optimize.py:218-230`, with all the bars ever made; `tqdm` is the index
of the current one. -/
structure Callback where
  nCalls : Nat
  nInitial : Nat
  i : Option Nat
  tqdm : Option Nat
  bars : List Bar
  deriving DecidableEq, Repr

/-- The constructor, `sample/optimize.py:218-230`. -/
def Callback.new (nCalls nInitial : Nat) (bars : List Bar) : Callback :=
  ⟨nCalls, nInitial, none, none, bars⟩

/-- `started`, `sample/optimize.py:232-235`. -/
def Callback.started (c : Callback) : Bool := c.tqdm.isSome || c.i.isSome

/-- `reset`, `sample/optimize.py:237-243`. -/
def Callback.reset (c : Callback) : Callback :=
  { c with
    bars := (match c.tqdm with
      | none => c.bars
      | some b => c.bars.modify b fun b => { b with isOpen := false })
    i := none, tqdm := none }

/-- `start`, `sample/optimize.py:245-250`. -/
def Callback.start (c : Callback) : Callback :=
  { c with bars := c.bars ++ [⟨c.nCalls, 0, true, none⟩], tqdm := some c.bars.length, i := some 0 }

/-- `__call__`, `sample/optimize.py:252-270`.  Only the stage of the postfix is modelled. -/
def Callback.call (c : Callback) : Except PyErr Callback :=
  let c := if c.started then c else c.start
  match c.i, c.tqdm with
  | some i, some b =>
    let stage := if i + 1 ≤ c.nInitial then "randomize" else "minimize"
    .ok { c with i := some (i + 1)
                 bars := c.bars.modify b fun b => { b with n := b.n + 1, stage := some stage } }
  | none, _ => .error .typeError
  | some _, none => .error .attributeError

end Verif.Optimize
