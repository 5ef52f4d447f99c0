import Verif.Py
import Verif.PyDict

/-!
# Estimators, their parameters and `default_property` (`sample/utils/learn.py:13-191`)

Estimators are objects in a memory, with identity, so that sharing between models is visible.  An object has its
class and its parameters; what `fit` stores is not modelled here.  `get_params`, `set_params` and `clone` are those
of scikit-learn's `BaseEstimator`.  Numbers, strings, arrays and functions are values of a type `A`.

Recursion into parts is limited by a number (`fuel`), and into defaults of defaults by another one (`depth`); `none`
means that it was too small (an endless recursion is a `RecursionError` in Python).

Simplification: the arguments are not deprecated ones (for these see `Learn/OldModel`), and nobody changes the
condition for the default with `defaulter`.
-/

set_option autoImplicit false

namespace Verif.Est

open Verif

/-- The value of a parameter: `None`, a value that is no estimator, or an estimator. -/
inductive Val (A : Type) where
  | none
  | atom (a : A)
  | ref (i : Nat)
  deriving DecidableEq

/-- What the function under `default_property` gives: a value or a new object of a class, made without
arguments. -/
inductive Default (A C : Type) where
  | value (a : A)
  | make (c : C)

/-- A parameter of a class: the default of the argument of `__init__`, and the default property if it is one. -/
structure Slot (A C : Type) where
  init : Val A
  auto : Option (Default A C) := Option.none

/-- The classes: the parameters of each (in the order of their names, as in `_get_param_names`) and whether
`__init__` has `**kwargs`, which it gives to `set_params`. -/
structure Table (A C : Type) where
  slots : C → Dict (Slot A C)
  open_ : C → Bool

/-- An object. -/
structure Obj (A C : Type) where
  cls : C
  attrs : Dict (Val A)

/-- The memory. -/
abbrev Heap (A C : Type) := List (Obj A C)

variable {A C : Type}

/-- `_DefaultProperty._default_fset`, `sample/utils/learn.py:88-92`, with `_default_fdef`, 99-102, or the plain
assignment of an attribute.  `mk` makes an object without arguments.  The result is what is stored. -/
def store (mk : C → Heap A C → Option (Heap A C × Nat)) (s : Slot A C) (v : Val A) (h : Heap A C) :
    Option (Heap A C × Val A) :=
  match v with
  | .none =>
    match s.auto with
    | Option.none => some (h, .none)
    | some (.value a) => some (h, .atom a)
    | some (.make c) =>
      match mk c h with
      | Option.none => Option.none
      | some (h, i) => some (h, .ref i)
  | v => some (h, v)

/-- The assignments in `__init__`: each parameter gets the argument or its default.  Simplification: in the
order of the names. -/
def fill (mk : C → Heap A C → Option (Heap A C × Nat)) (given : Dict (Val A)) :
    Dict (Slot A C) → Heap A C → Option (Heap A C × Dict (Val A))
  | [], h => some (h, [])
  | (n, s) :: l, h =>
    match store mk s ((given.get? n).getD s.init) h with
    | Option.none => Option.none
    | some (h, v) =>
      match fill mk given l h with
      | Option.none => Option.none
      | some (h, d) => some (h, (n, v) :: d)

/-- A new object; `given` are the arguments that are names of parameters, e.g. `sample/sample.py:75-90`,
`sample/beatsdrop/sample.py:53-66`, `sample/sms/sm.py:246-261`, `sample/hinge.py:76-90`. -/
def newObj (T : Table A C) : Nat → C → Dict (Val A) → Heap A C → Option (Heap A C × Nat)
  | 0, _, _, _ => Option.none
  | depth + 1, c, given, h =>
    match fill (fun c h => newObj T depth c [] h) given (T.slots c) h with
    | Option.none => Option.none
    | some (h, attrs) => some (h ++ [⟨c, attrs⟩], h.length)

/-- `s.partition("__")`, for characters; the second part is there if the delimiter is. -/
def partitionChars : List Char → List Char × Option (List Char)
  | [] => ([], Option.none)
  | [c] => ([c], Option.none)
  | c :: c' :: l =>
    if c = '_' ∧ c' = '_' then ([], some l)
    else
      let r := partitionChars (c' :: l)
      (c :: r.1, r.2)

/-- `s.partition("__")`. -/
def partition (s : String) : String × Option String :=
  ((String.ofList (partitionChars s.toList).1), (partitionChars s.toList).2.map String.ofList)

/-- `key + "__" + k`. -/
def join (key k : String) : String := String.ofList (key.toList ++ '_' :: '_' :: k.toList)

/-- The loop of `BaseEstimator.get_params` over the parameters; `rec` gives the parameters of a part. -/
def collect (rec : Nat → Option (Dict (Val A))) : Dict (Val A) → Dict (Val A) → Option (Dict (Val A))
  | [], out => some out
  | (n, .ref j) :: l, out =>
    match rec j with
    | Option.none => Option.none
    | some d => collect rec l ((out.update (d.map fun p => (join n p.1, p.2))).set n (.ref j))
  | (n, v) :: l, out => collect rec l (out.set n v)

/-- `BaseEstimator.get_params()` of scikit-learn, with `deep=True`: for each parameter, those of its value
if that is an estimator, and the value. -/
def getParams : Nat → Heap A C → Nat → Option (Dict (Val A))
  | 0, _, _ => Option.none
  | fuel + 1, h, i =>
    match h[i]? with
    | Option.none => Option.none
    | some o => collect (getParams fuel h) o.attrs []

/-- `setattr(self, key, value)` for a parameter. -/
def setAttr (T : Table A C) (depth i : Nat) (s : Slot A C) (key : String) (v : Val A) (h : Heap A C) :
    Option (Heap A C) :=
  match store (fun c h => newObj T depth c [] h) s v h with
  | Option.none => Option.none
  | some (h, v) =>
    match h[i]? with
    | Option.none => Option.none
    | some o => some (h.set i ⟨o.cls, o.attrs.set key v⟩)

/-- The first loop of `BaseEstimator.set_params`: `valid` is `valid_params` (as far as it is used: keys that
contain the delimiter are never looked up) and `nested` is `nested_params`. -/
def gather (T : Table A C) (depth i : Nat) (slots : Dict (Slot A C)) :
    Dict (Val A) → Heap A C → Dict (Val A) → Dict (Dict (Val A)) →
      Option (Heap A C × Except PyErr (Dict (Val A) × Dict (Dict (Val A))))
  | [], h, valid, nested => some (h, .ok (valid, nested))
  | (k, v) :: kw, h, valid, nested =>
    match slots.get? (partition k).1 with
    | Option.none => some (h, .error .valueError)
    | some s =>
      match (partition k).2 with
      | some sub =>
        gather T depth i slots kw h valid
          (nested.set (partition k).1 (((nested.get? (partition k).1).getD []).set sub v))
      | Option.none =>
        match setAttr T depth i s (partition k).1 v h with
        | Option.none => Option.none
        | some h => gather T depth i slots kw h (valid.set (partition k).1 v) nested

/-- The second loop of `BaseEstimator.set_params`; `rec` is `set_params` of the part.  What is no estimator has
no such method. -/
def spread (rec : Nat → Dict (Val A) → Heap A C → Option (Heap A C × Except PyErr Unit)) (valid : Dict (Val A)) :
    Dict (Dict (Val A)) → Heap A C → Option (Heap A C × Except PyErr Unit)
  | [], h => some (h, .ok ())
  | (key, sub) :: nested, h =>
    match valid.get? key with
    | some (.ref j) =>
      match rec j sub h with
      | Option.none => Option.none
      | some (h, .error e) => some (h, .error e)
      | some (h, .ok _) => spread rec valid nested h
    | _ => some (h, .error .attributeError)

/-- `BaseEstimator.set_params(**kw)` of scikit-learn; `SAMPLE.set_params`, `sample/sample.py:93-95`, and
`SinusoidalModel.set_params`, `sample/sms/sm.py:264-266`. -/
def setParams (T : Table A C) (depth : Nat) :
    Nat → Nat → Dict (Val A) → Heap A C → Option (Heap A C × Except PyErr Unit)
  | 0, _, _, _ => Option.none
  | fuel + 1, i, kw, h =>
    if kw.isEmpty then some (h, .ok ())
    else
      match h[i]? with
      | Option.none => Option.none
      | some o =>
        match gather T depth i (T.slots o.cls) kw h o.attrs [] with
        | Option.none => Option.none
        | some (h, .error e) => some (h, .error e)
        | some (h, .ok (valid, nested)) => spread (setParams T depth fuel) valid nested h

/-- `cls(**kw)`: arguments that are no parameters go to `set_params` if the class takes them, e.g.
`sample/sample.py:91`, else `TypeError`. -/
def construct (T : Table A C) (depth fuel : Nat) (c : C) (kw : Dict (Val A)) (h : Heap A C) :
    Option (Heap A C × Except PyErr Nat) :=
  let own := kw.filter fun e => (T.slots c).has e.1
  let rest := kw.filter fun e => !(T.slots c).has e.1
  if !rest.isEmpty && !T.open_ c then some (h, .error .typeError)
  else
    match newObj T depth c own h with
    | Option.none => Option.none
    | some (h, i) =>
      match setParams T depth fuel i rest h with
      | Option.none => Option.none
      | some (h, .error e) => some (h, .error e)
      | some (h, .ok _) => some (h, .ok i)

/-- Clones of the values of a dictionary, one after the other. -/
def cloneAll (rec : Nat → Heap A C → Option (Heap A C × Nat)) :
    Dict (Val A) → Heap A C → Option (Heap A C × Dict (Val A))
  | [], h => some (h, [])
  | (n, .ref j) :: l, h =>
    match rec j h with
    | Option.none => Option.none
    | some (h, k) =>
      match cloneAll rec l h with
      | Option.none => Option.none
      | some (h, d) => some (h, (n, .ref k) :: d)
  | (n, v) :: l, h =>
    match cloneAll rec l h with
    | Option.none => Option.none
    | some (h, d) => some (h, (n, v) :: d)

/-- `sklearn.base.clone(estimator)`: an object of the same class with clones of the parameters (deep copies of
those that are no estimators, which are equal values).  That the new object has exactly these parameters, which
`clone` checks, is a property here. -/
def clone (T : Table A C) (depth : Nat) : Nat → Nat → Heap A C → Option (Heap A C × Nat)
  | 0, _, _ => Option.none
  | fuel + 1, i, h =>
    match h[i]? with
    | Option.none => Option.none
    | some o =>
      match cloneAll (clone T depth fuel) o.attrs h with
      | Option.none => Option.none
      | some (h, given) => newObj T depth o.cls given h

/-! ## The classes of the package -/

/-- The classes with estimators as parameters, and those of the parameters. -/
inductive Cls where
  | sample
  | sampleBeatsDROP
  | modalModel
  | sinusoidalModel
  | modalTracker
  | sineTracker
  | storage
  | hinge
  | linear
  | dualBeat
  | beat
  | decisor
  deriving DecidableEq

/-- Default values: of the arguments and of the default properties that are no estimators; and the parameters of
`sklearn.linear_model.LinearRegression`, which depend on its version. -/
structure Defaults (A : Type) where
  arg : Cls → String → Val A
  prop : Cls → String → A
  linear : Dict (Val A)

/-- A parameter without default property. -/
def Defaults.plain (d : Defaults A) (c : Cls) (n : String) : String × Slot A Cls := (n, ⟨d.arg c n, Option.none⟩)

/-- A default property with a value (the argument is `None` by default). -/
def Defaults.value (d : Defaults A) (c : Cls) (n : String) : String × Slot A Cls :=
  (n, ⟨.none, some (.value (d.prop c n))⟩)

/-- A default property with an estimator. -/
def made (n : String) (c : Cls) : String × Slot A Cls := (n, ⟨.none, some (.make c)⟩)

/-- The parameters: `SAMPLE`, `sample/sample.py:75-105`; `SAMPLEBeatsDROP`, `sample/beatsdrop/sample.py:53-83`;
`SinusoidalModel`, `sample/sms/sm.py:246-281`; `ModalModel`, `sample/sms/mm.py:224-246`; `SineTracker`,
`sample/sms/sm.py:54-68`; `ModalTracker`, `sample/sms/mm.py:69-94`; `OptionalStorage`,
`sample/utils/learn.py:248-249`; `HingeRegression`, `sample/hinge.py:76-105`; `BeatRegression`,
`sample/beatsdrop/regression.py:107-124,159-165`; `DualBeatRegression`, 366-402; `AlmostNotABeatDecisor`,
`sample/beatsdrop/decision.py:119-124,25-28`. -/
def slots (d : Defaults A) : Cls → Dict (Slot A Cls)
  | .sample =>
    [d.plain .sample "freq_reduce", d.plain .sample "max_n_modes", made "regressor" .hinge,
     d.plain .sample "regressor_k", d.plain .sample "regressor_q", made "sinusoidal" .modalModel]
  | .sampleBeatsDROP =>
    [made "beat_decisor" .decisor, made "beatsdrop" .dualBeat,
     d.plain .sampleBeatsDROP "freq_reduce", d.plain .sampleBeatsDROP "max_n_modes", made "regressor" .hinge,
     d.plain .sampleBeatsDROP "regressor_k", d.plain .sampleBeatsDROP "regressor_q",
     made "sinusoidal" .modalModel]
  | .modalModel =>
    [made "intermediate" .storage, d.plain .modalModel "n", d.plain .modalModel "padded",
     d.plain .modalModel "t", made "tracker" .modalTracker, d.value .modalModel "w"]
  | .sinusoidalModel =>
    [made "intermediate" .storage, d.plain .sinusoidalModel "n", d.plain .sinusoidalModel "padded",
     d.plain .sinusoidalModel "t", made "tracker" .sineTracker, d.value .sinusoidalModel "w"]
  | .modalTracker =>
    [d.plain .modalTracker "freq_dev_offset", d.plain .modalTracker "freq_dev_slope",
     d.plain .modalTracker "frequency_bounds", d.plain .modalTracker "fs", d.plain .modalTracker "h",
     d.plain .modalTracker "max_n_sines", d.plain .modalTracker "merge_strategy",
     d.plain .modalTracker "min_sine_dur", d.plain .modalTracker "peak_threshold",
     d.plain .modalTracker "reverse", d.plain .modalTracker "strip_t"]
  | .sineTracker =>
    [d.plain .sineTracker "freq_dev_offset", d.plain .sineTracker "freq_dev_slope", d.plain .sineTracker "fs",
     d.plain .sineTracker "h", d.plain .sineTracker "max_n_sines", d.plain .sineTracker "min_sine_dur"]
  | .storage => [d.plain .storage "save"]
  | .hinge =>
    [d.value .hinge "bounds", d.value .hinge "coeffs_init", made "linear_regressor" .linear,
     d.plain .hinge "linear_regressor_k", d.plain .hinge "linear_regressor_q", d.plain .hinge "method"]
  | .linear => d.linear.map fun e => (e.1, ⟨e.2, Option.none⟩)
  | .beat =>
    [d.value .beat "bounds", d.plain .beat "fs", d.plain .beat "linear_regressor",
     d.plain .beat "linear_regressor_k", d.plain .beat "linear_regressor_q", d.plain .beat "lpf",
     d.value .beat "params_init"]
  | .dualBeat =>
    [d.value .dualBeat "amp_loss", d.value .dualBeat "bounds", d.plain .dualBeat "disambiguate",
     d.plain .dualBeat "freq_clip", d.value .dualBeat "freq_loss", d.plain .dualBeat "freq_w",
     d.plain .dualBeat "fs", d.plain .dualBeat "linear_regressor", d.plain .dualBeat "linear_regressor_k",
     d.plain .dualBeat "linear_regressor_q", d.plain .dualBeat "lpf", d.value .dualBeat "params_init"]
  | .decisor => [made "intermediate" .storage, d.plain .decisor "th"]

/-- Which constructors have `**kwargs`. -/
def hasKwargs : Cls → Bool
  | .sample | .sampleBeatsDROP | .modalModel | .sinusoidalModel | .modalTracker | .sineTracker | .decisor => true
  | _ => false

/-- The classes of the package. -/
def package (d : Defaults A) : Table A Cls := ⟨slots d, hasKwargs⟩

/-- `_default_kwargs`, `sample/widgets/sample.py:58-61`; `yes` is `True`. -/
def defaultKwargs (yes : A) : Dict (Val A) :=
  [("beat_decisor__intermediate__save", .atom yes), ("sinusoidal__intermediate__save", .atom yes)]

/-- `sample_factory`, `sample/widgets/sample.py:64-89`: the model.  (The other result is
`{"_fit_args": …, "n_jobs": n_jobs}`.) -/
def sampleFactory (T : Table A Cls) (depth fuel : Nat) (yes : A) (beatsdrop : Bool) (kw : Dict (Val A))
    (h : Heap A Cls) : Option (Heap A Cls × Except PyErr Nat) :=
  let kw := kw.update ((defaultKwargs yes).filter fun e => !kw.has e.1)
  match newObj T depth (if beatsdrop then .sampleBeatsDROP else .sample) [] h with
  | Option.none => Option.none
  | some (h, i) =>
    match getParams fuel h i with
    | Option.none => Option.none
    | some params =>
      match setParams T depth fuel i (kw.filter fun e => params.has e.1) h with
      | Option.none => Option.none
      | some (h, .error e) => some (h, .error e)
      | some (h, .ok _) => some (h, .ok i)

end Verif.Est
