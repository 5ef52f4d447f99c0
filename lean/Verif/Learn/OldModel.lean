import Verif.Learn.EstModel
import Verif.Utils.DeprecatedModel

/-!
# Constructors and `set_params` with the deprecated names of arguments

`sample/sms/sm.py:200-266`, `sample/sms/mm.py:190-242`, `sample/sample.py:39-95`.  The estimators are those of
`Learn/EstModel`; here every constructor and every `set_params` first renames its arguments as the decorators do
(`Utils/DeprecatedModel`).  Warnings are not counted here (see C31).
-/

set_option autoImplicit false

namespace Verif.Est

open Verif

variable {A C : Type}

/-- What the decorators of a class make of the arguments. -/
abbrev Deco (A C : Type) := C → Dict (Val A) → Except PyErr (Dict (Val A))

/-- `set_params(**kw)` of an estimator whose class has decorators: `SAMPLE.set_params`, `sample/sample.py:93-95`,
`ModalModel.set_params`, `sample/sms/mm.py:240-242`, `SinusoidalModel.set_params`, `sample/sms/sm.py:264-266`.
`BaseEstimator.set_params` calls `set_params` of the parts, which have decorators too. -/
def setParamsD (T : Table A C) (deco : Deco A C) (depth : Nat) :
    Nat → Nat → Dict (Val A) → Heap A C → Option (Heap A C × Except PyErr Unit)
  | 0, _, _, _ => Option.none
  | fuel + 1, i, kw, h =>
    match h[i]? with
    | Option.none => Option.none
    | some o =>
      match deco o.cls kw with
      | .error e => some (h, .error e)
      | .ok kw =>
        if kw.isEmpty then some (h, .ok ())
        else
          match gather T depth i (T.slots o.cls) kw h o.attrs [] with
          | Option.none => Option.none
          | some (h, .error e) => some (h, .error e)
          | some (h, .ok (valid, nested)) => spread (setParamsD T deco depth fuel) valid nested h

/-- `cls(**kw)`: the constructor has the same decorators as `set_params` and calls that with the arguments that are
no parameters, `sample/sample.py:74-91`, `sample/sms/sm.py:245-262`, `sample/sms/mm.py:223-238`.
(`SAMPLEBeatsDROP.__init__`, `sample/beatsdrop/sample.py:53-73`, has no decorator, but gives all arguments but two
to that of `SAMPLE`; these two have no deprecated names.) -/
def constructD (T : Table A C) (deco : Deco A C) (depth fuel : Nat) (c : C) (kw : Dict (Val A)) (h : Heap A C) :
    Option (Heap A C × Except PyErr Nat) :=
  match deco c kw with
  | .error e => some (h, .error e)
  | .ok kw =>
    let own := kw.filter fun e => (T.slots c).has e.1
    let rest := kw.filter fun e => !(T.slots c).has e.1
    if !rest.isEmpty && !T.open_ c then some (h, .error .typeError)
    else
      match newObj T depth c own h with
      | Option.none => Option.none
      | some (h, i) =>
        match setParamsD T deco depth fuel i rest h with
        | Option.none => Option.none
        | some (h, .error e) => some (h, .error e)
        | some (h, .ok _) => some (h, .ok i)

/-! ## The decorators of the package -/

/-- The arguments that a stack of decorators gives to the function below it. -/
def processAll {V : Type} (args : List V) : List (Utils.Dep V) → Dict V → Except PyErr (Dict V)
  | [], kw => .ok kw
  | d :: ds, kw =>
    match (d.process args kw).2 with
    | .error e => .error e
    | .ok kw => processAll args ds kw

/-- Python's numbers, as far as the converter of `safe_sine_len` needs them: `1`, `-1` and `max`, which may raise. -/
structure Durations (A : Type) where
  one : A
  minusOne : A
  max : Val A → Val A → Except PyErr (Val A)

/-- The converter of `safe_sine_len`, `sample/sms/sm.py:207-210`. -/
def safeSineLenV (D : Durations A) (args : List (Val A)) (kw : Dict (Val A)) : Except PyErr (String × Val A) :=
  match args with
  | [_] =>
    if kw.has "_" then .error .typeError
    else
      match kw.get? "safe_sine_len" with
      | Option.none => .error .keyError
      | some v =>
        match D.max (match v with | .none => .atom D.minusOne | v => v)
            ((kw.get? "tracker__min_sine_dur").getD (.atom D.one)) with
        | .ok x => .ok ("tracker__min_sine_dur", x)
        | .error e => .error e
  | _ => .error .typeError

/-- The converter of `sine_tracker_cls`, `sample/sms/sm.py:216-217`.  Simplification: only for a call with one
positional argument (`self`), which gets a second value for the same parameter. -/
def sineTrackerClsV (_args : List (Val A)) (_kw : Dict (Val A)) : Except PyErr (String × Val A) := .error .typeError

/-- `_decorate_sinusoidal_model`, `sample/sms/sm.py:203-220`. -/
def sinusoidalDeps (D : Durations A) : List (Utils.Dep (Val A)) :=
  [Utils.rename "max_n_sines" "tracker__max_n_sines",
   Utils.rename "min_sine_dur" "tracker__min_sine_dur",
   Utils.converting "safe_sine_len" (safeSineLenV D),
   Utils.rename "freq_dev_offset" "tracker__freq_dev_offset",
   Utils.rename "freq_dev_slope" "tracker__freq_dev_slope",
   Utils.converting "sine_tracker_cls" sineTrackerClsV,
   Utils.rename "save_intermediate" "intermediate__save",
   Utils.rename "fs" "tracker__fs",
   Utils.rename "h" "tracker__h"]

/-- `_decorate_modal_model`, `sample/sms/mm.py:193-197`. -/
def modalDeps : List (Utils.Dep (Val A)) :=
  [Utils.rename "reverse" "tracker__reverse",
   Utils.rename "frequency_bounds" "tracker__frequency_bounds",
   Utils.rename "peak_threshold" "tracker__peak_threshold",
   Utils.rename "merge_strategy" "tracker__merge_strategy",
   Utils.rename "strip_t" "tracker__strip_t"]

/-- The decorators of a class; those of `ModalModel` (`sample/sms/mm.py:223-242`) come before those of
`SinusoidalModel`, whose methods it calls; `SAMPLE` (and `SAMPLEBeatsDROP`): `sample/sample.py:41`. -/
def packageDeps (D : Durations A) : Cls → List (Utils.Dep (Val A))
  | .sample | .sampleBeatsDROP => [Utils.renamePrefix "sinusoidal_model" "sinusoidal"]
  | .modalModel => modalDeps ++ sinusoidalDeps D
  | .sinusoidalModel => sinusoidalDeps D
  | _ => []

/-- The decorators of the package; the only positional argument is `self`, at which the converters do not look. -/
def packageDeco (D : Durations A) : Deco A Cls := fun c kw => processAll [.none] (packageDeps D c) kw

end Verif.Est
