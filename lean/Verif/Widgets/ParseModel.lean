import Mathlib.Algebra.Order.Floor.Ring
import Mathlib.Data.Nat.Size
import Verif.Py

/-!
# Settings parsers (`sample/widgets/settings.py:17-138`)

Python floats are numbers of an ordered field, NaN or an infinity; rounding is not modelled.  The
conversion `float(s)` of a string is an arbitrary function, `none` where it raises `ValueError`.
-/

set_option autoImplicit false

namespace Verif.Widgets

/-- A Python `float`. -/
inductive Flt (K : Type) where
  | fin (v : K)
  | inf
  | ninf
  | nan
  deriving DecidableEq

namespace Flt
variable {K : Type} [Field K] [LinearOrder K]

/-- `a < b`; false if one of them is NaN. -/
def lt : Flt K → Flt K → Bool
  | nan, _ => false
  | _, nan => false
  | fin a, fin b => decide (a < b)
  | fin _, inf => true
  | ninf, fin _ => true
  | ninf, inf => true
  | _, _ => false

/-- `a == b`; false if one of them is NaN. -/
def eq : Flt K → Flt K → Bool
  | fin a, fin b => decide (a = b)
  | inf, inf => true
  | ninf, ninf => true
  | _, _ => false

/-- `a <= b`. -/
def le (a b : Flt K) : Bool := lt a b || eq a b

/-- Python's `max(a, b)`: `b` only if it is greater. -/
def max (a b : Flt K) : Flt K := if lt a b then b else a

/-- Python's `min(a, b)`: `b` only if it is less. -/
def min (a b : Flt K) : Flt K := if lt b a then b else a

/-- `bool(a)`: false for zero only. -/
def truthy : Flt K → Bool
  | fin a => decide (a ≠ 0)
  | _ => true

/-- `int(a)`: rounds towards zero. -/
def toInt [FloorRing K] : Flt K → Except PyErr Int
  | fin a => .ok (if 0 ≤ a then ⌊a⌋ else ⌈a⌉)
  | nan => .error .valueError
  | _ => .error .overflowError

end Flt

variable {K : Type} [Field K] [LinearOrder K]

/-- The conversion `float(s)` of a string; `none` if it raises `ValueError`. -/
abbrev Parse (K : Type) := String → Option (Flt K)

/-- `float(s)` as a call that may raise. -/
def pyFloat (parse : Parse K) (s : String) : Except PyErr (Flt K) :=
  match parse s with
  | none => .error .valueError
  | some v => .ok v

/-- `try_func`, `sample/widgets/settings.py:18-39`; `exc` are the exception classes to catch. -/
def tryFunc {α β : Type} (func : α → Except PyErr β) (exc : PyErr → Bool) (default : β) (x : α) :
    Except PyErr β :=
  match func x with
  | .ok v => .ok v
  | .error e => if exc e then .ok default else .error e

/-- `try_float`, `sample/widgets/settings.py:42`. -/
def tryFloat (parse : Parse K) (s : String) : Except PyErr (Flt K) :=
  tryFunc (pyFloat parse) (fun e => decide (e = .valueError)) (.fin 0) s

/-- `custom_bool`, `sample/widgets/settings.py:45-57`.  `lower` is `str.lower`. -/
def customBool (parse : Parse K) (lower : String → String) (s : String) : Except PyErr Bool :=
  if lower s ∈ ["false", "f", ""] then .ok false
  else
    match parse s with
    | none => .ok true
    | some v => .ok v.truthy

/-- `strip_time_parse`, `sample/widgets/settings.py:60-74`. -/
def stripTime (parse : Parse K) (s : String) : Except PyErr (Option (Flt K)) :=
  match parse s with
  | none => .ok none
  | some v => if v.le (.fin 0) then .ok none else .ok (some v)

/-- The default value of `float_clip`, `sample/widgets/settings.py:88-97`; the bounds are finite. -/
def clipDefault (left right default : Option K) : K :=
  match default with
  | some d => d
  | none =>
    match left, right with
    | none, none => 0
    | none, some r => r
    | some l, none => l
    | some l, some r => (l + r) / 2

/-- `x = max(left, x)` unless `left` is `None`, `sample/widgets/settings.py:107-108`. -/
def clipLeft (left : Option K) (x : Flt K) : Flt K :=
  match left with
  | none => x
  | some l => Flt.max (.fin l) x

/-- `x = min(right, x)` unless `right` is `None`, `sample/widgets/settings.py:109-110`. -/
def clipRight (right : Option K) (x : Flt K) : Flt K :=
  match right with
  | none => x
  | some r => Flt.min (.fin r) x

/-- The function made by `float_clip`, `sample/widgets/settings.py:77-113`. -/
def floatClip (parse : Parse K) (left right default : Option K) (s : String) :
    Except PyErr (Flt K) :=
  match parse s with
  | none => .ok (.fin (clipDefault left right default))
  | some v => .ok (clipRight right (clipLeft left v))

/-- `custom_positive_int`, `sample/widgets/settings.py:116-129`; the default may be `None`. -/
def customPositiveInt [FloorRing K] (parse : Parse K) (dflt : Option Int) (s : String) :
    Except PyErr (Option Int) :=
  match parse s with
  | none => .ok dflt
  | some v =>
    match (Flt.max v (.fin 1)).toInt with
    | .error e => .error e
    | .ok n => .ok (some n)

/-- `int.bit_length()`. -/
def bitLength (n : Int) : Nat := n.natAbs.size

/-- `next_power_of_2`, `sample/widgets/settings.py:132-138`. -/
def nextPowerOf2 [FloorRing K] (parse : Parse K) (s : String) : Except PyErr Int :=
  match customPositiveInt parse (some 1) s with
  | .error e => .error e
  | .ok none => .error .typeError
  | .ok (some n) => .ok (2 ^ bitLength (n - 1))

end Verif.Widgets
