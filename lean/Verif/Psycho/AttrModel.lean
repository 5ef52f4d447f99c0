import Mathlib.Algebra.Field.Basic
import Verif.Py

/-!
# Parameters of a gammatone filter that are missing or callable (`sample/psycho.py:399-505`)

The parameters of a `GammatoneFilter` may be numbers, `None` or functions of the filter itself.  A
function may read any attribute of the filter, which may call further functions.  Numbers are elements
of a field; the ERB and π are parameters.
-/

set_option autoImplicit false

namespace Verif.Psycho.Attrs

variable {K : Type} [Field K] [DecidableEq K]

/-- What reading an attribute can raise. -/
inductive Err where
  | recursion
  | py (e : PyErr)
  deriving DecidableEq

/-- The attributes that are numbers. -/
inductive Attr where
  | f
  | n
  | bandwidth
  | rawGroupDelay
  | tc
  | groupDelay
  | phi
  deriving DecidableEq

/-- `OptionalValueOrFunc`, `sample/psycho.py:399-400`: a function is given the attributes of the filter
that is passed to it.  Simplifications: it does not change the filter, and it does not read `a` or
`normalize`. -/
inductive Setting (K : Type) where
  | none
  | val (v : K)
  | fn (g : (Attr → Except Err K) → Except Err K)

/-- The fields of a `GammatoneFilter`, `sample/psycho.py:425-439`, without `normalize`; the order is a
number of the field. -/
structure Filter (K : Type) where
  f : K
  n : K
  bandwidth : Setting K
  tc : Setting K
  phi : Setting K
  a : Setting K

/-- A parameter: default, function, or value (as in lines 444-448). -/
def Setting.get (s : Setting K) (dflt : Except Err K) (env : Attr → Except Err K) : Except Err K :=
  match s with
  | .none => dflt
  | .val v => .ok v
  | .fn g => g env

/-- Python's division of numbers; a zero denominator is a `ZeroDivisionError` (NumPy numbers give an
infinity instead, which is not modelled). -/
def divE (x y : K) : Except Err K := if y = 0 then .error (.py .zeroDivisionError) else .ok (x / y)

/-- Reading an attribute, with at most `k` nested reads (Python's recursion limit):
`bandwidth` (`sample/psycho.py:441-448`), `raw_group_delay` (454-458), `group_delay` (460-464), `t_c`
(470-477), `phi` (483-490). -/
def read (erb : K → K) (pi : K) : Nat → Filter K → Attr → Except Err K
  | 0, _, _ => .error .recursion
  | _ + 1, o, .f => .ok o.f
  | _ + 1, o, .n => .ok o.n
  | k + 1, o, .bandwidth => o.bandwidth.get (.ok (erb o.f)) (read erb pi k o)
  | k + 1, o, .rawGroupDelay =>
    match read erb pi k o .bandwidth with
    | .error e => .error e
    | .ok b => divE (o.n - 1) (2 * pi * b)
  | k + 1, o, .tc => o.tc.get (read erb pi k o .rawGroupDelay) (read erb pi k o)
  | k + 1, o, .groupDelay =>
    match read erb pi k o .rawGroupDelay with
    | .error e => .error e
    | .ok r =>
      match read erb pi k o .tc with
      | .error e => .error e
      | .ok t => .ok (r - t)
  | k + 1, o, .phi =>
    o.phi.get
      (match read erb pi k o .tc with
        | .error e => .error e
        | .ok t => .ok (-2 * pi * o.f * t))
      (read erb pi k o)

/-- Reading `a`, `sample/psycho.py:496-501`: `None` stays. -/
def readA (erb : K → K) (pi : K) (k : Nat) (o : Filter K) : Except Err (Option K) :=
  match o.a with
  | .none => .ok none
  | .val v => .ok (some v)
  | .fn g =>
    match g (read erb pi k o) with
    | .error e => .error e
    | .ok v => .ok (some v)

/-- Assignments to attributes: plain fields (`f`, `n`) and setters, `sample/psycho.py:450-452, 466-468,
479-481, 492-494, 503-505`. -/
inductive Assign (K : Type) where
  | f (v : K)
  | n (v : K)
  | bandwidth (s : Setting K)
  | tc (s : Setting K)
  | groupDelay (v : K)
  | phi (s : Setting K)
  | a (s : Setting K)

/-- One assignment; `group_delay` reads the raw group delay. -/
def assign (erb : K → K) (pi : K) (k : Nat) (o : Filter K) : Assign K → Except Err (Filter K)
  | .f v => .ok { o with f := v }
  | .n v => .ok { o with n := v }
  | .bandwidth s => .ok { o with bandwidth := s }
  | .tc s => .ok { o with tc := s }
  | .groupDelay v =>
    match read erb pi k o .rawGroupDelay with
    | .error e => .error e
    | .ok r => .ok { o with tc := .val (r - v) }
  | .phi s => .ok { o with phi := s }
  | .a s => .ok { o with a := s }

/-- A history of assignments, up to the first that raises. -/
def assigns (erb : K → K) (pi : K) (k : Nat) (o : Filter K) : List (Assign K) → Except Err (Filter K)
  | [] => .ok o
  | s :: ss =>
    match assign erb pi k o s with
    | .error e => .error e
    | .ok o' => assigns erb pi k o' ss

end Verif.Psycho.Attrs
