import Verif.Py
import Mathlib.Algebra.Field.Defs

/-!
# Timing of code in a notebook (`sample/ipython.py:123-146`)
-/

set_option autoImplicit false

namespace Verif.Timer

/-- How the fields of a template are numbered so far (CPython): not yet, automatically (`{}`, with the number of fields
so far), or by hand (`{0}`). -/
inductive Numbering
  | unset
  | auto (used : Nat)
  | manual

/-- The value of a field of `msg.format(v)`: `{}` is the next argument, `{0}` the first; the two ways must not be mixed
(`ValueError`), there is only one argument (`IndexError` for others), and there are no names (`KeyError`).  Conversions,
format specifiers and attributes are not modelled: such a field is taken as a name. -/
def fieldValue (v name : List Char) (n : Numbering) : Except PyErr (List Char × Numbering) :=
  if name = [] then
    match n with
    | .manual => .error .valueError
    | .unset => .ok (v, .auto 1)
    | .auto k => if k = 0 then .ok (v, .auto 1) else .error .indexError
  else if name.all Char.isDigit then
    match n with
    | .auto _ => .error .valueError
    | _ => if name.all (· = '0') then .ok (v, .manual) else .error .indexError
  else .error .keyError

/-- `msg.format(v)`, `sample/ipython.py:143` (CPython): doubled braces stand for braces, a single one is a
`ValueError`.  `fuel` is more than the length of the template. -/
def formatF (v : List Char) : Nat → Numbering → List Char → Except PyErr (List Char)
  | 0, _, _ => .ok []
  | _ + 1, _, [] => .ok []
  | m + 1, n, c :: t =>
    if c = '{' then
      match t with
      | [] => .error .valueError
      | d :: t' =>
        if d = '{' then (formatF v m n t').map ('{' :: ·)
        else
          match (d :: t').dropWhile (· ≠ '}') with
          | [] => .error .valueError
          | _ :: rest =>
            match fieldValue v ((d :: t').takeWhile (· ≠ '}')) n with
            | .error e => .error e
            | .ok (x, n') => (formatF v m n' rest).map (x ++ ·)
    else if c = '}' then
      match t with
      | [] => .error .valueError
      | d :: t' => if d = '}' then (formatF v m n t').map ('}' :: ·) else .error .valueError
    else (formatF v m n t).map (c :: ·)

/-- `msg.format(v)`. -/
def formatMsg (msg v : List Char) : Except PyErr (List Char) := formatF v (msg.length + 1) .unset msg

/-- What happens with the code in the context. -/
inductive Raised (E : Type)
  | body (e : E)
  | format (e : PyErr)

variable {K : Type} [Field K]

/-- `time_this`, `sample/ipython.py:123-146`, around code that ends normally or raises: what is displayed, and the
exception.  There is no `try`: an exception of the code leaves the generator at `yield`.  `fixed` is the text of a number
with a number of decimal places; a negative number of places is a `ValueError`.  `t0` and `t1` are what the clock shows
before and after the code. -/
def timeThis {E : Type} (fixed : K → Nat → List Char) (t0 t1 : K) (title : Option (List Char)) (msg unit : List Char)
    (scale : K) (ndigits : Int) (body : Except E Unit) : List (List Char) × Option (Raised E) :=
  match body with
  | .error e => ([], some (.body e))
  | .ok () =>
    if ndigits < 0 then ([], some (.format .valueError))
    else
      match formatMsg msg (fixed ((t1 - t0) * scale) ndigits.toNat ++ ' ' :: unit) with
      | .error e => ([], some (.format e))
      | .ok m =>
        match title with
        | none => ([m], none)
        | some t => ([t ++ m], none)

end Verif.Timer
