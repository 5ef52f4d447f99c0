/-!
# Python-level basics shared by all models

Exceptions are values.  Only the exception class is kept; messages are not modelled.
-/

set_option autoImplicit false
universe u

namespace Verif

/-- Classes of Python exceptions raised by the modelled code. -/
inductive PyErr where
  | indexError
  | keyError
  | valueError
  | typeError
  | attributeError
  | zeroDivisionError
  | overflowError
  deriving DecidableEq, Repr

/-- `l[i]` for a non-negative index: raises `IndexError` past the end. -/
def getE {α : Type u} (l : List α) (i : Nat) : Except PyErr α :=
  match l[i]? with
  | some a => .ok a
  | none => .error .indexError

/-- `l[-1]`: raises `IndexError` on an empty list. -/
def lastE {α : Type u} (l : List α) : Except PyErr α :=
  match l.getLast? with
  | some a => .ok a
  | none => .error .indexError

end Verif
