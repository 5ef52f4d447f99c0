import Mathlib.Algebra.BigOperators.Group.List.Basic
import Verif.Py

/-!
# Audio on a page of a notebook (`sample/ipython.py:17-34`, `sample/web_audio.html`)
-/

set_option autoImplicit false

namespace Verif.Out

/-- An array of NumPy: its shape, and its elements in the order of the last index first (`C` order). -/
structure Samples (α : Type) where
  shape : List Nat
  data : List α

/-- `np.reshape(x, newshape=(c, -1)).tolist()`: the size of a row is the number of elements divided by `c`; if that
does not exist, a `ValueError`. -/
def reshapeRows {α : Type} (c : Nat) (data : List α) : Except PyErr (List (List α)) :=
  if c = 0 then .error .valueError
  else if data.length % c ≠ 0 then .error .valueError
  else .ok ((List.range c).map fun i => (data.drop (i * (data.length / c))).take (data.length / c))

/-- The channels, `sample/ipython.py:31-32`: one for an array with one axis, else as many as the first axis is long;
`np.shape` of a single number has no first element. -/
def webChannels {α : Type} (x : Samples α) : Except PyErr (List (List α)) :=
  match x.shape with
  | [] => .error .indexError
  | [_] => reshapeRows 1 x.data
  | c :: _ => reshapeRows c x.data

/-- `str.format` with keyword arguments, `sample/ipython.py:30-34,120` (CPython): `{{` and `}}` stand for braces,
`{name}` for the value; a value that is not given is a `KeyError`, a single brace a `ValueError`.  Names have no
conversion, format or attribute.  `fuel` is more than the length of the template. -/
def formatF (vals : List Char → Option (List Char)) : Nat → List Char → Except PyErr (List Char)
  | 0, _ => .ok []
  | _ + 1, [] => .ok []
  | n + 1, c :: t =>
    if c = '{' then
      match t with
      | [] => .error .valueError
      | d :: t' =>
        if d = '{' then (formatF vals n t').map ('{' :: ·)
        else
          match (d :: t').dropWhile (· ≠ '}') with
          | [] => .error .valueError
          | _ :: rest =>
            match vals ((d :: t').takeWhile (· ≠ '}')) with
            | none => .error .keyError
            | some v => (formatF vals n rest).map (v ++ ·)
    else if c = '}' then
      match t with
      | [] => .error .valueError
      | d :: t' => if d = '}' then (formatF vals n t').map ('}' :: ·) else .error .valueError
    else (formatF vals n t).map (c :: ·)

/-- `template.format(**vals)`. -/
def format (vals : List Char → Option (List Char)) (t : List Char) : Except PyErr (List Char) :=
  formatF vals (t.length + 1) t

/-- The page, `sample/ipython.py:27-34`: `json` is `json.dumps`, `rate` the text of the sample rate. -/
def webPage {α : Type} (template : List Char) (json : List (List α) → List Char) (x : Samples α)
    (rate label : List Char) : Except PyErr (List Char) := do
  let ch ← webChannels x
  format (fun k => if k = ['x'] then some (json ch) else if k = "rate".toList then some rate
    else if k = "label".toList then some label else none) template

end Verif.Out
