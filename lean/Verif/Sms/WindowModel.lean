import Mathlib.Algebra.Order.Field.Basic
import Verif.Np

/-!
# Model of framing

`n_windows`, `overlapping_windows` (`sample/utils/dsp.py:372-433`), `pad_input`, `time_frames`
(`sample/sms/sm.py:343-369`).  Memory accesses of `as_strided` are checked: reading outside of the
array, which in NumPy is undefined behaviour, is an `indexError` here.
-/

set_option autoImplicit false

namespace Verif.Sms

/-- `n_windows`, `sample/utils/dsp.py:372-384` (`hop=None` is `wsize`). -/
def nWindows (inputSize wsize : Nat) (hop : Option Nat) : Except PyErr Int :=
  let hop := hop.getD wsize
  if hop = 0 then .error .zeroDivisionError
  else .ok (1 + ((inputSize : Int) - (wsize : Int)).fdiv (hop : Int))

/-- All entries of a list of computations, or the first error. -/
def sequence {α : Type*} : List (Except PyErr α) → Except PyErr (List α)
  | [] => .ok []
  | x :: xs =>
    match x with
    | .error e => .error e
    | .ok a =>
      match sequence xs with
      | .error e => .error e
      | .ok as => .ok (a :: as)

/-- `overlapping_windows`, `sample/utils/dsp.py:387-433`: entry `(i, j)` of the result is read at
the position `i * hop + j` of the memory (strides `(hop, 1)`); a negative number of rows is a
`ValueError`. -/
def overlappingWindows {α : Type*} (a : List α) (wsize : Nat) (hop : Option Nat) :
    Except PyErr (List (List α)) :=
  match nWindows a.length wsize hop with
  | .error e => .error e
  | .ok n =>
    if n < 0 then .error .valueError
    else
      sequence ((List.range n.toNat).map fun i =>
        sequence ((List.range wsize).map fun j => getE a (i * hop.getD wsize + j)))

/-- `pad_input`, `sample/sms/sm.py:343-358`: `wsize` is the size of the window.  The assignment
`y[a:(a + x.size)] = x` is a slice assignment. -/
def padInput {α : Type*} [Zero α] (padded : Bool) (wsize : Nat) (x : List α) :
    Except PyErr (List α × Nat) :=
  if !padded then .ok (x, 0)
  else
    let a := (wsize + 1) / 2
    let b := wsize / 2
    match Np.assign (List.replicate (x.length + a + b) (0 : α)) (some (Int.ofNat a))
        (some (Int.ofNat (a + x.length))) x with
    | .error e => .error e
    | .ok y => .ok (y, a)

/-- `time_frames`, `sample/sms/sm.py:360-369`. -/
def timeFrames {α : Type*} [Zero α] (padded : Bool) (wsize hop : Nat) (x : List α) :
    Except PyErr (List (List α)) :=
  match padInput padded wsize x with
  | .error e => .error e
  | .ok (y, _) => overlappingWindows y wsize (some hop)

end Verif.Sms
