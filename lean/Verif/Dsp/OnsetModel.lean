import Mathlib.Algebra.Order.Field.Basic
import Verif.Np
import Verif.Dsp.NormalizeModel
import Verif.Dsp.WindowsModel

/-!
# Spectral flux and onset detection (`sample/utils/dsp.py:493-679`)

Arrays are 1-d lists over an ordered field; `none` is NaN.  Uninitialised arrays (`np.empty`) are
arguments with arbitrary contents.  Integer overflow and rounding are not modelled.
-/

set_option autoImplicit false

namespace Verif.Dsp

open Verif.Np

section tf
variable {α K : Type} [Field K] [LinearOrder K]

/-- `np.diff(np.abs(row))`, then `np.maximum(_, 0)`, `sample/utils/dsp.py:534-536`, for one row.
`mag` is the absolute value of an entry (the modulus of a complex number). -/
def fluxRow (mag : α → K) (row : List α) : List K :=
  List.zipWith (fun b a => max (b - a) 0) (row.map mag).tail (row.map mag)

/-- `spectral_flux_from_tf`, `sample/utils/dsp.py:521-537`.  The matrix is the list of its rows,
which have the same length.  The sum is written over the first row of `delta` (NumPy reads all
operands of a call before it writes overlapping output); without rows `delta[0, :]` is an
`IndexError`. -/
def fluxTf (mag : α → K) (x : List (List α)) : Except PyErr (List K) :=
  match x.map (fluxRow mag) with
  | [] => .error .indexError
  | r :: rs => .ok (rs.foldl (List.zipWith (· + ·)) r)

/-- `spectral_flux`, `sample/utils/dsp.py:493-518`; `tf` is the last output of the time-frequency
transform. -/
def spectralFlux {X : Type} (mag : α → K) (tf : X → Except PyErr (List (List α))) (x : X) :
    Except PyErr (List K) :=
  match tf x with
  | .error e => .error e
  | .ok t => fluxTf mag t

end tf

/-- A NumPy call with `out=l[a:b]`: the result must have exactly the size of the slice. -/
def store {α : Type} (l : List α) (a b : Option Int) (src : List α) : Except PyErr (List α) :=
  if src.length = upper l.length b - lower l.length a then
    .ok (l.take (lower l.length a) ++ src ++
      l.drop (lower l.length a + (upper l.length b - lower l.length a)))
  else .error .valueError

section onset
variable {K : Type} [Field K] [LinearOrder K]

/-- `np.greater_equal`; NaN compares false. -/
def ge : Option K → Option K → Bool
  | some a, some b => decide (b ≤ a)
  | _, _ => false

/-- Numbers of an array without NaN. -/
def allSome : List (Option K) → Option (List K)
  | [] => some []
  | some v :: l => (allSome l).map (v :: ·)
  | none :: _ => none

/-- `np.max` of a window (not empty); NaN if one of the entries is. -/
def winMax (l : List (Option K)) : Option K :=
  (allSome l).bind fun v => match v with
    | [] => none
    | a :: v => some (v.foldl max a)

/-- `np.mean` of a window; NaN for an empty one. -/
def winMean (l : List (Option K)) : Option K :=
  (allSome l).bind fun v => if v.isEmpty then none else some (v.sum / v.length)

/-- `sample/utils/dsp.py:560`: the array in which maxima are looked for. -/
def keyOf (x : List (Option K)) : Option (List (Option K)) → List (Option K)
  | none => x
  | some k => slice k none (some x.length)

/-- `sample/utils/dsp.py:563-567`: the comparison `g` (stored in `maxima`, of size `k`, if
`logical_and`) goes to `out[w:-w]`. -/
def putMaxima (land : Bool) (k : Nat) (w : Int) (g out : List Bool) : Except PyErr (List Bool) :=
  if land then
    if g.length ≠ k then .error .valueError
    else
      match binop (fun a b => a && b) g (slice out (some w) (some (-w))) with
      | .error e => .error e
      | .ok r => store out (some w) (some (-w)) r
  else store out (some w) (some (-w)) g

/-- The body of `local_maxima`, `sample/utils/dsp.py:560-570`.  `out` is the contents of the output
array before.  The windows have hop one and show no memory outside the array (`C40_windows`). -/
def localMaxima (x : List (Option K)) (w : Int) (key : Option (List (Option K))) (land : Bool)
    (out : List Bool) : Except PyErr (List Bool) := do
  let wins ← windows (keyOf x key) (2 * w + 1) (some 1)
  let maxima := wins.map fun r => winMax r.reduceOption
  let g ← binop ge (slice x (some w) (some (-w))) maxima
  let out ← putMaxima land maxima.length w g out
  let out ← assign out none (some w) [false]
  assign out (some (-w)) none [false]

/-- Python's `max(a, b)`: `b` only if it is greater; NaN compares false. -/
def pyMax : Option K → Option K → Option K
  | some a, some b => if a < b then some b else some a
  | a, _ => a

/-- `alpha * g + (1 - alpha) * f`. -/
def mix (alpha : K) : Option K → Option K → Option K
  | some g, some f => some (alpha * g + (1 - alpha) * f)
  | _, _ => none

/-- The loop of `_onset_selection_g`, `sample/utils/dsp.py:580-583`, from the filter state `g`. -/
def onsetGLoop (alpha : K) : Option K → List (Option K) → List (Option K)
  | _, [] => []
  | g, f :: l => pyMax f (mix alpha g f) :: onsetGLoop alpha (pyMax f (mix alpha g f)) l

/-- `_onset_selection_g`, `sample/utils/dsp.py:573-584`. -/
def onsetG (alpha : K) (x : List (Option K)) : List (Option K) := onsetGLoop alpha (some 0) x

/-- `_onset_selection_m`, `sample/utils/dsp.py:587-600`; `out` is another array than `x`. -/
def onsetM (x : List (Option K)) (w m : Int) (delta : K) (out : List (Option K)) :
    Except PyErr (List (Option K)) := do
  let wins ← windows x ((m + 1) * w + 1) (some 1)
  let out ← assign out none (some (m * w)) [some 0]
  let out ← assign out (some (-w)) none [some 0]
  let out ← store out (some (m * w)) (some (-w)) (wins.map fun r => winMean r.reduceOption)
  pure (out.map (Option.map (· + delta)))

/-- `onset_selection`, `sample/utils/dsp.py:603-639`; `norm` is `normalize(_, mode="rms")`, `junk`
the contents of the uninitialised array `ons`. -/
def onsetSelection (norm : List (Option K) → Except PyErr (List (Option K)))
    (x : List (Option K)) (w m : Int) (alpha delta : K) (junk : List Bool) :
    Except PyErr (List Bool) := do
  let xn ← norm x
  let tmp := onsetG alpha xn
  let g ← binop ge (slice xn (some 1) none) (slice tmp none (some (-1)))
  let ons ← store junk (some 1) none g
  let tmp ← onsetM xn w m delta tmp
  let t ← binop ge xn tmp
  let ons ← binop (fun a b => a && b) ons t
  localMaxima x w none true ons

/-- `ons[idx] = True` for one index that is not negative. -/
def setTrue (l : List Bool) (i : Nat) : Except PyErr (List Bool) :=
  if i < l.length then .ok (l.set i true) else .error .indexError

/-- `ons[idx_array] = True`. -/
def setAll : List Bool → List Nat → Except PyErr (List Bool)
  | l, [] => .ok l
  | l, i :: is =>
    match setTrue l i with
    | .error e => .error e
    | .ok l => setAll l is

/-- `onset_detection` from the selected onsets on, `sample/utils/dsp.py:672-679`: `n` is `x.size`,
`f` is `f.size`; the index `floor(i * n / f)` is the quotient of natural numbers. -/
def onsetIndices (n f : Nat) (sel : List Bool) : Except PyErr (List Bool) :=
  setAll (List.replicate n false) ((flatnonzero sel).map fun i => i * n / f)

/-- `onset_detection`, `sample/utils/dsp.py:642-679`, with an arbitrary detection function. -/
def onsetDetection {X : Type} (size : X → Nat)
    (norm : List (Option K) → Except PyErr (List (Option K)))
    (detection : X → Except PyErr (List (Option K))) (x : X) (w m : Int) (alpha delta : K)
    (junk : List Bool) : Except PyErr (List Bool) := do
  let f ← detection x
  let sel ← onsetSelection norm f w m alpha delta junk
  onsetIndices (size x) f.length sel

end onset

/-- `onset_selection` with the normalisation of the library. -/
noncomputable def onsetSelectionR (x : List (Option ℝ)) (w m : Int) (alpha delta : ℝ)
    (junk : List Bool) : Except PyErr (List Bool) :=
  onsetSelection (normalize (some "rms")) x w m alpha delta junk

end Verif.Dsp
