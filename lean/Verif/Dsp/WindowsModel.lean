import Mathlib.Data.Complex.Basic
import Verif.Py

/-!
# Overlapping windows and strided convolution (`sample/utils/dsp.py:373-490`)
-/

set_option autoImplicit false

namespace Verif.Dsp

/-- `n_windows`, `sample/utils/dsp.py:372-384`. -/
def nWindows (size wsize : Int) (hop : Option Int) : Except PyErr Int :=
  if hop.getD wsize = 0 then .error .zeroDivisionError
  else .ok (1 + Int.fdiv (size - wsize) (hop.getD wsize))

variable {α : Type}

/-- The memory cell at distance `i` (in cells) from the first cell of the array; `none` is memory
that does not belong to the array. -/
def cell (a : List α) (i : Int) : Option α := if 0 ≤ i then a[i.toNat]? else none

/-- `overlapping_windows`, `sample/utils/dsp.py:391-433`: a view made by `as_strided`, which does not
check bounds; a negative dimension is a `ValueError`.  `a` is the linearised array. -/
def windows (a : List α) (wsize : Int) (hop : Option Int) :
    Except PyErr (List (List (Option α))) :=
  match nWindows a.length wsize hop with
  | .error e => .error e
  | .ok n =>
    if n < 0 ∨ wsize < 0 then .error .valueError
    else .ok ((List.range n.toNat).map fun (i : Nat) =>
      (List.range wsize.toNat).map fun (j : Nat) => cell a (i * hop.getD wsize + j))

section ring
variable {R : Type} [CommRing R]

/-- One entry of a matrix product: a window times a column; `none` if memory outside the array is
read. -/
def dot : List (Option R) → List R → Option R
  | some v :: w, k :: ks => (dot w ks).map (v * k + ·)
  | none :: _, _ :: _ => none
  | _, _ => some 0

/-- `strided_convolution` without `out`, `sample/utils/dsp.py:436-456`: the column that
`np.matmul` gives. -/
def stridedConv (x kernel : List R) (stride : Int) : Except PyErr (List (Option R)) :=
  match windows x kernel.length (some stride) with
  | .error e => .error e
  | .ok w => .ok (w.map fun v => dot v kernel.reverse)

end ring

/-- A complex value from its parts. -/
def ofParts (re im : Option ℝ) : Option ℂ :=
  match re, im with
  | some r, some i => some ⟨r, i⟩
  | _, _ => none

/-- `strided_convolution_complex_kernel`, `sample/utils/dsp.py:459-490`, for a real signal; `out` is
the length of a given complex output array.  The parts of `out` are overwritten one after the
other; both must have the shape of the product. -/
noncomputable def stridedConvComplex (x : List ℝ) (kernel : List ℂ) (stride : Int)
    (out : Option Nat) : Except PyErr (List (Option ℂ)) :=
  match nWindows x.length kernel.length (some stride) with
  | .error e => .error e
  | .ok n =>
    if out.isNone ∧ n < 0 then .error .valueError
    else
      match stridedConv x (kernel.map Complex.re) stride with
      | .error e => .error e
      | .ok re =>
        if out.getD n.toNat ≠ re.length then .error .valueError
        else
          match stridedConv x (kernel.map Complex.im) stride with
          | .error e => .error e
          | .ok im => .ok (List.zipWith ofParts re im)

end Verif.Dsp
