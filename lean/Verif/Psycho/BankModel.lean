import Verif.Dsp.OnsetModel
import Verif.Dsp.WindowsSpec

/-!
# Convolution with a bank of impulse responses (`sample/psycho.py:762-869`)

Integer sizes and offsets; samples in a commutative ring.  `none` is memory outside an array.
-/

set_option autoImplicit false

namespace Verif.Psycho

open Verif.Np Verif.Dsp

/-- `PrecomputedIRBank`, `sample/psycho.py:762-797`: impulse responses and their delays. -/
structure Bank (R : Type) where
  irs : List (List R)
  offsets : List Nat

section ring
variable {R : Type}

/-- `_ir_size`, `sample/psycho.py:796-797`. -/
def Bank.irSize (b : Bank R) : Nat :=
  (List.zipWith (fun ir off => ir.length + off) b.irs b.offsets).foldl max 0

/-- The constructor from the leading times in samples and the impulse responses on,
`sample/psycho.py:784-797`; the maximum of no offsets is a `ValueError`. -/
def mkBank (leads : List Int) (irs : List (List R)) : Except PyErr (Bank R) :=
  match leads with
  | [] => .error .valueError
  | a :: l => .ok ⟨irs, (a :: l).map fun t => (l.foldl max a - t).toNat⟩

variable [CommRing R]

/-- The full convolution that `scipy.signal` computes, by any of its methods (third-party; exact). -/
def fullConv (x k : List R) : List R :=
  (List.range (x.length + k.length - 1)).map fun (n : Nat) => conv x k n

/-- One row of the output without stride, `sample/psycho.py:825-829`. -/
def fullRow (size : Nat) (x ir : List R) (off : Nat) : Except PyErr (List R) :=
  assign (List.replicate size 0) (some off) (some ((off : Int) + (fullConv x ir).length))
    (fullConv x ir)

/-- `convolve` without stride, `sample/psycho.py:818-829`. -/
def convolveFull (b : Bank R) (x : List R) (method : Option String) :
    Except PyErr (List (List R)) :=
  if method ∈ [none, some "overlap-add", some "auto", some "fft", some "direct"] then
    (b.irs.zip b.offsets).mapM fun p => fullRow (x.length + b.irSize - 1) x p.1 p.2
  else .error .valueError

/-- Offsets, slice and number of windows of one filter, `sample/psycho.py:843-856`: output delay,
start and size of the input, number of outputs. -/
def geometry (m n pad l off : Nat) (s : Int) : Except PyErr (Int × Int × Int × Int) :=
  let offS := Int.fdiv off s
  let offX := off - offS * s
  let beg := (m : Int) - l - offX
  let size := min ((pad : Int) - beg) (n + 2 * ((l : Int) - 1))
  match nWindows size l (some s) with
  | .error e => .error e
  | .ok nw => .ok (offS, beg, size, nw)

variable {X : Type} [CommRing X]

/-- One row of the output with stride, `sample/psycho.py:863-868`; `sc` is the strided convolution,
its last argument the size of `out`. -/
def stridedRow (sc : List X → List R → Int → Nat → Except PyErr (List (Option R))) (xPad : List X)
    (width : Nat) (s : Int) (ir : List R) (g : Int × Int × Int × Int) :
    Except PyErr (List (Option R)) :=
  let zeros : List (Option R) := List.replicate width (some 0)
  match sc (slice xPad (some g.2.1) (some (g.2.1 + g.2.2.1))) ir s
      (slice zeros (some g.1) (some (g.1 + g.2.2.2))).length with
  | .error e => .error e
  | .ok y => store zeros (some g.1) (some (g.1 + g.2.2.2)) y

/-- `convolve` with stride, `sample/psycho.py:839-868`. -/
def convolveStrided (sc : List X → List R → Int → Nat → Except PyErr (List (Option R)))
    (b : Bank R) (x : List X) (s : Int) : Except PyErr (List (List (Option R))) := do
  let m := b.irSize
  let pad := x.length + 2 * (m - 1)
  let xPad ← assign (List.replicate pad 0) (some ((m : Int) - 1)) (some (-((m : Int) - 1))) x
  let gs ← (b.irs.zip b.offsets).mapM fun p => geometry m x.length pad p.1.length p.2 s
  let width := (gs.map fun g => g.2.2.2 + g.1).foldl max 0
  (b.irs.zip gs).mapM fun p => stridedRow sc xPad width.toNat s p.1 p.2

/-- `strided_convolution` with `out`: the product must have the size of `out`. -/
def scReal (x k : List R) (s : Int) (n : Nat) : Except PyErr (List (Option R)) :=
  match stridedConv x k s with
  | .error e => .error e
  | .ok y => if y.length = n then .ok y else .error .valueError

/-- `convolve`, `sample/psycho.py:803-869`, of a bank that is not analytic; `cplx`: the input has a
complex type. -/
def convolve (b : Bank R) (x : List R) (cplx : Bool) (method : Option String)
    (stride : Option Int) : Except PyErr (List (List (Option R))) :=
  match stride with
  | none => (convolveFull b x method).map (List.map (List.map some))
  | some s =>
    if method.isSome then .error .valueError
    else if cplx then .error .valueError
    else convolveStrided scReal b x s

end ring

/-- `convolve` of an analytic bank with a real signal. -/
noncomputable def convolveAnalytic (b : Bank ℂ) (x : List ℝ) (method : Option String)
    (stride : Option Int) : Except PyErr (List (List (Option ℂ))) :=
  match stride with
  | none => (convolveFull b (x.map Complex.ofReal) method).map (List.map (List.map some))
  | some s =>
    if method.isSome then .error .valueError
    else convolveStrided (fun x k s n => stridedConvComplex x k s (some n)) b x s

end Verif.Psycho
