import Mathlib.Algebra.Order.Field.Basic
import Verif.Np

/-!
# Model of `sample/sms/dsp.py`

`dft` (10-41) up to the call of the FFT, `peak_detect` (44-60), `peak_refine` (63-90),
`peak_detect_interp` (93-109).  Numbers are in an ordered field; a division by zero (which in
NumPy gives NaN or infinity) gives `none`.
-/

set_option autoImplicit false

namespace Verif.Sms

variable {K : Type*} [Field K] [LinearOrder K]

/-- The FFT input buffer of `dft`, `sample/sms/dsp.py:27-32`. -/
def dftBuffer (x w : List K) (n : Nat) : Except PyErr (List K) :=
  let hw := w.length / 2
  match Np.binop (· * ·) x w with
  | .error e => .error e
  | .ok xw =>
    let z : List K := List.replicate n 0
    match Np.assign z none (some (Int.ofNat (w.length - hw))) (Np.slice xw (some (Int.ofNat hw)) none) with
    | .error e => .error e
    | .ok z => Np.assign z (some (-Int.ofNat hw)) none (Np.slice xw none (some (Int.ofNat hw)))

/-- `dft`, `sample/sms/dsp.py:10-41`.  The spectrum of the buffer (`rfft`, dB magnitude, unwrapped
phase, lines 34-41) is the parameter `spec`. -/
def dft (spec : List K → List K × List K) (x w : List K) (n : Nat) :
    Except PyErr (List K × List K) :=
  match dftBuffer x w n with
  | .error e => .error e
  | .ok z => .ok (spec z)

/-- `np.logical_and` of two boolean arrays. -/
def logicalAnd (a b : List Bool) : Except PyErr (List Bool) := Np.binop (fun x y => x && y) a b

/-- `peak_detect`, `sample/sms/dsp.py:44-60`. -/
def peakDetect (x : List K) (t : Option K) : Except PyErr (List Nat) :=
  let mid := Np.slice x (some 1) (some (-1))
  match Np.binop (fun a b => decide (a > b)) mid (Np.slice x (some 2) none) with
  | .error e => .error e
  | .ok c1 =>
    match Np.binop (fun a b => decide (a > b)) mid (Np.slice x none (some (-2))) with
    | .error e => .error e
    | .ok c2 =>
      match logicalAnd c1 c2 with
      | .error e => .error e
      | .ok c =>
        match t with
        | none => .ok ((Np.flatnonzero c).map (· + 1))
        | some t =>
          match logicalAnd c (mid.map fun a => decide (a > t)) with
          | .error e => .error e
          | .ok c => .ok ((Np.flatnonzero c).map (· + 1))

/-- Vertex of the parabola through three equispaced values, `sample/sms/dsp.py:82-85`: offset from
the centre bin and height; `none` if the denominator is zero. -/
def vertex (l c r : K) : Option (K × K) :=
  let dmx := l - r
  let den := l - 2 * c + r
  if den = 0 then none
  else
    let d := (1 / 2) * dmx / den
    some (d, c - (1 / 4) * dmx * d)

/-- `np.interp(x, xp, fp)` for increasing `xp`: constant outside, linear between points. -/
def interp (x : K) : List (K × K) → Except PyErr K
  | [] => .error .valueError
  | [p] => .ok p.2
  | p :: q :: ps =>
    if x < q.1 then
      if x ≤ p.1 then .ok p.2
      else .ok ((q.2 - p.2) / (q.1 - p.1) * (x - p.1) + p.2)
    else interp x (q :: ps)

/-- The points `(np.arange(0, px.size), px)`, `sample/sms/dsp.py:88-89`. -/
def grid (px : List K) : List (K × K) := px.zipIdx.map fun p => ((p.2 : K), p.1)

/-- One entry of the result of `peak_refine`, `sample/sms/dsp.py:78-90`, for the peak at index
`p`: location, magnitude and phase.  Simplification: the arrays are processed entry by entry
instead of operation by operation. -/
def refineOne (mx px : List K) (p : Nat) : Except PyErr (Option (K × K × K)) :=
  match Np.index mx (Int.ofNat p - 1) with
  | .error e => .error e
  | .ok l =>
    match Np.index mx (Int.ofNat p) with
    | .error e => .error e
    | .ok c =>
      match Np.index mx (Int.ofNat p + 1) with
      | .error e => .error e
      | .ok r =>
        match vertex l c r with
        | none => .ok none
        | some (d, m) =>
          match interp ((p : K) + d) (grid px) with
          | .error e => .error e
          | .ok ph => .ok (some ((p : K) + d, m, ph))

/-- `peak_refine`, `sample/sms/dsp.py:63-90`, with phases. -/
def peakRefine (mx px : List K) : List Nat → Except PyErr (List (Option (K × K × K)))
  | [] => .ok []
  | p :: ps =>
    match refineOne mx px p with
    | .error e => .error e
    | .ok a =>
      match peakRefine mx px ps with
      | .error e => .error e
      | .ok as => .ok (a :: as)

/-- `peak_detect_interp`, `sample/sms/dsp.py:93-109`, with phases. -/
def peakDetectInterp (mx px : List K) (t : Option K) :
    Except PyErr (List (Option (K × K × K))) :=
  match peakDetect mx t with
  | .error e => .error e
  | .ok ploc => peakRefine mx px ploc

end Verif.Sms
