import Verif.Float.Basic
import Verif.Sms.DspModel

/-!
# `peak_refine` in floating point (`sample/sms/dsp.py:63-90`)

The detection of peaks only compares numbers, so `peakDetect` of `Sms/DspModel` needs no rounding.  In
the refinement each operation is rounded.  The interpolated phase (lines 88-90) is left out: it does
not enter locations or magnitudes.
-/

set_option autoImplicit false

namespace Verif.Float

variable {K : Type} [Field K] [LinearOrder K] [IsStrictOrderedRing K]

/-- `sample/sms/dsp.py:82-86`: offset from the centre bin and height; `none` if the denominator is
zero.  `.5` and `.25` are floating-point numbers. -/
def vertexF (A : Arith K) (l c r : K) : Option (K × K) :=
  let dmx := A.sub l r
  let den := A.add (A.sub l (A.mul 2 c)) r
  if den = 0 then none
  else
    let d := A.div (A.mul (1 / 2) dmx) den
    some (d, A.sub c (A.mul (A.mul (1 / 4) dmx) d))

/-- One entry of the result of `peak_refine`, `sample/sms/dsp.py:78-87`: location and magnitude.  The
index is converted to floating point when the offset is added to it. -/
def refineOneF (A : Arith K) (mx : List K) (p : Nat) : Except PyErr (Option (K × K)) :=
  match Np.index mx (Int.ofNat p - 1) with
  | .error e => .error e
  | .ok l =>
    match Np.index mx (Int.ofNat p) with
    | .error e => .error e
    | .ok c =>
      match Np.index mx (Int.ofNat p + 1) with
      | .error e => .error e
      | .ok r =>
        match vertexF A l c r with
        | none => .ok none
        | some (d, m) => .ok (some (A.add (A.rnd (p : K)) d, m))

/-- `peak_refine`, `sample/sms/dsp.py:63-87`, without phases. -/
def peakRefineF (A : Arith K) (mx : List K) : List Nat → Except PyErr (List (Option (K × K)))
  | [] => .ok []
  | p :: ps =>
    match refineOneF A mx p with
    | .error e => .error e
    | .ok a =>
      match peakRefineF A mx ps with
      | .error e => .error e
      | .ok as => .ok (a :: as)

/-- `peak_detect_interp`, `sample/sms/dsp.py:93-109`, without phases. -/
def peakDetectInterpF (A : Arith K) (mx : List K) (t : Option K) :
    Except PyErr (List (Option (K × K))) :=
  match Sms.peakDetect mx t with
  | .error e => .error e
  | .ok ploc => peakRefineF A mx ploc

/-- Frequency of a refined peak, `sample/sms/sm.py:327`: `ploc * fs / n`. -/
def peakFreqF (A : Arith K) (fs : K) (n : Nat) (loc : K) : K :=
  A.div (A.mul loc fs) (A.rnd (n : K))

end Verif.Float
