import Verif.Float.PeakModel
import Verif.Float.ModalModel
import Verif.Sms.FitModel

/-!
# The whole analysis in floating point (`sample/sms/sm.py:298-382`)

Window, peaks, frequencies and tracker are rounded operations; the sum of the window, the Fourier
transform, the interpolated phases, the sort, averages and regressions are arbitrary (`Libraries`).
Simplification: storage and keyword arguments are left out (see `Sms/FitModel`, they do not depend on
numbers).
-/

set_option autoImplicit false

namespace Verif.Float

open Verif.Tracker (Cfg State Track Peak Frame numpyTrack reset)
open Verif.Sms (Params)

variable {K : Type} [Field K] [LinearOrder K] [IsStrictOrderedRing K] (A : Arith K)

/-- What the numerical libraries compute: `np.sum` of the window (`sample/sms/sm.py:341`); magnitudes
in dB and phases of the buffer (`rfft`, `a2db`, `unwrap`, `sample/sms/dsp.py:34-41`); `np.interp` of
the phases (`sample/sms/dsp.py:88-90`); `np.argsort(-pmag)` (`sample/sms/sm.py:158`). -/
structure Libraries (K : Type) extends Numerics K where
  sum : List K → K
  spec : List K → List K × List K
  interp : K → List K → K
  sort : List (Peak K) → List Nat

variable (L : Libraries K)

/-- `_normalized_window`, `sample/sms/sm.py:338-341`.  Simplification: a computed sum of zero (NaN and
infinities in NumPy) is an error here. -/
def normalizedWindowF (w : List K) : Except PyErr (List K) :=
  if L.sum w = 0 then .error .zeroDivisionError else .ok (w.map fun a => A.div a (L.sum w))

/-- The FFT input buffer of `dft`, `sample/sms/dsp.py:27-32`, with rounded products. -/
def dftBufferF (x w : List K) (n : Nat) : Except PyErr (List K) :=
  let hw := w.length / 2
  match Np.binop A.mul x w with
  | .error e => .error e
  | .ok xw =>
    let z : List K := List.replicate n 0
    match Np.assign z none (some (Int.ofNat (w.length - hw))) (Np.slice xw (some (Int.ofNat hw)) none) with
    | .error e => .error e
    | .ok z => Np.assign z (some (-Int.ofNat hw)) none (Np.slice xw none (some (Int.ofNat hw)))

/-- `dft`, `sample/sms/dsp.py:10-41`. -/
def dftF (x w : List K) (n : Nat) : Except PyErr (List K × List K) :=
  match dftBufferF A x w n with
  | .error e => .error e
  | .ok z => .ok (L.spec z)

/-- The arrays `pfreq`, `pmag`, `pph`, `sample/sms/sm.py:325-328`.  Simplification: a NaN location
(which is proved never to occur) is an error. -/
def toPeaksF (fs : K) (n : Nat) (px : List K) :
    List (Option (K × K)) → Except PyErr (List (Peak K))
  | [] => .ok []
  | .none :: _ => .error .valueError
  | some (loc, mag) :: ps =>
    match toPeaksF fs n px ps with
    | .error e => .error e
    | .ok l => .ok (⟨peakFreqF A fs n loc, mag, L.interp loc px⟩ :: l)

/-- `deactivate` of the tracker's class. -/
def deactF [FloorRing K] (p : Params K) : State K → Nat → Except PyErr (State K) :=
  if p.modal then modalDeactivateF A L.toNumerics p.cfg else deactivateF A p.cfg.toCfg

/-- The loop of `fit`, `sample/sms/sm.py:323-330`. -/
def fitLoopF [FloorRing K] (p : Params K) (w : List K) :
    List (List K) → State K → Except PyErr (State K)
  | [], s => .ok s
  | x :: xs, s =>
    match dftF A L x w p.n with
    | .error e => .error e
    | .ok (mx, px) =>
      match peakDetectInterpF A mx (some p.t) with
      | .error e => .error e
      | .ok pk =>
        match toPeaksF A L p.cfg.fs p.n px pk with
        | .error e => .error e
        | .ok peaks =>
          match callF A (deactF A L p) p.cfg.toCfg (L.sort peaks) peaks s with
          | .error e => .error e
          | .ok s => fitLoopF p w xs s

/-- `fit`, `sample/sms/sm.py:298-331`: the tracker after the analysis of `x`.  Padding, reversal and
frames only move samples. -/
def fitF [FloorRing K] (p : Params K) (prior : State K) (x : List K) : Except PyErr (State K) :=
  match normalizedWindowF A L p.w with
  | .error e => .error e
  | .ok w =>
    match Sms.timeFrames p.padded p.w.length p.hop (if p.reverse then x.reverse else x) with
    | .error e => .error e
    | .ok frames => fitLoopF A L p w frames (reset prior)

/-- `SineTracker.all_tracks_`, `sample/sms/sm.py:95-101`. -/
def allTracksF [FloorRing K] (c : Cfg K) (s : State K) : List (Track K) :=
  s.tracks ++ (s.active.filter (trackOkF A c)).map numpyTrack

/-- `tracks_`, `sample/sms/sm.py:333-336`. -/
def tracksF [FloorRing K] (p : Params K) (s : State K) : List (Track K) :=
  if p.modal then modalAllTracksF A L.toNumerics p.cfg s else allTracksF A p.cfg.toCfg s

end Verif.Float
