import Verif.Np
import Verif.Widgets.TrimModel
import Mathlib.Algebra.Order.Field.Basic

/-!
# Reading, cropping and writing audio (`scripts/beatsdrop/example.py:112-181,259-281`,
`sample/widgets/audioload.py:169-171`)

Numbers are elements of an ordered field; a sample that is infinite or NaN is `none`.  Files, downloads and
logging are not modelled.
-/

set_option autoImplicit false

namespace Verif.Scripts

variable {K : Type} [Field K] [LinearOrder K]

/-- An array of `scipy.io.wavfile.read`: one channel, or a list of frames. -/
inductive Frames (α : Type) where
  | mono (x : List α)
  | multi (x : List (List α))

/-- Contents of a WAV file: integers with or without sign and with a number of bits, or floating-point
numbers. -/
inductive Wav (K : Type) where
  | ints (signed : Bool) (bits : Nat) (x : Frames Int)
  | floats (x : Frames K)

/-- `numpy.iinfo(dtype).min`. -/
def iinfoMin (signed : Bool) (bits : Nat) : Int := if signed then -(2 ^ (bits - 1)) else 0

/-- Division in NumPy; `none` is infinite or NaN. -/
def npDiv (a b : K) : Option K := if b = 0 then none else some (a / b)

/-- Apply a function to all samples. -/
def Frames.map {α β : Type} (f : α → β) : Frames α → Frames β
  | .mono x => .mono (x.map f)
  | .multi x => .multi (x.map fun fr => fr.map f)

/-- A list of options as an option of a list. -/
def allSome {α : Type} : List (Option α) → Option (List α)
  | [] => some []
  | none :: _ => none
  | some a :: l => (allSome l).map (a :: ·)

/-- Mean of a frame; `none` if one of the samples is infinite or NaN, or if there are no channels. -/
def frameMean (fr : List (Option K)) : Option K :=
  match allSome fr with
  | some l => if l = [] then none else some (l.sum / l.length)
  | none => none

/-- Conversion to one channel, `scripts/beatsdrop/example.py:138-140`, `sample/widgets/audioload.py:170-171`. -/
def toMono : Frames (Option K) → List (Option K)
  | .mono x => x
  | .multi x => x.map frameMean

/-- Samples of `load_audio`, `scripts/beatsdrop/example.py:134-140`. -/
def loadAudio : Wav K → List (Option K)
  | .ints signed bits x => toMono (x.map fun (i : Int) => npDiv (i : K) ((-iinfoMin signed bits : Int) : K))
  | .floats x => toMono (x.map some)

/-- Samples of the callback of the GUI, `sample/widgets/audioload.py:169-171`; `numpy.iinfo` raises
`ValueError` for types of floating-point numbers. -/
def guiLoad : Wav K → Except PyErr (List (Option K))
  | .ints signed bits x => .ok (toMono (x.map fun (i : Int) => npDiv (i : K) ((-iinfoMin signed bits : Int) : K)))
  | .floats _ => .error .valueError

/-- `min(l, default=d)`. -/
def minDefault (d : Int) : List Int → Int
  | [] => d
  | a :: l => l.foldl min a

/-- `max(l, default=d)`. -/
def maxDefault (d : Int) : List Int → Int
  | [] => d
  | a :: l => l.foldl max a

/-- Arguments of `crop_audio`: bounds as numbers of samples, `int(args.crop_start * args.fs)`. -/
structure CropArgs where
  noCrop : Bool
  start : Option Int
  stop : Option Int

/-- The bounds of `crop_audio`, `scripts/beatsdrop/example.py:155-174`; `ons` are the onsets and the size. -/
def cropBounds (start stop : Option Int) (size : Int) (ons : List Int) : Except PyErr (Int × Int) :=
  match start, stop with
  | some i0, some i1 => .ok (i0, i1)
  | some i0, none => .ok (i0, minDefault size (ons.filter fun o => decide (i0 < o)))
  | none, some i1 => .ok (maxDefault 0 (ons.filter fun o => decide (o < i1)), i1)
  | none, none =>
    if ons.length < 2 then .ok (0, size)
    else
      match Widgets.argmax (Widgets.diffs ons) with
      | none => .error .valueError
      | some (i, _) =>
        match Np.index ons i with
        | .error e => .error e
        | .ok i0 => .ok (i0, minDefault size (ons.filter fun o => decide (i0 < o)))

/-- `crop_audio`, `scripts/beatsdrop/example.py:144-181`, without the writing of the file; `detect` is
`dsp.onset_detection`, which is called if a bound is not given. -/
def cropAudio {A : Type} (args : CropArgs) (detect : List A → Except PyErr (List Bool)) (x : List A) :
    Except PyErr (List A) :=
  if args.noCrop then .ok x
  else
    let ons : Except PyErr (List Int) :=
      if args.start = none ∨ args.stop = none then
        match detect x with
        | .error e => .error e
        | .ok mask => .ok ((Np.flatnonzero mask).map Int.ofNat ++ [(x.length : Int)])
      else .ok []
    match ons with
    | .error e => .error e
    | .ok ons =>
      match cropBounds args.start args.stop x.length ons with
      | .error e => .error e
      | .ok (i0, i1) => .ok (Np.slice x (some i0) (some i1))

/-- `numpy.abs(y).max()`; `ValueError` for an empty array. -/
def peak : List K → Except PyErr K
  | [] => .error .valueError
  | a :: l => .ok (l.foldl (fun m b => max m |b|) |a|)

/-- The level of the output, `scripts/beatsdrop/example.py:271-277`. -/
def limitPeak (clip : Bool) (clipTh : K) (y : List K) : Except PyErr (List K) :=
  match peak y with
  | .error e => .error e
  | .ok p => .ok (if clipTh < p ∧ clip = false then y.map fun v => v * (clipTh / p) else y)

end Verif.Scripts
