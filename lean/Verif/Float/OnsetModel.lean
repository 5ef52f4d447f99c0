import Verif.Float.Basic
import Verif.Dsp.OnsetModel

/-!
# Positions of onsets in floating point (`sample/utils/dsp.py:672-679`)
-/

set_option autoImplicit false

namespace Verif.Float

open Verif.Dsp Verif.Np

variable {K : Type} [Field K] [LinearOrder K] [IsStrictOrderedRing K] [FloorRing K] (A : Arith K)

/-- `np.floor(ons_idx / f.size).astype(int)` for one index, `sample/utils/dsp.py:675-679`: the product
`i * n` is an integer of NumPy, the quotient is a floating-point number.  Simplification: the integer
has no limit. -/
def onsetPosF (n f i : Nat) : Int := ⌊A.div (A.rnd ((i * n : Nat) : K)) (A.rnd (f : K))⌋

/-- `ons[idx] = True` for an index of any sign: negative ones count from the end. -/
def setTrueI (l : List Bool) (i : Int) : Except PyErr (List Bool) :=
  if 0 ≤ i then setTrue l i.toNat
  else if -(l.length : Int) ≤ i then setTrue l (i + l.length).toNat else .error .indexError

/-- `ons[idx_array] = True`, `sample/utils/dsp.py:679`. -/
def setAllI : List Bool → List Int → Except PyErr (List Bool)
  | l, [] => .ok l
  | l, i :: is =>
    match setTrueI l i with
    | .error e => .error e
    | .ok l => setAllI l is

/-- `onset_detection` from the selected onsets on, `sample/utils/dsp.py:672-679`. -/
def onsetIndicesF (n f : Nat) (sel : List Bool) : Except PyErr (List Bool) :=
  setAllI (List.replicate n false) ((flatnonzero sel).map fun i => onsetPosF A n f i)

end Verif.Float
