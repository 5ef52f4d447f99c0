import Mathlib.Analysis.Complex.Norm
import Verif.Py
import Verif.Dsp.DbModel

/-!
# Decibels of complex values (`sample/utils/dsp.py:138-150`) and the panels of `resynthesis` (`sample/plots.py:145-159`,
`sample/plots.py:236-241`)
-/

set_option autoImplicit false

namespace Verif.Dsp

/-- `complex2db`, `sample/utils/dsp.py:138-150`, of one value; `none` is minus infinity.  The floor is a scalar. -/
noncomputable def complex2db (c : ℂ) (floor : Option ℝ) (floorDb : Bool) : Option ℝ := a2db ‖c‖ floor floorDb

/-- The function that `_stft4resynthesis` returns, `sample/plots.py:155-157`: `stft` is `scipy.signal.stft`, from a
signal and keyword arguments the frequencies and the matrix (the times are not used).  A keyword in both dictionaries
is a `TypeError`; no frequencies an `IndexError`. -/
def stft4resynthesis {V : Type} (stft : List ℝ → List (String × V) → Except PyErr (List ℝ × List (List ℂ)))
    (kwargs : List (String × V)) (x : List ℝ) (kws : List (String × V)) :
    Except PyErr ((ℝ × ℝ) × List (List ℂ)) :=
  if (kws.any fun k => kwargs.any fun l => k.1 == l.1) then .error .typeError
  else
    match stft x (kws ++ kwargs) with
    | .error e => .error e
    | .ok (f, m) =>
      match f.head?, f.getLast? with
      | some lo, some hi => .ok ((lo, hi), m)
      | _, _ => .error .indexError

/-- A panel of `resynthesis`: the frequency limits and the values to be drawn, complex ones if they are not converted. -/
inductive Panel
  | raw (flim : ℝ × ℝ) (m : List (List ℂ))
  | db (flim : ℝ × ℝ) (m : List (List (Option ℝ)))

/-- The panel of one signal, `sample/plots.py:238-241`; `tf` is `tf_fun`, called with the sampling frequency. -/
noncomputable def panel (tf : List ℝ → ℝ → Except PyErr ((ℝ × ℝ) × List (List ℂ))) (dbFloor : Option ℝ) (fs : ℝ)
    (x : List ℝ) : Except PyErr Panel :=
  match tf x fs with
  | .error e => .error e
  | .ok (flim, m) =>
    match dbFloor with
    | none => .ok (.raw flim m)
    | some d => .ok (.db flim (m.map (List.map fun c => complex2db c (some d) true)))

/-- The default `tf_fun`, `sample/plots.py:172`, and any other made by `_stft4resynthesis`: the sampling frequency is
the keyword `fs` (`sample/plots.py:238`). -/
def tfOf {V : Type} (num : ℝ → V) (stft : List ℝ → List (String × V) → Except PyErr (List ℝ × List (List ℂ)))
    (kwargs : List (String × V)) (x : List ℝ) (fs : ℝ) : Except PyErr ((ℝ × ℝ) × List (List ℂ)) :=
  stft4resynthesis stft kwargs x [("fs", num fs)]

end Verif.Dsp
