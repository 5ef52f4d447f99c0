import Mathlib.Algebra.Order.Floor.Ring
import Mathlib.Data.Real.Archimedean
import Verif.Beat.RegressionModel
import Verif.Sms.DspModel

/-!
# Residuals of `BeatRegression` (`sample/beatsdrop/regression.py:126-147`)
-/

set_option autoImplicit false

namespace Verif.Beat

open Verif.Out

/-- A time axis: a flat array, or a column (shape `(-1, 1)`, which the documentation of `fit`,
`sample/beatsdrop/regression.py:275`, asks for). -/
inductive TimeAxis where
  | flat (t : List ℝ)
  | column (t : List ℝ)

/-- The times of an axis. -/
def TimeAxis.times : TimeAxis → List ℝ
  | .flat t => t
  | .column t => t

/-- The time axis of the model, `sample/beatsdrop/regression.py:139-140`: `arange` of an integer that
is not positive is empty. -/
noncomputable def modelAxis (fs tMax : ℝ) : List ℝ :=
  (List.range ⌈tMax * fs⌉.toNat).map fun (k : Nat) => (k : ℝ) / fs

/-- The values of an array without NaN. -/
def finite : List Cell → Option (List ℝ)
  | [] => some []
  | none :: _ => none
  | some x :: l => (finite l).map (x :: ·)

/-- `np.interp(t, u, fp)` for the values `fp` at `u`.  Simplification: with a NaN in `fp` all the
values are NaN (this does not happen for the amplitudes of a beat). -/
noncomputable def interpAll (u : List ℝ) (fp : List Cell) : List ℝ → Except PyErr (List Cell)
  | [] => .ok []
  | x :: xs =>
    match (match finite fp with
      | none => Except.ok none
      | some v =>
        match Sms.interp x (u.zip v) with
        | .error e => .error e
        | .ok y => .ok (some y)) with
    | .error e => .error e
    | .ok c =>
      match interpAll u fp xs with
      | .error e => .error e
      | .ok cs => .ok (c :: cs)

/-- `np.subtract` of a flat array and of an array with the shape of the time axis, flattened,
`sample/beatsdrop/regression.py:145`. -/
noncomputable def subtractFlat (t : TimeAxis) (a est : List Cell) : Except PyErr (List Cell) :=
  match t with
  | .flat _ => Np.binop (lift2 fun x y => some (x - y)) a est
  | .column _ => .ok (est.flatMap fun e => a.map fun x => lift2 (fun x y => some (x - y)) x e)

/-- `_residual_fn_`, `sample/beatsdrop/regression.py:143-145`. -/
noncomputable def residualsAt (u : List ℝ) (t : TimeAxis) (aLin : List Cell) (p : Octet ℝ) :
    Except PyErr (List Cell) :=
  match modalBeat p.a0 p.a1 p.f0 p.f1 p.d0 p.d1 p.p0 p.p1 with
  | .error e => .error e
  | .ok b =>
    match b.am (.ar (u.map some)) with
    | .error e => .error e
    | .ok am =>
      match interpAll u (elems am) t.times with
      | .error e => .error e
      | .ok est => subtractFlat t aLin est

/-- `BeatRegression._residual_fn`, `sample/beatsdrop/regression.py:126-147`; `a` is a flat array of
amplitudes in decibels. -/
noncomputable def residualFn (fs : ℝ) (t : TimeAxis) (a : List ℝ) :
    Except PyErr (Octet ℝ → Except PyErr (List Cell)) :=
  match npMax t.times with
  | .error e => .error e
  | .ok tMax => .ok (residualsAt (modelAxis fs tMax) t (a.map fun x => some (Dsp.db2a x)))

end Verif.Beat
