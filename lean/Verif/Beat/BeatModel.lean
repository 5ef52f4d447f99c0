import Mathlib.Analysis.SpecialFunctions.Trigonometric.Basic
import Mathlib.Analysis.SpecialFunctions.Complex.Arg
import Mathlib.Data.Real.Sqrt
import Verif.Py
import Verif.Out.FormulaSpec

/-!
# The beat model (`sample/beatsdrop/__init__.py:22-259`)

The variables of the computational graph, evaluated on a time axis.  Real numbers without rounding;
`none` is a value that is not finite.  `paragraph` evaluates the graph as written (third-party).
-/

set_option autoImplicit false

namespace Verif.Beat

open Verif.Out

/-- What the nodes of the graph are evaluated to: a scalar or a one-dimensional array. -/
inductive Val
  | sc (v : Cell)
  | ar (l : List Cell)

/-- A function on finite values. -/
def lift2 (f : ℝ → ℝ → Cell) (a b : Cell) : Cell := a.bind fun x => b.bind fun y => f x y

/-- A binary ufunc of NumPy, with broadcasting of scalars; arrays of different sizes are a
`ValueError` (arrays of size one are not broadcast here: all arrays have the size of the time axis). -/
def bin (f : ℝ → ℝ → Cell) : Val → Val → Except PyErr Val
  | .sc a, .sc b => .ok (.sc (lift2 f a b))
  | .sc a, .ar l => .ok (.ar (l.map fun b => lift2 f a b))
  | .ar l, .sc b => .ok (.ar (l.map fun a => lift2 f a b))
  | .ar l, .ar m =>
    if l.length = m.length then .ok (.ar (List.zipWith (lift2 f) l m)) else .error .valueError

/-- A unary ufunc. -/
def un (f : ℝ → ℝ) : Val → Val
  | .sc a => .sc (a.map f)
  | .ar l => .ar (l.map (Option.map f))

/-- `np.add`. -/
noncomputable def add := bin fun x y => some (x + y)
/-- `np.subtract`. -/
noncomputable def sub := bin fun x y => some (x - y)
/-- `np.multiply`. -/
noncomputable def mul := bin fun x y => some (x * y)
open Classical in
/-- `np.true_divide`; `none` if the divisor is zero. -/
noncomputable def div := bin fun x y => if y = 0 then none else some (x / y)

/-- `semisum` and `semidiff`, `sample/utils/__init__.py:257-294`: the output array is allocated with the
shape of the first argument (`numpy_out`), so that a scalar and an array do not fit. -/
noncomputable def semi (op : Val → Val → Except PyErr Val) (x y : Val) : Except PyErr Val :=
  match x, y with
  | .sc _, .ar _ => .error .valueError
  | _, _ =>
    match op x y with
    | .error e => .error e
    | .ok s => div s (.sc (some 2))

/-- `np2pg.semisum`, `sample/utils/__init__.py:257-273`. -/
noncomputable def semisum := semi add
/-- `np2pg.semidiff`, `sample/utils/__init__.py:275-291`. -/
noncomputable def semidiff := semi sub

/-- A parameter: a number, or a function of time (which applies to every element). -/
inductive Par
  | num (v : ℝ)
  | fn (f : ℝ → ℝ)

/-- `_float_or_call`, `sample/beatsdrop/__init__.py:22-45`. -/
def Par.eval : Par → Val → Val
  | .num v, _ => .sc (some v)
  | .fn f, t => un f t

/-- An amplitude: a number, or a function with or without a derivative. -/
inductive Amp
  | num (v : ℝ)
  | fn (f : ℝ → ℝ) (dt : Option (ℝ → ℝ))

/-- See `Par.eval`. -/
def Amp.par : Amp → Par
  | .num v => .num v
  | .fn f _ => .fn f

/-- The derivative of an amplitude, `sample/beatsdrop/__init__.py:98-111`. -/
def Amp.dt : Amp → Except PyErr Par
  | .num _ => .ok (.num 0)
  | .fn _ (some d) => .ok (.fn d)
  | .fn _ none => .error .attributeError

/-- `Beat`, `sample/beatsdrop/__init__.py:65-77`; `da0`, `da1`: nodes `da0_dt`, `da1_dt`. -/
structure Beat where
  a0 : Par
  a1 : Par
  f0 : Par
  f1 : Par
  p0 : Par
  p1 : Par
  da0 : Par
  da1 : Par

/-- The constructor, `sample/beatsdrop/__init__.py:65-83`. -/
def mkBeat (a0 a1 : Amp) (f0 f1 p0 p1 : Par) : Except PyErr Beat :=
  match a0.dt, a1.dt with
  | .ok d0, .ok d1 => .ok ⟨a0.par, a1.par, f0, f1, p0, p1, d0, d1⟩
  | .error e, _ => .error e
  | _, .error e => .error e

/-- `ExponentialDecay`, `sample/beatsdrop/__init__.py:190-229`, with its derivative. -/
noncomputable def expDecay (a d : ℝ) : Amp :=
  .fn (fun t => a * Real.exp (-2 / d * t)) (some fun t => a * Real.exp (-2 / d * t) * (-2 / d))

/-- `ModalBeat`, `sample/beatsdrop/__init__.py:245-259`; a decay of zero is a `ZeroDivisionError` (decays
are Python numbers; with NumPy numbers there is a warning instead). -/
noncomputable def modalBeat (a0 a1 f0 f1 d0 d1 p0 p1 : ℝ) : Except PyErr Beat := by
  classical exact
  if d0 = 0 ∨ d1 = 0 then .error .zeroDivisionError
  else mkBeat (expDecay a0 d0) (expDecay a1 d1) (.num f0) (.num f1) (.num p0) (.num p1)

namespace Beat

variable (b : Beat) (t : Val)

/-- `a_oln`, `sample/beatsdrop/__init__.py:93-97`. -/
noncomputable def aOln := semisum (b.a0.eval t) (b.a1.eval t)
/-- `a_hat`, `sample/beatsdrop/__init__.py:93-97`. -/
noncomputable def aHat := semidiff (b.a0.eval t) (b.a1.eval t)
/-- `f_oln`, `sample/beatsdrop/__init__.py:93-97`. -/
noncomputable def fOln := semisum (b.f0.eval t) (b.f1.eval t)
/-- `f_hat`, `sample/beatsdrop/__init__.py:93-97`. -/
noncomputable def fHat := semidiff (b.f0.eval t) (b.f1.eval t)
/-- `p_oln`, `sample/beatsdrop/__init__.py:93-97`. -/
noncomputable def pOln := semisum (b.p0.eval t) (b.p1.eval t)
/-- `p_hat`, `sample/beatsdrop/__init__.py:93-97`. -/
noncomputable def pHat := semidiff (b.p0.eval t) (b.p1.eval t)

/-- `w_hat`, `sample/beatsdrop/__init__.py:112`. -/
noncomputable def wHat : Except PyErr Val := do mul (.sc (some (2 * Real.pi))) (← b.fHat t)

/-- `w_oln`, `sample/beatsdrop/__init__.py:113`. -/
noncomputable def wOln : Except PyErr Val := do mul (.sc (some (2 * Real.pi))) (← b.fOln t)

/-- The phase of the modulant, `sample/beatsdrop/__init__.py:121-122`. -/
noncomputable def phase : Except PyErr Val := do add (← mul (← b.wHat t) t) (← b.pHat t)

/-- `alpha2`, `sample/beatsdrop/__init__.py:118-126`. -/
noncomputable def alpha2 : Except PyErr Val := do
  let aOln2 := un (· ^ 2) (← b.aOln t)
  let aHat2 := un (· ^ 2) (← b.aHat t)
  let modulant := un (· ^ 2) (un Real.cos (← b.phase t))
  let amRange ← sub aOln2 aHat2
  add (← mul amRange modulant) aHat2

/-- `am`, `sample/beatsdrop/__init__.py:127-128`. -/
noncomputable def am : Except PyErr Val := do mul (un Real.sqrt (← b.alpha2 t)) (.sc (some 2))

/-- The numerator of `fm_from_am`, `sample/beatsdrop/__init__.py:138-145`. -/
noncomputable def fromAm : Except PyErr Val := do
  let g ← mul (b.da0.eval t) (b.a1.eval t)
  let g ← sub g (← mul (b.da1.eval t) (b.a0.eval t))
  let g' ← mul (← b.phase t) (.sc (some 2))
  let g ← mul g (un Real.sin g')
  mul g (.sc (some 0.25))

/-- `fm_from_am`, `sample/beatsdrop/__init__.py:146`. -/
noncomputable def fmFromAm : Except PyErr Val := do div (← b.fromAm t) (← b.alpha2 t)

/-- `fm`, `sample/beatsdrop/__init__.py:134-151`. -/
noncomputable def fm : Except PyErr Val := do
  let f ← mul (← b.aOln t) (← b.aHat t)
  let f ← mul f (← b.wHat t)
  let f ← add f (← b.fromAm t)
  let f ← div f (← b.alpha2 t)
  add f (← b.wOln t)

/-- `np.arctan2`. -/
noncomputable def arctan2 (y x : ℝ) : ℝ := Complex.arg ⟨x, y⟩

/-- The initial phase, `sample/beatsdrop/__init__.py:154-158`; amplitudes at time zero. -/
noncomputable def initialPhase : Except PyErr Val := do
  let y0 ← mul (← b.aHat (.sc (some 0))) (un Real.sin (← b.pHat t))
  let x0 ← mul (← b.aOln (.sc (some 0))) (un Real.cos (← b.pHat t))
  add (← b.pOln t) (← bin (fun y x => some (arctan2 y x)) y0 x0)

end Beat

/-- Running sums of the trapezoids. -/
noncomputable def trapezoids : List Cell → List Cell → Cell → List Cell
  | f :: g :: fs, t :: u :: ts, s =>
    s :: trapezoids (g :: fs) (u :: ts)
      (lift2 (fun s x => some (s + x)) s (lift2 (fun x y => some (x * y / 2))
        (lift2 (fun a b => some (b - a)) t u) (lift2 (fun a b => some (a + b)) f g)))
  | _, _, s => [s]

/-- `scipy.integrate.cumulative_trapezoid(f, t, initial=0)` of arrays of the same size of at least
one; that of scalars is a `ValueError`. -/
noncomputable def cumtrapz : Val → Val → Except PyErr Val
  | .ar f, .ar t =>
    if f.length = t.length ∧ f ≠ [] then .ok (.ar (trapezoids f t (some 0))) else .error .valueError
  | _, _ => .error .valueError

namespace Beat

variable (b : Beat) (t : Val)

/-- `pm`, `sample/beatsdrop/__init__.py:160-162`. -/
noncomputable def pm : Except PyErr Val := do add (← cumtrapz (← b.fm t) t) (← b.initialPhase t)

/-- `x`, `sample/beatsdrop/__init__.py:82-83`. -/
noncomputable def x : Except PyErr Val := do mul (← b.am t) (un Real.cos (← b.pm t))

end Beat

end Verif.Beat
