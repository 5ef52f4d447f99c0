import Verif.Beat.RegressionModel
import Verif.Beat.ResidualModel

/-!
# Beat regression as an object (`sample/beatsdrop/regression.py:79-322, 458-496`)

The attributes of a `BeatRegression` or `DualBeatRegression`, changed one by one by `fit`, which may
raise at each call of another function or be interrupted between two assignments, and read by
`predict`, `k_` and `q_`.
-/

set_option autoImplicit false

namespace Verif.Beat

/-- The arguments of `fit`. -/
structure Track where
  t : List ℝ
  a : List ℝ
  f : List ℝ

/-- The attributes: `linear_regressor` (`none`: `None`; `some none`: not fitted; else slope and
intercept), `res_fn_` (given by the data that it closes over), `initial_params_`, `bounds_`,
`result_` (its `x`), `params_`, and `beat_` (given by the parameters that it was made from: with
NumPy numbers `ModalBeat(*params)` does not raise). -/
structure Br where
  reg : Option (Option (ℝ × ℝ))
  resFn : Option Track
  initial : Option Start
  bounds : Option (Octet ℝ × Octet ℝ)
  result : Option (Octet ℝ)
  params : Option (Octet ℝ)
  beat : Option (Octet ℝ)

/-- A new object, `sample/beatsdrop/regression.py:107-124`, with the given regressor. -/
def Br.new (reg : Option (Option (ℝ × ℝ))) : Br := ⟨reg, none, none, none, none, none, none⟩

/-- The functions that `fit` calls: `_residual_fn`, `params_init` (which may fit the regressor of the
object), `bounds`, `least_squares`, and the disambiguation (`none` for a `BeatRegression`, or with
`disambiguate=False`). -/
structure Steps where
  makeRes : Track → Except PyErr Unit
  init : Track → Option (ℝ × ℝ) → Option (ℝ × ℝ) × Except PyErr Start
  bounds : Track → Start → Except PyErr (Octet ℝ × Octet ℝ)
  solve : Track → Octet ℝ → Octet ℝ → Octet ℝ → Except PyErr (Octet ℝ)
  dis : Option (Track → Octet ℝ → Except PyErr (Octet ℝ))

/-- The end of `DualBeatRegression.fit`, `sample/beatsdrop/regression.py:470-496`: the states after
each assignment, and the exception. -/
def Steps.finish (S : Steps) (s : Br) (d : Track) (x : Octet ℝ) : List Br × Option PyErr :=
  match S.dis with
  | none => ([], none)
  | some g =>
    match g d x with
    | .error e => ([], some e)
    | .ok y =>
      let s9 := { s with params := some y }
      ([s9, { s9 with beat := some y }], none)

/-- `fit`, `sample/beatsdrop/regression.py:263-307, 468-496`: the states after each assignment,
beginning with the state before, and the exception. -/
noncomputable def Steps.fit (S : Steps) (s : Br) (d : Track) : List Br × Option PyErr :=
  let s1 := { s with reg := some (s.reg.getD none) }
  match S.makeRes d with
  | .error e => ([s, s1], some e)
  | .ok _ =>
    let s2 := { s1 with resFn := some d }
    let i := S.init d (s.reg.getD none)
    let s3 := { s2 with reg := some i.1 }
    match i.2 with
    | .error e => ([s, s1, s2, s3], some e)
    | .ok p =>
      let s4 := { s3 with initial := some p }
      match S.bounds d p with
      | .error e => ([s, s1, s2, s3, s4], some e)
      | .ok b =>
        let s5 := { s4 with bounds := some b }
        match feasible p b.1 b.2 with
        | none => ([s, s1, s2, s3, s4, s5], some .valueError)
        | some x0 =>
          match S.solve d x0 b.1 b.2 with
          | .error e => ([s, s1, s2, s3, s4, s5], some e)
          | .ok x =>
            let s6 := { s5 with result := some x }
            let s7 := { s6 with params := some x }
            let s8 := { s7 with beat := some x }
            let r := S.finish s8 d x
            ([s, s1, s2, s3, s4, s5, s6, s7, s8] ++ r.1, r.2)

/-- A call of `fit`; `stop = some k`: interrupted after `k` assignments (if there are as many). -/
structure Call where
  steps : Steps
  track : Track
  stop : Option Nat

/-- The state after a call. -/
noncomputable def Call.run (s : Br) (c : Call) : Br :=
  let tr := (c.steps.fit s c.track).1
  match c.stop with
  | none => tr.getLastD s
  | some k => (tr[k]?).getD (tr.getLastD s)

/-- `k_` and `q_`, `sample/beatsdrop/regression.py:149-157`: a regressor that is `None` or not fitted
has no such attributes. -/
def Br.kq (s : Br) : Except PyErr (ℝ × ℝ) :=
  match s.reg with
  | some (some r) => .ok r
  | _ => .error .attributeError

/-- The variables of the graph by name, `sample/beatsdrop/__init__.py:79-163`. -/
noncomputable def Beat.variable (b : Beat) (name : String) : Option (Val → Except PyErr Val) :=
  if name = "t" then some fun t => .ok t
  else if name = "a0" then some fun t => .ok (b.a0.eval t)
  else if name = "a1" then some fun t => .ok (b.a1.eval t)
  else if name = "f0" then some fun t => .ok (b.f0.eval t)
  else if name = "f1" then some fun t => .ok (b.f1.eval t)
  else if name = "p0" then some fun t => .ok (b.p0.eval t)
  else if name = "p1" then some fun t => .ok (b.p1.eval t)
  else if name = "a_oln" then some b.aOln
  else if name = "a_hat" then some b.aHat
  else if name = "f_oln" then some b.fOln
  else if name = "f_hat" then some b.fHat
  else if name = "p_oln" then some b.pOln
  else if name = "p_hat" then some b.pHat
  else if name = "da0_dt" then some fun t => .ok (b.da0.eval t)
  else if name = "da1_dt" then some fun t => .ok (b.da1.eval t)
  else if name = "w_hat" then some b.wHat
  else if name = "w_oln" then some b.wOln
  else if name = "a_oln2" then some fun t => do .ok (un (· ^ 2) (← b.aOln t))
  else if name = "a_hat2" then some fun t => do .ok (un (· ^ 2) (← b.aHat t))
  else if name = "alpha2" then some b.alpha2
  else if name = "am" then some b.am
  else if name = "fm_from_am" then some b.fmFromAm
  else if name = "fm" then some b.fm
  else if name = "pm" then some b.pm
  else if name = "x" then some b.x
  else none

/-- `list(map(self._graph.__getitem__, output))`, `sample/beatsdrop/__init__.py:179`. -/
noncomputable def Beat.lookup (b : Beat) : List String → Except PyErr (List (Val → Except PyErr Val))
  | [] => .ok []
  | n :: ns =>
    match b.variable n with
    | none => .error .keyError
    | some v =>
      match b.lookup ns with
      | .error e => .error e
      | .ok vs => .ok (v :: vs)

/-- The evaluation of nodes, in order. -/
def evalAll (t : Val) : List (Val → Except PyErr Val) → Except PyErr (List Val)
  | [] => .ok []
  | v :: vs =>
    match v t with
    | .error e => .error e
    | .ok r =>
      match evalAll t vs with
      | .error e => .error e
      | .ok rs => .ok (r :: rs)

/-- `Beat.compute` for a list of names, `sample/beatsdrop/__init__.py:170-180`. -/
noncomputable def Beat.compute (b : Beat) (t : Val) (names : List String) : Except PyErr (List Val) :=
  match b.lookup names with
  | .error e => .error e
  | .ok vs => evalAll t vs

/-- `np.squeeze` of a time axis: an axis with one time becomes a scalar. -/
def TimeAxis.squeeze (t : TimeAxis) : Val :=
  match t.times with
  | [v] => .sc (some v)
  | l => .ar (l.map some)

/-- `predict`, `sample/beatsdrop/regression.py:309-322`.  Simplification: a beat with a decay time of
zero is an error (see `modalBeat`). -/
noncomputable def Br.predict (s : Br) (t : TimeAxis) (names : List String) :
    Except PyErr (List Val) :=
  match s.beat with
  | none => .error .attributeError
  | some p =>
    match modalBeat p.a0 p.a1 p.f0 p.f1 p.d0 p.d1 p.p0 p.p1 with
    | .error e => .error e
    | .ok b => b.compute t.squeeze (if names = [] then ["x"] else names)

/-- The functions of a `BeatRegression` or `DualBeatRegression` with the default starting values and
bounds, `sample/beatsdrop/regression.py:126-261`: the regressor is fitted in place
(`sample/utils/dsp.py:230`) before its slope and intercept are read; if its `fit` raises it is left
as it was. -/
noncomputable def defaultSteps (reg : List ℝ → List ℝ → Except PyErr (ℝ × ℝ))
    (peaks : List ℝ → List ℝ → List ℝ) (phat : List ℝ → List ℝ → ℝ → ℝ) (fs eps : ℝ)
    (makeRes : Track → Except PyErr Unit)
    (solve : Track → Octet ℝ → Octet ℝ → Octet ℝ → Except PyErr (Octet ℝ))
    (dis : Option (Track → Octet ℝ → Except PyErr (Octet ℝ))) : Steps where
  makeRes := makeRes
  init := fun d r =>
    (match reg d.t d.a with
      | .ok kq => some kq
      | .error _ => r, defaultInit reg peaks phat fs d.t d.a d.f)
  bounds := fun d p => defaultBounds eps d.t d.a d.f p
  solve := solve
  dis := dis

end Verif.Beat
