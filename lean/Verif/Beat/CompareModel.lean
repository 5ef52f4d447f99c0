import Verif.Beat.StateModel
import Verif.Dsp.DbModel

/-!
# Comparison plot of beat regressions (`sample/plots.py:250-406`)

The curves that are drawn: on which axes, with which label, through which points.  Titles, legends and
grids are not modelled.
-/

set_option autoImplicit false

namespace Verif.Beat

open Verif.Out

/-- A curve: row and column of `axs`, label, points (`none`: NaN, not drawn). -/
structure Curve where
  row : Nat
  col : Nat
  label : String
  x : List ℝ
  y : List Cell

/-- The argument `axs`: not given, an array of axes with three rows and the given number of columns,
or a list of three lists of axes. -/
inductive Axes
  | new
  | array (cols : Nat)
  | nested (cols : Nat)

/-- The argument `signal_hilbert_am`: false, true, or an integer (which is not zero). -/
inductive Envelope
  | no
  | all
  | every (m : Int)

/-- The axes, `sample/plots.py:286-298`, for `n` regressions: `subplots` raises if there are none, and
returns an array with one dimension (`none`) if there is one; otherwise the number of columns. -/
def Axes.make (a : Axes) (n : Nat) : Except PyErr (Option Nat) :=
  match a with
  | .new => if n = 0 then .error .valueError else if n = 1 then .ok none else .ok (some n)
  | .array m => .ok (some m)
  | .nested m => .ok (some m)

/-- `axs[r][i]` for `r < 3`: axes have no elements. -/
def Axes.get (cols : Option Nat) (i : Nat) : Except PyErr Unit :=
  match cols with
  | none => .error .typeError
  | some m => if i < m then .ok () else .error .indexError

/-- `i_env`, `sample/plots.py:321-325`. -/
def Envelope.indices (size : Nat) : Envelope → List Int
  | .no => []
  | .all => (List.range size).map fun (i : Nat) => (i : Int)
  | .every m => (List.range (Int.fdiv size m).toNat).map fun (i : Nat) => (i : Int) * m

/-- The curve of the signal, `sample/plots.py:320-340`; `env` is the modulus of the analytic signal, of
which the upper edge is given (the lower edge is its opposite). -/
noncomputable def signalCurve (fs : ℝ) (x env : List ℝ) (e : Envelope) (i : Nat) : Curve :=
  match e with
  | .no => ⟨0, i, "Signal", (List.range x.length).map fun (j : Nat) => (j : ℝ) / fs, x.map some⟩
  | e =>
    let idx := e.indices x.length
    ⟨0, i, "Signal", idx.map fun (j : Int) => (j : ℝ) / fs, idx.map fun (j : Int) => env[j.toNat]?⟩

open Classical in
/-- `a_` in decibels, `sample/plots.py:364-367`. -/
noncomputable def inDb (c : Cell) : Cell :=
  c.bind fun a => if a ≤ Dsp.db2a (-60) then none else Dsp.a2db a none false

/-- The two curves of an amplitude, `sample/plots.py:364-367`. -/
noncomputable def ampCurves (t : List ℝ) (i : Nat) (label : String) (a : List Cell) : List Curve :=
  [⟨0, i, label, t, a⟩, ⟨1, i, label, t, a.map inDb⟩]

/-- The curves of one regression, `sample/plots.py:316-386`, in the order in which they are drawn;
`am`, `a0`, `a1`, `fm`: the predictions. -/
noncomputable def columnCurves (fs : ℝ) (x env : List ℝ) (e : Envelope) (d : Track) (i : Nat)
    (p : Octet ℝ) (am a0 a1 fm : List Cell) : List Curve :=
  [signalCurve fs x env e i] ++
  ampCurves d.t i "Sinusoidal Track" (d.a.map fun v => some (Dsp.db2a v)) ++
  ampCurves d.t i "Prediction" am ++
  ampCurves d.t i "$A_1(t)$" a0 ++
  ampCurves d.t i "$A_2(t)$" a1 ++
  [⟨2, i, "Sinusoidal Track", d.t, d.f.map some⟩,
   ⟨2, i, "Prediction", d.t, fm.map fun c => c.map (· / (2 * Real.pi))⟩,
   ⟨2, i, "$\\nu_1$", d.t, d.t.map fun _ => some p.f0⟩,
   ⟨2, i, "$\\nu_2$", d.t, d.t.map fun _ => some p.f1⟩]

/-- A regression: its label, the functions that its `fit` calls, and its regressor (which is cloned). -/
structure Candidate where
  label : String
  steps : Steps
  reg : Option (Option (ℝ × ℝ))

/-- `base.clone(v).fit(...)` for all candidates, `sample/plots.py:311-314`: a clone is not fitted. -/
noncomputable def fitAll (d : Track) : List Candidate → Except PyErr (List Br)
  | [] => .ok []
  | c :: cs =>
    let s := Br.new (c.reg.map fun _ => none)
    match (c.steps.fit s d).2 with
    | some e => .error e
    | none =>
      match fitAll d cs with
      | .error e => .error e
      | .ok bs => .ok (Call.run s ⟨c.steps, d, none⟩ :: bs)

/-- The loop, `sample/plots.py:315-386`: the curves drawn, and how it ends. -/
noncomputable def drawAll (fs : ℝ) (x env : List ℝ) (e : Envelope) (d : Track) (cols : Option Nat) :
    Nat → List Br → List Curve × Except PyErr Unit
  | _, [] => ([], .ok ())
  | i, b :: bs =>
    match b.predict (.flat d.t) ["am", "a0", "a1", "fm"] with
    | .error err => ([], .error err)
    | .ok [am, a0, a1, fm] =>
      match Axes.get cols i, b.params with
      | .error err, _ => ([], .error err)
      | .ok _, none => ([], .error .attributeError)
      | .ok _, some p =>
        let r := drawAll fs x env e d cols (i + 1) bs
        (columnCurves fs x env e d i p (elems am) (elems a0) (elems a1) (elems fm) ++ r.1, r.2)
    | .ok _ => ([], .error .valueError)

/-- `beatsdrop_comparison`, `sample/plots.py:285-406`, for the preprocessed track `d`: the curves drawn
and how it ends (`axs.shape` of a list is an `AttributeError`). -/
noncomputable def compare (fs : ℝ) (x env : List ℝ) (e : Envelope) (d : Track) (cs : List Candidate)
    (axs : Axes) : List Curve × Except PyErr Unit :=
  match axs.make cs.length with
  | .error err => ([], .error err)
  | .ok cols =>
    match fitAll d cs with
    | .error err => ([], .error err)
    | .ok bs =>
      let r := drawAll fs x env e d cols 0 bs
      match r.2, axs with
      | .ok _, .nested _ => (r.1, .error .attributeError)
      | _, _ => r

/-- Row and column in the figure of the axes with the label of the time axis, for `n` regressions,
`sample/plots.py:402-403`. -/
def timeLabels (n : Nat) (transpose : Bool) : List (Nat × Nat) :=
  (List.range 3).map fun c => if transpose then (n - 1, c) else (c, n - 1)

end Verif.Beat
