import Verif.Py
import Verif.Out.PlotsModel

/-!
# Headings and players of a notebook (`sample/ipython.py:149-200`)
-/

set_option autoImplicit false

namespace Verif.Plots

variable {K : Type*} [Field K] [LinearOrder K]

/-- The value of an option of `IPython.display.Audio`. -/
inductive AudioOpt (K : Type*)
  | flag (b : Bool)
  | num (r : K)
  | none
  | other (s : String)

/-- Truth of an option in Python, `sample/ipython.py:180`. -/
def AudioOpt.truth : AudioOpt K → Bool
  | .flag b => b
  | .num r => decide (r ≠ 0)
  | .none => false
  | .other s => decide (s ≠ "")

/-- `LabelAndPlayForeach.__init__`, `sample/ipython.py:153-160`: the options kept for the players, from a copy of the
given ones (`default_kws`); a value in the dictionary keeps its place. -/
def playerOpts (given : Option (List (String × AudioOpt K))) : List (String × AudioOpt K) :=
  let d := given.getD []
  if (d.lookup "normalize").isSome then d else d ++ [("normalize", .flag false)]

/-- What is displayed. -/
inductive Shown (K : Type*)
  | heading (html : String)
  | player (samples : List K) (opts : List (String × AudioOpt K))

/-- `IPython.display.Audio(y, **opts)` of flat samples (library): the rate must be given, there must be samples, and
without normalisation they must be between -1 and 1; each of these is a `ValueError`. -/
def audioWidget (y : List K) (opts : List (String × AudioOpt K)) : Except PyErr (Shown K) :=
  match opts.lookup "rate" with
  | Option.none => .error .valueError
  | some .none => .error .valueError
  | some _ =>
    if y = [] then .error .valueError
    else if ((opts.lookup "normalize").getD (.flag true)).truth then .ok (.player y opts)
    else if y.all fun v => decide (-1 ≤ v ∧ v ≤ 1) then .ok (.player y opts)
    else .error .valueError

/-- `LabelAndPlayForeach._label`, `sample/ipython.py:162-174`. -/
def labelWidget (i : Option Nat) (k : Option String) : Option (Shown K) :=
  (labelText i k).map fun s => .heading ("<h1>" ++ s ++ "</h1>")

/-- `LabelAndPlayForeach._audio`, `sample/ipython.py:176-182`. -/
def audioPart (opts : List (String × AudioOpt K)) (y : Option (List K)) : Except PyErr (Option (Shown K)) :=
  match y with
  | Option.none => .ok Option.none
  | some y => (audioWidget (played ((opts.lookup "normalize").getD .none).truth y) opts).map some

/-- `LabelAndPlayForeach.__call__`, `sample/ipython.py:184-200`: the calls of `display`, each with its widgets. -/
def showCall (opts : List (String × AudioOpt K)) (i : Option Nat) (k : Option String) (y : Option (List K)) :
    Except PyErr (List (List (Shown K))) :=
  match audioPart opts y with
  | .error e => .error e
  | .ok a =>
    let tbd := [labelWidget i k, a].filterMap id
    if tbd = [] then .ok [] else .ok [tbd]

/-- The loop of `resynthesis` with such a callback, `sample/plots.py:236-244`: what has been displayed, and the
exception that ended the loop. -/
def showAll (opts : List (String × AudioOpt K)) :
    List (Nat × Nat × String × List K) → List (List (Shown K)) × Option PyErr
  | [] => ([], Option.none)
  | (_, i, k, y) :: l =>
    match showCall opts (some i) (some k) (some y) with
    | .error e => ([], some e)
    | .ok d => (d ++ (showAll opts l).1, (showAll opts l).2)

end Verif.Plots
