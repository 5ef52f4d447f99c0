import Verif.Psycho.FilterbankModel

/-!
# `GammatoneFilterbank.convolve` and `len` (`sample/psycho.py:741-923`)
-/

set_option autoImplicit false

namespace Verif.Psycho

/-- The value of a keyword argument of `GammatoneFilterbank.convolve`: a time step, a function to be applied to the
cochleagram (or `None`), or anything else. -/
inductive KwVal
  | step (s : Option Int)
  | fn (f : Option (Coch → Coch))
  | other

/-- `stride` of `cochleagram`, `sample/psycho.py:947`.  A value that is not a number is a `TypeError` of
`convolve`. -/
def strideOf (kws : List (String × KwVal)) : Except CochErr (Option Int) :=
  match kws.lookup "stride" with
  | none => .ok none
  | some (.step s) => .ok s
  | some _ => .error (.py .typeError)

/-- `postprocessing`, `sample/psycho.py:985-986`.  A value that cannot be called is a `TypeError`. -/
def postKw (kws : List (String × KwVal)) : Except CochErr (Option (Option (Coch → Coch))) :=
  match kws.lookup "postprocessing" with
  | none => .ok none
  | some (.fn f) => .ok (some f)
  | some _ => .error (.py .typeError)

/-- `GammatoneFilterbank.convolve`, `sample/psycho.py:885-923`: the keyword arguments go on to `cochleagram`, which
has parameters `filterbank` (a second value for it is a `TypeError`) and `stride`, takes `postprocessing` out, and
passes the others to a new filterbank only if none is given (`sample/psycho.py:991-992`), which is not the case here.
Names are pairwise different and none is a parameter of the method.  A value of the wrong type is refused before
anything is computed here, and later in the code. -/
noncomputable def gfbConvolve (hilb : List ℝ → List ℂ) (gs : List Gammatone) (x : List ℝ) (fs : ℝ)
    (analytic method : Option String) (kws : List (String × KwVal)) : Except CochErr Coch := do
  if (kws.lookup "filterbank").isSome then .error (.py .typeError)
  else do
    let stride ← strideOf kws
    let post ← postKw kws
    let r ← cochleagram hilb x (some fs) (.filters gs) analytic method stride post
    .ok r.1

/-- `len` of a filterbank, `sample/psycho.py:749-751`. -/
def gfbLen (gs : List Gammatone) : Nat := gs.length

/-- `len` of a precomputed bank, `sample/psycho.py:799-801`: the number of responses. -/
def IRBank.len : IRBank → Nat
  | .real _ b => b.irs.length
  | .analytic _ b => b.irs.length

end Verif.Psycho
