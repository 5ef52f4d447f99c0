import Verif.Psycho.BankModel
import Verif.Psycho.GammatoneModel

/-!
# Gammatone filterbanks and cochleagrams (`sample/psycho.py:721-1005`)

Real numbers without rounding.
-/

set_option autoImplicit false

namespace Verif.Psycho

open Verif.Dsp Verif.Out

/-- The centre frequencies that `GammatoneFilterbank` chooses, `sample/psycho.py:732-738`; `fwd` and
`inv` are the two transforms, which apply to every element.  `none`: a limit is not a number in the
transformed scale (what follows is not modelled). -/
noncomputable def centres (fwd inv : ℝ → Cell) (lo hi : ℝ) (n : Option Int) : Option (List Cell) :=
  match fwd lo, fwd hi with
  | some a, some b =>
    let n : Int := n.getD ⌈2 * (b - a) - 1⌉
    some ((List.range n.toNat).map fun (i : Nat) =>
      inv (((i : ℝ) + 0.5) * (b - a) / ((n : ℝ) + 1) + a))
  | _, _ => none

/-- What a cochleagram can fail with. -/
inductive CochErr
  | py (e : PyErr)
  | convergence
  deriving DecidableEq

/-- The exceptions of `t60`. -/
def T60Err.toCoch : T60Err → CochErr
  | .value => .py .valueError
  | .convergence => .convergence

/-- The leading time of a filter in samples, `sample/psycho.py:784`. -/
noncomputable def Gammatone.lead (g : Gammatone) (fs : ℝ) : Int := ⌈g.tc * fs⌉

/-- The time axis of a filter of a bank, `sample/psycho.py:787-788`. -/
noncomputable def Gammatone.bankAxis (g : Gammatone) (fs : ℝ) : Except CochErr (List ℝ) :=
  match g.t60Default with
  | .error e => .error e.toCoch
  | .ok t => .ok ((List.range (g.irSize fs t).toNat).map fun (k : Nat) =>
      ((k : ℝ) - (g.lead fs : ℝ)) / fs)

/-- `PrecomputedIRBank`, `sample/psycho.py:762-797`, real or analytic. -/
inductive IRBank
  | real (freqs : List ℝ) (b : Bank ℝ)
  | analytic (freqs : List ℝ) (b : Bank ℂ)

/-- An exception of Python. -/
def liftPy {α : Type} : Except PyErr α → Except CochErr α
  | .ok a => .ok a
  | .error e => .error (.py e)

/-- `precompute`, `sample/psycho.py:871-883` and `776-797`. -/
noncomputable def precompute (gs : List Gammatone) (fs : ℝ) (analytic : Bool) : Except CochErr IRBank := do
  let axes ← gs.mapM fun g => g.bankAxis fs
  let leads := gs.map fun g => g.lead fs
  if analytic then
    let b ← liftPy (mkBank leads (List.zipWith (fun t g => Gammatone.irAnalytic g t) axes gs))
    .ok (.analytic (gs.map Gammatone.f) b)
  else
    let b ← liftPy (mkBank leads (List.zipWith (fun t g => Gammatone.ir g t) axes gs))
    .ok (.real (gs.map Gammatone.f) b)

/-- A cochleagram: real or complex. -/
inductive Coch
  | real (m : List (List (Option ℝ)))
  | cplx (m : List (List (Option ℂ)))

/-- `hwr`, `sample/psycho.py:926-936`, of a real cochleagram.  (A complex one is left alone here;
`C76_rectified` shows that it is never rectified.) -/
noncomputable def hwrCoch : Coch → Coch
  | .real m => .real (m.map (List.map (Option.map fun v => max v 0)))
  | .cplx m => .cplx m

/-- What `cochleagram` accepts as a filterbank. -/
inductive Filterbank
  | precomputed (b : IRBank)
  | filters (gs : List Gammatone)

/-- The check of `analytic`, `sample/psycho.py:978-984`. -/
def checkAnalytic (fb : Filterbank) (analytic : Option String) : Except CochErr (Option String) :=
  match fb with
  | .precomputed (.analytic _ _) =>
    if analytic = none ∨ analytic = some "ir" then .ok (some "ir") else .error (.py .valueError)
  | _ => .ok analytic

/-- The default post-processing, `sample/psycho.py:985-990`; `post` is what the caller gives. -/
noncomputable def postOf (analytic : Option String) (post : Option (Option (Coch → Coch))) :
    Option (Coch → Coch) :=
  match post with
  | some p => p
  | none => if analytic = none then some hwrCoch else none

/-- The precomputed filterbank, `sample/psycho.py:991-997`. -/
noncomputable def bankOf (fb : Filterbank) (fs : Option ℝ) (analytic : Option String) :
    Except CochErr IRBank :=
  match fb with
  | .precomputed b => .ok b
  | .filters gs =>
    match fs with
    | none => .error (.py .typeError)
    | some fs => precompute gs fs (analytic = some "ir")

/-- The convolution, `sample/psycho.py:998-1000`; `hilb` is `scipy.signal.hilbert` of a row. -/
noncomputable def filterWith (hilb : List ℝ → List ℂ) (b : IRBank) (x : List ℝ)
    (analytic : Option String) (method : Option String) (stride : Option Int) : Except PyErr Coch :=
  match b with
  | .real _ b =>
    if analytic = some "input" then
      (convolve ⟨b.irs.map (List.map Complex.ofReal), b.offsets⟩ (hilb x) true method stride).map .cplx
    else (convolve b x false method stride).map .real
  | .analytic _ b => (convolveAnalytic b x method stride).map .cplx

/-- The analytic signal of the output, `sample/psycho.py:1001-1002`; that of a complex array is a
`ValueError`. -/
noncomputable def hilbertOut (hilb : List ℝ → List ℂ) (analytic : Option String) (out : Coch) :
    Except PyErr Coch :=
  if analytic = some "output" then
    match out with
    | .real m => .ok (.cplx (m.map fun row => (hilb (row.map fun v => v.getD 0)).map some))
    | .cplx _ => .error .valueError
  else .ok out

/-- `filterbank.freqs`. -/
def IRBank.freqs : IRBank → List ℝ
  | .real f _ => f
  | .analytic f _ => f

/-- `cochleagram`, `sample/psycho.py:940-1005`, of a real signal; a filterbank that is not given is one
of filters that are built from the keyword arguments. -/
noncomputable def cochleagram (hilb : List ℝ → List ℂ) (x : List ℝ) (fs : Option ℝ) (fb : Filterbank)
    (analytic method : Option String) (stride : Option Int) (post : Option (Option (Coch → Coch))) :
    Except CochErr (Coch × List ℝ) := do
  let analytic ← checkAnalytic fb analytic
  let b ← bankOf fb fs analytic
  let out ← liftPy (filterWith hilb b x analytic method stride)
  let out ← liftPy (hilbertOut hilb analytic out)
  .ok ((match postOf analytic post with
    | none => out
    | some f => f out), b.freqs)

end Verif.Psycho
