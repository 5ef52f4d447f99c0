import Mathlib.Analysis.SpecialFunctions.Pow.NNReal
import Mathlib.Analysis.Normed.Group.Basic
import Mathlib.Analysis.Complex.Norm
import Verif.Py
import Verif.PyDict
import Verif.Dsp.DbModel
import Verif.Psycho.FilterbankModel
import Verif.Training.Model

/-!
# Model of `sample/evaluation/metrics.py`

Arrays are matrices given by their rows; a vector is its only row.  Entries are exact numbers (real
or complex, `E`) without NaN.  Magnitudes are extended non-negative real numbers, which is how powers
of floats behave (`0 ** -1` is an infinity, `0 ** 0` is one).
-/

set_option autoImplicit false

namespace Verif.Eval

open Verif.Training Verif.Psycho
open scoped ENNReal

/-! ## `lp_distance` -/

/-- Kind of the entries of an array.  (Booleans and unsigned integers are not modelled, nor the
overflow of integers.) -/
inductive Kind
  | int
  | float
  | complex
  deriving DecidableEq

/-- Order of the kinds: NumPy stores a result only in an array of the same or of a later kind. -/
def Kind.rank : Kind → Nat
  | .int => 0
  | .float => 1
  | .complex => 2

/-- A NumPy array. -/
structure Arr (E : Type) where
  kind : Kind
  rows : List (List E)

/-- The exponent: a Python integer, a finite float or infinity. -/
inductive Expo
  | int (n : ℤ)
  | float (r : ℝ)
  | inf

/-- `p != 1`. -/
def Expo.isOne : Expo → Prop
  | .int n => n = 1
  | .float r => r = 1
  | .inf => False

noncomputable instance (p : Expo) : Decidable p.isOne := Classical.propDecidable _

section sub
variable {E : Type} [Sub E]

/-- `np.subtract(x, y, out=tmp)` on one row: `y` may be repeated, `tmp` has the size of `x`. -/
def subRow (x y : List E) : Except PyErr (List E) :=
  if x.length = y.length then .ok (List.zipWith (· - ·) x y)
  else
    match y with
    | [b] => .ok (x.map fun a => a - b)
    | _ => .error .valueError

/-- The rows that are subtracted from the rows of `x`. -/
def pairRows (x y : List (List E)) : Except PyErr (List (List E × List E)) :=
  if x.length = y.length then .ok (x.zip y)
  else
    match y with
    | [r] => .ok (x.map fun a => (a, r))
    | _ => .error .valueError

/-- `tmp = np.empty_like(x); np.subtract(x, y, out=tmp)`, `sample/evaluation/metrics.py:24-25`. -/
def subOut (x y : Arr E) : Except PyErr (List (List E)) :=
  if x.kind.rank < y.kind.rank then .error .typeError
  else
    match pairRows x.rows y.rows with
    | .error e => .error e
    | .ok ps => ps.mapM fun p => subRow p.1 p.2

end sub

/-- A magnitude raised to infinity. -/
noncomputable def powInf (t : ℝ≥0∞) : ℝ≥0∞ := if t < 1 then 0 else if t = 1 then 1 else ⊤

/-- `np.power(tmp, p, out=tmp)`, `sample/evaluation/metrics.py:28`, where `tmp` holds magnitudes.
(Complex zeros raised to a negative number are not modelled; NumPy accepts a negative integer
exponent of an empty integer array, here it is an error.) -/
noncomputable def powOut (k : Kind) (p : Expo) (t : List ℝ≥0∞) : Except PyErr (List ℝ≥0∞) :=
  match p with
  | .int n => if k = .int ∧ n < 0 then .error .valueError else .ok (t.map (· ^ (n : ℝ)))
  | .float r => if k = .int then .error .typeError else .ok (t.map (· ^ r))
  | .inf => if k = .int then .error .typeError else .ok (t.map powInf)

/-- `np.power(d, 1 / p)`, `sample/evaluation/metrics.py:31`. -/
noncomputable def rootOut (p : Expo) (d : ℝ≥0∞) : Except PyErr ℝ≥0∞ :=
  match p with
  | .int n => if n = 0 then .error .zeroDivisionError else .ok (d ^ (1 / (n : ℝ)))
  | .float r => if r = 0 then .error .zeroDivisionError else .ok (d ^ (1 / r))
  | .inf => .ok (d ^ (0 : ℝ))

/-- From the magnitudes of the differences on, `sample/evaluation/metrics.py:27-32`. -/
noncomputable def lpFold (k : Kind) (p : Expo) (t : List ℝ≥0∞) : Except PyErr ℝ≥0∞ :=
  if p.isOne then .ok t.sum
  else
    match powOut k p t with
    | .error e => .error e
    | .ok t => rootOut p t.sum

/-- `lp_distance`, `sample/evaluation/metrics.py:13-32`. -/
noncomputable def lpDistance {E : Type} [NormedAddCommGroup E] (x y : Arr E) (p : Expo) :
    Except PyErr ℝ≥0∞ :=
  match subOut x y with
  | .error e => .error e
  | .ok tmp => lpFold x.kind p (tmp.flatten.map enorm)

/-! ## `lin_log_spectral_loss` -/

/-- A finite magnitude, `none`: infinity. -/
noncomputable def finite (d : ℝ≥0∞) : Option ℝ := if d = ⊤ then none else some d.toReal

/-- Arguments of `scipy.signal.stft`: window, FFT size, overlap and what else was given. -/
structure StftArgs (V : Type) where
  window : List ℝ
  nfft : ℤ
  noverlap : ℤ
  kwargs : Dict V

/-- Arguments of `lin_log_spectral_loss` with their defaults, `sample/evaluation/metrics.py:35-45`. -/
structure LinLog (V : Type) where
  n : ℤ := 2048
  olap : ℝ := 0.75
  w : Option (List ℝ) := none
  wtype : String := "hamming"
  wsize : Option ℤ := none
  alpha : Option ℝ := none
  normP : Expo := .float 1
  floorDb : ℝ := -60
  kwargs : Dict V := []

/-- `int(r)`: towards zero. -/
noncomputable def pyInt (r : ℝ) : ℤ := if 0 ≤ r then ⌊r⌋ else ⌈r⌉

section linlog
variable {V : Type} (getWindow : String → ℤ → Except PyErr (List ℝ))
  (stft : StftArgs V → List ℝ → Except PyErr (List (List ℂ)))

/-- The window, `sample/evaluation/metrics.py:62-65`; `getWindow` is `scipy.signal.get_window`. -/
def LinLog.window (a : LinLog V) : Except PyErr (List ℝ) :=
  match a.w with
  | some w => .ok w
  | none => getWindow a.wtype (a.wsize.getD a.n)

/-- The weight of the log-difference, `sample/evaluation/metrics.py:66-67`. -/
noncomputable def LinLog.weight (a : LinLog V) : ℝ := a.alpha.getD (1 / max 1 (-a.floorDb))

/-- `signal.stft` as called in `sample/evaluation/metrics.py:69-81`; an argument that is given twice
is a `TypeError`.  `stft` is the function of `scipy`. -/
noncomputable def LinLog.spectrum (a : LinLog V) (w : List ℝ) (x : List ℝ) :
    Except PyErr (List (List ℂ)) :=
  if a.kwargs.has "window" || a.kwargs.has "nperseg" || a.kwargs.has "nfft" ||
      a.kwargs.has "noverlap" then .error .typeError
  else stft ⟨w, a.n, pyInt (a.olap * w.length), a.kwargs⟩ x

/-- `np.abs`, `sample/evaluation/metrics.py:82-83`. -/
noncomputable def magnitudes (m : List (List ℂ)) : Arr ℝ := ⟨.float, m.map (List.map norm)⟩

/-- `a2db(x, out=x, floor=floor_db, floor_db=True)` of every entry,
`sample/evaluation/metrics.py:85-86`; `none`: not finite. -/
noncomputable def decibels (floorDb : ℝ) (x : Arr ℝ) : Option (Arr ℝ) :=
  (x.rows.mapM (List.mapM fun v => Dsp.a2db v (some floorDb) true)).map fun rows =>
    ⟨x.kind, rows⟩

/-- The sum of the two distances, `sample/evaluation/metrics.py:84-87`; `⊤`: not finite. -/
noncomputable def LinLog.losses (a : LinLog V) (x y : Arr ℝ) : Except PyErr (WithTop ℝ) :=
  match lpDistance x y a.normP with
  | .error e => .error e
  | .ok lin =>
    match decibels a.floorDb x, decibels a.floorDb y with
    | some dx, some dy =>
      match lpDistance dx dy a.normP with
      | .error e => .error e
      | .ok log =>
        match finite lin, finite log with
        | some lin, some log => .ok ((lin + a.weight * log : ℝ) : WithTop ℝ)
        | _, _ => .ok ⊤
    | _, _ => .ok ⊤

/-- `lin_log_spectral_loss`, `sample/evaluation/metrics.py:35-88`. -/
noncomputable def linLogLoss (a : LinLog V) (x y : List ℝ) : Except PyErr (WithTop ℝ) :=
  match a.window getWindow with
  | .error e => .error e
  | .ok w =>
    match a.spectrum stft w x with
    | .error e => .error e
    | .ok xs =>
      match a.spectrum stft w y with
      | .error e => .error e
      | .ok ys => a.losses (magnitudes xs) (magnitudes ys)

end linlog

/-! ## `MultiScaleSpectralLoss` -/

section multi
variable {A V R : Type} [Zero R] [Add R]

/-- `functools.partial(spectral_loss, **kw)` called with `*args, **kwargs`,
`sample/evaluation/metrics.py:101, 122`. -/
def partialCall (loss : A → Dict V → Except PyErr R) (kw : Dict V) (args : A) (kwargs : Dict V) :
    Except PyErr R := loss args (kw.update kwargs)

/-- `sum` of a generator of results, from a total on: the first exception ends it. -/
def sumFrom (acc : R) : List (Except PyErr R) → Except PyErr R
  | [] => .ok acc
  | .error e :: _ => .error e
  | .ok r :: rs => sumFrom (acc + r) rs

/-- `sum(r.get() for r in results)` at some time, `sample/evaluation/metrics.py:128-129`; `none`:
waiting for a result. -/
def sumGet (acc : R) : List (Option (Except PyErr R)) → Option (Except PyErr R)
  | [] => some (.ok acc)
  | none :: _ => none
  | some (.error e) :: _ => some (.error e)
  | some (.ok r) :: rs => sumGet (acc + r) rs

/-- A task of a pool finishes. -/
def finishTask (tasks : List (Except PyErr R)) (s : List (Option (Except PyErr R))) (i : Nat) :
    List (Option (Except PyErr R)) :=
  match tasks[i]? with
  | none => s
  | some r => s.set i (some r)

/-- Results of the tasks of a pool after some of them have finished (in this order). -/
def poolSlots (tasks : List (Except PyErr R)) (finished : List Nat) :
    List (Option (Except PyErr R)) :=
  finished.foldl (finishTask tasks) (List.replicate tasks.length none)

/-- `MultiScaleSpectralLoss.__call__`, `sample/evaluation/metrics.py:103-129`: `pool` tells whether a
pool is given, `finished` is the order in which its tasks finish.  `mp.Pool` refuses a number of
processes below one.  The arguments are assumed to be picklable. -/
def multiScale (loss : A → Dict V → Except PyErr R) (stfts : List (Dict V)) (args : A)
    (kwargs : Dict V) (pool : Bool) (njobs : Option Int) (finished : List Nat) :
    Option (Except PyErr R) :=
  let tasks := stfts.map fun kw => partialCall loss kw args kwargs
  match pool, njobs with
  | false, none => some (sumFrom 0 tasks)
  | false, some n =>
    if n < 1 then some (.error .valueError) else sumGet 0 (poolSlots tasks finished)
  | true, _ => sumGet 0 (poolSlots tasks finished)

end multi

/-- `multiscale_spectral_loss(x, y, pool=pool, njobs=njobs)`, `sample/evaluation/metrics.py:132-158`,
with the default base loss and the default scales `{"n": 1 << i} for i in range(6, 12)`. -/
noncomputable def multiscaleLoss {V : Type} (getWindow : String → ℤ → Except PyErr (List ℝ))
    (stft : StftArgs V → List ℝ → Except PyErr (List (List ℂ))) (x y : List ℝ) (pool : Bool)
    (njobs : Option Int) (finished : List Nat) : Option (Except PyErr (WithTop ℝ)) :=
  multiScale
    (fun (a : List ℝ × List ℝ) (kw : Dict ℤ) =>
      linLogLoss getWindow stft { n := (kw.get? "n").getD 2048 } a.1 a.2)
    ((List.range' 6 6).map fun i => [("n", (1 : ℤ) <<< i)]) (x, y) [] pool njobs finished

/-! ## `CochleagramLoss` -/

/-- `np.abs` of a cochleagram. -/
noncomputable def absCoch : Coch → Coch
  | .real m => .real (m.map (List.map (Option.map norm)))
  | .cplx m => .real (m.map (List.map (Option.map norm)))

/-- `CochleagramLoss`, `sample/evaluation/metrics.py:187-206`: the fields that the methods use. -/
structure CochLoss where
  bank : IRBank
  analytic : Option String
  method : Option String
  stride : Option Int
  p : Expo
  post : Option (Option (Coch → Coch))

/-- `CochleagramLoss.__init__`, `sample/evaluation/metrics.py:187-206`: `gs` are the filters of
`GammatoneFilterbank(**kwargs)`, `post` is the keyword argument `postprocessing`, if given. -/
noncomputable def CochLoss.new (gs : List Gammatone) (fs : ℝ) (analytic method : Option String)
    (stride : Option Int) (p : Expo) (post : Option (Option (Coch → Coch))) :
    Except CochErr CochLoss :=
  match precompute gs fs (analytic = some "ir") with
  | .error e => .error e
  | .ok b => .ok
      { bank := b, analytic := analytic, method := method, stride := stride, p := p,
        post := match post with
          | some f => some f
          | none => if analytic.isSome then some (some absCoch) else none }

/-- `CochleagramLoss.cochleagram`, `sample/evaluation/metrics.py:208-221`. -/
noncomputable def CochLoss.cochleagram (hilb : List ℝ → List ℂ) (c : CochLoss) (x : List ℝ) :
    Except CochErr Coch :=
  match Psycho.cochleagram hilb x none (.precomputed c.bank) c.analytic c.method c.stride c.post with
  | .error e => .error e
  | .ok r => .ok r.1

/-- A cochleagram as an array of complex numbers; `none`: an entry is not finite. -/
noncomputable def cochArr : Coch → Option (Arr ℂ)
  | .real m => (m.mapM (List.mapM (Option.map Complex.ofReal))).map fun rows =>
      ⟨.float, rows⟩
  | .cplx m => (m.mapM (List.mapM id)).map fun rows => ⟨.complex, rows⟩

/-- `CochleagramLoss.__call__`, `sample/evaluation/metrics.py:223-244`; `none`: the cochleagram of one
of the signals has entries that are not finite. -/
noncomputable def CochLoss.call (hilb : List ℝ → List ℂ) (c : CochLoss) (x y : List ℝ) :
    Except CochErr (Option ℝ≥0∞) :=
  match c.cochleagram hilb x with
  | .error e => .error e
  | .ok cx =>
    match c.cochleagram hilb y with
    | .error e => .error e
    | .ok cy =>
      match cochArr cx, cochArr cy with
      | some ax, some ay => (liftPy (lpDistance ax ay c.p)).map some
      | _, _ => .ok none

end Verif.Eval
