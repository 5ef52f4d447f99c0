import Verif.Float.Basic
import Verif.Beat.RegressionModel
import Verif.Hinge.Model

/-!
# Start and bounds of the beat regression in floating point
(`sample/beatsdrop/regression.py:168-307`)

Every sum, difference, product and quotient is rounded.  What NumPy and the regressor compute
(`db2a`, the mean, slope and intercept, peaks of the autocorrelogram, the angle `p_hat`) is
arbitrary (`BeatLib`).
-/

set_option autoImplicit false

namespace Verif.Float

open Verif.Beat (Octet)
open Verif.Hinge (npMin npMax)

variable {K : Type} [Field K] [LinearOrder K] [IsStrictOrderedRing K] (A : Arith K)

/-- Computed results of the libraries: `reg t a` is the fit of the linear regressor (slope,
intercept), `db2a` is `utils.dsp.db2a` (`sample/utils/dsp.py:62-73`), `mean` is `np.mean`, `peaks t a`
are the locations of the peaks of the autocorrelogram, `phat t a am` is the angle `p_hat`; `pi` is
`np.pi`, `d2k` is `-40 * np.log10(np.e)`, `eps` is `np.finfo(float).eps`.  Simplification: all
results are numbers, only the regressor raises. -/
structure BeatLib (K : Type) where
  reg : List K → List K → Except PyErr (K × K)
  db2a : K → K
  mean : List K → K
  peaks : List K → List K → List K
  phat : List K → List K → K → K
  pi : K
  d2k : K
  eps : K

/-- The starting values; the decays may be infinite (`none`). -/
structure StartF (K : Type) where
  a0 : K
  a1 : K
  f0 : K
  f1 : K
  d0 : Option K
  d1 : Option K
  p0 : K
  p1 : K

/-- `am_freq`, `sample/beatsdrop/regression.py:197-198`. -/
def amFreqF (fs : K) : List K → K
  | [] => 0
  | l :: _ => A.div fs (A.mul 2 l)

/-- `_default_params_init`, `sample/beatsdrop/regression.py:168-210`.  A slope of zero gives an
infinite decay. -/
def defaultInitBeatF (L : BeatLib K) (fs : K) (t a f : List K) : Except PyErr (StartF K) :=
  match L.reg t a with
  | .error e => .error e
  | .ok (k, q) =>
    let a0 := A.div (L.db2a q) 2
    let carrier := L.mean f
    let am := amFreqF A fs (L.peaks t a)
    let d := if k = 0 then none else some (A.div L.d2k k)
    .ok ⟨a0, a0, A.add carrier am, A.sub carrier am, d, d, 0, A.mul (-2) (L.phat t a am)⟩

/-- The bounds of the amplitudes, `sample/beatsdrop/regression.py:236-248`. -/
def ampBoundsF (aMin aMax a0 a1 : K) : K × K :=
  if aMin = aMax then (0, if (0 : K) = aMax then 1 else aMax)
  else
    let hi := max (max aMax a0) a1
    let lo := min (min aMin a0) a1
    let d := A.sub hi lo
    (max 0 (A.sub lo d), A.add hi d)

/-- The bounds of the frequencies, `sample/beatsdrop/regression.py:250-255`. -/
def freqBoundsF (fMin fMax f0 f1 : K) : K × K :=
  let df := min (A.sub fMax fMin) 1
  (A.sub (min (min f0 f1) fMin) df, A.add (max (max f0 f1) fMax) df)

/-- The bounds from the extremes of the data, `sample/beatsdrop/regression.py:257-261`. -/
def boundsOfF (L : BeatLib K) (aMin aMax fMin fMax : K) (p : StartF K) : Octet K × Octet K :=
  let a := ampBoundsF A aMin aMax p.a0 p.a1
  let f := freqBoundsF A fMin fMax p.f0 p.f1
  (⟨a.1, a.1, f.1, f.1, L.eps, L.eps, -L.pi, A.sub p.p1 L.pi⟩,
   ⟨a.2, a.2, f.2, f.2, 100, 100, L.pi, A.add p.p1 L.pi⟩)

/-- `_default_bounds`, `sample/beatsdrop/regression.py:213-261`. -/
def defaultBoundsBeatF (L : BeatLib K) (t a f : List K) (p : StartF K) :
    Except PyErr (Octet K × Octet K) :=
  if t.length ≤ 1 then .error .valueError
  else
    match npMin (a.map L.db2a), npMax (a.map L.db2a), npMin f, npMax f with
    | .ok aMin, .ok aMax, .ok fMin, .ok fMax => .ok (boundsOfF A L aMin aMax fMin fMax p)
    | _, _, _, _ => .error .valueError

/-- The test of the starting value, `sample/beatsdrop/regression.py:286-287`: the parameters if they
are all strictly inside the bounds. -/
def feasibleF (p : StartF K) (lo hi : Octet K) : Option (Octet K) :=
  match p.d0, p.d1 with
  | some d0, some d1 =>
    if lo.a0 < p.a0 ∧ lo.a1 < p.a1 ∧ lo.f0 < p.f0 ∧ lo.f1 < p.f1 ∧ lo.d0 < d0 ∧ lo.d1 < d1 ∧
        lo.p0 < p.p0 ∧ lo.p1 < p.p1 ∧ p.a0 < hi.a0 ∧ p.a1 < hi.a1 ∧ p.f0 < hi.f0 ∧ p.f1 < hi.f1 ∧
        d0 < hi.d0 ∧ d1 < hi.d1 ∧ p.p0 < hi.p0 ∧ p.p1 < hi.p1 then
      some ⟨p.a0, p.a1, p.f0, p.f1, d0, d1, p.p0, p.p1⟩
    else none
  | _, _ => none

/-- `BeatRegression.fit`, `sample/beatsdrop/regression.py:263-307`, with the default starting value and
bounds: the attribute `params_`.  `solve` is `scipy.optimize.least_squares` with the residual
function (any function of the start and the bounds). -/
def fitBeatF (L : BeatLib K) (fs : K)
    (solve : Octet K → Octet K → Octet K → Except PyErr (Octet K)) (t a f : List K) :
    Except PyErr (Octet K) :=
  match defaultInitBeatF A L fs t a f with
  | .error e => .error e
  | .ok p =>
    match defaultBoundsBeatF A L t a f p with
    | .error e => .error e
    | .ok b =>
      match feasibleF p b.1 b.2 with
      | none => .error .valueError
      | some x0 => solve x0 b.1 b.2

end Verif.Float
