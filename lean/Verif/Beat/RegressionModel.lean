import Verif.Beat.BeatModel
import Verif.Sample.SynthModel

/-!
# Regression of beats (`sample/beatsdrop/regression.py`)

`sort_params` (48-76), `_default_params_init` (168-210), `_default_bounds` (213-261),
`BeatRegression.fit` (263-307), the residuals and the disambiguation of `DualBeatRegression`
(426-496).
-/

set_option autoImplicit false

namespace Verif.Beat

open Verif.Out

/-- `BeatModelParams`, `sample/beatsdrop/regression.py:18`: the order is that of the tuple. -/
structure Octet (K : Type*) where
  a0 : K
  a1 : K
  f0 : K
  f1 : K
  d0 : K
  d1 : K
  p0 : K
  p1 : K
  deriving DecidableEq

section Sorting

variable {K : Type*} [Field K] [LinearOrder K]

/-- `_param_energies`, `sample/beatsdrop/regression.py:48-56`. -/
def paramEnergies (p : Octet K) : Option K × Option K :=
  (some (Sample.modalEnergy p.a0 p.d0), some (Sample.modalEnergy p.a1 p.d1))

/-- `np.argmin` of two values as a `bool`: the first minimum, and NaN (`none`) before everything. -/
def argmin2 : Option K × Option K → Bool
  | (none, _) => false
  | (some _, none) => true
  | (some x, some y) => decide (y < x)

/-- `sort_params`, `sample/beatsdrop/regression.py:59-76`. -/
def sortParams (p : Octet K) (key : Octet K → Option K × Option K) (descending : Bool) : Octet K :=
  let isDescending := argmin2 (key p)
  if descending ^^ isDescending then ⟨p.a1, p.a0, p.f1, p.f0, p.d1, p.d0, p.p1, p.p0⟩ else p

end Sorting

/-- The starting values; the decays may be infinite (`none`). -/
structure Start where
  a0 : ℝ
  a1 : ℝ
  f0 : ℝ
  f1 : ℝ
  d0 : Cell
  d1 : Cell
  p0 : ℝ
  p1 : ℝ

/-- `am_freq`, `sample/beatsdrop/regression.py:197-198`. -/
noncomputable def amFreq (fs : ℝ) : List ℝ → ℝ
  | [] => 0
  | l :: _ => fs / (2 * l)

/-- `_default_params_init`, `sample/beatsdrop/regression.py:168-210`.  `reg` is the linear regressor
(slope and intercept), `peaks t a` the locations of the peaks of the autocorrelogram and
`phat t a am` the angle `p_hat`: any functions. -/
noncomputable def defaultInit (reg : List ℝ → List ℝ → Except PyErr (ℝ × ℝ))
    (peaks : List ℝ → List ℝ → List ℝ) (phat : List ℝ → List ℝ → ℝ → ℝ) (fs : ℝ)
    (t a f : List ℝ) : Except PyErr Start :=
  match reg t a with
  | .error e => .error e
  | .ok (k, q) =>
    let a0 := Dsp.db2a q / 2
    let carrier := f.sum / f.length
    let am := amFreq fs (peaks t a)
    let d := Sample.slopeToDecay k
    .ok ⟨a0, a0, carrier + am, carrier - am, d, d, 0, -2 * phat t a am⟩

/-- `np.min`. -/
noncomputable def npMin : List ℝ → Except PyErr ℝ
  | [] => .error .valueError
  | x :: xs => .ok (xs.foldl min x)

/-- `np.max`. -/
noncomputable def npMax : List ℝ → Except PyErr ℝ
  | [] => .error .valueError
  | x :: xs => .ok (xs.foldl max x)

open Classical in
/-- The bounds of the amplitudes, `sample/beatsdrop/regression.py:236-248`. -/
noncomputable def ampBounds (aMin aMax a0 a1 : ℝ) : ℝ × ℝ :=
  if aMin = aMax then (0, if (0 : ℝ) = aMax then 1 else aMax)
  else
    let hi := max (max aMax a0) a1
    let lo := min (min aMin a0) a1
    let d := hi - lo
    (max 0 (lo - d), hi + d)

/-- The bounds of the frequencies, `sample/beatsdrop/regression.py:250-255`. -/
noncomputable def freqBounds (fMin fMax f0 f1 : ℝ) : ℝ × ℝ :=
  let df := min (fMax - fMin) 1
  (min (min f0 f1) fMin - df, max (max f0 f1) fMax + df)

/-- The bounds from the extremes of the data, `sample/beatsdrop/regression.py:257-261`. -/
noncomputable def boundsOf (eps aMin aMax fMin fMax : ℝ) (p : Start) : Octet ℝ × Octet ℝ :=
  let a := ampBounds aMin aMax p.a0 p.a1
  let f := freqBounds fMin fMax p.f0 p.f1
  (⟨a.1, a.1, f.1, f.1, eps, eps, -Real.pi, p.p1 - Real.pi⟩,
   ⟨a.2, a.2, f.2, f.2, 100, 100, Real.pi, p.p1 + Real.pi⟩)

/-- `_default_bounds`, `sample/beatsdrop/regression.py:213-261`; `eps` is the precision of floats. -/
noncomputable def defaultBounds (eps : ℝ) (t a f : List ℝ) (p : Start) :
    Except PyErr (Octet ℝ × Octet ℝ) :=
  if t.length ≤ 1 then .error .valueError
  else
    match npMin (a.map Dsp.db2a), npMax (a.map Dsp.db2a), npMin f, npMax f with
    | .ok aMin, .ok aMax, .ok fMin, .ok fMax => .ok (boundsOf eps aMin aMax fMin fMax p)
    | _, _, _, _ => .error .valueError

open Classical in
/-- The test of the starting value, `sample/beatsdrop/regression.py:286-287`: the parameters if they
are all strictly inside the bounds. -/
noncomputable def feasible (p : Start) (lo hi : Octet ℝ) : Option (Octet ℝ) :=
  match p.d0, p.d1 with
  | some d0, some d1 =>
    if lo.a0 < p.a0 ∧ lo.a1 < p.a1 ∧ lo.f0 < p.f0 ∧ lo.f1 < p.f1 ∧ lo.d0 < d0 ∧ lo.d1 < d1 ∧
        lo.p0 < p.p0 ∧ lo.p1 < p.p1 ∧ p.a0 < hi.a0 ∧ p.a1 < hi.a1 ∧ p.f0 < hi.f0 ∧ p.f1 < hi.f1 ∧
        d0 < hi.d0 ∧ d1 < hi.d1 ∧ p.p0 < hi.p0 ∧ p.p1 < hi.p1 then
      some ⟨p.a0, p.a1, p.f0, p.f1, d0, d1, p.p0, p.p1⟩
    else none
  | _, _ => none

/-- `BeatRegression.fit`, `sample/beatsdrop/regression.py:263-307`: the attribute `params_`.  `init`
and `bounds` are the parameters `params_init` and `bounds`; `solve` is
`scipy.optimize.least_squares` with the residual function (any function). -/
noncomputable def fitBeat (init : List ℝ → List ℝ → List ℝ → Except PyErr Start)
    (bounds : List ℝ → List ℝ → List ℝ → Start → Except PyErr (Octet ℝ × Octet ℝ))
    (solve : Octet ℝ → Octet ℝ → Octet ℝ → Except PyErr (Octet ℝ)) (t a f : List ℝ) :
    Except PyErr (Octet ℝ) :=
  match init t a f with
  | .error e => .error e
  | .ok p =>
    match bounds t a f p with
    | .error e => .error e
    | .ok b =>
      match feasible p b.1 b.2 with
      | none => .error .valueError
      | some x0 => solve x0 b.1 b.2

/-! ## `DualBeatRegression` -/

/-- The residuals of the amplitudes and of the frequencies. -/
structure Loss where
  /-- `amp_loss` -/
  amp : List Cell → List Cell → List Cell
  /-- `freq_loss` -/
  freq : List Cell → List Cell → List Cell
  /-- `freq_w` -/
  w : ℝ
  /-- limitation of the frequencies to `freq_clip` interquartile ranges
  (`sample/beatsdrop/regression.py:448-451`, any function; `clipCells` of C169 is the one of the code) -/
  clip : List Cell → List Cell

/-- `_default_amp_loss`, `sample/beatsdrop/regression.py:416-426`. -/
noncomputable def defaultAmpLoss (x y : List Cell) : List Cell :=
  List.zipWith (lift2 fun u v => some (u - v)) x y

/-- `_default_freq_loss`, `sample/beatsdrop/regression.py:404-414`; `hz2mel` is `Out.mel` (C37). -/
noncomputable def defaultFreqLoss (x y : List Cell) : List Cell :=
  List.zipWith (lift2 fun u v => some (u - v)) (x.map fun c => c.bind mel) (y.map fun c => c.bind mel)

/-- The values of an array. -/
def elems : Val → List Cell
  | .sc c => [c]
  | .ar l => l

/-- `_residual_fn_`, `sample/beatsdrop/regression.py:443-454`; `aLin` and `fAbs` are
`sample/beatsdrop/regression.py:440-441`.  Losses of different sizes are a `ValueError`. -/
noncomputable def residuals (L : Loss) (ts : List ℝ) (aLin fAbs : List Cell) (p : Octet ℝ) :
    Except PyErr (List Cell × List Cell) :=
  match modalBeat p.a0 p.a1 p.f0 p.f1 p.d0 p.d1 p.p0 p.p1 with
  | .error e => .error e
  | .ok b =>
    match b.am (.ar (ts.map some)), b.fm (.ar (ts.map some)) with
    | .ok am, .ok fm =>
      let aLoss := L.amp aLin (elems am)
      let fEst := (elems fm).map fun c => c.map fun v => |v / (2 * Real.pi)|
      let fLoss := (L.freq fAbs (L.clip fEst)).map fun c => c.map fun v => L.w * v
      if aLoss.length = fLoss.length then .ok (aLoss, fLoss) else .error .valueError
    | .error e, _ => .error e
    | _, .error e => .error e

/-- Sum of squares; `none` if a value is not finite. -/
noncomputable def sumSq : List Cell → Cell
  | [] => some 0
  | c :: cs => lift2 (fun x y => some (x ^ 2 + y)) c (sumSq cs)

/-- `_ssr`, `sample/beatsdrop/regression.py:481-492`. -/
noncomputable def ssr (L : Loss) (ts : List ℝ) (aLin fAbs : List Cell) (p : Octet ℝ) :
    Except PyErr Cell :=
  match residuals L ts aLin fAbs p with
  | .error e => .error e
  | .ok (a, f) => .ok (sumSq (a ++ f))

/-- The second hypothesis, `sample/beatsdrop/regression.py:473-478`. -/
def exchange {K : Type*} (p : Octet K) : Octet K := ⟨p.a0, p.a1, p.f1, p.f0, p.d0, p.d1, p.p1, p.p0⟩

/-- The disambiguation, `sample/beatsdrop/regression.py:470-495`; `lt` is `<` of floats, where nothing is
known about it for values that are not finite. -/
noncomputable def disambiguate (lt : Cell → Cell → Bool) (L : Loss) (ts : List ℝ) (aLin fAbs : List Cell)
    (p : Octet ℝ) : Except PyErr (Octet ℝ) :=
  match ssr L ts aLin fAbs p, ssr L ts aLin fAbs (exchange p) with
  | .ok s, .ok s' => .ok (if lt s' s then exchange p else p)
  | .error e, _ => .error e
  | _, .error e => .error e

/-- `DualBeatRegression.fit`, `sample/beatsdrop/regression.py:458-496`: the attribute `params_`. -/
noncomputable def fitDual (dis : Bool) (lt : Cell → Cell → Bool) (L : Loss)
    (init : List ℝ → List ℝ → List ℝ → Except PyErr Start)
    (bounds : List ℝ → List ℝ → List ℝ → Start → Except PyErr (Octet ℝ × Octet ℝ))
    (solve : Octet ℝ → Octet ℝ → Octet ℝ → Except PyErr (Octet ℝ)) (t a f : List ℝ) :
    Except PyErr (Octet ℝ) :=
  match fitBeat init bounds solve t a f with
  | .error e => .error e
  | .ok p =>
    if dis then
      disambiguate lt L t (a.map fun x => some (Dsp.db2a x)) (f.map fun x => some |x|) p
    else .ok p

end Verif.Beat
