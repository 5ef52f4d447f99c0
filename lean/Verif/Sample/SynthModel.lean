import Mathlib.Analysis.SpecialFunctions.Trigonometric.Basic
import Verif.Dsp.DbModel
import Verif.Sample.Model

/-!
# Model of the parts of `sample/sample.py` that use real functions

`_fit_track` (130-150), `_random_phases` (316-330), `additive_synth` (338-378).
-/

set_option autoImplicit false

namespace Verif.Sample

open Verif.Dsp

/-! ## One track -/

/-- `_D2K_CONST`, `sample/sample.py:128`. -/
noncomputable def d2kConst : ℝ := -40 * Real.logb 10 (Real.exp 1)

/-- Decay from the slope, `sample/sample.py:148`; a zero slope gives an infinity (`none`). -/
noncomputable def slopeToDecay (k : ℝ) : Option ℝ := if k = 0 then none else some (d2kConst / k)

/-- `_fit_track`, `sample/sample.py:130-150`: `reg` is the fit of (a clone of) the regressor, which
gives slope and intercept; `freqReduce` is the parameter `freq_reduce`.  The result is the
(one) column (frequency, decay, amplitude) of the parameter matrix.
Simplification: a regressor that gives NaN or infinities is not modelled. -/
noncomputable def fitTrack (reg : List ℝ → List (Option ℝ) → Except PyErr (ℝ × ℝ))
    (freqReduce : List (Option ℝ) → Option ℝ) (t : PreTrack ℝ) :
    Except PyErr (List (List (Option ℝ))) :=
  match reg t.time t.mag with
  | .error e => .error e
  | .ok (k, q) => .ok [[freqReduce t.freq, slopeToDecay k, some (db2a q)]]

/-! ## Additive synthesis -/

/-- `(1, n)` array broadcast to a row of size `m`. -/
def broadcastTo {α : Type*} (m : Nat) (l : List α) : Except PyErr (List α) :=
  if l.length = m then .ok l
  else
    match l with
    | [a] => .ok (List.replicate m a)
    | _ => .error .valueError

/-- Broadcast of two sizes. -/
def broadcastSize (m n : Nat) : Except PyErr Nat :=
  if m = n then .ok m else if m = 1 then .ok n else if n = 1 then .ok m else .error .valueError

/-- The argument `phases` of `additive_synth`: `None`, a string or an array. -/
inductive Phases where
  | none
  | str (s : String)
  | arr (l : List ℝ)

/-- `phases` after `sample/sample.py:364-373`: `None`, or an array with the shape that
`np.add(osc, row(phases), out=osc)` needs; `draw n` is the result of `_random_phases(n)`. -/
def resolvePhases (draw : Nat → List ℝ) (nfreqs : Nat) :
    Phases → Except PyErr (Option (List ℝ))
  | .none => .ok Option.none
  | .str s =>
    if s = "random" then
      match broadcastTo nfreqs (draw nfreqs) with
      | .error e => .error e
      | .ok p => .ok (some p)
    else .error .valueError
  | .arr l =>
    match broadcastTo nfreqs l with
    | .error e => .error e
    | .ok p => .ok (some p)

/-- One row of the argument of the oscillator, `sample/sample.py:363,373`. -/
noncomputable def phaseRow (freqs : List ℝ) (p : Option (List ℝ)) (t : ℝ) : List ℝ :=
  let osc := freqs.map fun f => 2 * Real.pi * t * f
  match p with
  | none => osc
  | some p => List.zipWith (· + ·) osc p

/-- Broadcast without a check (after `broadcastSize` succeeded). -/
def spread {α : Type*} (m : Nat) (l : List α) : List α :=
  if l.length = m then l
  else
    match l with
    | [a] => List.replicate m a
    | _ => l

/-- One output sample, `sample/sample.py:374-378`: `osc` is `np.cos` or `expi`, `emb` the embedding
of the reals. -/
noncomputable def synthSample {R : Type*} [Semiring R] (emb osc : ℝ → R) (m : Nat)
    (freqs decays amps : List ℝ) (p : Option (List ℝ)) (t : ℝ) : R :=
  let o := (phaseRow freqs p t).map osc
  let dec := decays.map fun d => emb (Real.exp (t * (-2 / d)))
  (List.zipWith (· * ·) (List.zipWith (· * ·) (spread m dec) (spread m o)) (amps.map emb)).sum

/-- `additive_synth` for one kind of oscillator, `sample/sample.py:338-378`.
Simplifications: a decay of zero (NumPy: division by zero, NaN samples) is a
`zeroDivisionError`; the result is always a list (NumPy gives a scalar for one sample). -/
noncomputable def synth {R : Type*} [Semiring R] (emb osc : ℝ → R) (draw : Nat → List ℝ)
    (x freqs decays amps : List ℝ) (phases : Phases) : Except PyErr (List R) :=
  match resolvePhases draw freqs.length phases with
  | .error e => .error e
  | .ok p =>
    match broadcastSize decays.length freqs.length with
    | .error e => .error e
    | .ok m =>
      if amps.length ≠ m then .error .valueError
      else if (0 : ℝ) ∈ decays then .error .zeroDivisionError
      else .ok (x.map (synthSample emb osc m freqs decays amps p))

/-- `utils.dsp.expi`, `sample/utils/dsp.py:188-200`. -/
noncomputable def expi (x : ℝ) : ℂ := Complex.exp (Complex.I * x)

/-- The output of `additive_synth`. -/
inductive Audio where
  | real (l : List ℝ)
  | complex (l : List ℂ)

/-- `additive_synth`, `sample/sample.py:338-378`. -/
noncomputable def additiveSynth (draw : Nat → List ℝ) (x freqs decays amps : List ℝ)
    (phases : Phases) (analytic : Bool) : Except PyErr Audio :=
  if analytic then
    match synth (fun r => (r : ℂ)) expi draw x freqs decays amps phases with
    | .error e => .error e
    | .ok l => .ok (.complex l)
  else
    match synth id Real.cos draw x freqs decays amps phases with
    | .error e => .error e
    | .ok l => .ok (.real l)

/-- `SAMPLE.predict`, `sample/sample.py:282-313`. -/
noncomputable def Fitted.predict (argsort : List ℝ → List Nat) (draw : Nat → List ℝ)
    (s : Fitted ℝ) (x : List ℝ) (nModes : Option Int) (order : String) (reverse : Bool)
    (phases : Phases) (analytic : Bool) : Except PyErr Audio :=
  match phases with
  | .arr l =>
    match s.predictArgs argsort nModes order reverse (some l) with
    | .error e => .error e
    | .ok (f, d, a, ph) => additiveSynth draw x f d a (.arr (ph.getD [])) analytic
  | p =>
    match s.predictArgs argsort nModes order reverse none with
    | .error e => .error e
    | .ok (f, d, a, _) => additiveSynth draw x f d a p analytic

end Verif.Sample
