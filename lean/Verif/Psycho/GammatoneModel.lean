import Mathlib.Analysis.RCLike.Basic
import Mathlib.Analysis.SpecialFunctions.Trigonometric.Basic
import Verif.Dsp.BisectModel
import Verif.Out.FormulaSpec

/-!
# Gammatone filters (`sample/psycho.py:403-699`)

Real numbers without rounding.  A parameter given as a callable is represented by the value that it
returns.  Functions with an `out` argument (`erb`, `db2a`, `a2db`, `_envelope`, `wavefun`) are used
by their values, which are the subject of C34.
-/

set_option autoImplicit false

namespace Verif.Psycho

open Verif.Dsp

/-- `GammatoneFilter`, `sample/psycho.py:425-439`. -/
structure Gammatone where
  f : ℝ
  n : ℕ
  bandwidth? : Option ℝ := none
  tc? : Option ℝ := none
  phi? : Option ℝ := none
  normalize : Bool := false
  a? : Option ℝ := none

namespace Gammatone

variable (g : Gammatone)

/-- `bandwidth`, `sample/psycho.py:441-448`. -/
noncomputable def bandwidth : ℝ := g.bandwidth?.getD (Out.erbQ g.f)

/-- `raw_group_delay`, `sample/psycho.py:454-458`. -/
noncomputable def rawGroupDelay : ℝ := ((g.n : ℝ) - 1) / (2 * Real.pi * g.bandwidth)

/-- `t_c`, `sample/psycho.py:470-477`. -/
noncomputable def tc : ℝ := g.tc?.getD g.rawGroupDelay

/-- `group_delay`, `sample/psycho.py:460-464`. -/
noncomputable def groupDelay : ℝ := g.rawGroupDelay - g.tc

/-- Setting `group_delay`, `sample/psycho.py:466-468`. -/
noncomputable def setGroupDelay (v : ℝ) : Gammatone := { g with tc? := some (g.rawGroupDelay - v) }

/-- `phi`, `sample/psycho.py:483-490`. -/
noncomputable def phi : ℝ := g.phi?.getD (-2 * Real.pi * g.f * g.tc)

/-- `envelope`, `sample/psycho.py:581-632`, for an order of at least one (`C34_envelope`). -/
noncomputable def envelope (t : ℝ) : ℝ := Out.gammatone g.n g.tc g.bandwidth t

/-- `wavefun(t)`, `sample/psycho.py:634-664` (`C34_wavefun`). -/
noncomputable def wave (t : ℝ) : ℝ := g.envelope t * Real.cos (2 * Real.pi * g.f * t + g.phi)

/-- `wavefun(t, analytic=True)`, `sample/psycho.py:634-664`. -/
noncomputable def waveAnalytic (t : ℝ) : ℂ :=
  (g.envelope t : ℂ) * Complex.exp (Complex.I * ((2 * Real.pi * g.f * t + g.phi : ℝ) : ℂ))

end Gammatone

/-- What can go wrong in `t60`. -/
inductive T60Err
  | value
  | convergence
  deriving DecidableEq

/-- The loop of `t60`, `sample/psycho.py:538-553`: at most `k` trials, from `hi` and `range` on. -/
noncomputable def t60Loop (foo : ℝ → ℝ) (steps : Int) : Nat → ℝ → ℝ → Except T60Err ℝ
  | 0, _, _ => .error .value
  | k + 1, hi, range =>
    match bisect foo (hi + range) hi steps with
    | .ok t => .ok t
    | .error _ => t60Loop foo steps k (hi + range) (range * 2)

/-- `a2db` of a ratio of amplitudes that is not negative; `none` is minus infinity. -/
noncomputable def levelOf (r : ℝ) : Option ℝ := if r = 0 then none else some (20 * Real.logb 10 r)

/-- `sample/psycho.py:556`. -/
noncomputable def tooFar (level : Option ℝ) (floor th : ℝ) : Prop :=
  match level with
  | none => True
  | some l => th < |l - floor|

open Classical in
/-- `t60`, `sample/psycho.py:507-561`; the envelope at the group delay is not zero. -/
noncomputable def Gammatone.t60 (g : Gammatone) (steps : Int) (starts : Nat) (range : Option ℝ)
    (floor : ℝ) (warnTh : Option ℝ) : Except T60Err ℝ :=
  match t60Loop (fun t => g.envelope t - (10 : ℝ) ^ (floor / 20) * g.envelope g.groupDelay) steps
      starts g.groupDelay (range.getD (2 * (g.groupDelay + g.tc))) with
  | .error e => .error e
  | .ok t =>
    match warnTh with
    | none => .ok t
    | some th =>
      if tooFar (levelOf (g.envelope t / g.envelope g.groupDelay)) floor th then .error .convergence
      else .ok t

/-- `t60()` with the default arguments. -/
noncomputable def Gammatone.t60Default (g : Gammatone) : Except T60Err ℝ :=
  g.t60 32 16 none (-60) (some (1 / 1000))

/-- `ir_size` for a value of `t60`, `sample/psycho.py:572-579`. -/
noncomputable def Gammatone.irSize (g : Gammatone) (fs t60 : ℝ) : ℤ :=
  let w := 2 * Real.pi * g.f
  let phase60 := g.phi + w * t60
  let phase60 := (⌈phase60 * 2 / Real.pi⌉ : ℝ) * Real.pi / 2
  let t60 := (phase60 - g.phi) / w
  ⌊(t60 + g.tc) * fs⌋

/-- The scaling of `ir`, `sample/psycho.py:691-699`; real or complex samples. -/
noncomputable def scaleIr {𝕜 : Type} [RCLike 𝕜] (normalize : Bool) (a : Option ℝ) (out : List 𝕜) :
    List 𝕜 :=
  let a := if normalize then
      some (a.getD 1 / Real.sqrt (RCLike.re ((out.map fun z => z * (starRingEnd 𝕜) z).sum)))
    else a
  match a with
  | none => out
  | some a => out.map fun z => (a : 𝕜) * z

/-- The time axis of `ir`, `sample/psycho.py:689`. -/
noncomputable def Gammatone.axis (g : Gammatone) (fs t60 : ℝ) : List ℝ :=
  (List.range (g.irSize fs t60).toNat).map fun (k : Nat) => (k : ℝ) / fs - g.tc

/-- `ir(t)` and `ir(t, analytic=True)`, `sample/psycho.py:666-699`, on a given time axis. -/
noncomputable def Gammatone.ir (g : Gammatone) (t : List ℝ) : List ℝ :=
  scaleIr g.normalize g.a? (t.map g.wave)

/-- See `Gammatone.ir`. -/
noncomputable def Gammatone.irAnalytic (g : Gammatone) (t : List ℝ) : List ℂ :=
  scaleIr g.normalize g.a? (t.map g.waveAnalytic)

end Verif.Psycho
