import Verif.Eval.MetricsModel
import Verif.Psycho.ScaleModel
import Verif.Sample.SynthModel

/-!
# Model of `sample/evaluation/random.py`

The random generator is a state and functions that draw from it.
-/

set_option autoImplicit false

namespace Verif.Eval

open Verif.Out Verif.Psycho Verif.Sample

/-- A random draw: from the state of the generator, a value and the next state.
Simplification: the state after an exception is not modelled. -/
abbrev Draw (σ α : Type) := σ → Except PyErr (α × σ)

/-- The methods of `numpy.random.Generator` used in `sample/evaluation/random.py:119-240`.  `uniform`
and `beta` draw one value; the others draw a given number of values. -/
structure Rng (σ : Type) where
  beta (a b : ℝ) : Draw σ ℝ
  uniform (low high : ℝ) : Draw σ ℝ
  uniformN (low high : ℝ) (n : Nat) : Draw σ (List ℝ)
  exponentialN (scale : ℝ) (n : Nat) : Draw σ (List ℝ)
  normalN (scale : ℝ) (n : ℤ) : Draw σ (List ℝ)

/-- The result of a decorated method: one value or a list. -/
inductive Sampled (α : Type) where
  | one (a : α)
  | many (l : List α)

/-- `[func(...) for _ in range(n)]`, `sample/evaluation/random.py:24`. -/
def draws {σ α : Type} (func : Draw σ α) : Nat → Draw σ (List α)
  | 0, s => .ok ([], s)
  | n + 1, s =>
    match func s with
    | .error e => .error e
    | .ok (a, s1) =>
      match draws func n s1 with
      | .error e => .error e
      | .ok (l, s2) => .ok (a :: l, s2)

/-- `_repeated_samples`, `sample/evaluation/random.py:11-28`; `size` is the keyword argument.
(The decorator `add_keyword_arg` changes only the signature that is shown.) -/
def repeated {σ α : Type} (func : Draw σ α) (size : Option ℤ) : Draw σ (Sampled α) := fun s =>
  match draws func (match size with | none => 1 | some n => n.toNat) s with
  | .error e => .error e
  | .ok (l, s') =>
    match size with
    | some _ => .ok (.many l, s')
    | none =>
      match l with
      | a :: _ => .ok (.one a, s')
      | [] => .error .indexError

/-- The fields of `BeatsGenerator`, `sample/evaluation/random.py:64-101`, with the default values. -/
structure BeatsGen where
  fMin : ℝ := 200
  fMax : ℝ := 2000
  fA : ℝ := 2
  fB : ℝ := 2
  ampMin : ℝ := -10
  decayMin : ℝ := 0.5
  decay : ℝ := 1
  onlybeat : Bool := false
  beatMin : ℝ := 1.8
  beatMax : ℝ := 18
  beatA : ℝ := 2
  beatB : ℝ := 2
  deltaMin : ℝ := 1.5
  deltaMax : ℝ := 4
  deltaA : ℝ := 2
  deltaB : ℝ := 4
  snr : ℝ := 45

/-- `snr_amp`, `sample/evaluation/random.py:103-106`. -/
noncomputable def BeatsGen.snrAmp (g : BeatsGen) : ℝ := Dsp.db2a g.snr

/-- `noise_amp`, `sample/evaluation/random.py:108-111`. -/
noncomputable def BeatsGen.noiseAmp (g : BeatsGen) : ℝ := 1 / (1 + g.snrAmp)

/-- `sine_amp`, `sample/evaluation/random.py:113-116`. -/
noncomputable def BeatsGen.sineAmp (g : BeatsGen) : ℝ := g.snrAmp / (1 + g.snrAmp)

section gen
variable {σ : Type} (rng : Rng σ)

/-- The value of `beta_twosides` from the draws, `sample/evaluation/random.py:141-144`. -/
noncomputable def twosides (x u : ℝ) (left right : Cell) (positive : ℝ) : Cell :=
  left.bind fun l => right.map fun r =>
    (x * (r - l) + l) * (2 * (if u ≤ positive then 1 else 0) - 1)

/-- `beta_twosides` of one sample, `sample/evaluation/random.py:118-145`, without further keyword
arguments. -/
noncomputable def betaTwosides (a b : ℝ) (left right : Cell) (positive : ℝ) : Draw σ Cell := fun s =>
  match rng.beta a b s with
  | .error e => .error e
  | .ok (x, s1) =>
    match rng.uniform 0 1 s1 with
    | .error e => .error e
    | .ok (u, s2) => .ok (twosides x u left right positive, s2)

/-- `hz2bark` of one number. -/
noncomputable def bark1 (f : Cell) : Except PyErr Cell :=
  match callV hz2barkV (kwOpt "mode" none) [f] with
  | .error e => .error e
  | .ok [c] => .ok c
  | .ok _ => .error .typeError

/-- Difference of two numbers; `none` if one of them is. -/
noncomputable def cellSub (a b : Cell) : Cell := a.bind fun x => b.map fun y => x - y

/-- `1 / x` of a Python number (one value of `Generator.beta` is a Python float). -/
noncomputable def cellInv (a : Cell) : Except PyErr Cell :=
  match a with
  | none => .ok none
  | some x => if x = 0 then .error .zeroDivisionError else .ok (some (1 / x))

/-- The bound `left` or `right` of the last draw of `freqs`, `sample/evaluation/random.py:167-172`:
`pick` is `min` or `max`.  Simplification: `none` if any of the numbers is not finite (Python's `min`
and `max` may drop it). -/
noncomputable def barkBound (pick : ℝ → ℝ → ℝ) (f : ℝ) (beat delta : Cell) : Except PyErr Cell :=
  match bark1 (some f) with
  | .error e => .error e
  | .ok c =>
    match bark1 (cellSub (some f) beat) with
    | .error e => .error e
    | .ok c' => .ok ((cellSub c c').bind fun d => delta.bind fun t =>
        c.map fun c => c - pick (pick d t) 0)

/-- `bark2hz((b, b, b + delta)) + (0, beat, 0)`, `sample/evaluation/random.py:174`. -/
noncomputable def triple (b delta beat : Cell) : Except PyErr (List Cell) :=
  match callV bark2hzV (kwOpt "mode" none) [b, b, b.bind fun x => delta.map fun d => x + d] with
  | .error e => .error e
  | .ok [f1, f2, f3] => .ok [f1, f2.bind fun x => beat.map fun d => x + d, f3]
  | .ok _ => .error .valueError

/-- `freqs` of one sample, `sample/evaluation/random.py:147-174`. -/
noncomputable def BeatsGen.freqs (g : BeatsGen) : Draw σ (List Cell) := fun s =>
  if g.beatMax = 0 ∨ g.beatMin = 0 then .error .zeroDivisionError
  else
    match betaTwosides rng g.beatA g.beatB (some (1 / g.beatMax)) (some (1 / g.beatMin)) (1 / 2) s with
    | .error e => .error e
    | .ok (x, s1) =>
      match cellInv x with
      | .error e => .error e
      | .ok beat =>
        match betaTwosides rng g.deltaA g.deltaB (some g.deltaMin) (some g.deltaMax) (1 / 2) s1 with
        | .error e => .error e
        | .ok (delta, s2) =>
          match barkBound min g.fMin beat delta with
          | .error e => .error e
          | .ok left =>
            match barkBound max g.fMax beat delta with
            | .error e => .error e
            | .ok right =>
              match betaTwosides rng g.fA g.fB left right 1 s2 with
              | .error e => .error e
              | .ok (b, s3) =>
                match triple b delta beat with
                | .error e => .error e
                | .ok l => .ok (l, s3)

/-- `decays` of one sample, `sample/evaluation/random.py:176-187`. -/
noncomputable def BeatsGen.decays (g : BeatsGen) : Draw σ (List ℝ) := fun s =>
  match rng.exponentialN (g.decay - g.decayMin) 3 s with
  | .error e => .error e
  | .ok (d, s1) => .ok (d.map fun x => x + g.decayMin, s1)

/-- The normalised amplitudes from the drawn levels, `sample/evaluation/random.py:199-203`. -/
noncomputable def BeatsGen.ampsOf (g : BeatsGen) (levels : List ℝ) : List ℝ :=
  let a := levels.map Dsp.db2a
  let a := if g.onlybeat then a.dropLast ++ [0] else a
  a.map fun x => x * (g.sineAmp / a.sum)

/-- `amps` of one sample, `sample/evaluation/random.py:189-204`. -/
noncomputable def BeatsGen.amps (g : BeatsGen) : Draw σ (List ℝ) := fun s =>
  match rng.uniformN g.ampMin 0 3 s with
  | .error e => .error e
  | .ok (l, s1) => .ok (g.ampsOf l, s1)

/-- `noise` of one sample, `sample/evaluation/random.py:206-213`. -/
noncomputable def BeatsGen.noise (g : BeatsGen) (n : ℤ) : Draw σ (List ℝ) :=
  rng.normalN g.noiseAmp n

/-- The result of `audio`, `sample/evaluation/random.py:240`. -/
structure BeatAudio where
  x : List ℝ
  fs : ℝ
  freqs : List ℝ
  decays : List ℝ
  amps : List ℝ
  phases : List ℝ

/-- `x += noise`, `sample/evaluation/random.py:239`: `additive_synth` gives an array without
dimensions for one sample, which cannot hold the sum. -/
def addNoise (x noise : List ℝ) : Except PyErr (List ℝ) :=
  if x.length = 1 then .error .valueError
  else if x.length = noise.length then .ok (List.zipWith (· + ·) x noise)
  else .error .valueError

/-- `audio` of one sample, `sample/evaluation/random.py:215-240`; `none`: a frequency is not finite. -/
noncomputable def BeatsGen.audio (g : BeatsGen) (dur : Option ℝ) (fs : ℝ) :
    Draw σ (Option BeatAudio) := fun s =>
  match g.freqs rng s with
  | .error e => .error e
  | .ok (fc, s1) =>
    match g.decays rng s1 with
    | .error e => .error e
    | .ok (d, s2) =>
      match g.amps rng s2 with
      | .error e => .error e
      | .ok (a, s3) =>
        match rng.uniformN 0 (2 * Real.pi) 3 s3 with
        | .error e => .error e
        | .ok (ph, s4) =>
          let n := pyInt (dur.getD (g.decay * 3) * fs)
          match fc.mapM id with
          | none => .ok (none, s4)
          | some f =>
            match additiveSynth (fun _ => []) ((List.range n.toNat).map fun (i : Nat) => (i : ℝ) / fs)
                f d a (.arr ph) false with
            | .error e => .error e
            | .ok (.complex _) => .error .typeError
            | .ok (.real x) =>
              match g.noise rng n s4 with
              | .error e => .error e
              | .ok (w, s5) =>
                match addNoise x w with
                | .error e => .error e
                | .ok y => .ok (some ⟨y, fs, f, d, a, ph⟩, s5)

end gen

end Verif.Eval
