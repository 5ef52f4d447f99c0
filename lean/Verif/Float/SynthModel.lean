import Mathlib.Analysis.SpecialFunctions.Trigonometric.Basic
import Verif.Float.Basic

/-!
# Additive synthesis in floating point (`sample/sample.py:338-378`)

The real oscillator, one output sample.  Computed cosines and exponentials are arguments.
Simplification: arrays of parameters have the same size (shapes and their errors are in
`Sample/SynthModel`).
-/

set_option autoImplicit false

namespace Verif.Float

section Dot

variable {K : Type} [Field K] [LinearOrder K] [IsStrictOrderedRing K] (A : Arith K)

/-- Results of the product of a row by a column in `@` (`sample/sample.py:378`): products and sums are
rounded, in any order and grouping, with or without fused multiplication and addition. -/
inductive DotF : List (K × K) → K → Prop
  | nil : DotF [] 0
  | mul (a b : K) : DotF [(a, b)] (A.mul a b)
  | fma (a b : K) {l s} : DotF l s → DotF ((a, b) :: l) (A.rnd (a * b + s))
  | add {l l' s s'} : DotF l s → DotF l' s' → DotF (l ++ l') (A.add s s')
  | perm {l l' s} : l.Perm l' → DotF l s → DotF l' s

end Dot

/-- The parameters of one mode; no phase if the argument `phases` is `None`. -/
structure ModeF where
  f : ℝ
  d : ℝ
  a : ℝ
  phi : Option ℝ

variable (A : Arith ℝ)

/-- `sample/sample.py:363, 373`: the argument of the oscillator; `twoPi` is the number `2 * np.pi`.
The inner size of the matrix product is one. -/
noncomputable def phaseF (twoPi t : ℝ) (m : ModeF) : ℝ :=
  let osc := A.mul (A.mul twoPi t) m.f
  match m.phi with
  | none => osc
  | some p => A.add osc p

/-- `sample/sample.py:375-376`: the envelope. -/
noncomputable def decayF (expF : ℝ → ℝ) (t : ℝ) (m : ModeF) : ℝ := expF (A.mul t (A.div (-2) m.d))

/-- `sample/sample.py:378`, `dec * osc`, one entry. -/
noncomputable def modeF (cosF expF : ℝ → ℝ) (twoPi t : ℝ) (m : ModeF) : ℝ :=
  A.mul (decayF A expF t m) (cosF (phaseF A twoPi t m))

/-- `y` is a possible output sample of `additive_synth` at the time `t`, `sample/sample.py:338-378`. -/
def SynthF (cosF expF : ℝ → ℝ) (twoPi t : ℝ) (ms : List ModeF) (y : ℝ) : Prop :=
  DotF A (ms.map fun m => (modeF A cosF expF twoPi t m, m.a)) y

end Verif.Float
