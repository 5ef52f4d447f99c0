import Mathlib.Algebra.Field.Defs
import Mathlib.Algebra.BigOperators.Group.List.Basic
import Mathlib.Analysis.SpecialFunctions.Trigonometric.Basic

/-!
# Independent specification for `SAMPLE`

Nothing of the model is used here.
-/

set_option autoImplicit false

namespace Verif.Sample

/-- A mode with a user-given starting phase. -/
structure Mode (K : Type*) where
  f : K
  d : K
  a : K
  φ : K
  deriving DecidableEq

/-- The feature of a mode that is used for ordering. -/
inductive Feature where
  | energies | freqs | decays | amps

/-- The name of a feature. -/
def Feature.name : Feature → String
  | .energies => "energies"
  | .freqs => "freqs"
  | .decays => "decays"
  | .amps => "amps"

/-- The value of a feature. -/
def Feature.val {K : Type*} [Field K] (m : Mode K) : Feature → K
  | .energies => m.d * m.a ^ 2 / 4
  | .freqs => m.f
  | .decays => m.d
  | .amps => m.a

/-- `best` are the strongest (`reverse`) or weakest modes among `best ++ rest`, in order. -/
structure Best {K : Type*} [Field K] [LE K] (key : Feature) (reverse : Bool)
    (best rest : List (Mode K)) : Prop where
  /-- the chosen modes are in order -/
  sorted : best.Pairwise fun m m' =>
    if reverse then key.val m' ≤ key.val m else key.val m ≤ key.val m'
  /-- no mode left out would have been a better choice -/
  extreme : ∀ m ∈ best, ∀ m' ∈ rest,
    if reverse then key.val m' ≤ key.val m else key.val m ≤ key.val m'

/-- The damped sinusoid of a mode. -/
noncomputable def Mode.wave (m : Mode ℝ) (t : ℝ) : ℝ :=
  m.a * Real.exp (-2 * t / m.d) * Real.cos (2 * Real.pi * m.f * t + m.φ)

/-- The damped complex exponential of a mode. -/
noncomputable def Mode.cwave (m : Mode ℝ) (t : ℝ) : ℂ :=
  (m.a * Real.exp (-2 * t / m.d) : ℝ) *
    Complex.exp ((2 * Real.pi * m.f * t + m.φ : ℝ) * Complex.I)

end Verif.Sample
