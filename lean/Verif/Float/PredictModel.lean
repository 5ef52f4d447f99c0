import Verif.Float.EnergyModel
import Verif.Float.SynthModel

/-!
# Resynthesis in floating point (`sample/sample.py:282-313`)

`SAMPLE.predict` in the default order, real oscillator: selection by computed energies, then additive
synthesis.
-/

set_option autoImplicit false

namespace Verif.Float

open Verif.Sample (Fitted fancy fancyOpt)

/-- The modes from the arrays given to `additive_synth`, `sample/sample.py:360-363, 373-378`: the entries
of a column belong together. -/
def zipModes (f d a : List ℝ) (ph : Option (List ℝ)) : List ModeF :=
  match ph with
  | none => List.zipWith (fun fd a => ⟨fd.1, fd.2, a, none⟩) (f.zip d) a
  | some l => List.zipWith (fun fda p => ⟨fda.1.1, fda.1.2, fda.2, some p⟩) ((f.zip d).zip a) l

variable (A : Arith ℝ)

/-- The modes used by `predict`, `sample/sample.py:304-313`.  Simplification: phases are `None` or an
array as large as that of the frequencies. -/
noncomputable def predictModesF (argsort : List ℝ → List Nat) (s : Fitted ℝ) (nModes : Option Int)
    (phases : Option (List ℝ)) : Except PyErr (List ModeF) :=
  let o := selectModesF A argsort s nModes
  match fancyOpt phases o with
  | .error e => .error e
  | .ok ph =>
    match fancy s.freqs o, fancy s.decays o, fancy s.amps o with
    | .ok f, .ok d, .ok a => .ok (zipModes f d a ph)
    | .error e, _, _ => .error e
    | _, .error e, _ => .error e
    | _, _, .error e => .error e

/-- `ys` is a possible output of `predict` on the time axis `x`, `sample/sample.py:282-313`. -/
def PredictF (cosF expF : ℝ → ℝ) (twoPi : ℝ) (argsort : List ℝ → List Nat) (s : Fitted ℝ)
    (x : List ℝ) (nModes : Option Int) (phases : Option (List ℝ)) (ys : List ℝ) : Prop :=
  ∃ ms, predictModesF A argsort s nModes phases = .ok ms ∧
    List.Forall₂ (fun t y => SynthF A cosF expF twoPi t ms y) x ys

end Verif.Float
