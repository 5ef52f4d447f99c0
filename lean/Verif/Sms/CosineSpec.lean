import Verif.Sms.DampedSpec
import Mathlib.Analysis.SpecialFunctions.Trigonometric.Basic

/-!
# Windows with one cosine
-/

set_option autoImplicit false

namespace Verif.Sms

open Complex

/-- One period of `a - c cos`, in `n` samples: the windows that `scipy.signal.get_window` gives for "hann"
(`a = c = 1 / 2`) and "hamming" (`a = 0.54`, `c = 0.46`). -/
noncomputable def cosineWindow (a c : ℝ) (n : Nat) : List ℝ :=
  (List.range n).map fun (i : Nat) => a - c * Real.cos (2 * Real.pi * i / n)

/-- Pole of a sinusoid of the frequency of the bin `b` that is multiplied by `s` after every sample. -/
noncomputable def binPole (n b : Nat) (s : ℝ) : ℂ := s * exp (2 * Real.pi * I * b / n)

/-- Amplitude of one side of the spectrum of such a sinusoid at the beginning of the frame `e`. -/
noncomputable def sideGain (p : Params ℝ) (x : List ℝ) (A : ℂ) (s : ℝ) (e : Nat) : ℝ :=
  ‖A‖ / 2 * s ^ frameStart p x e

/-- What partials that lose up to `γ` over a window, and disturbances of at most `ν` per sample, add to bins that are
not beside a partial. -/
noncomputable def spill (p : Params ℝ) (x : List ℝ) (S : List Nat) (A : Nat → ℂ) (s : Nat → ℝ) (γ ν : ℝ) (e : Nat) : ℝ :=
  2 * γ * (S.map fun b => sideGain p x (A b) (s b) e).sum + ν

/-- Largest error of a frequency, if the rest is at most the part `ρ` of a partial; `κ` is the response of the window
at the distance of one bin. -/
noncomputable def binSlack (p : Params ℝ) (κ γ ρ : ℝ) : ℝ :=
  3 * wobble ρ / (2 * dB ((1 - γ) / (κ + γ))) * p.tracker.fs / p.n

end Verif.Sms
