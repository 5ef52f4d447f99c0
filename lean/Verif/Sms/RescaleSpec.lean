import Verif.Tracker.RescaleSpec
import Verif.Sms.FitModel
import Verif.Sms.SpectrumModel
import Verif.Sms.SpectrumSpec

/-!
# Analyses in other units, and of louder sounds
-/

set_option autoImplicit false

namespace Verif.Sms

open Verif.Tracker

variable {K : Type*} [Field K] [LinearOrder K]

/-- Parameters of an analysis at `c` times the sampling frequency: see `ModalCfg.rescale`. -/
def Params.rate (c : K) (p : Params K) : Params K := { p with tracker := p.tracker.rescale c 0 }

/-- The object with all frequencies multiplied by `c`: parameters and tracks (levels and phases are the same). -/
def Model.rate (c : K) (m : Model K) : Model K :=
  { m with params := m.params.rate c, state := m.state.rescale c 0 id }

/-- Parameters of an analysis with the two thresholds for levels raised by `G`. -/
def Params.louder (G : K) (p : Params K) : Params K :=
  { p with t := p.t + G, tracker := { p.tracker with peakThreshold := p.tracker.peakThreshold + G } }

/-- A sort of the peaks, as of `np.argsort(-pmag)`, that reads nothing but the levels. -/
def LevelsOnly (sort : List (Peak K) → List Nat) : Prop :=
  ∀ l l' : List (Peak K), l'.map Peak.mag = l.map Peak.mag → sort l' = sort l

/-- A sort of the peaks that gives the same order if all levels are raised by `G`. -/
def LevelsShift (G : K) (sort : List (Peak K) → List Nat) : Prop :=
  ∀ l l' : List (Peak K), l'.map Peak.mag = (l.map Peak.mag).map (· + G) → sort l' = sort l

/-- In the spectrum of the frame `f`, the neighbours of every peak above the threshold `t` are above the machine
precision, also after a gain `g`. -/
def NeighboursHeard (g t : ℝ) (f w : List ℝ) (n : Nat) : Prop :=
  ∀ k, 1 ≤ k → k + 1 ≤ n / 2 → t < 20 * Real.logb 10 ‖centredBin f w n k‖ →
    ‖centredBin f w n (k - 1)‖ < ‖centredBin f w n k‖ → ‖centredBin f w n (k + 1)‖ < ‖centredBin f w n k‖ →
    ∀ j, j = k - 1 ∨ j = k + 1 → floatEps ≤ ‖centredBin f w n j‖ ∧ floatEps ≤ |g| * ‖centredBin f w n j‖

end Verif.Sms
