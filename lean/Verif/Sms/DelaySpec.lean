import Verif.Tracker.DelaySpec
import Verif.Sms.FitModel

/-!
# Sounds after silence
-/

set_option autoImplicit false

namespace Verif.Sms

open Verif.Tracker

variable {K : Type*} [Field K] [LinearOrder K]

/-- `k` samples of silence. -/
def silence (k : Nat) : List K := List.replicate k 0

/-- Parameters with the time limit for onsets, `strip_t`, later by `τ`. -/
def Params.later (τ : K) (p : Params K) : Params K := { p with tracker := p.tracker.later τ }

/-- In the spectrum of silence of size `n`, all bins have the same level. -/
def FlatSilence (spec : List K → List K × List K) (n : Nat) : Prop :=
  ∃ v : K, ∀ a ∈ (spec (List.replicate n 0)).1, a = v

/-- A sound that begins with `z` zeros begins with enough of them: a frame that is a hop before the first frame
lies in the silence. -/
def EnoughSilence (p : Params K) (z : Nat) : Prop :=
  p.w.length ≤ z + p.hop + (if p.padded then (p.w.length + 1) / 2 else 0)

end Verif.Sms
