import Verif.Tracker.ModalModel

/-!
# Tracks that begin later
-/

set_option autoImplicit false

namespace Verif.Tracker

variable {K : Type*} [Field K] [LinearOrder K]

/-- A track that begins `d` frames later. -/
def Track.delay (d : Nat) (t : Track K) : Track K := { t with start := t.start + d }

/-- An active track that began `d` frames later. -/
def ATrack.delay (d : Nat) (t : ATrack K) : ATrack K := { t with start := t.start + d }

/-- The state of a tracker that was `d` frames late. -/
def State.delay (d : Nat) (s : State K) : State K :=
  ⟨s.tracks.map (Track.delay d), s.active.map (ATrack.delay d), s.frame + d⟩

/-- Parameters with the time limit for onsets, `strip_t`, later by `τ`. -/
def ModalCfg.later (τ : K) (k : ModalCfg K) : ModalCfg K := { k with stripT := k.stripT.map (· + τ) }

end Verif.Tracker
