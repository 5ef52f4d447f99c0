import Verif.Tracker.ModalModel

/-!
# Tracks in other units

Frequencies multiplied by `c`, levels raised by `G`, phases replaced by `ψ`.  Only the data types of the model
are used here.
-/

set_option autoImplicit false

namespace Verif.Tracker

variable {K : Type*} [Field K] [LinearOrder K]

/-- A peak in other units. -/
def Peak.rescale (c G : K) (ψ : K → K) (p : Peak K) : Peak K := ⟨c * p.freq, p.mag + G, ψ p.phase⟩

/-- An active track in other units. -/
def ATrack.rescale (c G : K) (ψ : K → K) (t : ATrack K) : ATrack K :=
  ⟨t.start, t.freq.map (c * ·), t.mag.map (· + G), t.phase.map ψ⟩

/-- A track in other units; NaN stays. -/
def Track.rescale (c G : K) (ψ : K → K) (t : Track K) : Track K :=
  ⟨t.start, t.freq.map (Option.map (c * ·)), t.mag.map (Option.map (· + G)), t.phase.map (Option.map ψ)⟩

/-- A tracker state in other units. -/
def State.rescale (c G : K) (ψ : K → K) (s : State K) : State K :=
  ⟨s.tracks.map (Track.rescale c G ψ), s.active.map (ATrack.rescale c G ψ), s.frame⟩

/-- Tracker parameters in other units: frequencies (also the sampling frequency) `c` times as large, times
divided by `c`, the threshold for peaks raised by `G`.  `freq_dev_slope` has no unit. -/
def ModalCfg.rescale (c G : K) (k : ModalCfg K) : ModalCfg K :=
  { k with
    fs := c * k.fs
    minSineDur := k.minSineDur / c
    freqDevOffset := c * k.freqDevOffset
    freqLo := k.freqLo.map (c * ·)
    freqHi := k.freqHi.map (c * ·)
    peakThreshold := k.peakThreshold + G
    stripT := k.stripT.map (· / c) }

end Verif.Tracker
