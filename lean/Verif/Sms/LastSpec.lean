import Verif.Sms.SimilarSpec
import Verif.Sms.FitModel

/-!
# The frames of a sound in the order of time, and their spectra
-/

set_option autoImplicit false

namespace Verif.Sms

/-- The frame `e` of `w` samples in the order of time: from sample `e * h` on, or, if the sound is analysed from
its end (and flipped), counted such that the last frame ends with the sound. -/
def timeFrame (reverse : Bool) (x : List ℝ) (w h e : Nat) : List ℝ :=
  if reverse then ((x.drop ((x.length - w) % h + e * h)).take w).reverse else (x.drop (e * h)).take w

/-- Magnitude spectrum of the frame `e` in the order of time, seen through the normalised window. -/
noncomputable def frameSpectrum (p : Params ℝ) (x : List ℝ) (e k : Nat) : ℝ :=
  ‖centredBin (timeFrame p.reverse x p.w.length p.hop e) (p.w.map fun a => a / p.w.sum) p.n k‖

/-- Number of frames. -/
def frameCount (p : Params ℝ) (x : List ℝ) : Nat := 1 + (x.length - p.w.length) / p.hop

end Verif.Sms
