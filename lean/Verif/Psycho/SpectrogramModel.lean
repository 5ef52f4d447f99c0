import Verif.Psycho.MelModel

/-!
# Mel spectrogram of a signal (`sample/psycho.py:1130-1147`)
-/

set_option autoImplicit false

namespace Verif.Psycho

/-- `mel_spectrogram`, `sample/psycho.py:1130-1147`.  `stft` is `scipy.signal.stft` with its options: from a signal,
the frequency axis, the time axis and the list of the columns of the matrix.  `make` is
`mel_triangular_filterbank` with its options.  The exponent is a number (with `power=None` the result is the one of
`stft2melComplex`, which is not put together here). -/
noncomputable def melSpectrogram (stft : List ℝ → List ℝ × List ℝ × List (List ℂ)) (x : List ℝ)
    (fb : Option (List (List ℝ))) (power : ℝ) (make : List ℝ → Except PyErr (List (List ℝ) × List ℝ)) :
    Except PyErr (Option (List ℝ) × List ℝ × List (List ℝ)) := do
  let (freqs, times, m) := stft x
  let (mel, c) ← stft2mel m freqs fb power make
  pure (c, times, mel)

end Verif.Psycho
