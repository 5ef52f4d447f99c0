import Verif.Float.Basic

/-!
# FFT bins and frequencies in floating point (`sample/utils/dsp.py:234-264, 296-301`)
-/

set_option autoImplicit false

namespace Verif.Float

variable {K : Type} [Field K] [LinearOrder K] [IsStrictOrderedRing K] [FloorRing K] (A : Arith K)

/-- `f2bin`, `sample/utils/dsp.py:234-246`, one element; `fs` is not zero.  The integer `nfft` is
converted to floating point before the division. -/
def f2binF (f : K) (nfft : Nat) (fs : K) : Int := ⌈A.mul f (A.div (A.rnd (nfft : K)) fs)⌉

/-- `bin2f`, `sample/utils/dsp.py:249-264`, one element; `nfft` is not zero. -/
def bin2fF (b : K) (nfft : Nat) (fs : K) : K := A.mul b (A.div fs (A.rnd (nfft : K)))

/-- The corner bins `i_`, `j` of `lombscargle_as_fft`, `sample/utils/dsp.py:297-301`. -/
def cornersF (nfft : Nat) (fs : K) (hpf lpf : Option K) : Int × Int :=
  (max (f2binF A (hpf.getD 0) nfft fs) 1, min (f2binF A (lpf.getD fs) nfft fs) ((nfft / 2 + 1 : Nat) : Int))

end Verif.Float
