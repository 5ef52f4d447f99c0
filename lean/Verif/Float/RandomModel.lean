import Verif.Float.Basic

/-!
# The random generator of beats in floating point (`sample/evaluation/random.py:103-204`)

The draws of the generator and the amplitudes `db2a` of the levels are arguments.  The conversions
from and to Bark are not modelled here.
-/

set_option autoImplicit false

namespace Verif.Float

variable {K : Type} [Field K] [LinearOrder K] [IsStrictOrderedRing K] (A : Arith K)

/-- `beta_twosides` from its draws, `sample/evaluation/random.py:141-144`: `x` is the number drawn from
the Beta distribution, `positive` tells the outcome of the second draw.  The factor
`2.0 * positive - 1.0` is `1` or `-1`. -/
def twosidesF (x : K) (positive : Bool) (left right : K) : K :=
  A.mul (A.add (A.mul x (A.sub right left)) left) (if positive then 1 else -1)

/-- The difference `beat_hz` of the frequencies, `sample/evaluation/random.py:156-159`. -/
def beatHzF (x : K) (positive : Bool) (beatMin beatMax : K) : K :=
  A.div 1 (twosidesF A x positive (A.div 1 beatMax) (A.div 1 beatMin))

/-- A decay, `sample/evaluation/random.py:185-187`; `d` is the number drawn. -/
def drawnDecayF (d decayMin : K) : K := A.add d decayMin

/-- `noise_amp`, `sample/evaluation/random.py:108-111`; `s` is `snr_amp`. -/
def noiseAmpF (s : K) : K := A.div 1 (A.add 1 s)

/-- `sine_amp`, `sample/evaluation/random.py:113-116`. -/
def sineAmpF (s : K) : K := A.div s (A.add 1 s)

/-- `np.sum` of three numbers: one after the other. -/
def sum3F (a b c : K) : K := A.add (A.add a b) c

/-- An amplitude `x` of the three amplitudes `a`, `b`, `c`, `sample/evaluation/random.py:203`. -/
def ampF (sine a b c x : K) : K := A.mul x (A.div sine (sum3F A a b c))

end Verif.Float
