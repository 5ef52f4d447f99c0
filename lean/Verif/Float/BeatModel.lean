import Verif.Float.Basic

/-!
# Amplitude and frequency of a beat in floating point (`sample/beatsdrop/__init__.py:87-160`)

One sample; the computed cosine and sine are arguments, so that nothing is assumed of them but their
range.  `none` is a value that is not finite.
-/

set_option autoImplicit false

namespace Verif.Float

variable {K : Type} [Field K] [LinearOrder K] [IsStrictOrderedRing K] (A : Arith K)

/-- `np2pg.semisum`, `sample/utils/__init__.py:257-273`. -/
def semisumF (x y : K) : K := A.div (A.add x y) 2

/-- `np2pg.semidiff`, `sample/utils/__init__.py:275-291`. -/
def semidiffF (x y : K) : K := A.div (A.sub x y) 2

/-- `np.square`. -/
def sqF (x : K) : K := A.mul x x

/-- `alpha2`, `sample/beatsdrop/__init__.py:118-126`; `c` is the computed cosine of line 123. -/
def alpha2F (a0 a1 c : K) : K :=
  let aOln2 := sqF A (semisumF A a0 a1)
  let aHat2 := sqF A (semidiffF A a0 a1)
  let modulant := sqF A c
  let amRange := A.sub aOln2 aHat2
  A.add (A.mul amRange modulant) aHat2

/-- `am`, `sample/beatsdrop/__init__.py:128-129`; `sqrt` is the computed square root of a number that
is not negative, the one of a negative number is NaN. -/
def amF (sqrt : K → K) (a0 a1 c : K) : Option K :=
  let al := alpha2F A a0 a1 c
  if al < 0 then none else some (A.mul (sqrt al) 2)

/-- `fm`, `sample/beatsdrop/__init__.py:134-151`: `sn` is the computed sine of line 145, `wHat` and
`wOln` are the nodes of lines 112-113. -/
def fmF (a0 a1 d0 d1 wHat wOln c sn : K) : Option K :=
  let f := A.mul (A.mul (semisumF A a0 a1) (semidiffF A a0 a1)) wHat
  let g := A.sub (A.mul d0 a1) (A.mul d1 a0)
  let g := A.mul (A.mul g sn) (1 / 4)
  let al := alpha2F A a0 a1 c
  if al = 0 then none else some (A.add (A.div (A.add f g) al) wOln)

end Verif.Float
