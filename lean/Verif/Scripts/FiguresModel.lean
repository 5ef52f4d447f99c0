import Mathlib.Analysis.SpecialFunctions.Trigonometric.Basic
import Verif.Np

/-!
# Helpers of the figures script (`scripts/beatsdrop/figures.py:527-563,695-709`)

Fourier transforms of decaying cosines and of beats; local extrema and zero crossings of a signal.
Reals stand for floats.  Not modelled: everything that draws.
-/

set_option autoImplicit false

namespace Verif.Scripts

/-- `_exp_ft`, `scripts/beatsdrop/figures.py:527-529`. -/
noncomputable def expFt (nu a : ℝ) : Except PyErr ℂ :=
  if a = 0 ∧ nu = 0 then .error .zeroDivisionError
  else .ok (1 / (a + 2 * Complex.I * Real.pi * nu))

/-- `_cos_ft`, `scripts/beatsdrop/figures.py:532-540`, for numbers of Python (a decay of zero is an error). -/
noncomputable def cosFt (nu nu0 a d phi : ℝ) (half : Bool) : Except PyErr ℂ :=
  if d = 0 then .error .zeroDivisionError
  else
    match expFt (nu - nu0) (2 / d) with
    | .error e => .error e
    | .ok p =>
      if half then .ok (a / 2 * (p * Complex.exp (-Complex.I * phi) + 0))
      else
        match expFt (nu + nu0) (2 / d) with
        | .error e => .error e
        | .ok q => .ok (a / 2 * (p * Complex.exp (-Complex.I * phi) + q * Complex.exp (Complex.I * phi)))

/-- `_beat_ft`, `scripts/beatsdrop/figures.py:543-563`; `none` is `None`. -/
noncomputable def beatFt (nu nu1 a1 d1 phi1 : ℝ) (nu2 a2 d2 phi2 : Option ℝ) (half : Bool) :
    Except PyErr ℂ :=
  match cosFt nu nu1 a1 d1 phi1 half with
  | .error e => .error e
  | .ok x =>
    match cosFt nu (nu2.getD (nu1 + 2)) (a2.getD a1) (d2.getD d1) (phi2.getD phi1) half with
    | .error e => .error e
    | .ok y => .ok (x + y)

/-- `b[[0, -1]] = False`, `scripts/beatsdrop/figures.py:700`. -/
def clearEnds (b : List Bool) : Except PyErr (List Bool) :=
  if b.length = 0 then .error .indexError
  else .ok ((b.set 0 false).set (b.length - 1) false)

variable {K : Type*}

/-- `_find_extrema`, `scripts/beatsdrop/figures.py:695-701`; `mem` is what the memory of `np.empty` holds
(as long as `a`). -/
def findExtrema (cmp : K → K → Bool) (mem : List Bool) (a : List K) : Except PyErr (List Bool) :=
  match Np.binop cmp (Np.slice a (some 1) (some (-1))) (Np.slice a (some 2) none) with
  | .error e => .error e
  | .ok right =>
    match Np.assign mem (some 1) (some (-1)) right with
    | .error e => .error e
    | .ok b =>
      match Np.binop cmp (Np.slice a (some 1) (some (-1))) (Np.slice a none (some (-2))) with
      | .error e => .error e
      | .ok left =>
        match Np.binop (· && ·) left (Np.slice b (some 1) (some (-1))) with
        | .error e => .error e
        | .ok both =>
          match Np.assign b (some 1) (some (-1)) both with
          | .error e => .error e
          | .ok c => clearEnds c

/-- `b[0] = False`, `scripts/beatsdrop/figures.py:708`. -/
def clearFirst : List Bool → Except PyErr (List Bool)
  | [] => .error .indexError
  | _ :: l => .ok (false :: l)

/-- `_find_zerox`, `scripts/beatsdrop/figures.py:704-709`.  NumPy copies operands that overlap the output. -/
def findZerox [Zero K] [LT K] [DecidableLT K] (a : List K) : Except PyErr (List Bool) :=
  match Np.binop (fun x y => x != y) (Np.slice (a.map fun x => decide (0 < x)) (some 1) none)
      (Np.slice (a.map fun x => decide (0 < x)) none (some (-1))) with
  | .error e => .error e
  | .ok ne =>
    match Np.assign (a.map fun x => decide (0 < x)) (some 1) none ne with
    | .error e => .error e
    | .ok b => clearFirst b

end Verif.Scripts
