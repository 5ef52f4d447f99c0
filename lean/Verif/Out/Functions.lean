import Mathlib.Analysis.SpecialFunctions.Pow.Real
import Mathlib.Analysis.SpecialFunctions.Log.Base
import Mathlib.Analysis.SpecialFunctions.Arsinh
import Mathlib.Analysis.SpecialFunctions.Trigonometric.Arctan
import Verif.Out.Model
import Verif.Dsp.DbModel

/-!
# The functions with an `out` argument, call by call

Entries of arrays are real numbers; `none` is a value that is not a finite number (NaN or an
infinity).  All operations used here give `none` on `none` (comparisons excepted), which is right
for NaN; it is also right for the infinities that these bodies can meet: an infinity made by a
division by zero or by the logarithm of zero is not turned back into a finite number by the calls
that follow.

Rounding is not modelled.
-/

set_option autoImplicit false

namespace Verif.Out

/-- Entry of an array. -/
abbrev Cell := Option ℝ

/-! ## NumPy operations on entries -/

/-- Operation with two operands. -/
def op2 (f : ℝ → ℝ → ℝ) (a b : Cell) : Cell :=
  match a, b with
  | some a, some b => some (f a b)
  | _, _ => none

/-- `np.true_divide`. -/
noncomputable def div (a b : Cell) : Cell :=
  match a, b with
  | some a, some b => if b = 0 then none else some (a / b)
  | _, _ => none

/-- `np.log10`. -/
noncomputable def log10 (a : Cell) : Cell := a.bind Dsp.npLog10

/-- `np.log2`. -/
noncomputable def log2 (a : Cell) : Cell :=
  a.bind fun x => if 0 < x then some (Real.logb 2 x) else none

/-- `np.log`. -/
noncomputable def ln (a : Cell) : Cell :=
  a.bind fun x => if 0 < x then some (Real.log x) else none

/-- `np.sqrt`. -/
noncomputable def sqrt (a : Cell) : Cell :=
  a.bind fun x => if 0 ≤ x then some (Real.sqrt x) else none

/-- `np.greater_equal(_, 0)` as a number. -/
noncomputable def ge0 (a : Cell) : Cell :=
  match a with
  | some x => some (if 0 ≤ x then 1 else 0)
  | none => some 0

/-- `np.power(_, k)` for an integer `k`. -/
noncomputable def power (k : ℤ) (a : Cell) : Cell :=
  a.bind fun x => if x = 0 ∧ k < 0 then none else some (x ^ k)

open Var

local notation "x₀" => arg 0
local notation "x₁" => arg 1
local notation "t₀" => tmp 0
local notation "t₁" => tmp 1
local notation "t₂" => tmp 2

/-! ## `sample/utils/dsp.py` -/

/-- The finite entries, if all are finite. -/
def finite (x : List Cell) : Option (List ℝ) := x.mapM id

/-- `np.max` of a non-empty list. -/
noncomputable def maxOf : List ℝ → ℝ
  | [] => 0
  | a :: l => l.foldl max a

/-- `np.min` of a non-empty list. -/
noncomputable def minOf : List ℝ → ℝ
  | [] => 0
  | a :: l => l.foldl min a

/-- `np.max`: `ValueError` for an empty array; NaN if an entry is NaN.  (Infinities in the input are
not modelled.) -/
noncomputable def npMax (x : List Cell) : Except PyErr Cell :=
  if x.isEmpty then .error .valueError else .ok ((finite x).map maxOf)

/-- `np.min`. -/
noncomputable def npMin (x : List Cell) : Except PyErr Cell :=
  if x.isEmpty then .error .valueError else .ok ((finite x).map minOf)

/-- Arithmetic mean of numbers. -/
noncomputable def meanOf (x : List ℝ) : ℝ := x.sum / x.length

/-- Variance of numbers (`ddof=0`). -/
noncomputable def varOf (x : List ℝ) : ℝ := meanOf (x.map fun v => (v - meanOf x) ^ 2)

/-- `np.mean`: NaN for an empty array. -/
noncomputable def npMean (x : List Cell) : Except PyErr Cell :=
  .ok ((finite x).bind fun l => if l.isEmpty then none else some (meanOf l))

/-- `np.std(_) or 1`: NaN is true. -/
noncomputable def npStdOr1 (x : List Cell) : Except PyErr Cell :=
  .ok ((finite x).bind fun l =>
    if l.isEmpty then none
    else if Real.sqrt (varOf l) = 0 then some 1 else some (Real.sqrt (varOf l)))

/-- `normalize` (peak), `sample/utils/dsp.py:12-27`. -/
noncomputable def normalizePeak : Prog Cell :=
  [red out div (fun x => npMax (x.map (Option.map abs))) x₀ x₀]

/-- `_normalize_rms`, `sample/utils/dsp.py:30-43`. -/
noncomputable def normalizeRms : Prog Cell :=
  [red out (op2 (· - ·)) npMean x₀ x₀,
   red out div npStdOr1 out x₀]

/-- `_normalize_range`, `sample/utils/dsp.py:46-59`. -/
noncomputable def normalizeRange : Prog Cell :=
  [red out (op2 (· - ·)) npMin x₀ x₀,
   red out div npMax out out]

/-- `db2a`, `sample/utils/dsp.py:62-73`. -/
noncomputable def db2a : Prog Cell :=
  [un out (Option.map (· / 20)) x₀,
   un out (Option.map ((10 : ℝ) ^ ·)) out]

/-- `_a2db_floorless`, `sample/utils/dsp.py:100-111`. -/
noncomputable def a2dbFloorless : Prog Cell :=
  [un out log10 x₀,
   un out (Option.map (20 * ·)) out]

/-- `_a2db_floored`, `sample/utils/dsp.py:117-132`; the floor is an array of the same size (a scalar
floor is the constant array).  The last call is `_a2db_floorless(out, out=out)`. -/
noncomputable def a2dbFloored : Prog Cell :=
  bin out (op2 max) x₀ x₁ ::
    a2dbFloorless.rename (fun v => match v with
      | .arg 0 => .out
      | v => v)

/-- `a2db` with a floor in decibel, `sample/utils/dsp.py:93-97`: `db2a(floor)` is a new array. -/
noncomputable def a2dbFloorDb : Prog Cell :=
  db2a.rename (fun v => match v with
    | .arg 0 => .arg 1
    | .out => .tmp 0
    | v => v) ++
  a2dbFloored.rename (fun v => match v with
    | .arg 1 => .tmp 0
    | v => v)

/-- `bin2f`, `sample/utils/dsp.py:249-264`; `nfft` is not zero (`ZeroDivisionError` otherwise). -/
noncomputable def bin2f (nfft fs : ℝ) : Prog Cell :=
  [un out (Option.map (· * (fs / nfft))) x₀]

/-! ## `sample/psycho.py` -/

/-- `_hz2bark_zwicker`, `sample/psycho.py:42-64`. -/
noncomputable def hz2barkZwicker : Prog Cell :=
  [un t₀ (Option.map (0.00076 * ·)) x₀,
   un t₀ (Option.map Real.arctan) t₀,
   un t₀ (Option.map (13 * ·)) t₀,
   un out (Option.map (· / 7500)) x₀,
   un out (Option.map (· ^ 2)) out,
   un out (Option.map Real.arctan) out,
   un out (Option.map (3.5 * ·)) out,
   bin out (op2 (· + ·)) t₀ out]

/-- `_hz2bark_traunmuller`, `sample/psycho.py:67-85`. -/
noncomputable def hz2barkTraunmuller : Prog Cell :=
  [un t₀ (Option.map (1960 + ·)) x₀,
   un out (Option.map (26.81 * ·)) x₀,
   bin out div out t₀,
   un out (Option.map (· - 0.53)) out]

/-- `_hz2bark_wang`, `sample/psycho.py:88-103`. -/
noncomputable def hz2barkWang : Prog Cell :=
  [un out (Option.map (· / 600)) x₀,
   un out (Option.map Real.arsinh) out,
   un out (Option.map (6 * ·)) out]

/-- `_bark2hz_traunmuller`, `sample/psycho.py:106-124`. -/
noncomputable def bark2hzTraunmuller : Prog Cell :=
  [un t₀ (Option.map (0.53 + ·)) x₀,
   un out (Option.map (26.28 - ·)) x₀,
   bin out div t₀ out,
   un out (Option.map (· * 1960)) out]

/-- `_bark2hz_wang`, `sample/psycho.py:127-142`. -/
noncomputable def bark2hzWang : Prog Cell :=
  [un out (Option.map (· / 6)) x₀,
   un out (Option.map Real.sinh) out,
   un out (Option.map (600 * ·)) out]

/-- `hz2mel`, `sample/psycho.py:145-161`. -/
noncomputable def hz2mel : Prog Cell :=
  [un out (Option.map (· / 700)) x₀,
   un out (Option.map (1 + ·)) out,
   un out log10 out,
   un out (Option.map (2595 * ·)) out]

/-- `mel2hz`, `sample/psycho.py:164-180`. -/
noncomputable def mel2hz : Prog Cell :=
  [un out (Option.map (· / 2595)) x₀,
   un out (Option.map ((10 : ℝ) ^ ·)) out,
   un out (Option.map (· - 1)) out,
   un out (Option.map (· * 700)) out]

/-- `_hz2mel_fant`, `sample/psycho.py:183-199`. -/
noncomputable def hz2melFant : Prog Cell :=
  [un out (Option.map (· / 1000)) x₀,
   un out (Option.map (1 + ·)) out,
   un out log2 out,
   un out (Option.map (1000 * ·)) out]

/-- `_mel2hz_fant`, `sample/psycho.py:202-218`. -/
noncomputable def mel2hzFant : Prog Cell :=
  [un out (Option.map (· / 1000)) x₀,
   un out (Option.map ((2 : ℝ) ^ ·)) out,
   un out (Option.map (· - 1)) out,
   un out (Option.map (· * 1000)) out]

/-- `erb` (quadratic), `sample/psycho.py:221-247`. -/
noncomputable def erb : Prog Cell :=
  [un t₀ (Option.map (0.009339 * ·)) x₀,
   un out (Option.map (· ^ 2)) x₀,
   un out (Option.map (0.00000623 * ·)) out,
   bin out (op2 (· + ·)) out t₀,
   un out (Option.map (· + 28.52)) out]

/-- `_erb_linear`, `sample/psycho.py:250-266`. -/
noncomputable def erbLinear : Prog Cell :=
  [un out (Option.map (0.00437 * ·)) x₀,
   un out (Option.map (· + 1)) out,
   un out (Option.map (24.7 * ·)) out]

/-- `hz2cams` (quadratic), `sample/psycho.py:269-294`. -/
noncomputable def hz2cams : Prog Cell :=
  [un t₀ (Option.map (· + 312)) x₀,
   un out (Option.map (· + 14675)) x₀,
   bin out div t₀ out,
   un out ln out,
   un out (Option.map (11.17 * ·)) out,
   un out (Option.map (· + 43)) out]

/-- `_hz2cams_linear`, `sample/psycho.py:297-312`. -/
noncomputable def hz2camsLinear : Prog Cell :=
  [un out (Option.map (0.00437 * ·)) x₀,
   un out (Option.map (1 + ·)) out,
   un out log10 out,
   un out (Option.map (21.4 * ·)) out]

/-- `cams2hz` (quadratic), `sample/psycho.py:315-341`. -/
noncomputable def cams2hz : Prog Cell :=
  [un t₀ (Option.map (· - 43)) x₀,
   un t₀ (Option.map (· / 11.17)) t₀,
   un t₀ (Option.map Real.exp) t₀,
   un out (Option.map (14675 * ·)) t₀,
   un out (Option.map (312 - ·)) out,
   un t₀ (Option.map (· - 1)) t₀,
   bin out div out t₀]

/-- `_cams2hz_linear`, `sample/psycho.py:344-359`. -/
noncomputable def cams2hzLinear : Prog Cell :=
  [un out (Option.map (· / 21.4)) x₀,
   un out (Option.map ((10 : ℝ) ^ ·)) out,
   un out (Option.map (· - 1)) out,
   un out (Option.map (· / 0.00437)) out]

/-- `a_weighting(f, db=False)`, `sample/psycho.py:378-394`: `t₀` is `f2`, `t₁` is `tmp`. -/
noncomputable def aWeighting : Prog Cell :=
  [un t₀ (Option.map (· ^ 2)) x₀,
   un out (Option.map (· + 11599.29)) t₀,
   un t₁ (Option.map (· + 544496.41)) t₀,
   bin out (op2 (· * ·)) out t₁,
   un out sqrt out,
   un t₁ (Option.map (· + 424.36)) t₀,
   bin out (op2 (· * ·)) out t₁,
   un t₁ (Option.map (· + 148693636)) t₀,
   bin out (op2 (· * ·)) out t₁,
   un t₀ (Option.map (· ^ 2)) t₀,
   un t₁ (Option.map (148693636 * ·)) t₀,
   bin out div t₁ out]

/-- `_a_weight_1kHz_db`, `sample/psycho.py:397`: `a2db(a_weighting(1e3, db=False))`. -/
noncomputable def aWeight1kHzDb : Cell :=
  match ret aWeighting 2 [[some 1000]] with
  | .ok y =>
    match ret a2dbFloorless 0 [y] with
    | .ok (c :: _) => c
    | _ => none
  | .error _ => none

/-- `a_weighting(f)` (`db=True`), `sample/psycho.py:376-377`, with the array `f` at reference `a`:
the linear weights are stored in `out`; the decibel values are a new array.  Two further arrays are
allocated, for `a2db` and for the difference. -/
noncomputable def aWeightingDb (h : Heap Cell) (a : Nat) (out : Option Nat) :
    Except PyErr (Heap Cell × Nat) :=
  match numpyOut aWeighting 2 h [a] out with
  | .error e => .error e
  | .ok (h, r) =>
    match numpyOut a2dbFloorless 0 h [r] none with
    | .error e => .error e
    | .ok (h, r) =>
      .ok (⟨h.mem.write h.next ((h.mem r).map fun v => op2 (· - ·) v aWeight1kHzDb), h.next + 1⟩,
        h.next)

/-- `GammatoneFilter._envelope`, `sample/psycho.py:581-611`: `t₀` is `tmp`, `t₁` is `t_`. -/
noncomputable def envelope (n : ℤ) (tc b : ℝ) : Prog Cell :=
  [un t₁ (Option.map (· + tc)) x₀,
   un out ge0 t₁,
   un t₀ (power (n - 1)) t₁,
   bin out (op2 (· * ·)) t₀ out,
   un t₀ (Option.map (-2 * Real.pi * b * ·)) t₁,
   un t₀ (Option.map Real.exp) t₀,
   bin out (op2 (· * ·)) t₀ out]

/-- `GammatoneFilter.wavefun` (not analytic), `sample/psycho.py:634-664`; `t₂` is its `tmp`. -/
noncomputable def wavefun (n : ℤ) (f tc b phi : ℝ) : Prog Cell :=
  envelope n tc b ++
  [un t₂ (Option.map (2 * Real.pi * f * ·)) x₀,
   un t₂ (Option.map (· + phi)) t₂,
   un t₂ (Option.map Real.cos) t₂,
   bin out (op2 (· * ·)) out t₂]

/-- `hwr`, `sample/psycho.py:925-936`. -/
noncomputable def hwr (th : ℝ) : Prog Cell :=
  [un out (Option.map (max · th)) x₀]

/-! ## Other modules -/

/-- `modal_energy`, `sample/sample.py:19-36`. -/
noncomputable def modalEnergy : Prog Cell :=
  [un out (Option.map (· ^ 2)) x₀,
   bin out (op2 (· * ·)) out x₁,
   un out (Option.map (· / 4)) out]

/-- `hinge_function`, `sample/hinge.py:14-34`. -/
noncomputable def hingeFunction (a k q : ℝ) : Prog Cell :=
  [un out (Option.map (min · a)) x₀,
   un out (Option.map (k * ·)) out,
   un out (Option.map (q + ·)) out]

/-- `ExponentialDecay.__call__`, `sample/beatsdrop/__init__.py:202-215`; `d` is not zero. -/
noncomputable def exponentialDecay (a d : ℝ) : Prog Cell :=
  [un out (Option.map ((-2 / d) * ·)) x₀,
   un out (Option.map Real.exp) out,
   un out (Option.map (a * ·)) out]

/-- `ExponentialDecay.dt`, `sample/beatsdrop/__init__.py:217-229`. -/
noncomputable def exponentialDecayDt (a d : ℝ) : Prog Cell :=
  exponentialDecay a d ++ [un out (Option.map (· * (-2 / d))) out]

/-- `Numpy2Paragraph._semisum`, `sample/utils/__init__.py:257-273`. -/
noncomputable def semisum : Prog Cell :=
  [bin out (op2 (· + ·)) x₀ x₁,
   un out (Option.map (· / 2)) out]

/-- `Numpy2Paragraph._semidiff`, `sample/utils/__init__.py:275-291`. -/
noncomputable def semidiff : Prog Cell :=
  [bin out (op2 (· - ·)) x₀ x₁,
   un out (Option.map (· / 2)) out]

end Verif.Out
