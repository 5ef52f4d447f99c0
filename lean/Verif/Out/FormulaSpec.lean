import Verif.Out.Functions

/-!
# Closed formulas of the functions with an `out` argument

Written from the documentation and the literature, not from the code.  `none`: no finite value.
-/

set_option autoImplicit false

namespace Verif.Out

/-- Apply a function to every entry of the only argument. -/
def pw1 (g : ℝ → Cell) : List (List Cell) → Except PyErr (List Cell)
  | [x] => .ok (x.map fun c => c.bind g)
  | _ => .error .typeError

/-- Apply a function to the entries of two arguments of the same size. -/
def pw2 (g : ℝ → ℝ → Cell) : List (List Cell) → Except PyErr (List Cell)
  | [x, y] =>
    if x.length = y.length then
      .ok (List.zipWith (fun a b => a.bind fun a => b.bind fun b => g a b) x y)
    else .error .valueError
  | _ => .error .typeError

/-- Zwicker & Terhardt. -/
noncomputable def barkZ (f : ℝ) : ℝ :=
  13 * Real.arctan (0.00076 * f) + 3.5 * Real.arctan ((f / 7500) ^ 2)

/-- Traunmüller. -/
noncomputable def barkT (f : ℝ) : Cell :=
  if f = -1960 then none else some (26.81 * f / (1960 + f) - 0.53)

/-- Wang et al. -/
noncomputable def barkW (f : ℝ) : ℝ := 6 * Real.arsinh (f / 600)

/-- Inverse of Traunmüller's formula. -/
noncomputable def hzT (b : ℝ) : Cell :=
  if b = 26.28 then none else some ((0.53 + b) / (26.28 - b) * 1960)

/-- Inverse of the formula by Wang et al. -/
noncomputable def hzW (b : ℝ) : ℝ := 600 * Real.sinh (b / 6)

/-- Mel scale. -/
noncomputable def mel (f : ℝ) : Cell :=
  if f ≤ -700 then none else some (2595 * Real.logb 10 (1 + f / 700))

/-- Mel scale by Fant. -/
noncomputable def melFant (f : ℝ) : Cell :=
  if f ≤ -1000 then none else some (1000 * Real.logb 2 (1 + f / 1000))

/-- Inverse of the Mel scale. -/
noncomputable def hzMel (m : ℝ) : ℝ := ((10 : ℝ) ^ (m / 2595) - 1) * 700

/-- Inverse of the Mel scale by Fant. -/
noncomputable def hzFant (m : ℝ) : ℝ := ((2 : ℝ) ^ (m / 1000) - 1) * 1000

/-- Equivalent rectangular bandwidth, quadratic formula. -/
noncomputable def erbQ (f : ℝ) : ℝ := 6.23e-6 * f ^ 2 + 9.339e-3 * f + 28.52

/-- Equivalent rectangular bandwidth, linear formula. -/
noncomputable def erbL (f : ℝ) : ℝ := 24.7 * (0.00437 * f + 1)

/-- ERB-rate scale, quadratic. -/
noncomputable def camsQ (f : ℝ) : Cell :=
  if 0 < (f + 312) / (f + 14675) then some (11.17 * Real.log ((f + 312) / (f + 14675)) + 43)
  else none

/-- ERB-rate scale, linear. -/
noncomputable def camsL (f : ℝ) : Cell :=
  if 0 < 1 + 0.00437 * f then some (21.4 * Real.logb 10 (1 + 0.00437 * f)) else none

/-- Inverse of the quadratic ERB-rate scale. -/
noncomputable def hzQ (c : ℝ) : Cell :=
  if c = 43 then none
  else some ((312 - 14675 * Real.exp ((c - 43) / 11.17)) / (Real.exp ((c - 43) / 11.17) - 1))

/-- Inverse of the linear ERB-rate scale. -/
noncomputable def hzL (c : ℝ) : ℝ := ((10 : ℝ) ^ (c / 21.4) - 1) / 0.00437

/-- A-weighting, IEC 61672-1. -/
noncomputable def aWeight (f : ℝ) : ℝ :=
  12194 ^ 2 * f ^ 4 /
    ((f ^ 2 + 20.6 ^ 2) * Real.sqrt ((f ^ 2 + 107.7 ^ 2) * (f ^ 2 + 737.9 ^ 2)) *
      (f ^ 2 + 12194 ^ 2))

/-- Envelope of the gammatone filter of order `n ≥ 1`, leading time `tc`, bandwidth `b`. -/
noncomputable def gammatone (n : ℕ) (tc b t : ℝ) : ℝ :=
  if 0 ≤ t + tc then (t + tc) ^ (n - 1) * Real.exp (-(2 * Real.pi * b * (t + tc))) else 0

end Verif.Out
