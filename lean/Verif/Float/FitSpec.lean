import Verif.Float.Basic
import Verif.Tracker.Spec

/-!
# What the analysis in floating point is compared with
-/

set_option autoImplicit false

namespace Verif.Float

open Verif.Tracker (Peak)

variable {K : Type} [Field K] [LinearOrder K] [IsStrictOrderedRing K] (A : Arith K)

/-- A spectrum of `n / 2 + 1` bins whose magnitudes are floating-point numbers, zero or not near the
range of underflow. -/
structure SpectrumF (n : Nat) (s : List K × List K) : Prop where
  mags : s.1.length = n / 2 + 1
  phases : s.2.length = n / 2 + 1
  rep : ∀ v ∈ s.1, A.rnd v = v
  normal : ∀ v ∈ s.1, v = 0 ∨ A.eta ≤ A.u ^ 2 * |v|

/-- The input of the Fourier transform for the frame `x`: the frame times the window `w`, second half
first, zeros between the halves. -/
def bufferF (x w : List K) (n : Nat) : List K :=
  (List.zipWith A.mul x w).drop (w.length / 2) ++ List.replicate (n - w.length) 0 ++
    (List.zipWith A.mul x w).take (w.length / 2)

/-- `pk` is the refined peak at the bin `j` of the spectrum `mx`: `j` is a strict local maximum above
`t`; frequency and magnitude are near those of the vertex of the parabola through the bin and its
neighbours; the frequency is less than a bin away, the magnitude not lower. -/
def PeakAtF (fs t : K) (n : Nat) (mx : List K) (j : Nat) (pk : Peak K) : Prop :=
  ∃ a b c : K, 1 ≤ j ∧ mx[j - 1]? = some a ∧ mx[j]? = some b ∧ mx[j + 1]? = some c ∧ a < b ∧ c < b ∧
    t < b ∧ A.rnd pk.freq = pk.freq ∧ A.rnd pk.mag = pk.mag ∧
    |pk.freq - (j : K) * (fs / n)| ≤ 7 / 8 * (fs / n) ∧ b ≤ pk.mag ∧
    |pk.freq - ((j : K) + (a - c) / (2 * (a - 2 * b + c))) * (fs / n)| ≤
      A.u * (fs / n) * (4 * j + 16 + 2 * |b| / ((b - a) + (b - c))) ∧
    |pk.mag - (b - (a - c) ^ 2 / (8 * (a - 2 * b + c)))| ≤
      A.u * (8 * max (b - a) (b - c) + 2 * |b|)

end Verif.Float
