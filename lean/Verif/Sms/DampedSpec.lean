import Verif.Sms.PartialSpec

/-!
# Sums of damped sinusoids, seen through a window

A damped sinusoid is the real part of `A z^m`: the modulus of `z` is the factor per sample, the argument of `z` is the
angle per sample.
-/

set_option autoImplicit false

namespace Verif.Sms

open Complex

/-- First sample of the frame `e`, in the order of time. -/
def frameStart (p : Params ℝ) (x : List ℝ) (e : Nat) : Nat :=
  (if p.reverse then (x.length - p.w.length) % p.hop else 0) + e * p.hop

/-- Backward analysis flips the frames, such that a sinusoid turns the other way. -/
noncomputable def turned (p : Params ℝ) (z : ℂ) : ℂ := if p.reverse then (starRingEnd ℂ) z else z

/-- Bin `k` of the spectrum of the powers `1, z, z², ...`, seen through the normalised window, if time is counted
from the beginning of the frame (in backward analysis, the conjugate powers in the opposite order). -/
noncomputable def response (p : Params ℝ) (z : ℂ) (k : Nat) : ℂ :=
  ∑ i ∈ Finset.range p.w.length, ((p.w.getD i 0 / p.w.sum : ℝ) : ℂ) *
    turned p z ^ (if p.reverse then p.w.length - 1 - i else i) *
    exp (-(2 * Real.pi * I) * k * ((i : ℂ) - (p.w.length / 2 : Nat)) / p.n)

/-- Magnitude of the powers of `z` with the factor `A / 2` in the bin `k` of the frame `e`. -/
noncomputable def strength (p : Params ℝ) (x : List ℝ) (A z : ℂ) (e k : Nat) : ℝ :=
  ‖A‖ / 2 * ‖z‖ ^ frameStart p x e * ‖response p z k‖

/-- The two sides of the spectrum of a damped sinusoid, added up. -/
noncomputable def bothSides (p : Params ℝ) (x : List ℝ) (A z : ℂ) (e k : Nat) : ℝ :=
  strength p x A z e k + strength p x A ((starRingEnd ℂ) z) e k

/-- Largest effect on a bin of disturbances of at most `ν` per sample. -/
noncomputable def hiss (p : Params ℝ) (ν : ℝ) : ℝ := ν * ∑ i ∈ Finset.range p.w.length, |p.w.getD i 0 / p.w.sum|

/-- Everything in the bin `k` of the frame `e`. -/
noncomputable def everything (p : Params ℝ) (x : List ℝ) (S : List Nat) (A z : Nat → ℂ) (ν : ℝ) (e k : Nat) : ℝ :=
  (S.map fun b => bothSides p x (A b) (z b) e k).sum + hiss p ν

/-- Everything but the partial `b`: its other side, the other partials and the disturbances. -/
noncomputable def rest (p : Params ℝ) (x : List ℝ) (S : List Nat) (A z : Nat → ℂ) (ν : ℝ) (b e k : Nat) : ℝ :=
  strength p x (A b) ((starRingEnd ℂ) (z b)) e k +
    ((S.filter (· ≠ b)).map fun b' => bothSides p x (A b') (z b') e k).sum + hiss p ν

end Verif.Sms
