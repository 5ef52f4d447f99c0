import Verif.Np
import Mathlib.Analysis.SpecialFunctions.Trigonometric.Basic
import Mathlib.Analysis.Complex.Exponential
import Mathlib.Algebra.Order.Floor.Ring
import Mathlib.Algebra.BigOperators.Group.Finset.Basic
import Mathlib.Data.Real.Archimedean

/-!
# Autocorrelogram, Lomb-Scargle periodogram, trends (`sample/utils/dsp.py:206-369`)

Exact arithmetic.  The transforms of `numpy.fft` are their defining sums.  A real array that is returned is a
list of complex numbers with imaginary part zero where the function may also return complex numbers.
`scipy.signal.lombscargle` is an arbitrary function.
-/

set_option autoImplicit false

namespace Verif.Dsp

open Complex

/-! ## `numpy.fft` -/

/-- The factor of bin `k` and sample `m` in a transform of size `n` (`sign` is `-1` for the forward one). -/
noncomputable def twiddle (sign : ℂ) (n k m : Nat) : ℂ :=
  exp (sign * (2 * Real.pi * I) * (k * m) / n)

/-- `numpy.fft.fft(x, n)`: the input is cropped or padded with zeros. -/
noncomputable def fft (x : List ℂ) (n : Nat) : List ℂ :=
  (List.range n).map fun k => ∑ m ∈ Finset.range n, x.getD m 0 * twiddle (-1) n k m

/-- `numpy.fft.rfft(x, n)`: the first bins. -/
noncomputable def rfft (x : List ℝ) (n : Nat) : List ℂ :=
  (fft (x.map (↑)) n).take (n / 2 + 1)

/-- `numpy.fft.ifft(a, n)`. -/
noncomputable def ifft (a : List ℂ) (n : Nat) : List ℂ :=
  (List.range n).map fun m => (∑ k ∈ Finset.range n, a.getD k 0 * twiddle 1 n k m) / n

/-- Bin `k` of the two-sided spectrum of which `a` is one side, as `numpy.fft.irfft(a, n)` reads it: bins after
the middle are conjugates; the imaginary part of the bins that are their own conjugates is dropped. -/
noncomputable def hermitian (a : List ℂ) (n k : Nat) : ℂ :=
  if k = 0 ∨ 2 * k = n then ((a.getD k 0).re : ℂ)
  else if k ≤ n / 2 then a.getD k 0
  else (starRingEnd ℂ) (a.getD (n - k) 0)

/-- `numpy.fft.irfft(a, n)`. -/
noncomputable def irfft (a : List ℂ) (n : Nat) : List ℝ :=
  (List.range n).map fun m => ((∑ k ∈ Finset.range n, hermitian a n k * twiddle 1 n k m) / n).re

/-- `fft2autocorrelogram`, `sample/utils/dsp.py:313-341`.  The transforms raise `ValueError` for sizes less
than one. -/
noncomputable def fft2autocorrelogram (a : List ℂ) (real : Bool := true) (n nfft : Option Int := none)
    (power : Bool := false) : Except PyErr (List ℂ) :=
  let n : Int := n.getD (if real then 2 * ((a.length : Int) - 1) else a.length)
  let nfft : Int := nfft.getD n
  let a := if power then a else a.map fun z => (((z * (starRingEnd ℂ) z).re : ℝ) : ℂ)
  if nfft < 1 then .error .valueError
  else
    let r : List ℂ := if real then (irfft a nfft.toNat).map (↑) else ifft a nfft.toNat
    .ok (Np.slice r none (some n))

/-! ## Periodogram -/

/-- `f2bin`, `sample/utils/dsp.py:234-246`, for an array of frequencies; `ZeroDivisionError` if the sample
frequency is zero. -/
noncomputable def f2bin (f : List ℝ) (nfft : Nat) (fs : ℝ) : Except PyErr (List Int) :=
  if fs = 0 then .error .zeroDivisionError else .ok (f.map fun v => ⌈v * (nfft / fs)⌉)

/-- `f2bin` of a number: the result of `numpy.multiply` is no array and cannot be used as `out`. -/
def f2binScalar (_f : ℝ) (_nfft : Nat) (fs : ℝ) [Decidable (fs = 0)] : Except PyErr Int :=
  if fs = 0 then .error .zeroDivisionError else .error .typeError

/-- The angular velocities, `sample/utils/dsp.py:291-294`. -/
noncomputable def angular (nfft : Nat) (fs : ℝ) : List ℝ :=
  (List.range (nfft / 2 + 1)).map fun (k : Nat) => 2 * Real.pi * (k * (fs / nfft))

/-- `lombscargle_as_fft`, `sample/utils/dsp.py:267-310`; `lomb freqs` is
`signal.lombscargle(x=t, y=x, freqs=freqs)`.  Simplification: `x` is not empty. -/
noncomputable def lombscargleAsFft (lomb : List ℝ → Except PyErr (List ℝ)) (x : List ℝ) (nfft : Nat)
    (fs : ℝ) (hpf lpf : Option ℝ) : Except PyErr (List ℝ × List ℝ) :=
  let n := nfft / 2 + 1
  let ls : List ℝ := List.replicate n 0
  if nfft = 0 then .error .zeroDivisionError
  else
    let w := angular nfft fs
    match f2bin [hpf.getD 0, lpf.getD fs] nfft fs with
    | .ok [i, j] =>
      let i' := max i 1
      let j := min j n
      match lomb (Np.slice w (some i') (some j)) with
      | .error e => .error e
      | .ok p =>
        match Np.assign ls (some i') (some j) p with
        | .error e => .error e
        | .ok ls =>
          let ls := if i < 1 then ls.set 0 ((x.sum / x.length) ^ 2) else ls
          .ok (ls, w.map (· / (2 * Real.pi)))
    | .ok _ => .error .valueError
    | .error e => .error e

/-- The maximum of an array; `ValueError` if it is empty. -/
noncomputable def maxE : List ℝ → Except PyErr ℝ
  | [] => .error .valueError
  | a :: l => .ok (l.foldl max a)

/-- `lombscargle_autocorrelogram`, `sample/utils/dsp.py:344-369`; `lomb` as above.  A size of zero that
is computed from `t` is a NumPy integer, so that only the last transform raises; negative sizes raise
`ValueError` in `numpy.zeros` or in the last transform.  Simplification: given sizes are not negative. -/
noncomputable def lombscargleAutocorrelogram (lomb : List ℝ → Except PyErr (List ℝ)) (t x : List ℝ)
    (n nfft : Option Nat) (fs : ℝ) (hpf lpf : Option ℝ) : Except PyErr (List ℂ) :=
  let computed : Bool := n.isNone && nfft.isNone
  let n : Except PyErr Int :=
    match n with
    | some n => .ok n
    | none =>
      match maxE t with
      | .error e => .error e
      | .ok m => .ok ⌈m * fs⌉
  match n with
  | .error e => .error e
  | .ok n =>
    let nfft : Int := (nfft.map Int.ofNat).getD (2 * n)
    if nfft < 0 ∨ (nfft = 0 ∧ computed) then .error .valueError
    else
      match lombscargleAsFft lomb x nfft.toNat fs hpf lpf with
      | .error e => .error e
      | .ok (ls, _) => fft2autocorrelogram (ls.map (↑)) true (some n) (some nfft) true

/-! ## Trends -/

/-- An array after `numpy.squeeze`: an array with one element becomes a number. -/
inductive Squeezed where
  | scalar (v : ℝ)
  | vector (l : List ℝ)

/-- `numpy.squeeze` of a column. -/
def squeeze : List ℝ → Squeezed
  | [v] => .scalar v
  | l => .vector l

/-- The elements of an array. -/
def Squeezed.toList : Squeezed → List ℝ
  | .scalar v => [v]
  | .vector l => l

/-- Mean of a list. -/
noncomputable def mean (l : List ℝ) : ℝ := l.sum / l.length

/-- Slope of `sklearn.linear_model.LinearRegression` with one feature; the solution with the least norm, zero, if
all the `x` are equal. -/
noncomputable def slope (x y : List ℝ) : ℝ :=
  (List.zipWith (fun a b => (a - mean x) * (b - mean y)) x y).sum / (x.map fun a => (a - mean x) ^ 2).sum

/-- Prediction of `sklearn.linear_model.LinearRegression` with one feature, fitted to `x` and `y`;
`ValueError` for no samples or different sizes. -/
noncomputable def linearRegression (x y : List ℝ) : Except PyErr (List ℝ) :=
  if x = [] ∨ x.length ≠ y.length then .error .valueError
  else .ok (x.map fun a => mean y + slope x y * (a - mean x))

/-- `detrend`, `sample/utils/dsp.py:206-231`; `ndim` is the number of dimensions of the signal, `y` are its
samples, and `model x y` is the prediction at `x` of the estimator after fitting. -/
noncomputable def detrend (model : List ℝ → List ℝ → Except PyErr (List ℝ) := linearRegression)
    (ndim : Nat) (y : List ℝ) (x : Option (List ℝ)) : Except PyErr Squeezed :=
  if ndim ≠ 1 then .error .valueError
  else
    let x := x.getD ((List.range y.length).map fun (i : Nat) => (i : ℝ))
    match model x y with
    | .error e => .error e
    | .ok p => .ok (squeeze (List.zipWith (· - ·) y p))

end Verif.Dsp
