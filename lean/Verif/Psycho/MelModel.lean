import Mathlib.Analysis.SpecialFunctions.Pow.Real
import Mathlib.Analysis.Complex.Norm
import Verif.Np

/-!
# Triangular filterbank and mel spectrogram (`sample/psycho.py:1008-1127`)

Exact arithmetic in an ordered field; the frequency transformations are functions on numbers.
-/

set_option autoImplicit false

namespace Verif.Psycho

open Verif.Np

section field
variable {K : Type} [Field K] [LinearOrder K]

/-- `np.interp(x, [l, c, r], [0, 1, 0])` for `l ≤ c ≤ r` (NumPy): zero outside, the ordinate at one
of the abscissae, a line between two of them. -/
def interp3 (l c r x : K) : K :=
  if x < l then 0
  else if r ≤ x then 0
  else if c ≤ x then (if x = c then 1 else (0 - 1) / (r - c) * (x - c) + 1)
  else if x = l then 0
  else (1 - 0) / (c - l) * (x - l) + 0

/-- `np.linspace(a, b, num)` (NumPy). -/
def linspace (a b : K) (num : Int) : Except PyErr (List K) :=
  if num < 0 then .error .valueError
  else .ok ((List.range num.toNat).map fun (i : Nat) => a + (i : K) * ((b - a) / ((num - 1 : Int) : K)))

/-- `sample/psycho.py:1046-1047`. -/
def melFlim (freqs : List K) : Option (List K) → Except PyErr (List K)
  | some flim => .ok flim
  | none => do
    let a ← index freqs 0
    let b ← index freqs (-1)
    pure [a, b]

/-- `sample/psycho.py:1049-1063`: number of filters and corner (or centre) frequencies. -/
def melCorners (flim : List K) (nFilters : Option Int) (noBandwidth : Bool) (T Tinv : K → K) :
    Except PyErr (Int × List K) :=
  match nFilters with
  | none => .ok (if noBandwidth then (flim.length : Int) - 2 else flim.length, flim)
  | some n => do
    let a ← index flim 0
    let b ← index flim (-1)
    let l ← linspace (T a) (T b) (n + 2)
    let e := l.map Tinv
    pure (n, if noBandwidth then e else slice e (some 1) (some (-1)))

/-- `sample/psycho.py:1071-1084`: left, centre and right corners. -/
def melTriples (flim : List K) : Option (K → K) → List K × List K × List K
  | none => (slice flim none (some (-2)), slice flim (some 1) (some (-1)), slice flim (some 2) none)
  | some b => (List.zipWith (· - ·) flim (flim.map b), flim, List.zipWith (· + ·) flim (flim.map b))

/-- One filter, `sample/psycho.py:1087-1088`. -/
def melRow (freqs : List K) (t : List K × List K × List K) (i : Nat) : Except PyErr (List K) := do
  let l ← getE t.1 i
  let c ← getE t.2.1 i
  let r ← getE t.2.2 i
  pure (freqs.map (interp3 l c r))

/-- `mel_triangular_filterbank`, `sample/psycho.py:1008-1089`. -/
def melFilterbank (freqs : List K) (nFilters : Option Int) (bandwidth : Option (K → K))
    (flim : Option (List K)) (T Tinv : K → K) : Except PyErr (List (List K) × List K) := do
  let flim ← melFlim freqs flim
  let (n, flim) ← melCorners flim nFilters bandwidth.isNone T Tinv
  if n ≤ 0 then .error .valueError
  else do
    let rows ← (List.range n.toNat).mapM (melRow freqs (melTriples flim bandwidth))
    pure (rows, (melTriples flim bandwidth).2.1)

end field

/-- One entry of `filterbank @ stft` for one frame. -/
noncomputable def weigh {R : Type} [Semiring R] (row frame : List R) : R :=
  (List.zipWith (· * ·) row frame).sum

/-- `stft2mel` with a `power ≥ 0`, for one column (frame) of the matrix, `sample/psycho.py:1119-1126`;
the size of the frame must be the number of columns of the filterbank. -/
noncomputable def stft2melFrame (fb : List (List ℝ)) (power : ℝ) (frame : List ℂ) :
    Except PyErr (List ℝ) :=
  if fb.any fun r => r.length ≠ frame.length then .error .valueError
  else if power = 1 then .ok (fb.map fun r => weigh r (frame.map fun z => ‖z‖))
  else if power = 0 then .error .zeroDivisionError
  else .ok (fb.map fun r => weigh r (frame.map fun z => ‖z‖ ^ power) ^ (1 / power))

/-- `stft2mel` with `power=None`: the complex values are filtered. -/
noncomputable def stft2melComplex (fb : List (List ℝ)) (frame : List ℂ) : Except PyErr (List ℂ) :=
  if fb.any fun r => r.length ≠ frame.length then .error .valueError
  else .ok (fb.map fun r => weigh (r.map Complex.ofReal) frame)

/-- `stft2mel`, `sample/psycho.py:1092-1127`, with a `power`, the filterbank given or computed; the
matrix is the list of its columns. -/
noncomputable def stft2mel (stft : List (List ℂ)) (freqs : List ℝ) (fb : Option (List (List ℝ)))
    (power : ℝ) (make : List ℝ → Except PyErr (List (List ℝ) × List ℝ)) :
    Except PyErr (List (List ℝ) × Option (List ℝ)) :=
  match fb with
  | some fb => do
    let m ← stft.mapM (stft2melFrame fb power)
    pure (m, none)
  | none => do
    let (fb, c) ← make freqs
    let m ← stft.mapM (stft2melFrame fb power)
    pure (m, some c)

end Verif.Psycho
