import Mathlib.Algebra.Order.Field.Basic

/-!
# Specification of a bank of triangular filters
-/

set_option autoImplicit false

namespace Verif.Psycho

variable {K : Type} [Field K] [LinearOrder K]

/-- `w` is the weight at frequency `x` of the triangular filter that rises from zero at `l` to one
at `c` and falls to zero at `r`. -/
def IsTri (l c r x w : K) : Prop :=
  (x ≤ l ∨ r ≤ x → w = 0) ∧ (l ≤ x → x ≤ c → w * (c - l) = x - l) ∧
  (c ≤ x → x ≤ r → w * (r - c) = r - x)

/-- `rows` are the weights at the frequencies `freqs` of the filters with corners `l i`, `c i`,
`r i`, for `i < k`. -/
def IsBank (k : Nat) (l c r : Nat → K) (freqs : List K) (rows : List (List K)) : Prop :=
  rows.length = k ∧ ∀ i < k, ∃ row, rows[i]? = some row ∧ row.length = freqs.length ∧
    ∀ (j : Nat) (x : K), freqs[j]? = some x → ∃ w, row[j]? = some w ∧ IsTri (l i) (c i) (r i) x w

end Verif.Psycho
