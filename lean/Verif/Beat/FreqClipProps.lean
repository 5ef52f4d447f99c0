import Mathlib.Data.List.GetD
import Mathlib.Data.List.Sort
import Mathlib.Data.List.ReduceOption
import Mathlib.Tactic.Linarith
import Mathlib.Tactic.FieldSimp
import Mathlib.Tactic.NormNum
import Verif.Beat.FreqClipModel
import Verif.Beat.RegressionProps

/-!
# C169: limitation of the estimated frequencies
-/

set_option autoImplicit false
set_option linter.unusedSectionVars false
set_option linter.unusedSimpArgs false

namespace Verif.Beat

open Verif.Out

section Clip

variable {K : Type*} [Field K] [LinearOrder K] [IsStrictOrderedRing K]

/-- Number of values with a property. -/
def howMany (l : List K) (P : K → Prop) [DecidablePred P] : Nat := l.countP fun v => decide (P v)

/-- Specification of a quartile: among the `n` values more than `k (n - 1) / 4` are at most `q` and more than
`(4 - k) (n - 1) / 4` are at least `q`. -/
def IsQuartile (l : List K) (k : Nat) (q : K) : Prop :=
  k * (l.length - 1) < 4 * howMany l (· ≤ q) ∧ (4 - k) * (l.length - 1) < 4 * howMany l (q ≤ ·)

theorem sorted_get (l : List K) (i j : Nat) (hij : i ≤ j) (hj : j < l.length) :
    (l.insertionSort (· ≤ ·)).getD i 0 ≤ (l.insertionSort (· ≤ ·)).getD j 0 := by
  have hp := List.pairwise_insertionSort (fun a b : K => a ≤ b) l
  have hl := List.length_insertionSort (fun a b : K => a ≤ b) l
  rw [List.getD_eq_getElem _ _ (by omega), List.getD_eq_getElem _ _ (by omega)]
  rcases Nat.eq_or_lt_of_le hij with h | h
  · subst h; exact le_rfl
  · exact List.pairwise_iff_getElem.mp hp i j (by omega) (by omega) h

theorem count_le (l : List K) (i : Nat) (hi : i < l.length) (q : K)
    (h : (l.insertionSort (· ≤ ·)).getD i 0 ≤ q) : i + 1 ≤ howMany l (· ≤ q) := by
  have hl := List.length_insertionSort (fun a b : K => a ≤ b) l
  simp only [howMany]
  rw [← (List.perm_insertionSort (fun a b : K => a ≤ b) l).countP_eq]
  set s := l.insertionSort (fun a b : K => a ≤ b) with hs
  have h1 : (s.take (i + 1)).countP (fun v => decide (v ≤ q)) = (s.take (i + 1)).length := by
    rw [List.countP_eq_length]
    intro v hv
    obtain ⟨j, hj, rfl⟩ := List.getElem_of_mem hv
    rw [List.length_take] at hj
    rw [List.getElem_take]
    have := sorted_get l j i (by omega) hi
    rw [← hs, List.getD_eq_getElem _ _ (by omega)] at this
    exact decide_eq_true (this.trans h)
  have h2 := (List.take_sublist (i + 1) s).countP_le (p := fun v => decide (v ≤ q))
  rw [h1, List.length_take] at h2
  omega

theorem count_ge (l : List K) (i : Nat) (hi : i < l.length) (q : K)
    (h : q ≤ (l.insertionSort (· ≤ ·)).getD i 0) : l.length - i ≤ howMany l (q ≤ ·) := by
  have hl := List.length_insertionSort (fun a b : K => a ≤ b) l
  simp only [howMany]
  rw [← (List.perm_insertionSort (fun a b : K => a ≤ b) l).countP_eq]
  set s := l.insertionSort (fun a b : K => a ≤ b) with hs
  have h1 : (s.drop i).countP (fun v => decide (q ≤ v)) = (s.drop i).length := by
    rw [List.countP_eq_length]
    intro v hv
    obtain ⟨j, hj, rfl⟩ := List.getElem_of_mem hv
    rw [List.length_drop] at hj
    rw [List.getElem_drop]
    have := sorted_get l i (i + j) (by omega) (by omega)
    rw [← hs, List.getD_eq_getElem _ _ (show i + j < s.length by omega)] at this
    exact decide_eq_true (h.trans this)
  have h2 := (List.drop_sublist i s).countP_le (p := fun v => decide (q ≤ v))
  rw [h1, List.length_drop] at h2
  omega

/-- Bounds of a quartile by two neighbours. -/
theorem quartile_between (l : List K) (k : Nat) (hk : k ≤ 4) (hl : l ≠ []) :
    (l.insertionSort (· ≤ ·)).getD ((l.length - 1) * k / 4) 0 ≤ quartile l k ∧
    quartile l k ≤ (l.insertionSort (· ≤ ·)).getD (((l.length - 1) * k + 3) / 4) 0 := by
  have hn : 0 < l.length := List.length_pos_of_ne_nil hl
  set p := (l.length - 1) * k with hp
  have hpn : p ≤ (l.length - 1) * 4 := Nat.mul_le_mul_left _ hk
  have hm : (0 : K) ≤ ((p % 4 : Nat) : K) / 4 := by positivity
  have hm1 : ((p % 4 : Nat) : K) / 4 ≤ 1 := by
    rw [div_le_one (by norm_num)]
    have : p % 4 ≤ 4 := by omega
    exact_mod_cast this
  have hab := sorted_get l (p / 4) (min (p / 4 + 1) (l.length - 1)) (by omega) (by omega)
  unfold quartile
  simp only [← hp]
  generalize ha : (l.insertionSort (· ≤ ·)).getD (p / 4) 0 = a at *
  generalize hb : (l.insertionSort (· ≤ ·)).getD (min (p / 4 + 1) (l.length - 1)) 0 = b at *
  constructor
  · have := mul_nonneg (sub_nonneg.mpr hab) hm
    linarith
  · rcases Nat.eq_zero_or_pos (p % 4) with h | h
    · rw [h, show (p + 3) / 4 = p / 4 by omega, ha]
      simp
    · rw [show (p + 3) / 4 = min (p / 4 + 1) (l.length - 1) by omega, hb]
      have := mul_le_mul_of_nonneg_left hm1 (sub_nonneg.mpr hab)
      linarith

/-- C169.  The quantiles split the frequencies as quartiles do. -/
theorem C169_quartile (l : List K) (k : Nat) (hk : k ≤ 4) (hl : l ≠ []) : IsQuartile l k (quartile l k) := by
  have hn : 0 < l.length := List.length_pos_of_ne_nil hl
  obtain ⟨h1, h2⟩ := quartile_between l k hk hl
  have hpn : (l.length - 1) * k ≤ (l.length - 1) * 4 := Nat.mul_le_mul_left _ hk
  have c1 := count_le l _ (by omega) _ h1
  have c2 := count_ge l _ (by omega) _ h2
  have e : (4 - k) * (l.length - 1) = (l.length - 1) * 4 - (l.length - 1) * k := by
    rw [Nat.mul_comm, Nat.mul_sub]
  refine ⟨?_, ?_⟩
  · rw [Nat.mul_comm k]
    omega
  · rw [e]
    omega

example : quartile ([3, 1, 2, 8, 5] : List ℚ) 1 = 2 ∧ quartile ([3, 1, 2, 8] : List ℚ) 3 = 17 / 4 := by decide +kernel

/-- C169.  Between two values the quantiles are interpolated linearly: those of an arithmetic progression are at the
corresponding fraction of its range. -/
theorem C169_progression (a d : K) (hd : 0 ≤ d) (n k : Nat) (hk : k ≤ 4) (l : List K)
    (hl : l.Perm ((List.range (n + 1)).map fun i : ℕ => a + d * (i : K))) :
    quartile l k = a + d * (n : K) * (k : K) / 4 := by
  have hlen : l.length = n + 1 := by rw [hl.length_eq]; simp
  have hs : ((List.range (n + 1)).map fun i : ℕ => a + d * (i : K)).Pairwise (· ≤ ·) := by
    rw [List.pairwise_map]
    refine List.pairwise_lt_range.imp fun {i j} h => ?_
    have : (i : K) ≤ j := by exact_mod_cast h.le
    have := mul_le_mul_of_nonneg_left this hd
    linarith
  have hsort : l.insertionSort (· ≤ ·) = (List.range (n + 1)).map fun i : ℕ => a + d * (i : K) :=
    ((List.perm_insertionSort (fun a b : K => a ≤ b) l).trans hl).eq_of_pairwise
      (fun _ _ _ _ h1 h2 => le_antisymm h1 h2) (List.pairwise_insertionSort (fun a b : K => a ≤ b) l) hs
  have hg : ∀ i, i ≤ n → ((List.range (n + 1)).map fun i : ℕ => a + d * (i : K)).getD i 0 = a + d * (i : K) := by
    intro i hi
    rw [List.getD_eq_getElem _ _ (by simp; omega)]
    simp
  have hpn : n * k ≤ n * 4 := Nat.mul_le_mul_left _ hk
  unfold quartile
  simp only [hsort, hlen, Nat.add_sub_cancel]
  rw [hg _ (by omega), hg _ (by omega)]
  have e : ((n * k : Nat) : K) = 4 * ((n * k / 4 : Nat) : K) + ((n * k % 4 : Nat) : K) := by
    exact_mod_cast (Nat.div_add_mod (n * k) 4).symm
  have e2 : (n : K) * k = 4 * ((n * k / 4 : Nat) : K) + ((n * k % 4 : Nat) : K) := by rw [← e]; push_cast; ring
  rcases Nat.eq_zero_or_pos (n * k % 4) with h | h
  · rw [h] at e2 ⊢
    rw [mul_assoc d, e2]
    push_cast
    ring
  · rw [show min (n * k / 4 + 1) n = n * k / 4 + 1 by omega, mul_assoc d, e2]
    push_cast
    ring

example : quartile ([3, 1] : List ℚ) 1 = 3 / 2 := by decide +kernel

/-- A higher quartile is not smaller. -/
theorem quartile_mono (l : List K) (j k : Nat) (hjk : j ≤ k) (hk : k ≤ 4) : quartile l j ≤ quartile l k := by
  by_cases hl : l = []
  · subst hl; simp [quartile]
  have hn : 0 < l.length := List.length_pos_of_ne_nil hl
  have hm : (l.length - 1) * j ≤ (l.length - 1) * k := Nat.mul_le_mul_left _ hjk
  have hpn : (l.length - 1) * k ≤ (l.length - 1) * 4 := Nat.mul_le_mul_left _ hk
  by_cases hq : (l.length - 1) * j / 4 = (l.length - 1) * k / 4
  · have hab := sorted_get l ((l.length - 1) * k / 4) (min ((l.length - 1) * k / 4 + 1) (l.length - 1)) (by omega)
      (by omega)
    unfold quartile
    simp only [hq]
    have hr : (l.length - 1) * j % 4 ≤ (l.length - 1) * k % 4 := by omega
    have hr' : ((((l.length - 1) * j % 4 : Nat) : K) / 4) ≤ (((l.length - 1) * k % 4 : Nat) : K) / 4 :=
      div_le_div_of_nonneg_right (by exact_mod_cast hr) (by norm_num)
    have := mul_le_mul_of_nonneg_left hr' (sub_nonneg.mpr hab)
    linarith
  · refine ((quartile_between l j (by omega) hl).2.trans ?_).trans (quartile_between l k hk hl).1
    exact sorted_get l _ _ (by omega) (by omega)

theorem quartile_nonneg (l : List K) (k : Nat) (hk : k ≤ 4) (h : ∀ v ∈ l, 0 ≤ v) : 0 ≤ quartile l k := by
  by_cases hl : l = []
  · subst hl; simp [quartile]
  have hn : 0 < l.length := List.length_pos_of_ne_nil hl
  have hpn : (l.length - 1) * k ≤ (l.length - 1) * 4 := Nat.mul_le_mul_left _ hk
  refine le_trans ?_ (quartile_between l k hk hl).1
  have hs := List.length_insertionSort (fun a b : K => a ≤ b) l
  rw [List.getD_eq_getElem _ _ (by omega)]
  exact h _ ((List.mem_insertionSort _).mp (List.getElem_mem _))

theorem limits_order (c : K) (hc : 0 ≤ c) (l : List K) :
    (clipLimits c l).1 ≤ quartile l 2 ∧ quartile l 2 ≤ (clipLimits c l).2 := by
  have h := quartile_mono l 1 3 (by omega) (by omega)
  have := mul_nonneg hc (sub_nonneg.mpr h)
  unfold clipLimits
  constructor <;> simp only <;> linarith

/-- C169.  Without `freq_clip` nothing changes; with it there are as many frequencies, each within half of `freq_clip`
interquartile ranges of the median, and the nearest number there to the frequency of the beat. -/
theorem C169_limits (c : K) (hc : 0 ≤ c) (l : List K) :
    clipFreq none l = l ∧ (clipFreq (some c) l).length = l.length ∧
    ∀ (i : Nat) (v w : K), l[i]? = some v → (clipFreq (some c) l)[i]? = some w →
      |w - quartile l 2| ≤ c / 2 * (quartile l 3 - quartile l 1) ∧
      ∀ u : K, |u - quartile l 2| ≤ c / 2 * (quartile l 3 - quartile l 1) → |v - w| ≤ |v - u| := by
  refine ⟨rfl, by simp [clipFreq], ?_⟩
  intro i v w hv hw
  simp only [clipFreq, List.getElem?_map, hv, Option.map_some, Option.some.injEq] at hw
  subst hw
  have h := quartile_mono l 1 3 (by omega) (by omega)
  have hnn := mul_nonneg hc (sub_nonneg.mpr h)
  have e1 : (clipLimits c l).1 = quartile l 2 - c / 2 * (quartile l 3 - quartile l 1) := by
    simp only [clipLimits]; ring
  have e2 : (clipLimits c l).2 = quartile l 2 + c / 2 * (quartile l 3 - quartile l 1) := by
    simp only [clipLimits]; ring
  have hd : 0 ≤ c / 2 * (quartile l 3 - quartile l 1) := by linarith
  unfold clipTo
  rw [e1, e2]
  generalize c / 2 * (quartile l 3 - quartile l 1) = d at hd
  generalize quartile l 2 = m
  refine ⟨?_, ?_⟩
  · rw [abs_le]
    have h1 := le_max_right v (m - d)
    have h2 := min_le_right (max v (m - d)) (m + d)
    have h3 : m - d ≤ min (max v (m - d)) (m + d) := le_min h1 (by linarith)
    constructor <;> linarith
  · intro u hu
    rw [abs_le] at hu
    rcases le_total v (m - d) with h1 | h1
    · rw [max_eq_right h1, min_eq_left (by linarith), abs_of_nonpos (by linarith), abs_of_nonpos (by linarith)]
      linarith
    · rw [max_eq_left h1]
      rcases le_total v (m + d) with h2 | h2
      · rw [min_eq_left h2]; simp
      · rw [min_eq_right h2, abs_of_nonneg (by linarith), abs_of_nonneg (by linarith)]
        linarith

example : clipFreq (some (5 / 2)) ([1, 2, 3, 4, 40] : List ℚ) = [1, 2, 3, 4, 11 / 2] := by decide +kernel

/-- C169.  The frequencies of the beat are unchanged exactly if all of them are within the limits. -/
theorem C169_unchanged (c : K) (hc : 0 ≤ c) (l : List K) :
    clipFreq (some c) l = l ↔ ∀ v ∈ l, |v - quartile l 2| ≤ c / 2 * (quartile l 3 - quartile l 1) := by
  constructor
  · intro h v hv
    obtain ⟨i, hi, rfl⟩ := List.getElem_of_mem hv
    refine ((C169_limits c hc l).2.2 i l[i] l[i] (by simp [hi]) ?_).1
    rw [h]; simp [hi]
  · intro h
    refine List.ext_getElem? fun i => ?_
    rcases hv : l[i]? with _ | v
    · simp [clipFreq, hv]
    · have hw : (clipFreq (some c) l)[i]? = some (clipTo (clipLimits c l) v) := by simp [clipFreq, hv]
      have := ((C169_limits c hc l).2.2 i v _ hv hw).2 v (h v (List.mem_of_getElem? hv))
      rw [sub_self, abs_zero] at this
      rw [hw, ← sub_eq_zero.mp (abs_nonpos_iff.mp this)]

example : ∀ v ∈ ([1, 2, 3, 4] : List ℚ), |v - quartile ([1, 2, 3, 4] : List ℚ) 2| ≤
    (5 / 2) / 2 * (quartile ([1, 2, 3, 4] : List ℚ) 3 - quartile ([1, 2, 3, 4] : List ℚ) 1) := by decide +kernel

theorem sort_perm (l l' : List K) (h : l.Perm l') : l.insertionSort (· ≤ ·) = l'.insertionSort (· ≤ ·) :=
  (((List.perm_insertionSort (fun a b : K => a ≤ b) l).trans h).trans
    (List.perm_insertionSort (fun a b : K => a ≤ b) l').symm).eq_of_pairwise
      (fun _ _ _ _ h1 h2 => le_antisymm h1 h2) (List.pairwise_insertionSort (fun a b : K => a ≤ b) l)
      (List.pairwise_insertionSort (fun a b : K => a ≤ b) l')

theorem sort_affine (a b : K) (ha : 0 ≤ a) (l : List K) :
    (l.map fun v => a * v + b).insertionSort (· ≤ ·) = (l.insertionSort (· ≤ ·)).map fun v => a * v + b := by
  refine ((List.perm_insertionSort (fun a b : K => a ≤ b) _).trans
    ((List.perm_insertionSort (fun a b : K => a ≤ b) l).map _).symm).eq_of_pairwise
      (fun _ _ _ _ h1 h2 => le_antisymm h1 h2) (List.pairwise_insertionSort (fun a b : K => a ≤ b) _) ?_
  rw [List.pairwise_map]
  refine (List.pairwise_insertionSort (fun a b : K => a ≤ b) l).imp fun {x y} h => ?_
  have := mul_le_mul_of_nonneg_left h ha
  linarith

theorem quartile_affine (a b : K) (ha : 0 ≤ a) (l : List K) (hl : l ≠ []) (k : Nat) (hk : k ≤ 4) :
    quartile (l.map fun v => a * v + b) k = a * quartile l k + b := by
  have hn : 0 < l.length := List.length_pos_of_ne_nil hl
  have hs := List.length_insertionSort (fun a b : K => a ≤ b) l
  have hpn : (l.length - 1) * k ≤ (l.length - 1) * 4 := Nat.mul_le_mul_left _ hk
  have hg : ∀ i, i < l.length → ((l.insertionSort (· ≤ ·)).map fun v => a * v + b).getD i 0 =
      a * (l.insertionSort (· ≤ ·)).getD i 0 + b := by
    intro i hi
    rw [List.getD_eq_getElem _ _ (by simp; omega), List.getD_eq_getElem _ _ (by omega)]
    simp
  unfold quartile
  simp only [sort_affine a b ha l, List.length_map]
  rw [hg _ (by omega), hg _ (by omega)]
  ring

/-- C169.  The limits depend on the values only, not on their order in time; and if all frequencies are scaled by the
same factor (not negative) and shifted, so are the results. -/
theorem C169_invariant (c : K) (l : List K) :
    (∀ l', l.Perm l' → (clipFreq (some c) l).Perm (clipFreq (some c) l') ∧
      ∀ (i j : Nat) (v w w' : K), l[i]? = some v → l'[j]? = some v → (clipFreq (some c) l)[i]? = some w →
        (clipFreq (some c) l')[j]? = some w' → w = w') ∧
    ∀ a b : K, 0 ≤ a → clipFreq (some c) (l.map fun v => a * v + b) = (clipFreq (some c) l).map fun v => a * v + b := by
  refine ⟨?_, ?_⟩
  · intro l' h
    have e : clipLimits c l' = clipLimits c l := by
      simp only [clipLimits, quartile, sort_perm l l' h, h.length_eq]
    refine ⟨by simp only [clipFreq, e]; exact h.map _, ?_⟩
    intro i j v w w' hv hv' hw hw'
    simp only [clipFreq, List.getElem?_map, hv, hv', e, Option.map_some, Option.some.injEq] at hw hw'
    rw [← hw, ← hw']
  · intro a b ha
    by_cases hl : l = []
    · subst hl; rfl
    have h1 := quartile_affine a b ha l hl 1 (by omega)
    have h2 := quartile_affine a b ha l hl 2 (by omega)
    have h3 := quartile_affine a b ha l hl 3 (by omega)
    have e : clipLimits c (l.map fun v => a * v + b) =
        (a * (clipLimits c l).1 + b, a * (clipLimits c l).2 + b) := by
      simp only [clipLimits, h1, h2, h3, Prod.mk.injEq]
      constructor <;> ring
    simp only [clipFreq, e, List.map_map]
    refine List.map_congr_left fun v _ => ?_
    have hmono : Monotone fun v : K => a * v + b := fun x y h => by
      have := mul_le_mul_of_nonneg_left h ha
      show a * x + b ≤ a * y + b
      linarith
    simp only [Function.comp, clipTo]
    have h4 := hmono.map_max (a := v) (b := (clipLimits c l).1)
    have h5 := hmono.map_min (a := max v (clipLimits c l).1) (b := (clipLimits c l).2)
    exact (h5.trans (congrArg (fun u => min u (a * (clipLimits c l).2 + b)) h4)).symm

/-- C169.  The order of the frequencies is kept, and frequencies that are not negative do not become negative. -/
theorem C169_order (c : K) (hc : 0 ≤ c) (l : List K) :
    (∀ (i j : Nat) (v v' w w' : K), l[i]? = some v → l[j]? = some v' → (clipFreq (some c) l)[i]? = some w →
      (clipFreq (some c) l)[j]? = some w' → v ≤ v' → w ≤ w') ∧
    ((∀ v ∈ l, 0 ≤ v) → ∀ w ∈ clipFreq (some c) l, 0 ≤ w) := by
  refine ⟨?_, ?_⟩
  · intro i j v v' w w' hv hv' hw hw' h
    simp only [clipFreq, List.getElem?_map, hv, hv', Option.map_some, Option.some.injEq] at hw hw'
    subst hw hw'
    exact min_le_min (max_le_max h le_rfl) le_rfl
  · intro h w hw
    obtain ⟨v, hv, rfl⟩ := List.mem_map.mp hw
    refine le_min ((h v hv).trans (le_max_left _ _)) ?_
    exact (quartile_nonneg l 2 (by omega) h).trans (limits_order c hc l).2

theorem count_or (l : List K) (f g h : K → Bool) (H : ∀ v, f v = true → g v = true ∨ h v = true) :
    l.countP f ≤ l.countP g + l.countP h := by
  induction l with
  | nil => simp
  | cons v l ih =>
    have := H v
    simp only [List.countP_cons]
    rcases hf : f v <;> rcases hg : g v <;> rcases hh : h v <;> simp_all <;> omega

/-- C169.  From `freq_clip = 2` on (the default is 2.5), frequencies between the first and the third quartile do not
change, so that fewer than `(n + 3) / 2` do. -/
theorem C169_middle (c : K) (hc : 2 ≤ c) (l : List K) :
    (∀ (i : Nat) (v : K), l[i]? = some v → quartile l 1 ≤ v → v ≤ quartile l 3 →
      (clipFreq (some c) l)[i]? = some v) ∧
    2 * (l.zip (clipFreq (some c) l)).countP (fun p => decide (p.1 ≠ p.2)) < l.length + 3 := by
  have h12 := quartile_mono l 1 2 (by omega) (by omega)
  have h23 := quartile_mono l 2 3 (by omega) (by omega)
  have hnn := mul_nonneg (sub_nonneg.mpr hc) (sub_nonneg.mpr (h12.trans h23))
  have key : ∀ v, quartile l 1 ≤ v → v ≤ quartile l 3 → clipTo (clipLimits c l) v = v := by
    intro v h1 h2
    unfold clipTo clipLimits
    simp only
    rw [max_eq_left (by linarith), min_eq_left (by linarith)]
  refine ⟨?_, ?_⟩
  · intro i v hv h1 h2
    simp [clipFreq, hv, key v h1 h2]
  · by_cases hl : l = []
    · subst hl; simp
    have hz : (l.zip (clipFreq (some c) l)).countP (fun p => decide (p.1 ≠ p.2)) =
        l.countP (fun v => decide (clipTo (clipLimits c l) v ≠ v)) := by
      rw [clipFreq, ← List.map_prod_left_eq_zip, List.countP_map]
      refine List.countP_congr fun v _ => ?_
      simp only [Function.comp, decide_eq_true_eq]
      exact ne_comm
    rw [hz]
    have hn : 0 < l.length := List.length_pos_of_ne_nil hl
    have q1 := (C169_quartile l 1 (by omega) hl).2
    have q3 := (C169_quartile l 3 (by omega) hl).1
    have a1 := List.length_eq_countP_add_countP (fun v => decide (quartile l 1 ≤ v)) (l := l)
    have a3 := List.length_eq_countP_add_countP (fun v => decide (v ≤ quartile l 3)) (l := l)
    simp only [howMany] at *
    have hb : l.countP (fun v => decide (clipTo (clipLimits c l) v ≠ v)) ≤
        l.countP (fun v => decide (¬ decide (quartile l 1 ≤ v) = true)) +
        l.countP (fun v => decide (¬ decide (v ≤ quartile l 3) = true)) := by
      exact count_or l _ _ _ fun v hv => by
        by_contra hn
        simp at hn hv
        exact hv (key v hn.1 hn.2)
    omega

example : (([1, 2, 3, 4, 40] : List ℚ).zip (clipFreq (some (5 / 2)) [1, 2, 3, 4, 40])).countP
    (fun p => decide (p.1 ≠ p.2)) = 1 := by decide +kernel

/-- C169.  If the middle half of the frequencies is constant, all of them become the median. -/
theorem C169_constant (c : K) (l : List K) (h : quartile l 1 = quartile l 3) :
    ∀ w ∈ clipFreq (some c) l, w = quartile l 2 := by
  intro w hw
  obtain ⟨v, -, rfl⟩ := List.mem_map.mp hw
  simp [clipTo, clipLimits, h]

example : clipFreq (some (5 / 2)) ([5, 5, 5, 9, 5] : List ℚ) = [5, 5, 5, 5, 5] := by decide +kernel

/-- C169.  With a negative `freq_clip`, all frequencies become the same number, not larger than the median. -/
theorem C169_negative (c : K) (hc : c < 0) (l : List K) :
    ∀ w ∈ clipFreq (some c) l, w = quartile l 2 + c / 2 * (quartile l 3 - quartile l 1) ∧ w ≤ quartile l 2 := by
  intro w hw
  obtain ⟨v, -, rfl⟩ := List.mem_map.mp hw
  have h := quartile_mono l 1 3 (by omega) (by omega)
  have hnn := mul_nonneg (neg_nonneg.mpr hc.le) (sub_nonneg.mpr h)
  have e : clipTo (clipLimits c l) v = quartile l 2 + c / 2 * (quartile l 3 - quartile l 1) := by
    unfold clipTo clipLimits
    simp only
    rw [min_eq_right]
    · ring
    · exact le_trans (by linarith) (le_max_right _ _)
  exact ⟨e, by rw [e]; linarith⟩

example : clipFreq (some (-1)) ([1, 2, 3, 4, 5] : List ℚ) = [2, 2, 2, 2, 2] := by decide +kernel

end Clip

theorem clipCells_some (c : ℝ) (l : List ℝ) :
    clipCells (some c) (l.map some) = (clipFreq (some c) l).map some := by
  have h : (l.map some).all Option.isSome = true := by simp
  have h2 : (l.map some).reduceOption = l := by
    induction l with
    | nil => rfl
    | cons a l ih => simp [List.reduceOption_cons_of_some, ih]
  unfold clipCells
  simp only
  rw [if_pos h, h2]

/-- C169.  With `freq_clip`, one time at which the frequency of the beat is not a number makes all residuals of the
frequencies NaN. -/
theorem C169_nan (c w : ℝ) (ts : List ℝ) (aLin fAbs : List Cell) (p : Octet ℝ) (t : ℝ) (ht : t ∈ ts)
    (hz : octetSum p t = 0) (A F : List Cell)
    (h : residuals (defaultLoss w (clipCells (some c))) ts aLin fAbs p = .ok (A, F)) : ∀ r ∈ F, r = none := by
  obtain ⟨d0, d1⟩ := residuals_decays _ ts aLin fAbs p _ h
  rw [residuals_eq _ ts aLin fAbs p d0 d1] at h
  split at h
  · injection h with h
    injection h with _ hF
    subst hF
    have hn : ¬ (freqTrack p ts).all Option.isSome = true := by
      intro hall
      have := List.all_eq_true.mp hall none
        (List.mem_map.mpr ⟨t, ht, by rw [if_pos hz]⟩)
      simp at this
    intro r hr
    obtain ⟨x, hx, rfl⟩ := List.mem_map.mp hr
    have e : (defaultLoss w (clipCells (some c))).clip (freqTrack p ts) = (freqTrack p ts).map fun _ => none := by
      show clipCells (some c) (freqTrack p ts) = _
      unfold clipCells
      simp only
      rw [if_neg hn]
    rw [e] at hx
    obtain ⟨i, hi, rfl⟩ := List.getElem_of_mem hx
    simp [defaultLoss, defaultFreqLoss, lift2]
  · cases h

/-- Such a time: partials of opposite phase. -/
example : ∃ (p : Octet ℝ) (A F : List Cell), octetSum p 0 = 0 ∧ F ≠ [] ∧
    residuals (defaultLoss 1 (clipCells (some (5 / 2)))) [0] [some 0] [some 1] p = .ok (A, F) := by
  have h0 : octetSum (⟨1, 1, 2, 1, 1, 1, 0, Real.pi⟩ : Octet ℝ) 0 = 0 := by
    simp [octetSum, modalSum, sumAt, partialAt]
  refine ⟨⟨1, 1, 2, 1, 1, 1, 0, Real.pi⟩, [some 0], [none], h0, by simp, ?_⟩
  rw [residuals_eq _ _ _ _ _ (by simp) (by simp)]
  simp [defaultLoss, defaultAmpLoss, defaultFreqLoss, ampTrack, freqTrack, clipCells, h0, lift2]

/-- C169.  The exact parameters have no residual exactly if all frequencies of the beat are within the limits (default
losses).  `a` and `f` are the data in decibels and Hertz. -/
theorem C169_exact (c w : ℝ) (hc : 0 ≤ c) (hw : w ≠ 0) (t : List ℝ) (g : Octet ℝ) (h0 : g.d0 ≠ 0) (h1 : g.d1 ≠ 0)
    (hz : ∀ u ∈ t, octetSum g u ≠ 0) (a f : List ℝ)
    (ha : a.map (fun x => (10 : ℝ) ^ (x / 20)) = t.map fun u => ‖octetSum g u‖)
    (hf : f.map (fun x => |x|) =
      t.map fun u => |(deriv (octetSum g) u / octetSum g u).im / (2 * Real.pi)|) :
    ssr (defaultLoss w (clipCells (some c))) t (a.map fun x => some ((10 : ℝ) ^ (x / 20)))
        (f.map fun x => some |x|) g = .ok (some 0) ↔
      ∀ v ∈ f, |(|v|) - quartile (f.map fun x => |x|) 2| ≤
        c / 2 * (quartile (f.map fun x => |x|) 3 - quartile (f.map fun x => |x|) 1) := by
  set x := a.map (fun x => (10 : ℝ) ^ (x / 20)) with hx
  set y := f.map (fun x => |x|) with hy
  have hxs : (a.map fun x => some ((10 : ℝ) ^ (x / 20))) = x.map some := by simp [hx]
  have hys : (f.map fun x => some |x|) = y.map some := by simp [hy]
  have hxg : x = ampTrack g t := ha
  have hyg : y = freqOf g t := hf
  have hxl : x.length = t.length := by rw [ha]; simp
  have hyl : y.length = t.length := by rw [hf]; simp
  have hy0 : ∀ v ∈ y, 0 ≤ v := by rw [hyg]; exact freqOf_nonneg g t
  have hc0 := (C169_order c hc y).2 hy0
  have hcl : (clipFreq (some c) y).length = t.length := by rw [(C169_limits c hc y).2.1, hyl]
  have r1 := C78_residuals w (clipCells (some c)) t x y hxl hyl hy0 g h0 h1 (clipFreq (some c) y)
    (by rw [freqTrack_finite g t hz, ← hyg, clipCells_some]) hcl hc0
  have hall : (∀ v ∈ f, |(|v|) - quartile y 2| ≤ c / 2 * (quartile y 3 - quartile y 1)) ↔
      ∀ v ∈ y, |v - quartile y 2| ≤ c / 2 * (quartile y 3 - quartile y 1) := by
    rw [hy]; simp
  rw [hall, ← C169_unchanged c hc y, hxs, hys]
  simp only [ssr, r1, ← List.map_append, sumSq_some, Except.ok.injEq, Option.some.injEq]
  rw [List.map_append, List.sum_append, ← hxg, zip_self_sq, zero_add]
  have e : ((List.zipWith (fun u v => u - v) (y.map melOf) ((clipFreq (some c) y).map melOf)).map (w * ·)).map
      (· ^ 2) = ((List.zipWith (fun u v => u - v) (y.map melOf) ((clipFreq (some c) y).map melOf)).map
      (· ^ 2)).map (w ^ 2 * ·) := by
    simp [Function.comp_def, mul_pow]
  rw [e, List.sum_map_mul_left, List.map_id']
  constructor
  · intro h
    have h2 := (mul_eq_zero.mp h).resolve_left (pow_ne_zero 2 hw)
    have h3 := zip_sq_eq _ _ (by simp [hyl, hcl]) h2
    exact (map_mel_inj _ _ hy0 hc0 h3).symm
  · intro h
    rw [h, zip_self_sq]
    simp

/-- C169.  With exact data within the limits, if the optimiser finds the beat or the beat with the wrong association
then the regression returns parameters without residuals: the hypotheses of C78 on the limitation are met. -/
theorem C169_fit (lt : Cell → Cell → Bool) (hlt : ∀ x y : ℝ, lt (some x) (some y) = decide (x < y)) (c w : ℝ)
    (hc : 0 ≤ c) (init : List ℝ → List ℝ → List ℝ → Except PyErr Start)
    (bounds : List ℝ → List ℝ → List ℝ → Start → Except PyErr (Octet ℝ × Octet ℝ))
    (solve : Octet ℝ → Octet ℝ → Octet ℝ → Except PyErr (Octet ℝ)) (t a f : List ℝ)
    (g : Octet ℝ) (h0 : g.d0 ≠ 0) (h1 : g.d1 ≠ 0) (hz : ∀ u ∈ t, octetSum g u ≠ 0)
    (ha : a.map (fun x => (10 : ℝ) ^ (x / 20)) = t.map fun u => ‖octetSum g u‖)
    (hf : f.map (fun x => |x|) =
      t.map fun u => |(deriv (octetSum g) u / octetSum g u).im / (2 * Real.pi)|)
    (hin : ∀ v ∈ f, |(|v|) - quartile (f.map fun x => |x|) 2| ≤
      c / 2 * (quartile (f.map fun x => |x|) 3 - quartile (f.map fun x => |x|) 1))
    (p : Octet ℝ) (hp : fitBeat init bounds solve t a f = .ok p)
    (hpg : p = g ∨ p = { g with f0 := g.f1, f1 := g.f0, p0 := g.p1, p1 := g.p0 }) :
    ∃ r, fitDual true lt (defaultLoss w (clipCells (some c))) init bounds solve t a f = .ok r ∧
      (r = g ∨ r = { g with f0 := g.f1, f1 := g.f0, p0 := g.p1, p1 := g.p0 }) ∧
      ssr (defaultLoss w (clipCells (some c))) t (a.map fun x => some ((10 : ℝ) ^ (x / 20)))
        (f.map fun x => some |x|) r = .ok (some 0) := by
  refine C78_exact lt hlt w (clipCells (some c)) ?_ init bounds solve t a f g h0 h1 hz ha hf ?_ p hp hpg
  · intro l hl
    exact ⟨_, clipCells_some c l, (C169_limits c hc l).2.1, (C169_order c hc l).2 hl⟩
  · have e : (f.map fun x => some |x|) = (f.map fun x => |x|).map some := by simp
    rw [e, clipCells_some, (C169_unchanged c hc _).mpr]
    intro v hv
    obtain ⟨u, hu, rfl⟩ := List.mem_map.mp hv
    exact hin u hu

/-- Data within the limits. -/
example : ∀ v ∈ [(5 : ℝ)], |(|v|) - quartile ([(5 : ℝ)].map fun x => |x|) 2| ≤
    (5 / 2) / 2 * (quartile ([(5 : ℝ)].map fun x => |x|) 3 - quartile ([(5 : ℝ)].map fun x => |x|) 1) := by
  simp [quartile]

/-- A beat of partials of 2 Hz and 1 Hz. -/
noncomputable def slowBeat : Octet ℝ := ⟨2, 1, 2, 1, 1, 1, 0, 0⟩

theorem slow_freq (t : ℝ) (s : ℝ) (hs : s = 1 ∨ s = -1)
    (e0 : Complex.exp (((2 * Real.pi * 2 * t + 0 : ℝ) : ℂ) * Complex.I) = 1)
    (e1 : Complex.exp (((2 * Real.pi * 1 * t + 0 : ℝ) : ℂ) * Complex.I) = s) :
    octetSum slowBeat t ≠ 0 ∧
      (deriv (octetSum slowBeat) t / octetSum slowBeat t).im / (2 * Real.pi) = (4 + s) / (2 + s) := by
  have hE : ∀ a : ℝ, HasDerivAt (fun u : ℝ => a * Real.exp (-2 / 1 * u)) (a * Real.exp (-2 / 1 * t) * (-2 / 1)) t := by
    intro a
    have : HasDerivAt (fun u : ℝ => -2 / 1 * u) (-2 / 1 : ℝ) t := by
      simpa using (hasDerivAt_id t).const_mul (-2 / 1 : ℝ)
    simpa [mul_assoc] using (this.exp.const_mul a)
  have d0 := partial_deriv _ _ 2 0 t (hE 2)
  have d1 := partial_deriv _ _ 1 0 t (hE 1)
  have d : HasDerivAt (octetSum slowBeat) _ t := d0.add d1
  rw [d.deriv]
  have hv : octetSum slowBeat t = ((Real.exp (-2 / 1 * t) * (2 + s) : ℝ) : ℂ) := by
    simp only [octetSum, modalSum, sumAt, partialAt, slowBeat, e0, e1]
    push_cast
    ring
  have hx := Real.exp_pos (-2 / 1 * t)
  have hs2 : (0 : ℝ) < 2 + s := by rcases hs with h | h <;> rw [h] <;> norm_num
  have hpi := Real.pi_pos
  refine ⟨?_, ?_⟩
  · rw [hv]
    exact_mod_cast (mul_pos hx hs2).ne'
  · rw [e0, e1, hv]
    generalize Real.exp (-2 / 1 * t) = E at hx
    rw [Complex.div_ofReal_im]
    simp
    field_simp
    ring

theorem slow_whole (n : ℕ) : octetSum slowBeat n ≠ 0 ∧
    (deriv (octetSum slowBeat) n / octetSum slowBeat n).im / (2 * Real.pi) = 5 / 3 := by
  have h := slow_freq n 1 (Or.inl rfl)
    (by rw [Complex.exp_eq_one_iff]; exact ⟨2 * n, by push_cast; ring⟩)
    (by rw [Complex.ofReal_one, Complex.exp_eq_one_iff]; exact ⟨n, by push_cast; ring⟩)
  refine ⟨h.1, h.2.trans (by norm_num)⟩

theorem slow_half : octetSum slowBeat (1 / 2) ≠ 0 ∧
    (deriv (octetSum slowBeat) (1 / 2) / octetSum slowBeat (1 / 2)).im / (2 * Real.pi) = 3 := by
  have h := slow_freq (1 / 2) (-1) (Or.inr rfl)
    (by rw [Complex.exp_eq_one_iff]; exact ⟨1, by push_cast; ring⟩)
    (by
      have : ((2 * Real.pi * 1 * (1 / 2) + 0 : ℝ) : ℂ) * Complex.I = Real.pi * Complex.I := by push_cast; ring
      rw [this, Complex.exp_pi_mul_I]; simp)
  refine ⟨h.1, h.2.trans (by norm_num)⟩

/-- C169.  Exact data of a beat at five times for which, with the default `freq_clip`, the true parameters have a
residual that is not zero, whatever the weight. -/
theorem C169_witness : ∃ (t a f : List ℝ) (g : Octet ℝ), g.d0 ≠ 0 ∧ g.d1 ≠ 0 ∧ (∀ u ∈ t, octetSum g u ≠ 0) ∧
    a.map (fun x => (10 : ℝ) ^ (x / 20)) = t.map (fun u => ‖octetSum g u‖) ∧
    f.map (fun x => |x|) =
      t.map (fun u => |(deriv (octetSum g) u / octetSum g u).im / (2 * Real.pi)|) ∧
    ∀ w : ℝ, w ≠ 0 → ssr (defaultLoss w (clipCells (some (5 / 2)))) t
      (a.map fun x => some ((10 : ℝ) ^ (x / 20))) (f.map fun x => some |x|) g ≠ .ok (some 0) := by
  have w0 := slow_whole 0
  have w1 := slow_whole 1
  have w2 := slow_whole 2
  have w3 := slow_whole 3
  have wh := slow_half
  set t : List ℝ := [((0 : ℕ) : ℝ), ((1 : ℕ) : ℝ), ((2 : ℕ) : ℝ), ((3 : ℕ) : ℝ), 1 / 2] with ht
  have hz : ∀ u ∈ t, octetSum slowBeat u ≠ 0 := by
    intro u hu
    simp only [ht, List.mem_cons, List.not_mem_nil, or_false] at hu
    rcases hu with rfl | rfl | rfl | rfl | rfl
    exacts [w0.1, w1.1, w2.1, w3.1, wh.1]
  have ha : (t.map fun u => 20 * Real.logb 10 ‖octetSum slowBeat u‖).map (fun x => (10 : ℝ) ^ (x / 20)) =
      t.map (fun u => ‖octetSum slowBeat u‖) := by
    rw [List.map_map]
    refine List.map_congr_left fun u hu => ?_
    simp only [Function.comp]
    rw [mul_div_cancel_left₀ _ (by norm_num : (20 : ℝ) ≠ 0),
      Real.rpow_logb (by norm_num) (by norm_num) (norm_pos_iff.mpr (hz u hu))]
  have hf : [(5 / 3 : ℝ), 5 / 3, 5 / 3, 5 / 3, 3].map (fun x => |x|) =
      t.map (fun u => |(deriv (octetSum slowBeat) u / octetSum slowBeat u).im / (2 * Real.pi)|) := by
    simp only [ht, List.map_cons, List.map_nil, w0.2, w1.2, w2.2, w3.2, wh.2]
  have d0 : slowBeat.d0 ≠ 0 := by simp [slowBeat]
  have d1 : slowBeat.d1 ≠ 0 := by simp [slowBeat]
  refine ⟨t, _, _, slowBeat, d0, d1, hz, ha, hf, ?_⟩
  intro w hw h
  rw [C169_exact (5 / 2) w (by norm_num) hw t slowBeat d0 d1 hz _ _ ha hf] at h
  have h3 := h 3 (by simp)
  have hs : [(5 / 3 : ℝ), 5 / 3, 5 / 3, 5 / 3, 3].map (fun x => |x|) = [5 / 3, 5 / 3, 5 / 3, 5 / 3, 3] := by
    norm_num [abs_of_pos]
  have hsort : [(5 / 3 : ℝ), 5 / 3, 5 / 3, 5 / 3, 3].insertionSort (· ≤ ·) = [5 / 3, 5 / 3, 5 / 3, 5 / 3, 3] := by
    apply List.Pairwise.insertionSort_eq
    norm_num
  rw [hs] at h3
  norm_num [quartile, hsort] at h3

end Verif.Beat
