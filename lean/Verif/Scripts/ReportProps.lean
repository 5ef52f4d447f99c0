import Verif.Scripts.ReportModel
import Mathlib.Data.List.Basic
import Mathlib.Data.Rat.Defs
import Mathlib.Algebra.Order.Ring.Rat
import Mathlib.Algebra.Order.Group.Unbundled.Abs
import Mathlib.Tactic.Linarith
import Mathlib.Tactic.NormNum
import Mathlib.Tactic.FieldSimp

/-!
# C105, C106: reports of the evaluation script
-/

set_option autoImplicit false
set_option linter.unusedSectionVars false
set_option linter.unusedSimpArgs false

namespace Verif.Scripts

/-! ## C105: comparisons -/

section
variable {K : Type*} [Field K] [LinearOrder K] [IsStrictOrderedRing K]

/-- **C105.** With a positive critical difference `cd` the frequentist comparison is `smaller` when the mean
rank of the first population is less by `cd` at least, `larger` when it is greater by `cd` at least, else
`equal`; exchanging the populations exchanges `smaller` and `larger`. -/
theorem C105_frequentist (mean : String → Option K) (cd m1 m2 : K) (k1 k2 : String) (h1 : mean k1 = some m1)
    (h2 : mean k2 = some m2) (hcd : 0 < cd) :
    ∃ a b, freqDecision mean cd k1 k2 = .ok a ∧ freqDecision mean cd k2 k1 = .ok b ∧
      (a = .smaller ↔ m1 + cd ≤ m2) ∧ (a = .larger ↔ m2 + cd ≤ m1) ∧
      (a = .equal ↔ m2 < m1 + cd ∧ m1 < m2 + cd) ∧
      (b = .smaller ↔ a = .larger) ∧ (b = .larger ↔ a = .smaller) ∧ (b = .equal ↔ a = .equal) := by
  unfold freqDecision
  simp only [h1, h2]
  by_cases e1 : |m2 - m1| < cd
  · have e2 : |m1 - m2| < cd := by rw [abs_sub_comm]; exact e1
    rw [if_pos e1, if_pos e2]
    rw [abs_lt] at e1
    refine ⟨_, _, rfl, rfl, ?_⟩
    simp only [reduceCtorEq, false_iff, true_iff, iff_self, and_true, not_le]
    exact ⟨by linarith, by linarith, by linarith, by linarith⟩
  · have e2 : ¬|m1 - m2| < cd := by rw [abs_sub_comm]; exact e1
    rw [if_neg e1, if_neg e2]
    rw [not_lt, le_abs] at e1
    by_cases e3 : m2 - m1 > 0
    · have e4 : ¬m1 - m2 > 0 := by intro h; linarith
      rw [if_pos e3, if_neg e4]
      refine ⟨_, _, rfl, rfl, ?_⟩
      simp only [reduceCtorEq, false_iff, true_iff, iff_self, and_true, not_le, not_and, not_lt]
      rcases e1 with e1 | e1
      · exact ⟨by linarith, by linarith, fun h => by linarith⟩
      · linarith
    · have e4 : m1 - m2 > 0 := by
        rcases e1 with e1 | e1
        · linarith
        · linarith
      rw [if_neg e3, if_pos e4]
      refine ⟨_, _, rfl, rfl, ?_⟩
      simp only [reduceCtorEq, false_iff, true_iff, iff_self, and_true, not_le, not_and, not_lt]
      rcases e1 with e1 | e1
      · linarith
      · exact ⟨by linarith, by linarith, fun _ => by linarith⟩

/-- With a critical difference of zero two populations of the same mean rank are each larger than the other. -/
theorem both_larger : (freqDecision (fun _ => some (3 : ℚ)) 0 "a" "b").toOption = some .larger ∧
    (freqDecision (fun _ => some (3 : ℚ)) 0 "b" "a").toOption = some .larger := by
  decide +kernel

end

/-- Exchanging twice. -/
theorem swapAnswer_swap (a : Answer) : swapAnswer (swapAnswer a) = a := by
  cases a <;> rfl

/-- **C105.** When the decision matrix has a string in one of the two cells of two populations and NaN in the
other (above and below the diagonal), the Bayesian comparison does not depend on which of the two cells is
filled: it is the string of the cell of column `k1` and row `k2`, or the exchanged string of the other, and
exchanging the populations exchanges `smaller` and `larger`. -/
theorem C105_bayesian (m : Matrix) (k1 k2 : String) (a : Answer)
    (h : (m k1 k2 = some (some a) ∧ m k2 k1 = some none) ∨
      (m k1 k2 = some none ∧ m k2 k1 = some (some (swapAnswer a)))) :
    bayesDecision m k1 k2 = .ok (some a) ∧ bayesDecision m k2 k1 = .ok (some (swapAnswer a)) := by
  unfold bayesDecision
  rcases h with ⟨h1, h2⟩ | ⟨h1, h2⟩
  · rw [h1, h2]; exact ⟨rfl, rfl⟩
  · rw [h1, h2]; exact ⟨by simp [swapAnswer_swap], rfl⟩

/-- **C105.** The report compares the two models in each of the six parameters, in the order of the parameters;
it fails only if a comparison does. -/
theorem C105_items {R : Type*} (decision : String → String → R) :
    modelItems (fun a b => .ok (decision a b)) = .ok [
      ("f0", decision "f0_br_ar" "f0_dbr_ar"), ("f1", decision "f1_br_ar" "f1_dbr_ar"),
      ("a0", decision "a0_br_ar" "a0_dbr_ar"), ("a1", decision "a1_br_ar" "a1_dbr_ar"),
      ("d0", decision "d0_br_ar" "d0_dbr_ar"), ("d1", decision "d1_br_ar" "d1_dbr_ar")] := by
  rfl

section
variable {K : Type*} [Field K] [LinearOrder K] [IsStrictOrderedRing K]

/-- **C105.** The errors that are compared are not negative, one for each case, zero for an exact estimate and,
with a strictly increasing scale, only for it. -/
theorem C105_errors (premap : Option (K → K)) (hmono : ∀ g, premap = some g → StrictMono g)
    (truth est : List K) (hl : truth.length = est.length) :
    (absErrors premap truth est).length = truth.length ∧
      ∀ (i : Nat) (x y : K), truth[i]? = some x → est[i]? = some y →
        ∃ e, (absErrors premap truth est)[i]? = some e ∧ 0 ≤ e ∧ (e = 0 ↔ x = y) := by
  cases premap with
  | none =>
    refine ⟨by simp [absErrors, hl], fun i x y hx hy => ⟨|x - y|, ?_, abs_nonneg _, ?_⟩⟩
    · simp [absErrors, List.getElem?_zipWith, hx, hy]
    · rw [abs_eq_zero, sub_eq_zero]
  | some g =>
    refine ⟨by simp [absErrors, hl], fun i x y hx hy => ⟨|g x - g y|, ?_, abs_nonneg _, ?_⟩⟩
    · simp [absErrors, List.getElem?_zipWith, hx, hy]
    · rw [abs_eq_zero, sub_eq_zero]
      exact (hmono g rfl).injective.eq_iff

end

/-- **C105.** Without an output path, or if the file of results does not exist yet, the report is about the
data; the next run with the same output path reports what this one has reported. -/
theorem C105_fresh {D R : Type*} (autorank : D → R) (file : Option R) (data data' : D) :
    (rankResult autorank false file data).1 = autorank data ∧
    (rankResult autorank true none data).1 = autorank data ∧
    (rankResult autorank true (rankResult autorank true file data).2 data').1 =
      (rankResult autorank true file data).1 := by
  cases file <;> exact ⟨rfl, rfl, rfl⟩

/-- **C105.** Whenever the file of results exists, the report is that of the file, whatever the data are. -/
theorem C105_stale {D R : Type*} (autorank : D → R) (r : R) (data : D) :
    rankResult autorank true (some r) data = (r, some r) := rfl

/-! ## C106: the decision rule and the FFT size -/

section
variable {K : Type*} [LinearOrder K]

theorem argminAux_spec (xs : List K) (i best : Nat) (b : K) (hb : best < i) (l : List K)
    (hl : l.length = i) (hlb : l[best]? = some b) (hmin : ∀ (j : Nat) (y : K), l[j]? = some y → b ≤ y)
    (hfirst : ∀ (j : Nat) (y : K), j < best → l[j]? = some y → b < y) :
    ∃ y, (l ++ xs)[argminAux xs i best b]? = some y ∧ (∀ (j : Nat) (z : K), (l ++ xs)[j]? = some z → y ≤ z) ∧
      ∀ (j : Nat) (z : K), j < argminAux xs i best b → (l ++ xs)[j]? = some z → y < z := by
  induction xs generalizing i best b l with
  | nil => exact ⟨b, by simpa [argminAux] using hlb, by simpa using hmin, by simpa [argminAux] using hfirst⟩
  | cons x xs ih =>
    have hsplit : l ++ x :: xs = (l ++ [x]) ++ xs := by simp
    rw [hsplit]
    unfold argminAux
    have hget : ∀ (j : Nat) (y : K), (l ++ [x])[j]? = some y → l[j]? = some y ∨ (j = i ∧ y = x) := by
      intro j y h
      rcases Nat.lt_or_ge j l.length with hj | hj
      · rw [List.getElem?_append_left hj] at h; exact .inl h
      · rw [List.getElem?_append_right hj] at h
        rcases Nat.eq_zero_or_pos (j - l.length) with h0 | h0
        · rw [h0] at h
          simp at h
          exact .inr ⟨by omega, h.symm⟩
        · rw [List.getElem?_eq_none (by simp; omega)] at h
          simp at h
    split
    · rename_i hx
      refine ih (i + 1) i x (by omega) (l ++ [x]) (by simp [hl]) ?_ ?_ ?_
      · rw [List.getElem?_append_right (by omega)]; simp [hl]
      · intro j y h
        rcases hget j y h with h | ⟨-, rfl⟩
        · exact hx.le.trans (hmin j y h)
        · exact le_refl _
      · intro j y hj h
        rcases hget j y h with h | ⟨rfl, -⟩
        · exact hx.trans_le (hmin j y h)
        · omega
    · rename_i hx
      refine ih (i + 1) best b (by omega) (l ++ [x]) (by simp [hl]) ?_ ?_ ?_
      · rw [List.getElem?_append_left (by omega)]; exact hlb
      · intro j y h
        rcases hget j y h with h | ⟨-, rfl⟩
        · exact hmin j y h
        · exact not_lt.1 hx
      · intro j y hj h
        rcases hget j y h with h | ⟨rfl, -⟩
        · exact hfirst j y hj h
        · omega

end

section
variable {K : Type*} [Field K] [LinearOrder K] [IsStrictOrderedRing K]

/-- **C106.** The decision that is counted for a frequency is that of a track whose median frequency is
nearest to it, the first one of them; without tracks there is an error. -/
theorem C106_nearest (medians : List K) (decisions : List Bool) (f : K)
    (hl : decisions.length = medians.length) :
    (medians = [] → nearestDecision medians decisions f = .error .valueError) ∧
    (medians ≠ [] → ∃ (i : Nat) (m : K) (d : Bool), nearestDecision medians decisions f = .ok d ∧ medians[i]? = some m ∧
      decisions[i]? = some d ∧ (∀ (j : Nat) (m' : K), medians[j]? = some m' → |f - m| ≤ |f - m'|) ∧
      ∀ (j : Nat) (m' : K), j < i → medians[j]? = some m' → |f - m| < |f - m'|) := by
  constructor
  · rintro rfl
    rfl
  · intro hne
    cases medians with
    | nil => exact absurd rfl hne
    | cons m ms =>
      obtain ⟨y, h1, h2, h3⟩ := argminAux_spec (ms.map fun m => |f - m|) 1 0 (|f - m|) (by omega) [|f - m|]
        rfl rfl (by
          intro j y h
          cases j with
          | zero => simp at h; rw [h]
          | succ j => simp at h) (by intro j y h; omega)
      set i := argminAux (ms.map fun m => |f - m|) 1 0 (|f - m|) with hi
      rw [show [|f - m|] ++ ms.map (fun m => |f - m|) = (m :: ms).map fun m => |f - m| by simp] at h1 h2 h3
      rw [List.getElem?_map, Option.map_eq_some_iff] at h1
      obtain ⟨mi, hmi, rfl⟩ := h1
      have hlt : i < decisions.length := by
        rw [hl]
        exact (List.getElem?_eq_some_iff.1 hmi).1
      refine ⟨i, mi, decisions[i], ?_, hmi, by simp [hlt], ?_, ?_⟩
      · simp only [nearestDecision, argminE, List.map_cons]
        rw [← hi]
        simp [getE, hlt]
      · intro j m' h
        exact h2 j _ (by rw [List.getElem?_map, h]; rfl)
      · intro j m' hj h
        exact h3 j _ hj (by rw [List.getElem?_map, h]; rfl)

end

/-- **C106.** In the classification report the first `n` cases are the beats, with the decisions for the beats,
and the other `n` are the single partials, with the decisions for these. -/
theorem C106_classes (beat single : List Bool) (n i : Nat) (hb : beat.length = n) (hs : single.length = n) :
    (classes beat single n).1.length = 2 * n ∧ (classes beat single n).2.length = 2 * n ∧
    (i < n → (classes beat single n).1[i]? = some true ∧ (classes beat single n).2[i]? = beat[i]? ∧
      (classes beat single n).1[n + i]? = some false ∧ (classes beat single n).2[n + i]? = single[i]?) := by
  refine ⟨by simp [classes]; omega, by simp [classes, hb, hs]; omega, fun hi => ⟨?_, ?_, ?_, ?_⟩⟩
  · simp only [classes]; rw [List.getElem?_append_left (by simpa using hi)]; simp [hi]
  · simp only [classes]; rw [List.getElem?_append_left (by omega)]
  · simp only [classes]; rw [List.getElem?_append_right (by simp)]; simp [hi]
  · simp only [classes]; rw [List.getElem?_append_right (by omega)]; simp [hb]

/-! ### Importances -/

/-- What two rows hold after a split. -/
theorem writeTargets_eq {V : Type*} (features : List String) (i : Nat) (imp : Nat → String → String → V)
    (m : Importances V) :
    writeTargets features i imp 0 targets m =
      ⟨fun k => if k ∈ features then ((m.cell k).set (2 * i) (some (imp i "beat" k))).set (2 * i + 1)
          (some (imp i "single" k)) else m.cell k,
        (m.target.set (2 * i) (some "beat")).set (2 * i + 1) (some "single")⟩ := by
  simp only [targets, writeTargets, writeRow, Nat.add_zero, Nat.zero_add, Importances.mk.injEq, and_true]
  funext k
  by_cases hk : k ∈ features <;> simp [hk]

theorem set_set_get {α : Type*} (l : List α) (p q j : Nat) (a b : α) (hpq : p ≠ q) (hp : p < l.length)
    (hq : q < l.length) :
    ((l.set p a).set q b)[j]? = if j = p then some a else if j = q then some b else l[j]? := by
  simp only [List.getElem?_set, List.length_set]
  by_cases h1 : j = p
  · subst h1
    simp [hp, Ne.symm hpq]
  · by_cases h2 : j = q
    · subst h2
      simp [hq, h1]
    · simp [h1, h2, Ne.symm h1, Ne.symm h2]

theorem writeSplits_spec {V : Type*} (features : List String) (imp : Nat → String → String → V) (N : Nat)
    (is : List Nat) (his : ∀ i ∈ is, i < N) (m : Importances V)
    (hm : ∀ k ∈ features, (m.cell k).length = 2 * N) (ht : m.target.length = 2 * N) :
    (∀ k ∈ features, ((writeSplits features imp is m).cell k).length = 2 * N) ∧
    (writeSplits features imp is m).target.length = 2 * N ∧
    (∀ i, (i ∈ is ∨ (∀ k ∈ features, (m.cell k)[2 * i]? = some (some (imp i "beat" k)) ∧
        (m.cell k)[2 * i + 1]? = some (some (imp i "single" k))) ∧ m.target[2 * i]? = some (some "beat") ∧
        m.target[2 * i + 1]? = some (some "single")) →
      (∀ k ∈ features, ((writeSplits features imp is m).cell k)[2 * i]? = some (some (imp i "beat" k)) ∧
        ((writeSplits features imp is m).cell k)[2 * i + 1]? = some (some (imp i "single" k))) ∧
      (writeSplits features imp is m).target[2 * i]? = some (some "beat") ∧
      (writeSplits features imp is m).target[2 * i + 1]? = some (some "single")) := by
  induction is generalizing m with
  | nil =>
    refine ⟨hm, ht, fun i h => ?_⟩
    rcases h with h | h
    · simp at h
    · exact h
  | cons i0 is ih =>
    have hi0 := his i0 (by simp)
    unfold writeSplits
    have hm' : ∀ k ∈ features, ((writeTargets features i0 imp 0 targets m).cell k).length = 2 * N := by
      intro k hk
      rw [writeTargets_eq]
      simp [hk, hm k hk]
    have ht' : (writeTargets features i0 imp 0 targets m).target.length = 2 * N := by
      rw [writeTargets_eq]; simp [ht]
    obtain ⟨h1, h2, h3⟩ := ih (fun i h => his i (by simp [h])) _ hm' ht'
    refine ⟨h1, h2, fun i h => h3 i ?_⟩
    by_cases hin : i ∈ is
    · exact .inl hin
    · refine .inr ?_
      rw [writeTargets_eq]
      by_cases hi : i = i0
      · subst hi
        refine ⟨fun k hk => ?_, ?_, ?_⟩
        · have := hm k hk
          simp only [hk, if_true]
          rw [set_set_get _ _ _ _ _ _ (by omega) (by omega) (by omega),
            set_set_get _ _ _ _ _ _ (by omega) (by omega) (by omega)]
          simp
        · rw [set_set_get _ _ _ _ _ _ (by omega) (by omega) (by omega)]; simp
        · rw [set_set_get _ _ _ _ _ _ (by omega) (by omega) (by omega)]; simp
      · have hold : (∀ k ∈ features, (m.cell k)[2 * i]? = some (some (imp i "beat" k)) ∧
            (m.cell k)[2 * i + 1]? = some (some (imp i "single" k))) ∧ m.target[2 * i]? = some (some "beat") ∧
            m.target[2 * i + 1]? = some (some "single") := by
          rcases h with h | h
          · simp [hi, hin] at h
          · exact h
        obtain ⟨o1, o2, o3⟩ := hold
        refine ⟨fun k hk => ?_, ?_, ?_⟩
        · have := hm k hk
          simp only [hk, if_true]
          rw [set_set_get _ _ _ _ _ _ (by omega) (by omega) (by omega),
            set_set_get _ _ _ _ _ _ (by omega) (by omega) (by omega)]
          rw [if_neg (by omega), if_neg (by omega), if_neg (by omega), if_neg (by omega)]
          exact o1 k hk
        · rw [set_set_get _ _ _ _ _ _ (by omega) (by omega) (by omega), if_neg (by omega), if_neg (by omega)]
          exact o2
        · rw [set_set_get _ _ _ _ _ _ (by omega) (by omega) (by omega), if_neg (by omega), if_neg (by omega)]
          exact o3

/-- **C106.** With `--tqdm` every row of the importances is written: row `2 i` with the tree for the beats on
split `i`, row `2 i + 1` with that for the single partials, whatever the memory held. -/
theorem C106_importances {V : Type*} (features : List String) (n : Nat) (imp : Nat → String → String → V)
    (mem : Importances V) (hm : ∀ k ∈ features, (mem.cell k).length = 2 * n) (ht : mem.target.length = 2 * n)
    (i : Nat) (hi : i < n) :
    (∀ k ∈ features, ((importances features true n imp mem).cell k)[2 * i]? = some (some (imp i "beat" k)) ∧
      ((importances features true n imp mem).cell k)[2 * i + 1]? = some (some (imp i "single" k))) ∧
    (importances features true n imp mem).target[2 * i]? = some (some "beat") ∧
    (importances features true n imp mem).target[2 * i + 1]? = some (some "single") :=
  (writeSplits_spec features imp n (List.range n) (fun _ h => List.mem_range.1 h) mem hm ht).2.2 i
    (.inl (List.mem_range.2 hi))

/-- **C106.** Without `--tqdm` nothing is written: the table holds what the memory held. -/
theorem C106_uninitialised {V : Type*} (features : List String) (n : Nat) (imp : Nat → String → String → V)
    (mem : Importances V) : importances features false n imp mem = mem := rfl

/-- **C106.** The FFT report: the percentage is between 0 and 100, and 100 exactly when two tracks at least were
found in every case; without cases there is an error. -/
theorem C106_fft {K : Type*} [Field K] [LinearOrder K] [IsStrictOrderedRing K] (counts : List Nat) (e : Nat) :
    (counts = [] → fftReport (K := K) counts e = .error .zeroDivisionError) ∧
    (counts ≠ [] → ∃ n t p, fftReport (K := K) counts e = .ok (n, t, p, 2 ^ e) ∧ t = counts.length ∧ n ≤ t ∧
      0 ≤ p ∧ p ≤ 100 ∧ (p = 100 ↔ ∀ c ∈ counts, 2 ≤ c) ∧ (p = 0 ↔ ∀ c ∈ counts, c < 2)) := by
  constructor
  · rintro rfl; rfl
  · intro hne
    have hlen : counts.length ≠ 0 := by simpa using hne
    have hpos : (0 : K) < counts.length := by exact_mod_cast Nat.pos_of_ne_zero hlen
    have hle : (counts.filter (2 ≤ ·)).length ≤ counts.length := List.length_filter_le _ _
    have hle' : ((counts.filter (2 ≤ ·)).length : K) ≤ counts.length := by exact_mod_cast hle
    refine ⟨_, _, _, by unfold fftReport; rw [if_neg hlen], rfl, hle, ?_, ?_, ?_, ?_⟩
    · positivity
    · rw [div_le_iff₀ hpos]; linarith
    · rw [div_eq_iff hpos.ne']
      constructor
      · intro h c hc
        have h' : ((counts.filter (2 ≤ ·)).length : K) = counts.length := by linarith
        have h'' : (counts.filter (2 ≤ ·)).length = counts.length := by exact_mod_cast h'
        have := List.length_filter_eq_length_iff.1 h'' c hc
        simpa using this
      · intro h
        have : counts.filter (2 ≤ ·) = counts := List.filter_eq_self.2 fun c hc => by simpa using h c hc
        rw [this, mul_comm]
    · rw [div_eq_iff hpos.ne']
      constructor
      · intro h c hc
        have h' : ((counts.filter (2 ≤ ·)).length : K) = 0 := by linarith
        have h'' : (counts.filter (2 ≤ ·)).length = 0 := by exact_mod_cast h'
        have := List.filter_eq_nil_iff.1 (List.length_eq_zero_iff.1 h'') c hc
        simpa using this
      · intro h
        have : counts.filter (2 ≤ ·) = [] := List.filter_eq_nil_iff.2 fun c hc => by simpa using h c hc
        rw [this]; simp

/-! ## Cases -/

/-- Cases of the comparisons. -/
example : (freqDecision (fun k => if k = "a" then some (1 : ℚ) else some 4) 2 "a" "b").toOption = some .smaller ∧
    (freqDecision (fun k => if k = "a" then some (1 : ℚ) else some 4) 2 "b" "a").toOption = some .larger ∧
    (freqDecision (fun k => if k = "a" then some (1 : ℚ) else some 4) 4 "b" "a").toOption = some .equal := by
  decide +kernel

/-- A matrix with the cells above the diagonal. -/
example : (bayesDecision (fun a b => if a = "b" ∧ b = "a" then some (some .smaller) else some none) "a" "b").toOption =
    some (some .larger) := by decide +kernel

/-- Two tracks are as near: the first one is taken. -/
example : (nearestDecision [10, 20, (40 : ℚ)] [false, true, false] 15).toOption = some false ∧
    (nearestDecision [10, 20, (40 : ℚ)] [false, true, false] 16).toOption = some true := by
  decide +kernel

/-- Two splits. -/
example : (importances ["a"] true 2 (fun i t _ => (i, t)) ⟨fun _ => List.replicate 4 none, List.replicate 4 none⟩).cell "a" =
    [some (0, "beat"), some (0, "single"), some (1, "beat"), some (1, "single")] := by
  decide +kernel

/-- A report. -/
example : (fftReport (K := ℚ) [1, 2, 3, 0] 14).toOption = some (2, 4, 50, 16384) := by
  decide +kernel

end Verif.Scripts
