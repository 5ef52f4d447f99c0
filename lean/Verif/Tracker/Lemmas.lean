import Verif.Tracker.Spec
import Mathlib.Tactic

set_option autoImplicit false
set_option linter.unusedSectionVars false
set_option linter.unusedSimpArgs false

namespace Verif.Tracker

variable {K : Type*} [Field K] [LinearOrder K]

theorem minKeyLoop_spec {α V V' : Type*} [LinearOrder V] (e : V → V') (lt : V' → V' → Bool)
    (he : ∀ x y, lt (e x) (e y) = decide (x < y)) (key : α → Except PyErr V') (v : α → V) :
    ∀ (it : List α) (i0 : α) (pre : List α), (∀ i ∈ it, key i = .ok (e (v i))) →
      (∀ j ∈ pre, v i0 < v j) → ∀ (mid : List α), (∀ j ∈ mid, v i0 ≤ v j) →
      ∃ i pre' post, pre ++ i0 :: mid ++ it = pre' ++ i :: post ∧
        minKeyLoop lt key it (some (i0, e (v i0))) = .ok (some (i, e (v i))) ∧
        (∀ j ∈ pre', v i < v j) ∧ (∀ j ∈ post, v i ≤ v j) := by
  intro it
  induction it with
  | nil =>
    intro i0 pre _ hpre mid hmid
    exact ⟨i0, pre, mid, by simp, rfl, hpre, hmid⟩
  | cons a it ih =>
    intro i0 pre hk hpre mid hmid
    have ha : key a = .ok (e (v a)) := hk a (by simp)
    have hk' : ∀ i ∈ it, key i = .ok (e (v i)) := fun i hi => hk i (by simp [hi])
    by_cases hlt : v a < v i0
    · obtain ⟨i, pre', post, h1, h2, h3, h4⟩ := ih a (pre ++ i0 :: mid) hk'
        (by
          intro j hj
          simp only [List.mem_append, List.mem_cons] at hj
          rcases hj with hj | rfl | hj
          · exact lt_trans hlt (hpre j hj)
          · exact hlt
          · exact lt_of_lt_of_le hlt (hmid j hj)) [] (by simp)
      refine ⟨i, pre', post, ?_, ?_, h3, h4⟩
      · rw [← h1]; simp
      · rw [← h2]; simp [minKeyLoop, ha, he, hlt]
    · obtain ⟨i, pre', post, h1, h2, h3, h4⟩ := ih i0 pre hk' hpre (mid ++ [a])
        (by
          intro j hj
          simp only [List.mem_append, List.mem_singleton] at hj
          rcases hj with hj | rfl
          · exact hmid j hj
          · exact not_lt.mp hlt)
      refine ⟨i, pre', post, ?_, ?_, h3, h4⟩
      · rw [← h1]; simp
      · rw [← h2]; simp [minKeyLoop, ha, he, hlt]

/-- `min_key` on a non-empty iterable returns the first item with the least key. -/
theorem minKey_spec' {α V V' : Type*} [LinearOrder V] (e : V → V') (lt : V' → V' → Bool)
    (he : ∀ x y, lt (e x) (e y) = decide (x < y)) (key : α → Except PyErr V') (v : α → V)
    (it : List α) (hne : it ≠ []) (hk : ∀ i ∈ it, key i = .ok (e (v i))) :
    ∃ i pre post, it = pre ++ i :: post ∧
      minKey lt it key = .ok (some (i, e (v i))) ∧
      (∀ j ∈ pre, v i < v j) ∧ (∀ j ∈ post, v i ≤ v j) := by
  cases it with
  | nil => exact absurd rfl hne
  | cons a it =>
    obtain ⟨i, pre, post, h1, h2, h3, h4⟩ := minKeyLoop_spec e lt he key v it a []
      (fun i hi => hk i (by simp [hi])) (by simp) [] (by simp)
    refine ⟨i, pre, post, by simpa using h1, ?_, h3, h4⟩
    rw [← h2]
    simp [minKey, minKeyLoop, hk a (by simp)]

theorem minKey_spec {α V : Type*} [LinearOrder V] (key : α → Except PyErr V) (v : α → V)
    (it : List α) (hne : it ≠ []) (hk : ∀ i ∈ it, key i = .ok (v i)) :
    ∃ i pre post, it = pre ++ i :: post ∧
      minKey (fun x y => decide (x < y)) it key = .ok (some (i, v i)) ∧
      (∀ j ∈ pre, v i < v j) ∧ (∀ j ∈ post, v i ≤ v j) :=
  minKey_spec' id _ (fun _ _ => rfl) key v it hne hk

/-- The active tracks after the partial matching `m`. -/
def applyMatch (A : List (ATrack K)) (peaks : List (Peak K)) (m : List (Option Nat)) :
    List (ATrack K) :=
  List.zipWith (fun t o => match o.bind (fun p => peaks[p]?) with
    | some pk => t.push pk
    | none => t) A m

/-- The loop variables represent the partial matching `m`. -/
structure Rel (A : List (ATrack K)) (peaks : List (Peak K)) (m : List (Option Nat))
    (l : LoopSt K) : Prop where
  active : l.active = applyMatch A peaks m
  freeTrack : l.freeTrack = m.map Option.isNone
  freePeak : l.freePeak = (List.range peaks.length).map fun p => decide (some p ∉ m)

/-- Invariant of the matching loop, after the peaks in `seen` were considered. -/
structure LoopInv (c : Cfg K) (A : List (ATrack K)) (peaks : List (Peak K)) (seen : List Nat)
    (m : List (Option Nat)) : Prop where
  len : m.length = A.length
  valid : ∀ p, some p ∈ m → p < peaks.length
  sub : ∀ p, some p ∈ m → p ∈ seen
  inj : ∀ (i j p : Nat), m[i]? = some (some p) → m[j]? = some (some p) → i = j
  near : ∀ (i p : Nat) (t : ATrack K) (pk : Peak K) (f : K), m[i]? = some (some p) → A[i]? = some t → peaks[p]? = some pk →
    t.freq.getLast? = some f → |f - pk.freq| < c.df pk.freq
  nearest : ∀ (i j p : Nat) (t u : ATrack K) (pk : Peak K) (f g : K), m[i]? = some (some p) → A[i]? = some t → A[j]? = some u →
    peaks[p]? = some pk → t.freq.getLast? = some f → u.freq.getLast? = some g →
    (|g - pk.freq| < |f - pk.freq| ∨ (|g - pk.freq| = |f - pk.freq| ∧ j < i)) →
    ∃ q qk, m[j]? = some (some q) ∧ peaks[q]? = some qk ∧ pk.mag ≤ qk.mag
  ordered : ∀ (i j p : Nat) (t u : ATrack K) (pk : Peak K) (f g : K), m[i]? = some (some p) → A[i]? = some t → A[j]? = some u →
    peaks[p]? = some pk → t.freq.getLast? = some f → u.freq.getLast? = some g →
    (|g - pk.freq| < |f - pk.freq| ∨ (|g - pk.freq| = |f - pk.freq| ∧ j < i)) →
    ∃ q, m[j]? = some (some q) ∧ seen.idxOf q < seen.idxOf p
  loudest : ∀ p ∈ seen, ∀ (j : Nat) (u : ATrack K) (pk : Peak K) (g : K), some p ∉ m → peaks[p]? = some pk → A[j]? = some u →
    u.freq.getLast? = some g → |g - pk.freq| < c.df pk.freq →
    ∃ q qk, m[j]? = some (some q) ∧ peaks[q]? = some qk ∧ pk.mag ≤ qk.mag

theorem applyMatch_length (A : List (ATrack K)) (peaks : List (Peak K)) (m : List (Option Nat))
    (h : m.length = A.length) : (applyMatch A peaks m).length = A.length := by
  simp [applyMatch, h]

theorem applyMatch_getElem?_free (A : List (ATrack K)) (peaks : List (Peak K))
    (m : List (Option Nat)) (i : Nat) (t : ATrack K) (hm : m[i]? = some none)
    (hA : A[i]? = some t) : (applyMatch A peaks m)[i]? = some t := by
  simp [applyMatch, List.getElem?_zipWith, hm, hA]

theorem applyMatch_set (A : List (ATrack K)) (peaks : List (Peak K))
    (m : List (Option Nat)) (i p : Nat) (t : ATrack K) (pk : Peak K)
    (hA : A[i]? = some t) (hp : peaks[p]? = some pk) (hl : m.length = A.length) :
    applyMatch A peaks (m.set i (some p)) = (applyMatch A peaks m).set i (t.push pk) := by
  apply List.ext_getElem?
  intro j
  have hi : i < A.length := by
    by_contra h
    rw [List.getElem?_eq_none (by omega)] at hA
    simp at hA
  by_cases hij : i = j
  · subst hij
    have : i < (applyMatch A peaks m).length := by rw [applyMatch_length _ _ _ hl]; exact hi
    have hA' : A[i] = t := by
      rw [List.getElem?_eq_getElem hi] at hA
      exact Option.some.inj hA
    simp [applyMatch, List.getElem?_zipWith, hl, hi, hp, hA']
  · simp [applyMatch, List.getElem?_zipWith, List.getElem?_set, hij]


theorem getElem?_lt {α : Type*} {l : List α} {i : Nat} {a : α} (h : l[i]? = some a) :
    i < l.length := by
  by_contra hh
  rw [List.getElem?_eq_none (by omega)] at h
  simp at h

/-- Last frequency of an active track (tracks are never empty, see `LoopInv`/`Wf`). -/
def lastFreq (t : ATrack K) : K := t.freq.getLast?.getD 0

theorem getLast?_lastFreq (t : ATrack K) (h : t.freq ≠ []) :
    t.freq.getLast? = some (lastFreq t) := by
  unfold lastFreq
  cases h' : t.freq.getLast? with
  | none => simp at h'; exact absurd h' h
  | some a => simp

theorem set_some_mem {m : List (Option Nat)} {i p q : Nat}
    (h : some q ∈ m.set i (some p)) : q = p ∨ some q ∈ m := by
  rcases List.mem_or_eq_of_mem_set h with h | h
  · exact Or.inr h
  · exact Or.inl (Option.some.inj h)

/-- One round of the matching loop. -/
theorem continueOne_spec [IsStrictOrderedRing K] (c : Cfg K) (A : List (ATrack K))
    (peaks : List (Peak K))
    (seen : List Nat) (m : List (Option Nat)) (l : LoopSt K) (p : Nat) (pk : Peak K)
    (hne : ∀ t ∈ A, t.freq ≠ []) (hrel : Rel A peaks m l) (hinv : LoopInv c A peaks seen m)
    (hfree : none ∈ m) (hpk : peaks[p]? = some pk) (hps : p ∉ seen)
    (hloud : ∀ q ∈ seen, ∀ qk : Peak K, peaks[q]? = some qk → pk.mag ≤ qk.mag) :
    ∃ m' l', continueOne c peaks p l = .ok l' ∧ Rel A peaks m' l' ∧
      LoopInv c A peaks (seen ++ [p]) m' := by
  set key : Nat → Except PyErr K := lastDist l.active pk with hkey
  set it := ((List.range l.active.length).filter (fun i => l.freeTrack.getD i false)) with hit
  have hlenA : l.active.length = A.length := by
    rw [hrel.active, applyMatch_length _ _ _ hinv.len]
  have hmem : ∀ i, i ∈ it ↔ m[i]? = some none := by
    intro i
    simp only [hit, List.mem_filter, List.mem_range, hlenA, hrel.freeTrack, List.getD_eq_getElem?_getD,
      List.getElem?_map]
    constructor
    · rintro ⟨h1, h2⟩
      cases h : m[i]? with
      | none => rw [h] at h2; simp at h2
      | some o => rw [h] at h2; cases o with
        | none => rfl
        | some _ => simp at h2
    · intro h
      have := getElem?_lt h
      rw [hinv.len] at this
      exact ⟨this, by rw [h]; rfl⟩
  have hsorted : it.Pairwise (· < ·) := by
    rw [hit]; exact List.Pairwise.filter _ List.pairwise_lt_range
  let v : Nat → K := fun i => |lastFreq (A.getD i ⟨0, [], [], []⟩) - pk.freq|
  have hv : ∀ i t, A[i]? = some t → v i = |lastFreq t - pk.freq| := by
    intro i t h; simp [v, List.getD_eq_getElem?_getD, h]
  have hget : ∀ i ∈ it, ∃ t, A[i]? = some t ∧ l.active[i]? = some t ∧ t.freq ≠ [] := by
    intro i hi
    have hmi := (hmem i).1 hi
    have hlt := getElem?_lt hmi
    rw [hinv.len] at hlt
    refine ⟨A[i], List.getElem?_eq_getElem hlt, ?_, hne _ (List.getElem_mem hlt)⟩
    rw [hrel.active]
    exact applyMatch_getElem?_free _ _ _ _ _ hmi (List.getElem?_eq_getElem hlt)
  have hk : ∀ i ∈ it, key i = .ok (v i) := by
    intro i hi
    obtain ⟨t, h1, h2, h3⟩ := hget i hi
    simp only [hkey, lastDist, getE, h2, lastE, getLast?_lastFreq t h3, hv i t h1]
  have hitne : it ≠ [] := by
    obtain ⟨i, hi, h⟩ := List.mem_iff_getElem.1 hfree
    have : i ∈ it := (hmem i).2 (by rw [List.getElem?_eq_getElem hi, h])
    intro h0; rw [h0] at this; simp at this
  obtain ⟨ti, pre, post, hsplit, hmk, hpre, hpost⟩ := minKey_spec key v it hitne hk
  have htiit : ti ∈ it := by rw [hsplit]; simp
  have hmti := (hmem ti).1 htiit
  obtain ⟨t, hAt, hlt, htne⟩ := hget ti htiit
  have hlast := getLast?_lastFreq t htne
  have hvt := hv ti t hAt
  -- any free track is at least as far, and not nearer with a smaller index
  have hmin : ∀ j, m[j]? = some none → v ti < v j ∨ (v ti ≤ v j ∧ ti ≤ j) := by
    intro j hj
    have hjit := (hmem j).2 hj
    rw [hsplit] at hjit hsorted
    simp only [List.mem_append, List.mem_cons] at hjit
    rcases hjit with h | rfl | h
    · exact Or.inl (hpre j h)
    · exact Or.inr ⟨le_refl _, le_refl _⟩
    · refine Or.inr ⟨hpost j h, ?_⟩
      rw [List.pairwise_append] at hsorted
      have := (List.pairwise_cons.1 hsorted.2.1).1 j h
      omega
  have hone : continueOne c peaks p l =
      if v ti < c.df pk.freq then
        .ok ⟨l.active.set ti (t.push pk), l.freeTrack.set ti false, l.freePeak.set p false⟩
      else .ok l := by
    have hgp : getE peaks p = .ok pk := by simp [getE, hpk]
    unfold continueOne
    rw [hgp]
    dsimp only
    rw [hmk]
    simp [getE, hlt]
  by_cases hd : v ti < c.df pk.freq
  · -- the peak continues track `ti`
    rw [if_pos hd] at hone
    have hltm : ti < m.length := getElem?_lt hmti
    have hpm : some p ∉ m := fun h => hps (hinv.sub p h)
    have hset : ∀ j, (m.set ti (some p))[j]? = if ti = j then some (some p) else m[j]? := by
      intro j
      by_cases h : ti = j
      · subst h; simp [hltm]
      · simp [h]
    have hmono : ∀ (j : Nat) (pm : K),
        (∃ q qk, m[j]? = some (some q) ∧ peaks[q]? = some qk ∧ pm ≤ qk.mag) →
        ∃ q qk, (m.set ti (some p))[j]? = some (some q) ∧ peaks[q]? = some qk ∧ pm ≤ qk.mag := by
      rintro j pm ⟨q, qk, h1, h2⟩
      refine ⟨q, qk, ?_, h2⟩
      rw [hset]
      by_cases h : ti = j
      · subst h; rw [hmti] at h1; simp at h1
      · rw [if_neg h]; exact h1
    refine ⟨m.set ti (some p), _, hone, ⟨?_, ?_, ?_⟩, ?_⟩
    · simp only
      rw [applyMatch_set _ _ _ _ _ _ _ hAt hpk hinv.len, hrel.active]
    · simp only
      rw [hrel.freeTrack, List.map_set]; rfl
    · simp only
      rw [hrel.freePeak]
      apply List.ext_getElem?
      intro q
      have hplt := getElem?_lt hpk
      by_cases hq : p = q
      · subst hq
        have hmem' : some p ∈ m.set ti (some p) := List.mem_set hltm _
        simp [hplt, hmem']
      · rw [List.getElem?_set_ne hq]
        simp only [List.getElem?_map]
        by_cases hqn : q < peaks.length
        · simp only [List.getElem?_range hqn, Option.map_some, Option.some.injEq, decide_eq_decide]
          constructor
          · intro h1 h2
            rcases set_some_mem h2 with h2 | h2
            · exact hq h2.symm
            · exact h1 h2
          · intro h1 h2
            apply h1
            obtain ⟨k, hk2⟩ := List.mem_iff_getElem?.1 h2
            have hk3 : (m.set ti (some p))[k]? = some (some q) := by
              rw [hset]
              by_cases hkk : ti = k
              · subst hkk; rw [hmti] at hk2; simp at hk2
              · rw [if_neg hkk]; exact hk2
            exact List.mem_of_getElem? hk3
        · have hr : (List.range peaks.length)[q]? = none := by simpa using hqn
          rw [hr]; rfl
    · refine ⟨by simp [hinv.len], ?_, ?_, ?_, ?_, ?_, ?_, ?_⟩
      · intro q hq
        rcases set_some_mem hq with rfl | hq
        · exact getElem?_lt hpk
        · exact hinv.valid q hq
      · intro q hq
        rcases set_some_mem hq with rfl | hq
        · simp
        · simp [hinv.sub q hq]
      · intro i j q hi hj
        rw [hset] at hi hj
        by_cases h1 : ti = i <;> by_cases h2 : ti = j
        · omega
        · rw [if_pos h1] at hi; rw [if_neg h2] at hj
          simp only [Option.some.injEq] at hi; subst hi
          exact absurd (List.mem_of_getElem? hj) hpm
        · rw [if_neg h1] at hi; rw [if_pos h2] at hj
          simp only [Option.some.injEq] at hj; subst hj
          exact absurd (List.mem_of_getElem? hi) hpm
        · rw [if_neg h1] at hi; rw [if_neg h2] at hj
          exact hinv.inj i j q hi hj
      · intro i q u qk f hi hu hq hf
        rw [hset] at hi
        by_cases h1 : ti = i
        · subst h1
          simp only [if_pos, Option.some.injEq] at hi; subst hi
          rw [hAt] at hu; cases hu
          rw [hpk] at hq; cases hq
          rw [hlast] at hf; cases hf
          rw [← hvt]; exact hd
        · rw [if_neg h1] at hi
          exact hinv.near i q u qk f hi hu hq hf
      · intro i j q t' u qk f g hi ht' hu hq hf hg hclose
        rw [hset] at hi
        apply hmono
        by_cases h1 : ti = i
        · subst h1
          simp only [if_pos, Option.some.injEq] at hi; subst hi
          rw [hAt] at ht'; cases ht'
          rw [hpk] at hq; cases hq
          rw [hlast] at hf; cases hf
          have hjm : j < m.length := by rw [hinv.len]; exact getElem?_lt hu
          have hvj : v j = |g - pk.freq| := by
            rw [hv j u hu]; unfold lastFreq; rw [hg]; rfl
          rw [← hvt, ← hvj] at hclose
          cases hmj : m[j]? with
          | none => rw [List.getElem?_eq_getElem hjm] at hmj; simp at hmj
          | some o => cases o with
            | none =>
              exfalso
              rcases hmin j hmj with h | ⟨h, h'⟩ <;> rcases hclose with h2 | ⟨h2, h3⟩
              · exact absurd h (not_lt.2 h2.le)
              · exact absurd h (not_lt.2 h2.le)
              · exact absurd h (not_le.2 h2)
              · omega
            | some q =>
              have hqs := hinv.sub q (List.mem_of_getElem? hmj)
              have hqv := hinv.valid q (List.mem_of_getElem? hmj)
              exact ⟨q, peaks[q], rfl, List.getElem?_eq_getElem hqv,
                hloud q hqs _ (List.getElem?_eq_getElem hqv)⟩
        · rw [if_neg h1] at hi
          exact hinv.nearest i j q t' u qk f g hi ht' hu hq hf hg hclose
      · intro i j q t' u qk f g hi ht' hu hq hf hg hclose
        rw [hset] at hi
        by_cases h1 : ti = i
        · subst h1
          simp only [if_pos, Option.some.injEq] at hi; subst hi
          rw [hAt] at ht'; cases ht'
          rw [hpk] at hq; cases hq
          rw [hlast] at hf; cases hf
          have hjm : j < m.length := by rw [hinv.len]; exact getElem?_lt hu
          have hvj : v j = |g - pk.freq| := by
            rw [hv j u hu]; unfold lastFreq; rw [hg]; rfl
          rw [← hvt, ← hvj] at hclose
          cases hmj : m[j]? with
          | none => rw [List.getElem?_eq_getElem hjm] at hmj; simp at hmj
          | some o => cases o with
            | none =>
              exfalso
              rcases hmin j hmj with h | ⟨h, h'⟩ <;> rcases hclose with h2 | ⟨h2, h3⟩
              · exact absurd h (not_lt.2 h2.le)
              · exact absurd h (not_lt.2 h2.le)
              · exact absurd h (not_le.2 h2)
              · omega
            | some q =>
              have hqs := hinv.sub q (List.mem_of_getElem? hmj)
              refine ⟨q, ?_, ?_⟩
              · rw [hset]
                by_cases h : ti = j
                · subst h; rw [hmti] at hmj; simp at hmj
                · rw [if_neg h]; exact hmj
              · rw [List.idxOf_append_of_mem hqs, List.idxOf_append_of_notMem hps]
                have := List.idxOf_lt_length_of_mem hqs
                omega
        · rw [if_neg h1] at hi
          obtain ⟨r, h2, h3⟩ := hinv.ordered i j q t' u qk f g hi ht' hu hq hf hg hclose
          refine ⟨r, ?_, ?_⟩
          · rw [hset]
            by_cases h : ti = j
            · subst h; rw [hmti] at h2; simp at h2
            · rw [if_neg h]; exact h2
          · rw [List.idxOf_append_of_mem (hinv.sub _ (List.mem_of_getElem? h2)),
              List.idxOf_append_of_mem (hinv.sub _ (List.mem_of_getElem? hi))]
            exact h3
      · intro q hq j u qk g hqm hqk hu hg hclose
        apply hmono
        simp only [List.mem_append, List.mem_singleton] at hq
        rcases hq with hq | rfl
        · refine hinv.loudest q hq j u qk g ?_ hqk hu hg hclose
          intro h
          apply hqm
          obtain ⟨k, hk2⟩ := List.mem_iff_getElem?.1 h
          have hk3 : (m.set ti (some p))[k]? = some (some q) := by
            rw [hset]
            by_cases hkk : ti = k
            · subst hkk; rw [hmti] at hk2; simp at hk2
            · rw [if_neg hkk]; exact hk2
          exact List.mem_of_getElem? hk3
        · exact absurd (List.mem_set hltm _) hqm
  · -- no free track is near enough
    rw [if_neg hd] at hone
    refine ⟨m, l, hone, hrel, ⟨hinv.len, hinv.valid, ?_, hinv.inj, hinv.near, hinv.nearest, ?_, ?_⟩⟩
    · intro q hq; simp [hinv.sub q hq]
    · intro i j q t' u qk f g hi ht' hu hq hf hg hclose
      obtain ⟨r, h2, h3⟩ := hinv.ordered i j q t' u qk f g hi ht' hu hq hf hg hclose
      refine ⟨r, h2, ?_⟩
      rw [List.idxOf_append_of_mem (hinv.sub _ (List.mem_of_getElem? h2)),
        List.idxOf_append_of_mem (hinv.sub _ (List.mem_of_getElem? hi))]
      exact h3
    · intro q hq j u qk g hqm hqk hu hg hclose
      simp only [List.mem_append, List.mem_singleton] at hq
      rcases hq with hq | rfl
      · exact hinv.loudest q hq j u qk g hqm hqk hu hg hclose
      · rw [hpk] at hqk; cases hqk
        have hjm : j < m.length := by rw [hinv.len]; exact getElem?_lt hu
        have hvj : v j = |g - pk.freq| := by
          rw [hv j u hu]; unfold lastFreq; rw [hg]; rfl
        rw [← hvj] at hclose
        cases hmj : m[j]? with
        | none => rw [List.getElem?_eq_getElem hjm] at hmj; simp at hmj
        | some o => cases o with
          | none =>
            exfalso
            rcases hmin j hmj with h | ⟨h, _⟩
            · exact hd (lt_trans h hclose)
            · exact hd (lt_of_le_of_lt h hclose)
          | some q =>
            have hqs := hinv.sub q (List.mem_of_getElem? hmj)
            have hqv := hinv.valid q (List.mem_of_getElem? hmj)
            exact ⟨q, peaks[q], rfl, List.getElem?_eq_getElem hqv,
              hloud q hqs _ (List.getElem?_eq_getElem hqv)⟩

theorem continueLoop_spec [IsStrictOrderedRing K] (c : Cfg K) (A : List (ATrack K))
    (peaks : List (Peak K)) (hne : ∀ t ∈ A, t.freq ≠ []) :
    ∀ (ps seen : List Nat) (m : List (Option Nat)) (l : LoopSt K),
      IsArgsort peaks (seen ++ ps) → Rel A peaks m l → LoopInv c A peaks seen m →
      ∃ m' l', continueLoop c peaks ps l = .ok l' ∧ Rel A peaks m' l' ∧ Greedy c A peaks m' := by
  intro ps
  induction ps with
  | nil =>
    intro seen m l hs hrel hinv
    refine ⟨m, l, rfl, hrel, hinv.len, hinv.valid, hinv.inj, hinv.near, hinv.nearest,
      ⟨_, hinv.ordered⟩, ?_⟩
    intro p j u pk g hpm hpk hu hg hclose
    refine hinv.loudest p ?_ j u pk g hpm hpk hu hg hclose
    rw [List.append_nil] at hs
    exact hs.1.mem_iff.2 (List.mem_range.2 (getElem?_lt hpk))
  | cons p ps ih =>
    intro seen m l hs hrel hinv
    by_cases hfree : none ∈ m
    · have hany : l.freeTrack.any id = true := by
        rw [hrel.freeTrack]
        simp only [List.any_map, List.any_eq_true]
        exact ⟨none, hfree, rfl⟩
      have hplt : p < peaks.length := by
        have : p ∈ List.range peaks.length := hs.1.mem_iff.1 (by simp)
        exact List.mem_range.1 this
      have hnd : (seen ++ p :: ps).Nodup := hs.1.nodup_iff.2 List.nodup_range
      have hps : p ∉ seen := by
        intro h
        have := (List.nodup_append.1 hnd).2.2 p h p (by simp)
        exact this rfl
      have hloud : ∀ q ∈ seen, ∀ qk : Peak K, peaks[q]? = some qk → peaks[p].mag ≤ qk.mag := by
        intro q hq qk hqk
        exact (List.pairwise_append.1 hs.2).2.2 q hq p (by simp) qk _ hqk
          (List.getElem?_eq_getElem hplt)
      obtain ⟨m', l', h1, h2, h3⟩ := continueOne_spec c A peaks seen m l p peaks[p] hne hrel hinv
        hfree (List.getElem?_eq_getElem hplt) hps hloud
      obtain ⟨m'', l'', h4, h5, h6⟩ := ih (seen ++ [p]) m' l' (by simpa using hs) h2 h3
      refine ⟨m'', l'', ?_, h5, h6⟩
      simp only [continueLoop, hany, if_true, h1]
      exact h4
    · have hany : l.freeTrack.any id = false := by
        rw [hrel.freeTrack]
        simp only [List.any_map, List.any_eq_false]
        intro o ho
        cases o with
        | none => exact absurd ho hfree
        | some _ => simp
      refine ⟨m, l, ?_, hrel, hinv.len, hinv.valid, hinv.inj, hinv.near, hinv.nearest,
        ⟨_, hinv.ordered⟩, ?_⟩
      · simp [continueLoop, hany]
      · intro q j u pk g hqm hqk hu hg hclose
        have hjm : j < m.length := by rw [hinv.len]; exact getElem?_lt hu
        cases hmj : m[j]? with
        | none => rw [List.getElem?_eq_getElem hjm] at hmj; simp at hmj
        | some o => cases o with
          | none => exact absurd (List.mem_of_getElem? hmj) hfree
          | some r =>
            have hrs := hinv.sub r (List.mem_of_getElem? hmj)
            have hrv := hinv.valid r (List.mem_of_getElem? hmj)
            by_cases hqs : q ∈ seen
            · have := hinv.loudest q hqs j u pk g hqm hqk hu hg hclose
              rw [hmj] at this; exact this
            · have hq' : q ∈ seen ++ p :: ps :=
                hs.1.mem_iff.2 (List.mem_range.2 (getElem?_lt hqk))
              have hq'' : q ∈ p :: ps := (List.mem_append.1 hq').resolve_left hqs
              refine ⟨r, peaks[r], rfl, List.getElem?_eq_getElem hrv, ?_⟩
              exact (List.pairwise_append.1 hs.2).2.2 r hrs q hq'' _ _
                (List.getElem?_eq_getElem hrv) hqk

/-- A `deactivate` method that pops the track and changes the list of finished tracks by `save`,
as long as the finished tracks satisfy `J` (which `save` preserves) and the track is not empty. -/
structure PopSave (J : List (Track K) → Prop)
    (save : List (Track K) → ATrack K → List (Track K))
    (deact : State K → Nat → Except PyErr (State K)) : Prop where
  nil : J []
  keep : ∀ tr t, J tr → t.freq ≠ [] → J (save tr t)
  run : ∀ (s : State K) (i : Nat) (t : ATrack K), J s.tracks → s.active[i]? = some t →
    t.freq ≠ [] → deact s i = .ok ⟨save s.tracks t, s.active.eraseIdx i, s.frame⟩

theorem PopSave.foldl {J : List (Track K) → Prop}
    {save : List (Track K) → ATrack K → List (Track K)}
    {deact : State K → Nat → Except PyErr (State K)} (hd : PopSave J save deact) :
    ∀ (D : List (ATrack K)) (tr : List (Track K)), (∀ t ∈ D, t.freq ≠ []) → J tr →
      J (D.foldl save tr) := by
  intro D
  induction D with
  | nil => intro tr _ h; exact h
  | cons t D ih =>
    intro tr h1 h2
    exact ih _ (fun u hu => h1 u (by simp [hu])) (hd.keep tr t h2 (h1 t (by simp)))

theorem deactivateLoop_spec {J : List (Track K) → Prop}
    (save : List (Track K) → ATrack K → List (Track K))
    (deact : State K → Nat → Except PyErr (State K)) (hd : PopSave J save deact)
    (free : Nat → Bool) (frame : Nat) :
    ∀ (A R : List (ATrack K)) (tr : List (Track K)), (∀ t ∈ A, t.freq ≠ []) → J tr →
      deactivateLoop deact ((List.range A.length).reverse.filter free) ⟨tr, A ++ R, frame⟩ =
        .ok ⟨((A.zipIdx.filter fun ti => free ti.2).map Prod.fst).reverse.foldl save tr,
          ((A.zipIdx.filter fun ti => !free ti.2).map Prod.fst) ++ R, frame⟩ := by
  intro A
  induction A using List.reverseRecOn with
  | nil => intro R tr _ _; simp [deactivateLoop]
  | append_singleton A a ih =>
    intro R tr hA hJ
    have hA' : ∀ t ∈ A, t.freq ≠ [] := fun t ht => hA t (by simp [ht])
    have ha : a.freq ≠ [] := hA a (by simp)
    have hz : (A ++ [a]).zipIdx = A.zipIdx ++ [(a, A.length)] := by
      rw [List.zipIdx_append]; simp
    rw [List.length_append, List.length_singleton, List.range_succ, List.reverse_append,
      List.reverse_singleton, List.singleton_append, List.filter_cons, hz]
    cases hf : free A.length with
    | true =>
      simp only [if_true, deactivateLoop]
      rw [hd.run _ A.length a hJ (by simp) ha]
      have he : (A ++ [a] ++ R).eraseIdx A.length = A ++ R := by
        rw [List.append_assoc, List.eraseIdx_append_of_length_le (le_refl _)]; simp
      simp only [he]
      rw [ih R (save tr a) hA' (hd.keep tr a hJ ha)]
      simp [List.filter_append, hf]
    | false =>
      simp only [Bool.false_eq_true, if_false]
      rw [List.append_assoc, ih ([a] ++ R) tr hA' hJ]
      simp [List.filter_append, hf]

theorem activateLoop_spec (c : Cfg K) (frame : Nat) (peaks : List (Peak K)) :
    ∀ (ps : List Nat) (act : List (ATrack K)), (∀ p ∈ ps, p < peaks.length) →
      activateLoop c frame peaks ps act =
        .ok (act ++ ((ps.filterMap fun p => peaks[p]?).take (c.maxNSines - act.length)).map
          (newborn frame)) := by
  intro ps
  induction ps with
  | nil => intro act _; simp [activateLoop]
  | cons p ps ih =>
    intro act h
    have hp := h p (by simp)
    by_cases hm : c.maxNSines ≤ act.length
    · have : c.maxNSines - act.length = 0 := by omega
      simp [activateLoop, hm, this]
    · have hgp : getE peaks p = .ok peaks[p] := by
        simp [getE, List.getElem?_eq_getElem hp]
      simp only [activateLoop, hm, if_false, hgp]
      rw [ih _ (fun q hq => h q (by simp [hq]))]
      have h2 : c.maxNSines - act.length = (c.maxNSines - (act ++
        [(⟨frame, [peaks[p].freq], [peaks[p].mag], [peaks[p].phase]⟩ : ATrack K)]).length) + 1 := by
        simp only [List.length_append, List.length_singleton]; omega
      rw [h2, List.filterMap_cons, List.getElem?_eq_getElem hp]
      simp [newborn]

theorem zip_filter_applyMatch (A : List (ATrack K)) (peaks : List (Peak K))
    (m : List (Option Nat)) (hl : m.length = A.length)
    (hv : ∀ p, some p ∈ m → p < peaks.length) :
    (((applyMatch A peaks m).zip m).filter fun tm => !tm.2.isNone).map Prod.fst =
      continued A peaks m := by
  induction A generalizing m with
  | nil => simp [applyMatch, continued]
  | cons a A ih =>
    cases m with
    | nil => simp at hl
    | cons o m =>
      have ih' := ih m (by simpa using hl) (fun p hp => hv p (by simp [hp]))
      cases o with
      | none =>
        simpa [applyMatch, continued] using ih'
      | some p =>
        have hp := hv p (by simp)
        have h1 : applyMatch (a :: A) peaks (some p :: m) =
            a.push peaks[p] :: applyMatch A peaks m := by simp [applyMatch, hp]
        have h2 : continued (a :: A) peaks (some p :: m) =
            a.push peaks[p] :: continued A peaks m := by simp [continued, hp, ATrack.push]
        rw [h1, h2, List.zip_cons_cons, List.filter_cons_of_pos (by rfl), List.map_cons, ih']

theorem zip_filter_dropped (A : List (ATrack K)) (peaks : List (Peak K))
    (m : List (Option Nat)) (hl : m.length = A.length) :
    (((applyMatch A peaks m).zip m).filter fun tm => tm.2.isNone).map Prod.fst =
      dropped A m := by
  induction A generalizing m with
  | nil => simp [applyMatch, dropped]
  | cons a A ih =>
    cases m with
    | nil => simp at hl
    | cons o m =>
      have ih' := ih m (by simpa using hl)
      simp only [applyMatch, dropped] at ih'
      cases o with
      | none => simp [applyMatch, dropped, ih']
      | some p => simp [applyMatch, dropped, ih']

theorem zipIdx_filter_eq_zip {α β : Type*} (A : List α) (m : List β) (g : β → Bool) (k : Nat)
    (free : Nat → Bool) (hl : m.length = A.length)
    (hf : ∀ i b, m[i]? = some b → free (k + i) = g b) :
    ((A.zipIdx k).filter fun ti => free ti.2).map Prod.fst =
      ((A.zip m).filter fun tm => g tm.2).map Prod.fst := by
  induction A generalizing m k with
  | nil => simp
  | cons a A ih =>
    cases m with
    | nil => simp at hl
    | cons b m =>
      have ih' := ih m (k + 1) (by simpa using hl) (fun i b' h => by
        have := hf (i + 1) b' (by simpa using h)
        rw [← this]; congr 1; omega)
      have h0 : free k = g b := by simpa using hf 0 b (by simp)
      cases hb : g b with
      | true => simp [List.filter_cons, h0, hb, ih']
      | false => simp [List.filter_cons, h0, hb, ih']

theorem range_filter_unused (peaks : List (Peak K)) (m : List (Option Nat)) :
    ((List.range peaks.length).filter fun p => decide (some p ∉ m)).filterMap
      (fun p => peaks[p]?) = unused peaks m := by
  unfold unused
  induction peaks using List.reverseRecOn with
  | nil => simp
  | append_singleton l a ih =>
    have hz : (l ++ [a]).zipIdx = l.zipIdx ++ [(a, l.length)] := by
      rw [List.zipIdx_append]; simp
    rw [List.length_append, List.length_singleton, List.range_succ, hz, List.filter_append,
      List.filterMap_append, List.filter_append, List.map_append, ← ih]
    congr 1
    · apply List.filterMap_congr
      intro x hx
      have : x < l.length := List.mem_range.1 (List.mem_of_mem_filter hx)
      rw [List.getElem?_append_left this]
    · by_cases h : some l.length ∈ m <;> simp [h]

/-- One tracker update never raises and follows `StepSpec`. -/
theorem call_spec [IsStrictOrderedRing K] {J : List (Track K) → Prop}
    (save : List (Track K) → ATrack K → List (Track K))
    (deact : State K → Nat → Except PyErr (State K)) (hd : PopSave J save deact)
    (c : Cfg K) (order : List Nat) (peaks : List (Peak K)) (s : State K)
    (hs : IsArgsort peaks order) (hne : ∀ t ∈ s.active, t.freq ≠ []) (hJ : J s.tracks) :
    ∃ m s', call deact c order peaks s = .ok s' ∧ StepSpec save c peaks m s s' ∧ J s'.tracks := by
  have hrel0 : Rel s.active peaks (List.replicate s.active.length none)
      ⟨s.active, List.replicate s.active.length true, List.replicate peaks.length true⟩ := by
    refine ⟨?_, ?_, ?_⟩
    · simp only
      apply List.ext_getElem?
      intro i
      by_cases h : i < s.active.length
      · rw [applyMatch_getElem?_free _ _ _ _ s.active[i] (by simp [h])
          (List.getElem?_eq_getElem h), List.getElem?_eq_getElem h]
      · rw [List.getElem?_eq_none (by omega), List.getElem?_eq_none]
        rw [applyMatch_length _ _ _ (by simp)]; omega
    · simp
    · simp only
      apply List.ext_getElem?
      intro i
      by_cases h : i < peaks.length
      · simp [h]
      · have h1 : (List.range peaks.length)[i]? = none := by simpa using h
        rw [List.getElem?_map, h1, List.getElem?_eq_none (by simpa using h)]; rfl
  have hinv0 : LoopInv c s.active peaks [] (List.replicate s.active.length none) := by
    refine ⟨by simp, ?_, ?_, ?_, ?_, ?_, ?_, ?_⟩ <;> simp [List.getElem?_replicate]
  obtain ⟨m, l, hl, hrel, hg⟩ := continueLoop_spec c s.active peaks hne order [] _ _
    (by simpa using hs) hrel0 hinv0
  have hfree : ∀ i b, m[i]? = some b → (fun i => l.freeTrack.getD i false) (0 + i) = b.isNone := by
    intro i b h
    simp [hrel.freeTrack, List.getD_eq_getElem?_getD, h]
  have hnfree : ∀ i b, m[i]? = some b →
      (fun i => !(l.freeTrack.getD i false)) (0 + i) = !b.isNone := by
    intro i b h
    have := hfree i b h
    simp only at this ⊢
    rw [this]
  have hml : m.length = l.active.length := by
    rw [hrel.active, applyMatch_length _ _ _ hg.len, hg.len]
  have hlne : ∀ t ∈ l.active, t.freq ≠ [] := by
    intro t ht
    rw [hrel.active, applyMatch, List.mem_iff_getElem?] at ht
    obtain ⟨i, hi⟩ := ht
    rw [List.getElem?_zipWith_eq_some] at hi
    obtain ⟨a, o, h1, h2, rfl⟩ := hi
    have := hne a (List.mem_of_getElem? h1)
    cases o.bind fun p => peaks[p]? with
    | none => exact this
    | some pk => simp [ATrack.push]
  have hde := deactivateLoop_spec save deact hd (fun i => l.freeTrack.getD i false) s.frame
    l.active [] s.tracks hlne hJ
  have hz1 := zipIdx_filter_eq_zip l.active m (·.isNone) 0 (fun i => l.freeTrack.getD i false)
    hml hfree
  have hz2 := zipIdx_filter_eq_zip l.active m (fun b => !b.isNone) 0
    (fun i => !(l.freeTrack.getD i false)) hml hnfree
  rw [show l.active.zip m = (applyMatch s.active peaks m).zip m by rw [hrel.active],
    zip_filter_dropped _ _ _ hg.len] at hz1
  rw [show l.active.zip m = (applyMatch s.active peaks m).zip m by rw [hrel.active],
    zip_filter_applyMatch _ _ _ hg.len hg.valid] at hz2
  rw [hz1, hz2, List.append_nil, List.append_nil] at hde
  have hpeak : ((List.range peaks.length).filter (fun p => l.freePeak.getD p false)) =
      ((List.range peaks.length).filter fun p => decide (some p ∉ m)) := by
    apply List.filter_congr
    intro p hp
    rw [hrel.freePeak]
    simp [List.getD_eq_getElem?_getD, List.mem_range.1 hp]
  have hac := activateLoop_spec c s.frame peaks
    ((List.range peaks.length).filter fun p => decide (some p ∉ m))
    (continued s.active peaks m) (fun p hp => List.mem_range.1 (List.mem_of_mem_filter hp))
  rw [range_filter_unused] at hac
  have hcall : call deact c order peaks s = .ok
      ⟨(dropped s.active m).reverse.foldl save s.tracks,
        continued s.active peaks m ++
          ((unused peaks m).take (c.maxNSines - (continued s.active peaks m).length)).map
            (newborn s.frame), s.frame + 1⟩ := by
    unfold call
    rw [hl]
    simp only
    rw [hde]
    simp only
    rw [hpeak, hac]
  refine ⟨m, _, hcall, ⟨hg, rfl, rfl, rfl⟩, ?_⟩
  refine hd.foldl _ _ ?_ hJ
  intro t ht
  have ht' := List.mem_reverse.1 ht
  simp only [dropped, List.mem_map, List.mem_filter] at ht'
  obtain ⟨⟨a, o⟩, ⟨h1, _⟩, rfl⟩ := ht'
  exact hne a (List.of_mem_zip h1).1

end Verif.Tracker
