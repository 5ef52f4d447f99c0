import Verif.Float.TrackerModel
import Verif.Float.TrackerSpec
import Verif.Tracker.Invariants

/-!
# Lemmas about the sine tracker in floating point

The proofs of `continueOneF_spec`, `continueLoopF_spec` and `callF_spec` are those of
`Verif.Tracker`, with computed distances and thresholds.
-/

set_option autoImplicit false
set_option linter.unusedSectionVars false
set_option linter.unusedSimpArgs false
set_option linter.unusedVariables false

namespace Verif.Float

open Verif.Tracker

variable {K : Type} [Field K] [LinearOrder K] [IsStrictOrderedRing K] (A : Arith K)

/-- The matching in terms of computed distances and thresholds. -/
structure GreedyC (c : Cfg K) (T : List (ATrack K)) (peaks : List (Peak K))
    (m : List (Option Nat)) : Prop where
  len : m.length = T.length
  valid : ∀ p, some p ∈ m → p < peaks.length
  inj : ∀ (i j p : Nat), m[i]? = some (some p) → m[j]? = some (some p) → i = j
  near : ∀ (i p : Nat) (t : ATrack K) (pk : Peak K) (f : K), m[i]? = some (some p) →
    T[i]? = some t → peaks[p]? = some pk → t.freq.getLast? = some f →
    distF A f pk.freq < dfF A c pk.freq
  nearest : ∀ (i j p : Nat) (t u : ATrack K) (pk : Peak K) (f g : K), m[i]? = some (some p) →
    T[i]? = some t → T[j]? = some u → peaks[p]? = some pk → t.freq.getLast? = some f →
    u.freq.getLast? = some g →
    (distF A g pk.freq < distF A f pk.freq ∨ (distF A g pk.freq = distF A f pk.freq ∧ j < i)) →
    ∃ q qk, m[j]? = some (some q) ∧ peaks[q]? = some qk ∧ pk.mag ≤ qk.mag
  ordered : ∃ rank : Nat → Nat, ∀ (i j p : Nat) (t u : ATrack K) (pk : Peak K) (f g : K),
    m[i]? = some (some p) → T[i]? = some t → T[j]? = some u →
    peaks[p]? = some pk → t.freq.getLast? = some f → u.freq.getLast? = some g →
    (distF A g pk.freq < distF A f pk.freq ∨ (distF A g pk.freq = distF A f pk.freq ∧ j < i)) →
    ∃ q, m[j]? = some (some q) ∧ rank q < rank p
  loudest : ∀ (p j : Nat) (u : ATrack K) (pk : Peak K) (g : K), some p ∉ m →
    peaks[p]? = some pk → T[j]? = some u → u.freq.getLast? = some g →
    distF A g pk.freq < dfF A c pk.freq →
    ∃ q qk, m[j]? = some (some q) ∧ peaks[q]? = some qk ∧ pk.mag ≤ qk.mag

/-- One update in terms of computed distances and thresholds. -/
structure StepC (save : List (Track K) → ATrack K → List (Track K)) (c : Cfg K)
    (peaks : List (Peak K)) (m : List (Option Nat)) (s s' : State K) : Prop where
  greedy : GreedyC A c s.active peaks m
  active : s'.active = continued s.active peaks m ++
    ((unused peaks m).take (c.maxNSines - (continued s.active peaks m).length)).map
      (newborn s.frame)
  tracks : s'.tracks = (dropped s.active m).reverse.foldl save s.tracks
  frame : s'.frame = s.frame + 1

/-- Invariant of the matching loop, after the peaks in `seen` were considered. -/
structure LoopInvF (c : Cfg K) (T : List (ATrack K)) (peaks : List (Peak K)) (seen : List Nat)
    (m : List (Option Nat)) : Prop where
  len : m.length = T.length
  valid : ∀ p, some p ∈ m → p < peaks.length
  sub : ∀ p, some p ∈ m → p ∈ seen
  inj : ∀ (i j p : Nat), m[i]? = some (some p) → m[j]? = some (some p) → i = j
  near : ∀ (i p : Nat) (t : ATrack K) (pk : Peak K) (f : K), m[i]? = some (some p) → T[i]? = some t → peaks[p]? = some pk →
    t.freq.getLast? = some f → distF A f pk.freq < dfF A c pk.freq
  nearest : ∀ (i j p : Nat) (t u : ATrack K) (pk : Peak K) (f g : K), m[i]? = some (some p) → T[i]? = some t → T[j]? = some u →
    peaks[p]? = some pk → t.freq.getLast? = some f → u.freq.getLast? = some g →
    (distF A g pk.freq < distF A f pk.freq ∨ (distF A g pk.freq = distF A f pk.freq ∧ j < i)) →
    ∃ q qk, m[j]? = some (some q) ∧ peaks[q]? = some qk ∧ pk.mag ≤ qk.mag
  ordered : ∀ (i j p : Nat) (t u : ATrack K) (pk : Peak K) (f g : K), m[i]? = some (some p) → T[i]? = some t → T[j]? = some u →
    peaks[p]? = some pk → t.freq.getLast? = some f → u.freq.getLast? = some g →
    (distF A g pk.freq < distF A f pk.freq ∨ (distF A g pk.freq = distF A f pk.freq ∧ j < i)) →
    ∃ q, m[j]? = some (some q) ∧ seen.idxOf q < seen.idxOf p
  loudest : ∀ p ∈ seen, ∀ (j : Nat) (u : ATrack K) (pk : Peak K) (g : K), some p ∉ m → peaks[p]? = some pk → T[j]? = some u →
    u.freq.getLast? = some g → distF A g pk.freq < dfF A c pk.freq →
    ∃ q qk, m[j]? = some (some q) ∧ peaks[q]? = some qk ∧ pk.mag ≤ qk.mag

theorem continueOneF_spec (c : Cfg K) (T : List (ATrack K))
    (peaks : List (Peak K))
    (seen : List Nat) (m : List (Option Nat)) (l : LoopSt K) (p : Nat) (pk : Peak K)
    (hne : ∀ t ∈ T, t.freq ≠ []) (hrel : Rel T peaks m l) (hinv : LoopInvF A c T peaks seen m)
    (hfree : none ∈ m) (hpk : peaks[p]? = some pk) (hps : p ∉ seen)
    (hloud : ∀ q ∈ seen, ∀ qk : Peak K, peaks[q]? = some qk → pk.mag ≤ qk.mag) :
    ∃ m' l', continueOneF A c peaks p l = .ok l' ∧ Rel T peaks m' l' ∧
      LoopInvF A c T peaks (seen ++ [p]) m' := by
  set key : Nat → Except PyErr K := lastDistF A l.active pk with hkey
  set it := ((List.range l.active.length).filter (fun i => l.freeTrack.getD i false)) with hit
  have hlenA : l.active.length = T.length := by
    rw [hrel.active, applyMatch_length _ _ _ hinv.len]
  have hmem : ∀ i, i ∈ it ↔ m[i]? = some none := by
    intro i
    simp only [hit, List.mem_filter, List.mem_range, hlenA, hrel.freeTrack, List.getD_eq_getElem?_getD,
      List.getElem?_map]
    constructor
    · rintro ⟨h1, h2⟩
      cases h : m[i]? with
      | none => rw [h] at h2; simp at h2
      | some o => rw [h] at h2; cases o with
        | none => rfl
        | some _ => simp at h2
    · intro h
      have := getElem?_lt h
      rw [hinv.len] at this
      exact ⟨this, by rw [h]; rfl⟩
  have hsorted : it.Pairwise (· < ·) := by
    rw [hit]; exact List.Pairwise.filter _ List.pairwise_lt_range
  let v : Nat → K := fun i => distF A (lastFreq (T.getD i ⟨0, [], [], []⟩)) pk.freq
  have hv : ∀ i t, T[i]? = some t → v i = distF A (lastFreq t) pk.freq := by
    intro i t h; simp [v, List.getD_eq_getElem?_getD, h]
  have hget : ∀ i ∈ it, ∃ t, T[i]? = some t ∧ l.active[i]? = some t ∧ t.freq ≠ [] := by
    intro i hi
    have hmi := (hmem i).1 hi
    have hlt := getElem?_lt hmi
    rw [hinv.len] at hlt
    refine ⟨T[i], List.getElem?_eq_getElem hlt, ?_, hne _ (List.getElem_mem hlt)⟩
    rw [hrel.active]
    exact applyMatch_getElem?_free _ _ _ _ _ hmi (List.getElem?_eq_getElem hlt)
  have hk : ∀ i ∈ it, key i = .ok (v i) := by
    intro i hi
    obtain ⟨t, h1, h2, h3⟩ := hget i hi
    simp only [hkey, lastDistF, getE, h2, lastE, getLast?_lastFreq t h3, hv i t h1]
  have hitne : it ≠ [] := by
    obtain ⟨i, hi, h⟩ := List.mem_iff_getElem.1 hfree
    have : i ∈ it := (hmem i).2 (by rw [List.getElem?_eq_getElem hi, h])
    intro h0; rw [h0] at this; simp at this
  obtain ⟨ti, pre, post, hsplit, hmk, hpre, hpost⟩ := minKey_spec key v it hitne hk
  have htiit : ti ∈ it := by rw [hsplit]; simp
  have hmti := (hmem ti).1 htiit
  obtain ⟨t, hAt, hlt, htne⟩ := hget ti htiit
  have hlast := getLast?_lastFreq t htne
  have hvt := hv ti t hAt
  -- any free track is at least as far, and not nearer with a smaller index
  have hmin : ∀ j, m[j]? = some none → v ti < v j ∨ (v ti ≤ v j ∧ ti ≤ j) := by
    intro j hj
    have hjit := (hmem j).2 hj
    rw [hsplit] at hjit hsorted
    simp only [List.mem_append, List.mem_cons] at hjit
    rcases hjit with h | rfl | h
    · exact Or.inl (hpre j h)
    · exact Or.inr ⟨le_refl _, le_refl _⟩
    · refine Or.inr ⟨hpost j h, ?_⟩
      rw [List.pairwise_append] at hsorted
      have := (List.pairwise_cons.1 hsorted.2.1).1 j h
      omega
  have hone : continueOneF A c peaks p l =
      if v ti < dfF A c pk.freq then
        .ok ⟨l.active.set ti (t.push pk), l.freeTrack.set ti false, l.freePeak.set p false⟩
      else .ok l := by
    have hgp : getE peaks p = .ok pk := by simp [getE, hpk]
    unfold continueOneF
    rw [hgp]
    dsimp only
    rw [hmk]
    simp [getE, hlt]
  by_cases hd : v ti < dfF A c pk.freq
  · -- the peak continues track `ti`
    rw [if_pos hd] at hone
    have hltm : ti < m.length := getElem?_lt hmti
    have hpm : some p ∉ m := fun h => hps (hinv.sub p h)
    have hset : ∀ j, (m.set ti (some p))[j]? = if ti = j then some (some p) else m[j]? := by
      intro j
      by_cases h : ti = j
      · subst h; simp [hltm]
      · simp [h]
    have hmono : ∀ (j : Nat) (pm : K),
        (∃ q qk, m[j]? = some (some q) ∧ peaks[q]? = some qk ∧ pm ≤ qk.mag) →
        ∃ q qk, (m.set ti (some p))[j]? = some (some q) ∧ peaks[q]? = some qk ∧ pm ≤ qk.mag := by
      rintro j pm ⟨q, qk, h1, h2⟩
      refine ⟨q, qk, ?_, h2⟩
      rw [hset]
      by_cases h : ti = j
      · subst h; rw [hmti] at h1; simp at h1
      · rw [if_neg h]; exact h1
    refine ⟨m.set ti (some p), _, hone, ⟨?_, ?_, ?_⟩, ?_⟩
    · simp only
      rw [applyMatch_set _ _ _ _ _ _ _ hAt hpk hinv.len, hrel.active]
    · simp only
      rw [hrel.freeTrack, List.map_set]; rfl
    · simp only
      rw [hrel.freePeak]
      apply List.ext_getElem?
      intro q
      have hplt := getElem?_lt hpk
      by_cases hq : p = q
      · subst hq
        have hmem' : some p ∈ m.set ti (some p) := List.mem_set hltm _
        simp [hplt, hmem']
      · rw [List.getElem?_set_ne hq]
        simp only [List.getElem?_map]
        by_cases hqn : q < peaks.length
        · simp only [List.getElem?_range hqn, Option.map_some, Option.some.injEq, decide_eq_decide]
          constructor
          · intro h1 h2
            rcases set_some_mem h2 with h2 | h2
            · exact hq h2.symm
            · exact h1 h2
          · intro h1 h2
            apply h1
            obtain ⟨k, hk2⟩ := List.mem_iff_getElem?.1 h2
            have hk3 : (m.set ti (some p))[k]? = some (some q) := by
              rw [hset]
              by_cases hkk : ti = k
              · subst hkk; rw [hmti] at hk2; simp at hk2
              · rw [if_neg hkk]; exact hk2
            exact List.mem_of_getElem? hk3
        · have hr : (List.range peaks.length)[q]? = none := by simpa using hqn
          rw [hr]; rfl
    · refine ⟨by simp [hinv.len], ?_, ?_, ?_, ?_, ?_, ?_, ?_⟩
      · intro q hq
        rcases set_some_mem hq with rfl | hq
        · exact getElem?_lt hpk
        · exact hinv.valid q hq
      · intro q hq
        rcases set_some_mem hq with rfl | hq
        · simp
        · simp [hinv.sub q hq]
      · intro i j q hi hj
        rw [hset] at hi hj
        by_cases h1 : ti = i <;> by_cases h2 : ti = j
        · omega
        · rw [if_pos h1] at hi; rw [if_neg h2] at hj
          simp only [Option.some.injEq] at hi; subst hi
          exact absurd (List.mem_of_getElem? hj) hpm
        · rw [if_neg h1] at hi; rw [if_pos h2] at hj
          simp only [Option.some.injEq] at hj; subst hj
          exact absurd (List.mem_of_getElem? hi) hpm
        · rw [if_neg h1] at hi; rw [if_neg h2] at hj
          exact hinv.inj i j q hi hj
      · intro i q u qk f hi hu hq hf
        rw [hset] at hi
        by_cases h1 : ti = i
        · subst h1
          simp only [if_pos, Option.some.injEq] at hi; subst hi
          rw [hAt] at hu; cases hu
          rw [hpk] at hq; cases hq
          rw [hlast] at hf; cases hf
          rw [← hvt]; exact hd
        · rw [if_neg h1] at hi
          exact hinv.near i q u qk f hi hu hq hf
      · intro i j q t' u qk f g hi ht' hu hq hf hg hclose
        rw [hset] at hi
        apply hmono
        by_cases h1 : ti = i
        · subst h1
          simp only [if_pos, Option.some.injEq] at hi; subst hi
          rw [hAt] at ht'; cases ht'
          rw [hpk] at hq; cases hq
          rw [hlast] at hf; cases hf
          have hjm : j < m.length := by rw [hinv.len]; exact getElem?_lt hu
          have hvj : v j = distF A g pk.freq := by
            rw [hv j u hu]; unfold lastFreq; rw [hg]; rfl
          rw [← hvt, ← hvj] at hclose
          cases hmj : m[j]? with
          | none => rw [List.getElem?_eq_getElem hjm] at hmj; simp at hmj
          | some o => cases o with
            | none =>
              exfalso
              rcases hmin j hmj with h | ⟨h, h'⟩ <;> rcases hclose with h2 | ⟨h2, h3⟩
              · exact absurd h (not_lt.2 h2.le)
              · exact absurd h (not_lt.2 h2.le)
              · exact absurd h (not_le.2 h2)
              · omega
            | some q =>
              have hqs := hinv.sub q (List.mem_of_getElem? hmj)
              have hqv := hinv.valid q (List.mem_of_getElem? hmj)
              exact ⟨q, peaks[q], rfl, List.getElem?_eq_getElem hqv,
                hloud q hqs _ (List.getElem?_eq_getElem hqv)⟩
        · rw [if_neg h1] at hi
          exact hinv.nearest i j q t' u qk f g hi ht' hu hq hf hg hclose
      · intro i j q t' u qk f g hi ht' hu hq hf hg hclose
        rw [hset] at hi
        by_cases h1 : ti = i
        · subst h1
          simp only [if_pos, Option.some.injEq] at hi; subst hi
          rw [hAt] at ht'; cases ht'
          rw [hpk] at hq; cases hq
          rw [hlast] at hf; cases hf
          have hjm : j < m.length := by rw [hinv.len]; exact getElem?_lt hu
          have hvj : v j = distF A g pk.freq := by
            rw [hv j u hu]; unfold lastFreq; rw [hg]; rfl
          rw [← hvt, ← hvj] at hclose
          cases hmj : m[j]? with
          | none => rw [List.getElem?_eq_getElem hjm] at hmj; simp at hmj
          | some o => cases o with
            | none =>
              exfalso
              rcases hmin j hmj with h | ⟨h, h'⟩ <;> rcases hclose with h2 | ⟨h2, h3⟩
              · exact absurd h (not_lt.2 h2.le)
              · exact absurd h (not_lt.2 h2.le)
              · exact absurd h (not_le.2 h2)
              · omega
            | some q =>
              have hqs := hinv.sub q (List.mem_of_getElem? hmj)
              refine ⟨q, ?_, ?_⟩
              · rw [hset]
                by_cases h : ti = j
                · subst h; rw [hmti] at hmj; simp at hmj
                · rw [if_neg h]; exact hmj
              · rw [List.idxOf_append_of_mem hqs, List.idxOf_append_of_notMem hps]
                have := List.idxOf_lt_length_of_mem hqs
                omega
        · rw [if_neg h1] at hi
          obtain ⟨r, h2, h3⟩ := hinv.ordered i j q t' u qk f g hi ht' hu hq hf hg hclose
          refine ⟨r, ?_, ?_⟩
          · rw [hset]
            by_cases h : ti = j
            · subst h; rw [hmti] at h2; simp at h2
            · rw [if_neg h]; exact h2
          · rw [List.idxOf_append_of_mem (hinv.sub _ (List.mem_of_getElem? h2)),
              List.idxOf_append_of_mem (hinv.sub _ (List.mem_of_getElem? hi))]
            exact h3
      · intro q hq j u qk g hqm hqk hu hg hclose
        apply hmono
        simp only [List.mem_append, List.mem_singleton] at hq
        rcases hq with hq | rfl
        · refine hinv.loudest q hq j u qk g ?_ hqk hu hg hclose
          intro h
          apply hqm
          obtain ⟨k, hk2⟩ := List.mem_iff_getElem?.1 h
          have hk3 : (m.set ti (some p))[k]? = some (some q) := by
            rw [hset]
            by_cases hkk : ti = k
            · subst hkk; rw [hmti] at hk2; simp at hk2
            · rw [if_neg hkk]; exact hk2
          exact List.mem_of_getElem? hk3
        · exact absurd (List.mem_set hltm _) hqm
  · -- no free track is near enough
    rw [if_neg hd] at hone
    refine ⟨m, l, hone, hrel, ⟨hinv.len, hinv.valid, ?_, hinv.inj, hinv.near, hinv.nearest, ?_, ?_⟩⟩
    · intro q hq; simp [hinv.sub q hq]
    · intro i j q t' u qk f g hi ht' hu hq hf hg hclose
      obtain ⟨r, h2, h3⟩ := hinv.ordered i j q t' u qk f g hi ht' hu hq hf hg hclose
      refine ⟨r, h2, ?_⟩
      rw [List.idxOf_append_of_mem (hinv.sub _ (List.mem_of_getElem? h2)),
        List.idxOf_append_of_mem (hinv.sub _ (List.mem_of_getElem? hi))]
      exact h3
    · intro q hq j u qk g hqm hqk hu hg hclose
      simp only [List.mem_append, List.mem_singleton] at hq
      rcases hq with hq | rfl
      · exact hinv.loudest q hq j u qk g hqm hqk hu hg hclose
      · rw [hpk] at hqk; cases hqk
        have hjm : j < m.length := by rw [hinv.len]; exact getElem?_lt hu
        have hvj : v j = distF A g pk.freq := by
          rw [hv j u hu]; unfold lastFreq; rw [hg]; rfl
        rw [← hvj] at hclose
        cases hmj : m[j]? with
        | none => rw [List.getElem?_eq_getElem hjm] at hmj; simp at hmj
        | some o => cases o with
          | none =>
            exfalso
            rcases hmin j hmj with h | ⟨h, _⟩
            · exact hd (lt_trans h hclose)
            · exact hd (lt_of_le_of_lt h hclose)
          | some q =>
            have hqs := hinv.sub q (List.mem_of_getElem? hmj)
            have hqv := hinv.valid q (List.mem_of_getElem? hmj)
            exact ⟨q, peaks[q], rfl, List.getElem?_eq_getElem hqv,
              hloud q hqs _ (List.getElem?_eq_getElem hqv)⟩

theorem continueLoopF_spec (c : Cfg K) (T : List (ATrack K))
    (peaks : List (Peak K)) (hne : ∀ t ∈ T, t.freq ≠ []) :
    ∀ (ps seen : List Nat) (m : List (Option Nat)) (l : LoopSt K),
      IsArgsort peaks (seen ++ ps) → Rel T peaks m l → LoopInvF A c T peaks seen m →
      ∃ m' l', continueLoopF A c peaks ps l = .ok l' ∧ Rel T peaks m' l' ∧ GreedyC A c T peaks m' := by
  intro ps
  induction ps with
  | nil =>
    intro seen m l hs hrel hinv
    refine ⟨m, l, rfl, hrel, hinv.len, hinv.valid, hinv.inj, hinv.near, hinv.nearest,
      ⟨_, hinv.ordered⟩, ?_⟩
    intro p j u pk g hpm hpk hu hg hclose
    refine hinv.loudest p ?_ j u pk g hpm hpk hu hg hclose
    rw [List.append_nil] at hs
    exact hs.1.mem_iff.2 (List.mem_range.2 (getElem?_lt hpk))
  | cons p ps ih =>
    intro seen m l hs hrel hinv
    by_cases hfree : none ∈ m
    · have hany : l.freeTrack.any id = true := by
        rw [hrel.freeTrack]
        simp only [List.any_map, List.any_eq_true]
        exact ⟨none, hfree, rfl⟩
      have hplt : p < peaks.length := by
        have : p ∈ List.range peaks.length := hs.1.mem_iff.1 (by simp)
        exact List.mem_range.1 this
      have hnd : (seen ++ p :: ps).Nodup := hs.1.nodup_iff.2 List.nodup_range
      have hps : p ∉ seen := by
        intro h
        have := (List.nodup_append.1 hnd).2.2 p h p (by simp)
        exact this rfl
      have hloud : ∀ q ∈ seen, ∀ qk : Peak K, peaks[q]? = some qk → peaks[p].mag ≤ qk.mag := by
        intro q hq qk hqk
        exact (List.pairwise_append.1 hs.2).2.2 q hq p (by simp) qk _ hqk
          (List.getElem?_eq_getElem hplt)
      obtain ⟨m', l', h1, h2, h3⟩ := continueOneF_spec A c T peaks seen m l p peaks[p] hne hrel hinv
        hfree (List.getElem?_eq_getElem hplt) hps hloud
      obtain ⟨m'', l'', h4, h5, h6⟩ := ih (seen ++ [p]) m' l' (by simpa using hs) h2 h3
      refine ⟨m'', l'', ?_, h5, h6⟩
      simp only [continueLoopF, hany, if_true, h1]
      exact h4
    · have hany : l.freeTrack.any id = false := by
        rw [hrel.freeTrack]
        simp only [List.any_map, List.any_eq_false]
        intro o ho
        cases o with
        | none => exact absurd ho hfree
        | some _ => simp
      refine ⟨m, l, ?_, hrel, hinv.len, hinv.valid, hinv.inj, hinv.near, hinv.nearest,
        ⟨_, hinv.ordered⟩, ?_⟩
      · simp [continueLoopF, hany]
      · intro q j u pk g hqm hqk hu hg hclose
        have hjm : j < m.length := by rw [hinv.len]; exact getElem?_lt hu
        cases hmj : m[j]? with
        | none => rw [List.getElem?_eq_getElem hjm] at hmj; simp at hmj
        | some o => cases o with
          | none => exact absurd (List.mem_of_getElem? hmj) hfree
          | some r =>
            have hrs := hinv.sub r (List.mem_of_getElem? hmj)
            have hrv := hinv.valid r (List.mem_of_getElem? hmj)
            by_cases hqs : q ∈ seen
            · have := hinv.loudest q hqs j u pk g hqm hqk hu hg hclose
              rw [hmj] at this; exact this
            · have hq' : q ∈ seen ++ p :: ps :=
                hs.1.mem_iff.2 (List.mem_range.2 (getElem?_lt hqk))
              have hq'' : q ∈ p :: ps := (List.mem_append.1 hq').resolve_left hqs
              refine ⟨r, peaks[r], rfl, List.getElem?_eq_getElem hrv, ?_⟩
              exact (List.pairwise_append.1 hs.2).2.2 r hrs q hq'' _ _
                (List.getElem?_eq_getElem hrv) hqk

theorem callF_spec {J : List (Track K) → Prop}
    (save : List (Track K) → ATrack K → List (Track K))
    (deact : State K → Nat → Except PyErr (State K)) (hd : PopSave J save deact)
    (c : Cfg K) (order : List Nat) (peaks : List (Peak K)) (s : State K)
    (hs : IsArgsort peaks order) (hne : ∀ t ∈ s.active, t.freq ≠ []) (hJ : J s.tracks) :
    ∃ m s', callF A deact c order peaks s = .ok s' ∧ StepC A save c peaks m s s' ∧ J s'.tracks := by
  have hrel0 : Rel s.active peaks (List.replicate s.active.length none)
      ⟨s.active, List.replicate s.active.length true, List.replicate peaks.length true⟩ := by
    refine ⟨?_, ?_, ?_⟩
    · simp only
      apply List.ext_getElem?
      intro i
      by_cases h : i < s.active.length
      · rw [applyMatch_getElem?_free _ _ _ _ s.active[i] (by simp [h])
          (List.getElem?_eq_getElem h), List.getElem?_eq_getElem h]
      · rw [List.getElem?_eq_none (by omega), List.getElem?_eq_none]
        rw [applyMatch_length _ _ _ (by simp)]; omega
    · simp
    · simp only
      apply List.ext_getElem?
      intro i
      by_cases h : i < peaks.length
      · simp [h]
      · have h1 : (List.range peaks.length)[i]? = none := by simpa using h
        rw [List.getElem?_map, h1, List.getElem?_eq_none (by simpa using h)]; rfl
  have hinv0 : LoopInvF A c s.active peaks [] (List.replicate s.active.length none) := by
    refine ⟨by simp, ?_, ?_, ?_, ?_, ?_, ?_, ?_⟩ <;> simp [List.getElem?_replicate]
  obtain ⟨m, l, hl, hrel, hg⟩ := continueLoopF_spec A c s.active peaks hne order [] _ _
    (by simpa using hs) hrel0 hinv0
  have hfree : ∀ i b, m[i]? = some b → (fun i => l.freeTrack.getD i false) (0 + i) = b.isNone := by
    intro i b h
    simp [hrel.freeTrack, List.getD_eq_getElem?_getD, h]
  have hnfree : ∀ i b, m[i]? = some b →
      (fun i => !(l.freeTrack.getD i false)) (0 + i) = !b.isNone := by
    intro i b h
    have := hfree i b h
    simp only at this ⊢
    rw [this]
  have hml : m.length = l.active.length := by
    rw [hrel.active, applyMatch_length _ _ _ hg.len, hg.len]
  have hlne : ∀ t ∈ l.active, t.freq ≠ [] := by
    intro t ht
    rw [hrel.active, applyMatch, List.mem_iff_getElem?] at ht
    obtain ⟨i, hi⟩ := ht
    rw [List.getElem?_zipWith_eq_some] at hi
    obtain ⟨a, o, h1, h2, rfl⟩ := hi
    have := hne a (List.mem_of_getElem? h1)
    cases o.bind fun p => peaks[p]? with
    | none => exact this
    | some pk => simp [ATrack.push]
  have hde := deactivateLoop_spec save deact hd (fun i => l.freeTrack.getD i false) s.frame
    l.active [] s.tracks hlne hJ
  have hz1 := zipIdx_filter_eq_zip l.active m (·.isNone) 0 (fun i => l.freeTrack.getD i false)
    hml hfree
  have hz2 := zipIdx_filter_eq_zip l.active m (fun b => !b.isNone) 0
    (fun i => !(l.freeTrack.getD i false)) hml hnfree
  rw [show l.active.zip m = (applyMatch s.active peaks m).zip m by rw [hrel.active],
    zip_filter_dropped _ _ _ hg.len] at hz1
  rw [show l.active.zip m = (applyMatch s.active peaks m).zip m by rw [hrel.active],
    zip_filter_applyMatch _ _ _ hg.len hg.valid] at hz2
  rw [hz1, hz2, List.append_nil, List.append_nil] at hde
  have hpeak : ((List.range peaks.length).filter (fun p => l.freePeak.getD p false)) =
      ((List.range peaks.length).filter fun p => decide (some p ∉ m)) := by
    apply List.filter_congr
    intro p hp
    rw [hrel.freePeak]
    simp [List.getD_eq_getElem?_getD, List.mem_range.1 hp]
  have hac := activateLoop_spec c s.frame peaks
    ((List.range peaks.length).filter fun p => decide (some p ∉ m))
    (continued s.active peaks m) (fun p hp => List.mem_range.1 (List.mem_of_mem_filter hp))
  rw [range_filter_unused] at hac
  have hcall : callF A deact c order peaks s = .ok
      ⟨(dropped s.active m).reverse.foldl save s.tracks,
        continued s.active peaks m ++
          ((unused peaks m).take (c.maxNSines - (continued s.active peaks m).length)).map
            (newborn s.frame), s.frame + 1⟩ := by
    unfold callF
    rw [hl]
    simp only
    rw [hde]
    simp only
    rw [hpeak, hac]
  refine ⟨m, _, hcall, ⟨hg, rfl, rfl, rfl⟩, ?_⟩
  refine hd.foldl _ _ ?_ hJ
  intro t ht
  have ht' := List.mem_reverse.1 ht
  simp only [dropped, List.mem_map, List.mem_filter] at ht'
  obtain ⟨⟨a, o⟩, ⟨h1, _⟩, rfl⟩ := ht'
  exact hne a (List.of_mem_zip h1).1

/-! ## Computed and exact distances -/

theorem dfF_rep (c : Cfg K) (p : K) : A.Rep (dfF A c p) := Arith.rnd_rep _

theorem distF_eq (f p : K) : distF A f p = A.rnd |f - p| := (Arith.rnd_abs _).symm

theorem dist_lt {f p d : K} (hd : A.Rep d) (h : distF A f p < d) : |f - p| < d := by
  rw [distF_eq] at h
  by_contra hc
  have := Arith.le_rnd (A := A) (not_lt.1 hc) hd
  linarith

theorem dist_exact {f p : K} (hf : A.Rep f) (hp : A.Rep p) (h : 2 * |f - p| ≤ p) :
    distF A f p = |f - p| := by
  have h1 := le_abs_self (f - p)
  have h2 := neg_abs_le (f - p)
  have h3 := abs_nonneg (f - p)
  unfold distF Arith.sub
  rw [A.sterbenz f p hf hp (by linarith) (by linarith)]

theorem dist_lt_iff {f p d : K} (hf : A.Rep f) (hp : A.Rep p) (hd : A.Rep d) (h : 2 * d ≤ p) :
    distF A f p < d ↔ |f - p| < d := by
  refine ⟨dist_lt A hd, fun h1 => ?_⟩
  rw [dist_exact A hf hp (by linarith)]
  exact h1

/-- Rounding does not change which of two tracks is nearer to a peak, if the nearest is within half
the peak's frequency. -/
theorem dist_order {f g p d : K} (hf : A.Rep f) (hg : A.Rep g) (hp : A.Rep p) (hd : A.Rep d)
    (h : 2 * d ≤ p) (hfd : |f - p| < d) (hgf : |g - p| ≤ |f - p|) :
    distF A g p = |g - p| ∧ distF A f p = |f - p| :=
  ⟨dist_exact A hg hp (by linarith), dist_exact A hf hp (by linarith)⟩

theorem greedy_exact (c : Cfg K) {T : List (ATrack K)} {peaks : List (Peak K)}
    {m : List (Option Nat)} (hT : ∀ t ∈ T, ∀ f, t.freq.getLast? = some f → A.Rep f)
    (hP : ∀ pk ∈ peaks, A.Rep pk.freq) (h : GreedyC A c T peaks m) :
    GreedyF (dfF A c) T peaks m := by
  have key : ∀ (i j p : Nat) (t u : ATrack K) (pk : Peak K) (f g : K), m[i]? = some (some p) →
      T[i]? = some t → T[j]? = some u → peaks[p]? = some pk → t.freq.getLast? = some f →
      u.freq.getLast? = some g → 2 * dfF A c pk.freq ≤ pk.freq →
      (|g - pk.freq| < |f - pk.freq| ∨ (|g - pk.freq| = |f - pk.freq| ∧ j < i)) →
      (distF A g pk.freq < distF A f pk.freq ∨
        (distF A g pk.freq = distF A f pk.freq ∧ j < i)) := by
    intro i j p t u pk f g h1 h2 h3 h4 h5 h6 h7 h8
    have n := dist_lt A (dfF_rep A c _) (h.near i p t pk f h1 h2 h4 h5)
    have := dist_order A (hT t (List.mem_of_getElem? h2) f h5) (hT u (List.mem_of_getElem? h3) g h6)
      (hP pk (List.mem_of_getElem? h4)) (dfF_rep A c _) h7 n (by
        rcases h8 with h8 | h8
        · exact h8.le
        · exact h8.1.le)
    rw [this.1, this.2]
    exact h8
  obtain ⟨rank, hr⟩ := h.ordered
  refine ⟨h.len, h.valid, h.inj, ?_, ?_, ⟨rank, ?_⟩, ?_⟩
  · intro i p t pk f h1 h2 h3 h4
    exact dist_lt A (dfF_rep A c _) (h.near i p t pk f h1 h2 h3 h4)
  · intro i j p t u pk f g h1 h2 h3 h4 h5 h6 h7 h8
    exact h.nearest i j p t u pk f g h1 h2 h3 h4 h5 h6 (key i j p t u pk f g h1 h2 h3 h4 h5 h6 h7 h8)
  · intro i j p t u pk f g h1 h2 h3 h4 h5 h6 h7 h8
    exact hr i j p t u pk f g h1 h2 h3 h4 h5 h6 (key i j p t u pk f g h1 h2 h3 h4 h5 h6 h7 h8)
  · intro p j u pk g h1 h2 h3 h4 h5 h6
    refine h.loudest p j u pk g h1 h2 h3 h4 ?_
    exact (dist_lt_iff A (hT u (List.mem_of_getElem? h3) g h4) (hP pk (List.mem_of_getElem? h2))
      (dfF_rep A c _) h5).2 h6

/-! ## The plain tracker -/

variable [FloorRing K]

/-- The list of finished tracks after finishing `t`. -/
def saveF (c : Cfg K) (tr : List (Track K)) (t : ATrack K) : List (Track K) :=
  if trackOkF A c t then tr ++ [numpyTrack t] else tr

theorem popSaveF (c : Cfg K) : PopSave (fun _ => True) (saveF A c) (deactivateF A c) := by
  refine ⟨trivial, fun _ _ _ _ => trivial, ?_⟩
  intro s i t _ hi _
  simp only [deactivateF, popE, hi, saveF]
  split <;> rfl

theorem foldl_saveF (c : Cfg K) (D : List (ATrack K)) (tr : List (Track K)) :
    D.foldl (saveF A c) tr = tr ++ (D.filter (trackOkF A c)).map numpyTrack := by
  induction D generalizing tr with
  | nil => simp
  | cons t D ih =>
    rw [List.foldl_cons, ih]
    unfold saveF
    by_cases h : trackOkF A c t = true <;> simp [h]

/-- Shape of an active track at frame clock `n`. -/
structure GoodF (c : Cfg K) (n : Nat) (t : ATrack K) : Prop where
  clock : t.start + t.freq.length = n
  magLen : t.mag.length = t.freq.length
  phaseLen : t.phase.length = t.freq.length
  pos : 0 < t.freq.length
  jump : ∀ (i : Nat) (f g : K), t.freq[i]? = some f → t.freq[i + 1]? = some g →
    |f - g| < dfF A c g
  rep : ∀ f ∈ t.freq, A.Rep f

omit [FloorRing K] in
theorem push_goodF {c : Cfg K} {n : Nat} {t : ATrack K} {pk : Peak K} (h : GoodF A c n t)
    (hp : A.Rep pk.freq)
    (hn : ∀ f, t.freq.getLast? = some f → |f - pk.freq| < dfF A c pk.freq) :
    GoodF A c (n + 1) (t.push pk) := by
  refine ⟨?_, ?_, ?_, ?_, ?_, ?_⟩
  · have := h.clock; simp [ATrack.push]; omega
  · simp [ATrack.push, h.magLen]
  · simp [ATrack.push, h.phaseLen]
  · simp [ATrack.push]
  · intro i f g hf hg
    simp only [ATrack.push] at hf hg
    have hi1 : i + 1 < t.freq.length + 1 := by
      have := getElem?_lt hg
      simpa using this
    rw [List.getElem?_append_left (by omega)] at hf
    by_cases hlast : i + 1 < t.freq.length
    · rw [List.getElem?_append_left hlast] at hg
      exact h.jump i f g hf hg
    · have hi : i + 1 = t.freq.length := by omega
      rw [hi, List.getElem?_append_right (le_refl _)] at hg
      simp at hg
      subst hg
      apply hn
      rw [List.getLast?_eq_getElem?, ← hi]
      simpa using hf
  · intro f hf
    simp only [ATrack.push, List.mem_append, List.mem_singleton] at hf
    rcases hf with hf | rfl
    · exact h.rep f hf
    · exact hp

omit [FloorRing K] in
theorem newborn_goodF (c : Cfg K) (n : Nat) (pk : Peak K) (hp : A.Rep pk.freq) :
    GoodF A c (n + 1) (newborn n pk) := by
  refine ⟨by simp [newborn], by simp [newborn], by simp [newborn], by simp [newborn], ?_, ?_⟩
  · intro i f g _ hg
    simp [newborn] at hg
  · intro f hf
    simp only [newborn, List.mem_singleton] at hf
    rw [hf]
    exact hp

omit [FloorRing K] in
/-- Finitely many tracks of good shape are good for some threshold of the exact tracker. -/
theorem good_of_goodF {c : Cfg K} {n : Nat} (T : List (ATrack K)) (h : ∀ t ∈ T, GoodF A c n t) :
    ∃ c' : Cfg K, ∀ t ∈ T, GoodTrack c' n t := by
  have h1 : ∀ l : List K, ∃ B : K, ∀ f ∈ l, |f| ≤ B := by
    intro l
    induction l with
    | nil => exact ⟨0, by simp⟩
    | cons a l ih =>
      obtain ⟨B, hB⟩ := ih
      refine ⟨max |a| B, ?_⟩
      intro f hf
      rcases List.mem_cons.1 hf with rfl | hf
      · exact le_max_left _ _
      · exact (hB f hf).trans (le_max_right _ _)
  obtain ⟨B, hB⟩ := h1 (T.flatMap fun t => t.freq)
  refine ⟨⟨0, 0, 0, 0, 2 * B + 1, 0⟩, ?_⟩
  intro t ht
  have g := h t ht
  refine ⟨g.clock, g.magLen, g.phaseLen, g.pos, ?_⟩
  intro i f g hf hg
  have e1 := hB f (List.mem_flatMap.2 ⟨t, ht, List.mem_of_getElem? hf⟩)
  have e2 := hB g (List.mem_flatMap.2 ⟨t, ht, List.mem_of_getElem? hg⟩)
  have e3 := abs_sub f g
  simp only [Cfg.df]
  linarith

theorem step_of (c : Cfg K) {peaks : List (Peak K)} {m : List (Option Nat)} {s s' : State K}
    (hT : ∀ t ∈ s.active, ∀ f, t.freq.getLast? = some f → A.Rep f)
    (hP : ∀ pk ∈ peaks, A.Rep pk.freq) (h : StepC A (saveF A c) c peaks m s s') :
    StepF (trackOkF A c) (dfF A c) c.maxNSines peaks m s s' :=
  ⟨greedy_exact A c hT hP h.greedy, h.active, by rw [h.tracks, foldl_saveF], h.frame⟩

/-- Invariant of a run. -/
structure WfF (c : Cfg K) (hist : List (Frame K)) (s : State K) : Prop where
  frame : s.frame = hist.length
  good : ∀ t ∈ s.active, GoodF A c s.frame t
  bound : s.active.length ≤ c.maxNSines
  done : ∀ u ∈ s.tracks, ∃ (t : ATrack K) (n : Nat), u = numpyTrack t ∧ GoodF A c n t ∧
    n ≤ s.frame ∧ trackOkF A c t = true
  samples : ∀ k, (samplesAt k s.everyTrack).Subperm ((hist[k]?.map (·.peaks)).getD [])

omit [FloorRing K] in
/-- The samples of all tracks after an update that keeps the samples of finished tracks. -/
theorem samples_stepF {c : Cfg K} {hist : List (Frame K)} {fr : Frame K} {m : List (Option Nat)}
    {s s' : State K} (hframe : s.frame = hist.length) (hgood : ∀ t ∈ s.active, GoodF A c s.frame t)
    (hsam : ∀ k, (samplesAt k s.everyTrack).Subperm ((hist[k]?.map (·.peaks)).getD []))
    (hl : m.length = s.active.length) (hval : ∀ p, some p ∈ m → p < fr.peaks.length)
    (hinj : ∀ (i j p : Nat), m[i]? = some (some p) → m[j]? = some (some p) → i = j)
    (hact : s'.active = continued s.active fr.peaks m ++
      ((unused fr.peaks m).take (c.maxNSines - (continued s.active fr.peaks m).length)).map
        (newborn s.frame))
    (h2 : ∀ k, (samplesAt k s'.tracks).Subperm
      (samplesAt k (s.tracks ++ (dropped s.active m).reverse.map numpyTrack))) :
    ∀ k, (samplesAt k s'.everyTrack).Subperm (((hist ++ [fr])[k]?.map (·.peaks)).getD []) := by
  obtain ⟨c', hc'⟩ := good_of_goodF A s.active hgood
  have hcont := samplesAt_continued hc' hl hval
  have hkd : ∀ k, (samplesAt k ((dropped s.active m).reverse.map numpyTrack) ++
      samplesAt k ((kept s.active m).map numpyTrack)).Perm
      (samplesAt k (s.active.map numpyTrack)) := by
    intro k
    rw [← samplesAt_append, ← List.map_append]
    unfold samplesAt
    apply List.Perm.filterMap
    apply List.Perm.map
    refine List.Perm.trans ?_ (kept_dropped_perm s.active m hl)
    refine List.Perm.trans List.perm_append_comm ?_
    exact (List.Perm.refl _).append (List.reverse_perm _)
  have hnew : ∀ k, samplesAt k (List.map numpyTrack (List.map (newborn s.frame)
      (List.take (c.maxNSines - (continued s.active fr.peaks m).length) (unused fr.peaks m)))) =
      if k = s.frame then
        List.take (c.maxNSines - (continued s.active fr.peaks m).length) (unused fr.peaks m)
      else [] := by
    intro k
    by_cases hk : k = s.frame
    · rw [if_pos hk]
      simp only [samplesAt, List.map_map, List.filterMap_map]
      conv_rhs => rw [← List.filterMap_some (l := List.take _ _)]
      apply List.filterMap_congr
      intro pk _
      simp [sampleAt_newborn, hk]
    · rw [if_neg hk]
      simp only [samplesAt, List.filterMap_eq_nil_iff, List.mem_map]
      rintro _ ⟨_, ⟨pk, _, rfl⟩, rfl⟩
      rw [sampleAt_newborn, if_neg hk]
  intro k
  unfold State.everyTrack
  rw [hact, List.map_append, samplesAt_append, samplesAt_append, hcont, hnew]
  by_cases hk : k = s.frame
  · rw [if_pos hk, if_pos hk]
    have h0 := hsam k
    rw [List.getElem?_eq_none (by rw [hk, hframe])] at h0
    simp only [Option.map_none, Option.getD_none, List.subperm_nil, State.everyTrack,
      samplesAt_append, List.append_eq_nil_iff] at h0
    have hd0 : samplesAt k ((dropped s.active m).reverse.map numpyTrack) = [] := by
      have := hkd k
      rw [h0.2] at this
      have := List.Perm.eq_nil this
      exact (List.append_eq_nil_iff.1 this).1
    have h3 := h2 k
    rw [samplesAt_append, h0.1, hd0] at h3
    rw [List.append_nil, List.subperm_nil] at h3
    rw [h3, List.nil_append, List.getElem?_append_right (by rw [hk, hframe]), hk, hframe]
    simp only [Nat.sub_self, List.getElem?_cons_zero, Option.map_some, Option.getD_some]
    refine List.Subperm.trans ?_
      (matched_unused_perm fr.peaks m hval hinj).subperm
    exact (List.Subperm.refl _).append (List.take_sublist _ _).subperm
  · rw [if_neg hk, if_neg hk, List.append_nil]
    have h3 : (samplesAt k s'.tracks ++ samplesAt k ((kept s.active m).map numpyTrack)).Subperm
        (samplesAt k s.everyTrack) := by
      refine ((h2 k).append (List.Subperm.refl _)).trans ?_
      rw [samplesAt_append, List.append_assoc]
      unfold State.everyTrack
      rw [samplesAt_append]
      exact ((List.Perm.refl _).append (hkd k)).subperm
    refine h3.trans ((hsam k).trans ?_)
    by_cases hlt : k < hist.length
    · rw [List.getElem?_append_left hlt]
    · rw [List.getElem?_eq_none (by omega)]
      simp

theorem wf_stepF {c : Cfg K} {hist : List (Frame K)} {fr : Frame K} {m : List (Option Nat)}
    {s s' : State K} (hP : ∀ pk ∈ fr.peaks, A.Rep pk.freq) (h : WfF A c hist s)
    (hs : StepF (trackOkF A c) (dfF A c) c.maxNSines fr.peaks m s s') :
    WfF A c (hist ++ [fr]) s' := by
  have hact : ∀ t ∈ s'.active, GoodF A c s'.frame t := by
    intro t ht
    rw [hs.active, List.mem_append] at ht
    rw [hs.frame]
    rcases ht with ht | ht
    · obtain ⟨i, u, p, pk, h1, h2, h3, rfl⟩ := mem_continued ht
      refine push_goodF A (h.good u (List.mem_of_getElem? h1)) (hP pk (List.mem_of_getElem? h3)) ?_
      intro f hf
      exact hs.greedy.near i p u pk f h2 h1 h3 hf
    · obtain ⟨pk, hpk, rfl⟩ := List.mem_map.1 ht
      refine newborn_goodF A c _ pk (hP pk ?_)
      have := List.mem_of_mem_take hpk
      simp only [unused, List.mem_map, List.mem_filter] at this
      obtain ⟨⟨a, i⟩, ⟨h1, _⟩, rfl⟩ := this
      exact List.mem_of_getElem? (List.mk_mem_zipIdx_iff_getElem?.1 h1)
  refine ⟨by rw [hs.frame, h.frame]; simp, hact, ?_, ?_, ?_⟩
  · rw [hs.active, List.length_append, List.length_map, List.length_take]
    have h1 := continued_length_le s.active fr.peaks m
    have h2 := h.bound
    omega
  · intro u hu
    rw [hs.tracks, List.mem_append] at hu
    rw [hs.frame]
    rcases hu with hu | hu
    · obtain ⟨t, n, h1, h2, h3, h4⟩ := h.done u hu
      exact ⟨t, n, h1, h2, by omega, h4⟩
    · obtain ⟨t, ht, rfl⟩ := List.mem_map.1 hu
      rw [List.mem_filter] at ht
      exact ⟨t, s.frame, rfl, h.good t (mem_dropped (List.mem_reverse.1 ht.1)), by omega, ht.2⟩
  · refine samples_stepF A h.frame h.good h.samples hs.greedy.len hs.greedy.valid hs.greedy.inj
      hs.active ?_
    intro k
    rw [hs.tracks]
    exact (((List.Sublist.refl _).append (List.filter_sublist.map _)).filterMap _).subperm

theorem wf_lastRep {c : Cfg K} {hist : List (Frame K)} {s : State K} (h : WfF A c hist s) :
    ∀ t ∈ s.active, ∀ f, t.freq.getLast? = some f → A.Rep f :=
  fun t ht f hf => (h.good t ht).rep f (List.mem_of_getLast? hf)

theorem wf_neF {c : Cfg K} {hist : List (Frame K)} {s : State K} (h : WfF A c hist s) :
    ∀ t ∈ s.active, t.freq ≠ [] := by
  intro t ht h0
  have := (h.good t ht).pos
  rw [h0] at this
  simp at this

theorem run_wf (c : Cfg K) : ∀ (frames hist : List (Frame K)) (s : State K),
    (∀ f ∈ frames, f.Valid) → (∀ f ∈ frames, ∀ pk ∈ f.peaks, A.Rep pk.freq) → WfF A c hist s →
    ∃ s', runFromF A (deactivateF A c) c frames s = .ok s' ∧ WfF A c (hist ++ frames) s' := by
  intro frames
  induction frames with
  | nil => intro hist s _ _ h; exact ⟨s, rfl, by simpa using h⟩
  | cons f frames ih =>
    intro hist s hv hr hw
    obtain ⟨m, s1, h1, h2, _⟩ := callF_spec A (saveF A c) (deactivateF A c) (popSaveF A c) c
      f.order f.peaks s (hv f (by simp)) (wf_neF A hw) trivial
    have hP := hr f (by simp)
    obtain ⟨s', h3, h4⟩ := ih (hist ++ [f]) s1 (fun g hg => hv g (by simp [hg]))
      (fun g hg => hr g (by simp [hg]))
      (wf_stepF A hP hw (step_of A c (wf_lastRep A hw) hP h2))
    refine ⟨s', ?_, by simpa using h4⟩
    simp only [runFromF, h1]
    exact h3

theorem wf_resetF (c : Cfg K) (prior : State K) : WfF A c [] (reset prior) :=
  ⟨by simp [reset], by simp [reset], by simp [reset], by simp [reset], by
    intro k; simp [reset, State.everyTrack, samplesAt]⟩

end Verif.Float
