import Mathlib.Tactic.Linarith
import Verif.Dsp.OnsetProps
import Verif.Widgets.TrimModel

/-!
# C58: trim bounds
-/

set_option autoImplicit false
set_option linter.unusedSectionVars false
set_option linter.unusedSimpArgs false

namespace Verif.Widgets

open Verif

variable {A K : Type} [Field K] [LinearOrder K] [IsStrictOrderedRing K] [FloorRing K]

/-- Valid trim bounds: if there are bounds, they enclose at least one sample, and only samples of the
audio. -/
def Valid (s : TrimState A) : Prop :=
  ∀ a b, s.start = some a → s.stop = some b →
    0 ≤ a ∧ a < b ∧ ∀ x, s.audio = some x → b ≤ x.length

theorem Valid.with {s : TrimState A} (h : Valid s) (x : List A) (a b : Int) (hx : s.audio = some x)
    (ha : s.start = some a) (hb : s.stop = some b) : 0 ≤ a ∧ a < b ∧ b ≤ x.length :=
  ⟨(h a b ha hb).1, (h a b ha hb).2.1, (h a b ha hb).2.2 x hx⟩

/-! ### Setting one bound -/

/-- **C58** (set_trim): on loaded audio with valid bounds, the start becomes the given index, raised to
zero and lowered to the one before the stop, and the stop the given index, lowered to the size and
raised to the one after the start; the other bound and the audio stay; it succeeds for indices and
for finite times. -/
theorem C58_set (s : TrimState A) (hs : Valid s) (x : List A) (sr a b : Int) (hx : s.audio = some x)
    (hsr : s.sr = some sr) (ha : s.start = some a) (hb : s.stop = some b) (v : TrimVal K) (n : Int)
    (hv : v = .samples n ∨ ∃ t : K, v = .seconds (some (.fin t)) ∧
      (0 ≤ t * sr → (n : K) ≤ t * sr ∧ t * sr < n + 1) ∧ (t * sr < 0 → (n : K) - 1 < t * sr ∧ t * sr ≤ n)) :
    (∃ a', setTrim s v true = ({ s with start := some a' }, none) ∧
      (n < 0 → a' = 0) ∧ (b ≤ n → a' = b - 1) ∧ (0 ≤ n → n < b → a' = n)) ∧
    (∃ b', setTrim s v false = ({ s with stop := some b' }, none) ∧
      ((x.length : Int) < n → b' = x.length) ∧ (n ≤ a → b' = a + 1) ∧
      (a < n → n ≤ x.length → b' = n)) := by
  obtain ⟨h1, h2, h3⟩ := hs.with x a b hx ha hb
  have key : ∀ st, setTrim s v st = (setIndex s x.length a b st n, none) := by
    intro st
    rcases hv with rfl | ⟨t, rfl, hp, hn⟩
    · simp only [setTrim, hx, hsr, ha, hb]
    · have : toSamples (K := K) sr (some (.fin t)) = .ok n := by
        simp only [toSamples, Flt.mulInt, Flt.toInt]
        by_cases h0 : 0 ≤ t * sr
        · rw [if_pos h0, Int.floor_eq_iff.2 (hp h0)]
        · rw [if_neg h0, Int.ceil_eq_iff.2 (hn (not_le.1 h0))]
      simp only [setTrim, hx, hsr, ha, hb, this]
  refine ⟨⟨min (b - 1) (max 0 n), by rw [key]; rfl, ?_, ?_, ?_⟩,
    ⟨max (a + 1) (min x.length n), by rw [key]; rfl, ?_, ?_, ?_⟩⟩ <;> omega

/-- 0.5 s at a rate of 4 Hz. -/
example : (setTrim (⟨some [1, 2, 3, 4], some 4, some 0, some 3, none, false⟩ : TrimState Nat)
    (.seconds (some (.fin (1 / 2 : ℚ)))) true).1.start = some 2 := by decide +kernel

theorem setIndex_valid (s : TrimState A) (hs : Valid s) (x : List A) (a b : Int)
    (hx : s.audio = some x) (ha : s.start = some a) (hb : s.stop = some b) (st : Bool) (n : Int) :
    Valid (setIndex s x.length a b st n) := by
  obtain ⟨h1, h2, h3⟩ := hs.with x a b hx ha hb
  intro a' b' ha' hb'
  unfold setIndex at ha' hb' ⊢
  cases st
  · simp only [Bool.false_eq_true, if_false, hx, ha, Option.some.injEq] at ha' hb' ⊢
    subst ha' hb'
    refine ⟨by omega, by omega, ?_⟩
    rintro x' rfl
    omega
  · simp only [if_true, hx, hb, Option.some.injEq] at ha' hb' ⊢
    subst ha' hb'
    refine ⟨by omega, by omega, ?_⟩
    rintro x' rfl
    omega

theorem setTrim_valid (s : TrimState A) (hs : Valid s) (v : TrimVal K) (st : Bool) :
    Valid (setTrim s v st).1 := by
  unfold setTrim
  split
  · rename_i x sr a b hx hsr ha hb
    split
    · exact setIndex_valid s hs x a b hx ha hb st _
    · split
      · exact hs
      · exact setIndex_valid s hs x a b hx ha hb st _
  · exact hs

theorem updateVars_valid (retype : Int → Int → Flt K) (s : TrimState A) (hs : Valid s) :
    Valid (updateVars retype s) := by
  unfold updateVars
  split
  · dsimp only
    split
    · exact setTrim_valid s hs _ _
    · exact setTrim_valid _ (setTrim_valid s hs _ _) _ _
  · exact hs

/-! ### Automatic trimming -/

theorem argmax_none (l : List Int) : argmax l = none ↔ l = [] := by
  cases l with
  | nil => simp [argmax]
  | cons a l =>
    simp only [argmax, reduceCtorEq, iff_false]
    split
    · simp
    · split <;> simp

theorem argmax_spec : ∀ (l : List Int) (i : Nat) (v : Int), argmax l = some (i, v) →
    l[i]? = some v ∧ (∀ (j : Nat) u, l[j]? = some u → u ≤ v) ∧
    (∀ (j : Nat) u, j < i → l[j]? = some u → u < v)
  | [], i, v, h => by simp [argmax] at h
  | a :: l, i, v, h => by
    simp only [argmax] at h
    cases hl : argmax l with
    | none =>
      rw [hl] at h
      simp only [Option.some.injEq, Prod.mk.injEq] at h
      obtain ⟨rfl, rfl⟩ := h
      rw [argmax_none] at hl
      subst hl
      refine ⟨rfl, fun j u h => ?_, fun j u h => absurd h (Nat.not_lt_zero _)⟩
      cases j <;> simp_all
    | some p =>
      obtain ⟨k, w⟩ := p
      rw [hl] at h
      obtain ⟨h1, h2, h3⟩ := argmax_spec l k w hl
      simp only at h
      split at h
      · rename_i hlt
        simp only [Option.some.injEq, Prod.mk.injEq] at h
        obtain ⟨rfl, rfl⟩ := h
        refine ⟨by simpa using h1, fun j u h => ?_, fun j u hj h => ?_⟩
        · cases j with
          | zero => simp only [List.getElem?_cons_zero, Option.some.injEq] at h; omega
          | succ j => exact h2 j u (by simpa using h)
        · cases j with
          | zero => simp only [List.getElem?_cons_zero, Option.some.injEq] at h; omega
          | succ j => exact h3 j u (by omega) (by simpa using h)
      · rename_i hlt
        simp only [Option.some.injEq, Prod.mk.injEq] at h
        obtain ⟨rfl, rfl⟩ := h
        refine ⟨rfl, fun j u h => ?_, fun j u h => absurd h (Nat.not_lt_zero _)⟩
        cases j with
        | zero => simp only [List.getElem?_cons_zero, Option.some.injEq] at h; omega
        | succ j => have := h2 j u (by simpa using h); omega

theorem diffs_get : ∀ (l : List Int) (i : Nat) (v : Int),
    (diffs l)[i]? = some v ↔ ∃ a b, l[i]? = some a ∧ l[i + 1]? = some b ∧ v = b - a
  | [], i, v => by simp [diffs]
  | [a], i, v => by simp [diffs]
  | a :: b :: l, i, v => by
    cases i with
    | zero => simp [diffs, eq_comm]
    | succ i =>
      have := diffs_get (b :: l) i v
      simp only [diffs, List.getElem?_cons_succ] at this ⊢
      exact this

/-- Positions of the onsets: the places of `True`. -/
theorem mem_flatnonzero (m : List Bool) (i : Nat) : i ∈ Np.flatnonzero m ↔ m[i]? = some true := by
  simp only [Np.flatnonzero, List.mem_filter, List.mem_range]
  constructor
  · rintro ⟨h1, h2⟩
    rw [List.getD_eq_getElem _ _ h1] at h2
    rw [List.getElem?_eq_getElem h1, h2]
  · intro h
    obtain ⟨h1, h2⟩ := List.getElem?_eq_some_iff.1 h
    exact ⟨h1, by rw [List.getD_eq_getElem _ _ h1, h2]⟩

theorem onsets_sorted (m : List Bool) (n : Nat) (hm : m.length = n) :
    ((Np.flatnonzero m).map Int.ofNat ++ [(n : Int)]).Pairwise (· < ·) := by
  rw [List.pairwise_append]
  refine ⟨?_, by simp, ?_⟩
  · rw [List.pairwise_map]
    have h1 : (Np.flatnonzero m).Pairwise (· < ·) :=
      List.Pairwise.filter _ List.pairwise_lt_range
    exact h1.imp (fun h => by simpa using h)
  · intro a ha b hb
    obtain ⟨i, hi, rfl⟩ := List.mem_map.1 ha
    simp only [List.mem_singleton] at hb
    subst hb
    have : i < m.length := (List.getElem?_eq_some_iff.1 ((mem_flatnonzero m i).1 hi)).1
    simp only [Int.ofNat_eq_natCast]
    omega

/-- A point of the time line at which a region ends: an onset, or the end of the audio. -/
def IsEnd (m : List Bool) (n : Nat) (p : Int) : Prop :=
  p = n ∨ ∃ i : Nat, p = i ∧ m[i]? = some true

/-- Two consecutive points at which regions end; the first one is an onset. -/
def IsRegion (m : List Bool) (n : Nat) (a b : Int) : Prop :=
  (∃ i : Nat, a = i ∧ m[i]? = some true) ∧ IsEnd m n b ∧ a < b ∧ ∀ p, a < p → p < b → ¬IsEnd m n p

theorem mem_onsets (m : List Bool) (n : Nat) (p : Int) :
    p ∈ (Np.flatnonzero m).map Int.ofNat ++ [(n : Int)] ↔ IsEnd m n p := by
  simp only [List.mem_append, List.mem_map, List.mem_singleton, IsEnd, mem_flatnonzero]
  constructor
  · rintro (⟨i, h, rfl⟩ | rfl)
    · exact Or.inr ⟨i, rfl, h⟩
    · exact Or.inl rfl
  · rintro (rfl | ⟨i, rfl, h⟩)
    · exact Or.inr rfl
    · exact Or.inl ⟨i, h, rfl⟩

theorem region_iff (m : List Bool) (n : Nat) (hm : m.length = n) (a b : Int) :
    IsRegion m n a b ↔ ∃ i : Nat, ((Np.flatnonzero m).map Int.ofNat ++ [(n : Int)])[i]? = some a ∧
      ((Np.flatnonzero m).map Int.ofNat ++ [(n : Int)])[i + 1]? = some b := by
  have hs := onsets_sorted m n hm
  have hmem := mem_onsets m n
  set l := (Np.flatnonzero m).map Int.ofNat ++ [(n : Int)] with hl
  rw [List.pairwise_iff_getElem] at hs
  constructor
  · rintro ⟨⟨i, rfl, hi⟩, hb, hab, hno⟩
    obtain ⟨j, hj, hja⟩ := List.getElem_of_mem ((hmem (i : Int)).2 (Or.inr ⟨i, rfl, hi⟩))
    obtain ⟨k, hk, hkb⟩ := List.getElem_of_mem ((hmem b).2 hb)
    have hjk : j < k := by
      rcases lt_trichotomy j k with h | h | h
      · exact h
      · subst h; omega
      · have := hs k j hk hj h; omega
    have : k = j + 1 := by
      by_contra hne
      have h1 := hs j (j + 1) hj (by omega) (by omega)
      have h2 := hs (j + 1) k (by omega) hk (by omega)
      exact hno l[j + 1] (by omega) (by omega) ((hmem _).1 (List.getElem_mem _))
    subst this
    exact ⟨j, by rw [List.getElem?_eq_getElem hj, hja], by rw [List.getElem?_eq_getElem hk, hkb]⟩
  · rintro ⟨i, h1, h2⟩
    obtain ⟨hi, ha⟩ := List.getElem?_eq_some_iff.1 h1
    obtain ⟨hi', hb⟩ := List.getElem?_eq_some_iff.1 h2
    have hab : a < b := by have := hs i (i + 1) hi hi' (by omega); omega
    refine ⟨?_, (hmem b).1 (hb ▸ List.getElem_mem _), hab, fun p hp1 hp2 hp => ?_⟩
    · rcases (hmem a).1 (ha ▸ List.getElem_mem _) with h | h
      · exfalso
        have hend : l[l.length - 1]'(by omega) = n := by
          simp [hl]
        rcases Nat.lt_or_ge (i + 1) (l.length - 1) with hlt | hge
        · have := hs (i + 1) (l.length - 1) hi' (by omega) hlt
          omega
        · have : i + 1 = l.length - 1 := by omega
          simp only [this] at hb
          omega
      · exact h
    · obtain ⟨k, hk, hkp⟩ := List.getElem_of_mem ((hmem p).2 hp)
      rcases Nat.lt_or_ge k (i + 1) with h | h
      · rcases Nat.lt_or_eq_of_le (Nat.le_of_lt_succ h) with h | h
        · have := hs k i hk hi h; omega
        · subst h; omega
      · rcases Nat.lt_or_eq_of_le h with h | h
        · have := hs (i + 1) k hi' hk h; omega
        · subst h; omega

/-- **C58** (auto_trim): if onset detection finds an onset, the bounds become the longest region, the
first one if there are several: it starts at an onset and ends before the next one or at the end of the
audio.  Otherwise an exception leaves the state as it was. -/
theorem C58_auto (detect : List A → Except PyErr (List Bool)) (s : TrimState A) (x : List A)
    (hx : s.audio = some x) (m : List Bool) (hd : detect x = .ok m) (hm : m.length = x.length) :
    ((∃ i : Nat, m[i]? = some true) → ∃ a b,
      autoTrim detect s = ({ s with start := some a, stop := some b }, none) ∧
      IsRegion m x.length a b ∧ (∀ c d, IsRegion m x.length c d → d - c ≤ b - a) ∧
      (∀ c d, IsRegion m x.length c d → c < a → d - c < b - a)) ∧
    ((∀ i : Nat, m[i]? ≠ some true) → autoTrim detect s = (s, some .valueError)) := by
  have hreg := region_iff m x.length hm
  have hsorted := onsets_sorted m x.length hm
  simp only [autoTrim, hx, hd]
  set l := (Np.flatnonzero m).map Int.ofNat ++ [(x.length : Int)] with hl
  constructor
  · rintro ⟨i, hi⟩
    have hne : diffs l ≠ [] := by
      have hmem := (mem_flatnonzero m i).2 hi
      obtain ⟨o, os, ho⟩ := List.exists_cons_of_ne_nil (List.ne_nil_of_mem hmem)
      rw [hl, ho]
      cases os <;> simp [diffs]
    cases ham : argmax (diffs l) with
    | none => exact absurd ((argmax_none _).1 ham) hne
    | some p =>
      obtain ⟨k, v⟩ := p
      obtain ⟨h1, h2, h3⟩ := argmax_spec _ k v ham
      obtain ⟨a, b, ha, hb, rfl⟩ := (diffs_get l k v).1 h1
      have ia : Np.index l (k : Int) = .ok a := by
        unfold Np.index
        rw [if_neg (by omega)]
        simp [getE, ha]
      have ib : Np.index l ((k : Int) + 1) = .ok b := by
        unfold Np.index
        rw [if_neg (by omega)]
        have : ((k : Int) + 1).toNat = k + 1 := by omega
        simp [this, getE, hb]
      refine ⟨a, b, by simp only [longest, ham, ia, ib], (hreg a b).2 ⟨k, ha, hb⟩, fun c d hcd => ?_,
        fun c d hcd hca => ?_⟩
      · obtain ⟨j, hc, hd⟩ := (hreg c d).1 hcd
        exact h2 j _ ((diffs_get l j _).2 ⟨c, d, hc, hd, rfl⟩)
      · obtain ⟨j, hc, hd⟩ := (hreg c d).1 hcd
        refine h3 j _ ?_ ((diffs_get l j _).2 ⟨c, d, hc, hd, rfl⟩)
        by_contra hjk
        rw [List.pairwise_iff_getElem] at hsorted
        obtain ⟨q1, q2⟩ := List.getElem?_eq_some_iff.1 ha
        obtain ⟨q3, q4⟩ := List.getElem?_eq_some_iff.1 hc
        rcases Nat.lt_or_eq_of_le (not_lt.1 hjk) with h | h
        · have := hsorted k j q1 q3 h; omega
        · subst h; omega
  · intro hno
    have hnil : Np.flatnonzero m = [] := by
      apply List.eq_nil_iff_forall_not_mem.2
      intro i hi
      exact hno i ((mem_flatnonzero m i).1 hi)
    rw [hl, hnil]
    rfl

example : (autoTrim (fun _ => .ok [false, true, false, false, true, false, false, true])
    (⟨some [0, 9, 5, 1, 9, 5, 1, 9], none, none, none, none, false⟩ : TrimState Nat)).1.start = some 1 ∧
    (autoTrim (fun _ => .ok [false, true, false, false, true, false, false, true])
    (⟨some [0, 9, 5, 1, 9, 5, 1, 9], none, none, none, none, false⟩ : TrimState Nat)).1.stop = some 4 := by
  decide +kernel

/-- The onset detection of the library returns as many values as there are samples. -/
theorem onsetDetection_length {K' X : Type} [Field K'] [LinearOrder K'] (size : X → Nat)
    (norm : List (Option K') → Except PyErr (List (Option K')))
    (detection : X → Except PyErr (List (Option K'))) (x : X) (w m : Int) (alpha delta : K')
    (junk r : List Bool)
    (h : Dsp.onsetDetection size norm detection x w m alpha delta junk = .ok r) : r.length = size x := by
  have hset : ∀ (is : List Nat) (l r : List Bool), Dsp.setAll l is = .ok r → r.length = l.length := by
    intro is
    induction is with
    | nil => intro l r h; simp only [Dsp.setAll, Except.ok.injEq] at h; rw [h]
    | cons i is ih =>
      intro l r h
      simp only [Dsp.setAll, Dsp.setTrue] at h
      by_cases hi : i < l.length
      · rw [if_pos hi] at h
        rw [ih _ _ h, List.length_set]
      · rw [if_neg hi] at h; cases h
  unfold Dsp.onsetDetection at h
  simp only [bind, Except.bind] at h
  cases hd : detection x with
  | error e => rw [hd] at h; cases h
  | ok f =>
    rw [hd] at h
    simp only at h
    cases ho : Dsp.onsetSelection norm f w m alpha delta junk with
    | error e => rw [ho] at h; cases h
    | ok sel =>
      rw [ho] at h
      simp only [Dsp.onsetIndices] at h
      rw [hset _ _ _ h, List.length_replicate]

/-! ### Histories -/

theorem region_valid (m : List Bool) (x : List A) (hm : m.length = x.length) (a b : Int)
    (h : IsRegion m x.length a b) : 0 ≤ a ∧ a < b ∧ b ≤ x.length := by
  obtain ⟨⟨i, rfl, -⟩, hb, hab, -⟩ := h
  refine ⟨by omega, hab, ?_⟩
  rcases hb with rfl | ⟨j, rfl, hj⟩
  · exact le_rfl
  · have := (List.getElem?_eq_some_iff.1 hj).1
    omega

/-- Onset detection finds an onset in the audio. -/
def Detects (detect : List A → Except PyErr (List Bool)) (x : List A) : Prop :=
  ∃ m, detect x = .ok m ∧ ∃ i : Nat, m[i]? = some true

theorem autoTrim_valid (detect : List A → Except PyErr (List Bool))
    (hdet : ∀ x m, detect x = .ok m → m.length = x.length) (s : TrimState A) (x : List A)
    (hx : s.audio = some x) (h : Detects detect x) :
    Valid (autoTrim detect s).1 ∧ (autoTrim detect s).2 = none := by
  obtain ⟨m, hm, hi⟩ := h
  obtain ⟨a, b, h1, h2, -⟩ := (C58_auto detect s x hx m hm (hdet x m hm)).1 hi
  rw [h1]
  refine ⟨?_, rfl⟩
  intro a' b' ha' hb'
  simp only [hx, Option.some.injEq] at ha' hb' ⊢
  subst ha' hb'
  obtain ⟨g1, g2, g3⟩ := region_valid m x (hdet x m hm) a b h2
  exact ⟨g1, g2, by rintro x' rfl; exact g3⟩

theorem autoTrim_fail (detect : List A → Except PyErr (List Bool))
    (hdet : ∀ x m, detect x = .ok m → m.length = x.length) (s : TrimState A) (x : List A)
    (hx : s.audio = some x) (h : ¬Detects detect x) :
    ∃ e, autoTrim detect s = (s, some e) := by
  cases hd : detect x with
  | error e => exact ⟨e, by simp only [autoTrim, hx, hd]⟩
  | ok m =>
    refine ⟨.valueError, (C58_auto detect s x hx m hd (hdet x m hd)).2 fun i hi => h ⟨m, hd, i, hi⟩⟩

/-- **C58** (loading): if onset detection finds an onset in the new audio, loading succeeds and the bounds
are valid afterwards, whatever the state before.  Otherwise there is an exception, the new audio is
there, but the old bounds are kept. -/
theorem C58_load (detect : List A → Except PyErr (List Bool)) (retype : Int → Int → Flt K)
    (hdet : ∀ x m, detect x = .ok m → m.length = x.length) (s : TrimState A) (sr : Int) (x : List A) :
    (Detects detect x → Valid (loadCbk detect retype s (some (sr, x))).1 ∧
      (loadCbk detect retype s (some (sr, x))).2 = none) ∧
    (¬Detects detect x → ∃ e, loadCbk detect retype s (some (sr, x)) =
      ({ s with audio := some x, sr := some sr }, some e)) := by
  constructor
  · intro h
    obtain ⟨h1, h2⟩ := autoTrim_valid detect hdet { s with audio := some x, sr := some sr } x rfl h
    unfold loadCbk
    dsimp only
    split
    · rename_i heq; rw [heq] at h2; cases h2
    · rename_i heq
      rw [heq] at h1
      exact ⟨updateVars_valid retype _ h1, rfl⟩
  · intro h
    obtain ⟨e, he⟩ := autoTrim_fail detect hdet { s with audio := some x, sr := some sr } x rfl h
    exact ⟨e, by simp only [loadCbk, he]⟩

/-- **C58** (one step): every operation, with any value, keeps valid bounds valid, except for a load in
which no onset is found, of audio shorter than the old stop. -/
theorem C58_step (detect : List A → Except PyErr (List Bool)) (retype : Int → Int → Flt K)
    (hdet : ∀ x m, detect x = .ok m → m.length = x.length) (s : TrimState A) (hs : Valid s)
    (op : TrimOp A K)
    (hop : ∀ sr x, op = .load (some (sr, x)) → ¬Detects detect x →
      ∀ b, s.stop = some b → b ≤ x.length) :
    Valid (op.run detect retype s).1 := by
  cases op with
  | load file =>
    cases file with
    | none => exact hs
    | some f =>
      obtain ⟨sr, x⟩ := f
      obtain ⟨h1, h2⟩ := C58_load detect retype hdet s sr x
      by_cases hd : Detects detect x
      · exact (h1 hd).1
      · obtain ⟨e, he⟩ := h2 hd
        show Valid (loadCbk detect retype s (some (sr, x))).1
        rw [he]
        intro a' b' ha' hb'
        obtain ⟨g1, g2, -⟩ := hs a' b' ha' hb'
        refine ⟨g1, g2, ?_⟩
        simp only [Option.some.injEq]
        rintro x' rfl
        exact hop sr _ rfl hd b' hb'
  | entry text st => exact setTrim_valid s hs _ _
  | setTrim v st upd =>
    simp only [TrimOp.run]
    have := setTrim_valid s hs v st
    split
    · rename_i heq; rw [heq] at this; exact this
    · rename_i heq
      rw [heq] at this
      cases upd
      · exact this
      · exact updateVars_valid retype _ this
  | press xdata =>
    simp only [TrimOp.run, pressCbk]
    split
    · exact hs
    · split
      · split
        · exact hs
        · exact hs
      · exact hs
  | release xdata =>
    simp only [TrimOp.run, releaseCbk]
    split
    · exact hs
    · split
      · split
        · rename_i heq
          have := heq ▸ setTrim_valid s hs _ _
          exact this
        · rename_i heq
          have := heq ▸ setTrim_valid s hs _ _
          exact updateVars_valid retype _ this
      · exact hs
  | toolbar on => exact hs

/-- **C58** (histories): from the start of the program, after any sequence of operations with any
values (also ones that raise), the bounds are valid, if onset detection finds an onset in each audio file
loaded. -/
theorem C58_history (detect : List A → Except PyErr (List Bool)) (retype : Int → Int → Flt K)
    (hdet : ∀ x m, detect x = .ok m → m.length = x.length) (ops : List (TrimOp A K))
    (hops : ∀ sr x, TrimOp.load (some (sr, x)) ∈ ops → Detects detect x) :
    Valid (runTrims detect retype {} ops) := by
  have gen : ∀ (ops : List (TrimOp A K)) (s : TrimState A), Valid s →
      (∀ sr x, TrimOp.load (some (sr, x)) ∈ ops → Detects detect x) →
      Valid (runTrims detect retype s ops) := by
    intro ops
    induction ops with
    | nil => exact fun s hs _ => hs
    | cons op ops ih =>
      intro s hs h
      refine ih _ (C58_step detect retype hdet s hs op fun sr x e hd => ?_) fun sr x hm =>
        h sr x (List.mem_cons_of_mem _ hm)
      exact absurd (h sr x (by rw [← e]; exact List.mem_cons_self)) hd
  exact gen ops {} (by intro a b h; cases h) hops

/-- A detection for the examples: an onset at every sample greater than 8. -/
def demoDetect (x : List Nat) : Except PyErr (List Bool) := .ok (x.map fun v => decide (8 < v))

/-- Seconds shown without rounding. -/
def exactTime {K : Type} [Field K] (sr i : Int) : Flt K := .fin ((i : K) / sr)

example : ∀ x m, demoDetect x = .ok m → m.length = x.length := by
  intro x m h; cases h; simp

example : Detects demoDetect [0, 9, 5] := ⟨[false, true, false], rfl, 1, rfl⟩

/-- Load, drag the stop beyond the end, then try NaN. -/
example : ((runTrims demoDetect exactTime {}
      [.load (some (2, [0, 9, 5, 1, 9, 5])), .press (some (.fin (3 / 2 : ℚ))), .release (some (.fin 9)),
        .entry (some .nan) true]).start = some 1 ∧
    (runTrims demoDetect exactTime {}
      [.load (some (2, [0, 9, 5, 1, 9, 5])), .press (some (.fin (2 : ℚ))), .release (some (.fin 9)),
        .entry (some .nan) true]).stop = some 6) := by decide +kernel

/-- **C58** (region): with valid bounds, what is played and analysed, `audio_x[start:stop]`, is not
empty: it has `stop - start` samples, from the one at `start` on. -/
theorem C58_region (s : TrimState A) (hs : Valid s) (x : List A) (a b : Int) (hx : s.audio = some x)
    (ha : s.start = some a) (hb : s.stop = some b) :
    ((Np.slice x (some a) (some b)).length : Int) = b - a ∧ Np.slice x (some a) (some b) ≠ [] ∧
    ∀ i : Nat, (i : Int) < b - a → (Np.slice x (some a) (some b))[i]? = x[a.toNat + i]? := by
  obtain ⟨h1, h2, h3⟩ := hs.with x a b hx ha hb
  have hlo : Np.lower x.length (some a) = a.toNat := by
    simp only [Np.lower, Np.bound]
    rw [if_neg (by omega)]
    omega
  have hhi : Np.upper x.length (some b) = b.toNat := by
    simp only [Np.upper, Np.bound]
    rw [if_neg (by omega)]
    omega
  have hlen : ((Np.slice x (some a) (some b)).length : Int) = b - a := by
    simp only [Np.slice, hlo, hhi, List.length_take, List.length_drop]
    omega
  refine ⟨hlen, fun e => ?_, fun i hi => ?_⟩
  · rw [e] at hlen; simp at hlen; omega
  · simp only [Np.slice, hlo, hhi]
    rw [List.getElem?_take_of_lt (by omega), List.getElem?_drop]

example : Np.slice [0, 9, 5, 1, 9, 5] (some 1) (some 4) = [9, 5, 1] := by decide +kernel

/-- **C58** (entries): if the times shown in the entries are exact, showing valid bounds does not change
them. -/
theorem C58_shown (s : TrimState A) (hs : Valid s) (x : List A) (sr a b : Int) (hsr : sr ≠ 0)
    (hx : s.audio = some x) (h1 : s.sr = some sr) (ha : s.start = some a) (hb : s.stop = some b) :
    updateVars (K := K) exactTime s = s := by
  have hk : (sr : K) ≠ 0 := by exact_mod_cast hsr
  have key : ∀ i : Int, 0 ≤ i → toSamples (K := K) sr (some (exactTime sr i)) = .ok i := by
    intro i hi
    have h0 : (0 : K) ≤ (i : K) := by exact_mod_cast hi
    simp [toSamples, exactTime, Flt.mulInt, Flt.toInt, div_mul_cancel₀ _ hk, h0]
  obtain ⟨g1, g2, g3⟩ := hs.with x a b hx ha hb
  have e1 : (entryCbk (K := K) s (some (exactTime sr a)) true).1 = s := by
    have : min (b - 1) (max 0 a) = a := by omega
    simp only [entryCbk, setTrim, hx, h1, ha, hb, Option.getD_some, key a g1, setIndex, if_true, this]
    cases s
    simp_all
  have e2 : (entryCbk (K := K) s (some (exactTime sr b)) false).1 = s := by
    have : max (a + 1) (min (x.length : Int) b) = b := by omega
    simp only [entryCbk, setTrim, hx, h1, ha, hb, Option.getD_some, key b (by omega), setIndex,
      Bool.false_eq_true, if_false, this]
    cases s
    simp_all
  simp only [updateVars, hx, h1, ha]
  rw [hb]
  simp only [e1, hb, e2]

example : (updateVars (K := ℚ) exactTime
    (⟨some [1, 2, 3, 4], some 3, some 1, some 3, none, false⟩ : TrimState Nat)).start = some 1 := by
  decide +kernel

/-! ### Dragging -/

/-- **C58** (drag): a press and a release in the axes, with the toolbar off and no drag before, move
the bound that is closer to the place of the press (the stop if they are equally close) to the place
of the release, as `set_trim` does; then no drag is left. -/
theorem C58_drag (retype : Int → Int → Flt K) (s : TrimState A) (x : List A) (sr a b p q : Int)
    (t u : Flt K) (hx : s.audio = some x) (h1 : s.sr = some sr) (ha : s.start = some a)
    (hb : s.stop = some b) (h2 : s.side = none) (h3 : s.toolbar = false)
    (hp : toSamples sr (some t) = .ok p) (hq : toSamples sr (some u) = .ok q) :
    ∃ st, (st = true ↔ |p - a| < |p - b|) ∧
      releaseCbk retype (pressCbk s (some t)).1 (some u) =
        ({ updateVars retype { setIndex s x.length a b st q with side := some st } with side := none },
          none) := by
  refine ⟨decide ((p - a).natAbs < (p - b).natAbs), ?_, ?_⟩
  · rw [decide_eq_true_eq]
    simp only [Int.abs_eq_natAbs]
    omega
  · simp only [pressCbk, h3, Bool.false_eq_true, if_false, hx, h1, ha, hb, h2, hp]
    simp only [releaseCbk, h3, Bool.false_eq_true, if_false, setTrim, hq, hx, h1, ha, hb]
    cases decide ((p - a).natAbs < (p - b).natAbs) <;> simp [setIndex, h3, hx, h1, ha, hb]

example : (releaseCbk (K := ℚ) exactTime (pressCbk
    (⟨some [1, 2, 3, 4], some 1, some 0, some 4, none, false⟩ : TrimState Nat) (some (.fin (1 : ℚ)))).1
    (some (.fin 2))).1.start = some 2 := by decide +kernel

/-- **C58** (finding): a release outside of the axes raises and leaves the drag open: the next press
anywhere does not choose a bound, its release moves the one chosen before. -/
theorem C58_open_drag (retype : Int → Int → Flt K) (s : TrimState A) (x : List A) (sr a b : Int)
    (st : Bool) (hx : s.audio = some x) (h1 : s.sr = some sr) (ha : s.start = some a)
    (hb : s.stop = some b) (h2 : s.side = some st) (h3 : s.toolbar = false) :
    releaseCbk retype s (none : Option (Flt K)) = (s, some .typeError) ∧
    ∀ t : Option (Flt K), pressCbk s t = (s, none) := by
  constructor
  · simp only [releaseCbk, h3, Bool.false_eq_true, if_false, hx, h1, ha, hb, h2, setTrim, toSamples]
  · intro t
    simp only [pressCbk, h3, Bool.false_eq_true, if_false, hx, h1, ha, hb, h2]

/-- Press near the start, release outside; press near the stop, release: the start has moved. -/
example : (runTrims demoDetect exactTime {}
      [.load (some (1, [9, 5, 1, 1, 1, 5])), .press (some (.fin (0 : ℚ))), .release none,
        .press (some (.fin 6)), .release (some (.fin 5))]).start = some 5 ∧
    (runTrims demoDetect exactTime {}
      [.load (some (1, [9, 5, 1, 1, 1, 5])), .press (some (.fin (0 : ℚ))), .release none,
        .press (some (.fin 6)), .release (some (.fin 5))]).stop = some 6 := by decide +kernel

/-- **C58** (finding): when no onset is found in a second, shorter file, the bounds of the first one
stay: the region is beyond the audio, so empty. -/
theorem C58_stale :
    let s := runTrims demoDetect (exactTime (K := ℚ)) {}
      [.load (some (1, [0, 0, 0, 9, 5, 1])), .load (some (1, [0, 0]))]
    s.audio = some [0, 0] ∧ s.start = some 3 ∧ s.stop = some 6 ∧
      Np.slice [0, 0] s.start s.stop = [] ∧ ¬Valid s := by
  have h1 : (runTrims demoDetect (exactTime (K := ℚ)) {}
      [.load (some (1, [0, 0, 0, 9, 5, 1])), .load (some (1, [0, 0]))]).audio = some [0, 0] := by
    decide +kernel
  have h2 : (runTrims demoDetect (exactTime (K := ℚ)) {}
      [.load (some (1, [0, 0, 0, 9, 5, 1])), .load (some (1, [0, 0]))]).start = some 3 := by
    decide +kernel
  have h3 : (runTrims demoDetect (exactTime (K := ℚ)) {}
      [.load (some (1, [0, 0, 0, 9, 5, 1])), .load (some (1, [0, 0]))]).stop = some 6 := by
    decide +kernel
  refine ⟨h1, h2, h3, by rw [h2, h3]; decide +kernel, fun h => ?_⟩
  have := (h 3 6 h2 h3).2.2 _ h1
  simp at this

/-! ### Reload -/

/-- **C58** (reload): restarting from the cache of a state with valid bounds gives the same audio, sample
rate and, if the times shown are exact, the same bounds; they are valid in any case. -/
theorem C58_reload (detect : List A → Except PyErr (List Bool)) (retype : Int → Int → Flt K)
    (c : TrimState A) (hc : Valid c) (x : List A) (sr a b : Int) (hsr : sr ≠ 0) (hx : c.audio = some x)
    (h1 : c.sr = some sr) (ha : c.start = some a) (hb : c.stop = some b) :
    (restore detect retype c).2 = none ∧ Valid (restore detect retype c).1 ∧
    (restore detect (exactTime (K := K)) c).1 = { c with side := none, toolbar := false } := by
  have hv : Valid (⟨some x, some sr, some a, some b, none, false⟩ : TrimState A) := by
    intro a' b' ha' hb'
    simp only [Option.some.injEq] at ha' hb' ⊢
    subst ha' hb'
    obtain ⟨g1, g2, g3⟩ := hc.with x a b hx ha hb
    exact ⟨g1, g2, by rintro x' rfl; exact g3⟩
  refine ⟨?_, ?_, ?_⟩
  · simp only [restore, hx, ha, hb]
  · simp only [restore, hx, ha, hb, h1, Option.getD_some]
    exact updateVars_valid retype _ hv
  · simp only [restore, hx, ha, hb, h1, Option.getD_some]
    rw [C58_shown _ hv x sr a b hsr rfl rfl rfl rfl]

example : (restore demoDetect (exactTime (K := ℚ))
    ⟨some [1, 2, 3, 4], some 3, some 1, some 3, some true, true⟩).1.stop = some 3 := by decide +kernel

/-- **C58** (finding): if no onset was found in the only file loaded, there are no bounds, and
restarting from the cache raises in the constructor. -/
theorem C58_reload_fails (detect : List A → Except PyErr (List Bool)) (retype : Int → Int → Flt K)
    (hdet : ∀ x m, detect x = .ok m → m.length = x.length) (sr : Int) (x : List A)
    (h : ¬Detects detect x) :
    ∃ e, (restore detect retype (runTrims detect retype {} [.load (some (sr, x))])).2 = some e := by
  obtain ⟨e, he⟩ := (C58_load detect retype hdet {} sr x).2 h
  obtain ⟨e', he'⟩ := autoTrim_fail detect hdet ⟨some x, some sr, none, none, none, false⟩ x rfl h
  refine ⟨e', ?_⟩
  simp only [runTrims, TrimOp.run, he, restore, Option.getD_some, he']

example : ¬Detects demoDetect [0, 0] := by
  rintro ⟨m, h, i, hi⟩
  cases h
  match i with
  | 0 => simp at hi
  | 1 => simp at hi
  | i + 2 => simp at hi

end Verif.Widgets
