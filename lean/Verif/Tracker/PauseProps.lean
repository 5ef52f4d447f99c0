import Verif.Tracker.PauseSpec
import Verif.Tracker.SeparatedProps

/-!
# A partial that pauses is one track (C123)
-/

set_option autoImplicit false
set_option linter.unusedSectionVars false
set_option linter.unusedSimpArgs false

namespace Verif.Tracker

variable {K : Type*} [Field K] [LinearOrder K] [IsStrictOrderedRing K] {L : Type*}

theorem Banded.separated {c : Cfg K} {frames : List (Frame K)}
    {part : Nat → L → Option (Peak K)} {lo hi : L → K} (h : Banded c frames part lo hi) :
    Separated c frames part := by
  refine ⟨h.mem, h.distinct, ?_, ?_, ?_, h.room⟩
  · intro k hk b b' p hb hb'
    by_contra hne
    have h1 := h.inside k hk b p hb
    have h2 := h.inside k hk b' p hb'
    have h3 := h.narrow k hk b' p hb'
    rcases h.apart k hk b b' p hne hb' with h4 | h4 <;> linarith
  · intro k hk b p q hp hq
    have h1 := h.inside k (by omega) b p hp
    have h2 := h.inside (k + 1) hk b q hq
    have h3 := h.narrow (k + 1) hk b q hq
    rw [abs_lt]
    constructor <;> linarith
  · intro k hk b b' p q hne hp hq
    left
    have h1 := h.inside k (by omega) b p hp
    have h2 := h.inside (k + 1) hk b' q hq
    rcases h.apart (k + 1) hk b b' q hne hq with h4 | h4
    · rw [abs_sub_comm]
      exact le_trans (by linarith) (le_abs_self _)
    · exact le_trans (by linarith) (le_abs_self _)

/-! ## Samples of a run -/

theorem segment_aligned {part : Nat → L → Option (Peak K)} {b : L} {i j : Nat}
    (h : Sounds part b i j) : (segment part b i j).Aligned := by
  refine ⟨by simp [segment], by simp [segment], ?_⟩
  intro l
  simp only [segment, List.getElem?_map]
  cases (List.range' i (j - i))[l]? with
  | none => simp
  | some k => cases part k b <;> simp

theorem segment_stop {part : Nat → L → Option (Peak K)} {b : L} {i j : Nat}
    (h : Sounds part b i j) : (segment part b i j).stop = j := by
  have := h.lt
  simp only [Track.stop, segment, List.length_map, List.length_range']
  omega

theorem segment_sampleAt {part : Nat → L → Option (Peak K)} {b : L} {i j : Nat}
    (h : Sounds part b i j) (k : Nat) :
    (segment part b i j).sampleAt k = if i ≤ k ∧ k < j then part k b else none := by
  by_cases h1 : i ≤ k
  · by_cases h2 : k < j
    · obtain ⟨p, hp⟩ := h.some k h1 h2
      have e : (List.range' i (j - i))[k - i]? = some k := by
        rw [List.getElem?_range' (by omega)]
        congr 1
        omega
      simp only [Track.sampleAt, segment, h1, if_true, List.getElem?_map, e, Option.map_some, hp,
        h2, and_self]
    · have e : (List.range' i (j - i))[k - i]? = none := by
        rw [List.getElem?_eq_none]
        simp
        omega
      simp only [Track.sampleAt, segment, h1, if_true, List.getElem?_map, e, Option.map_none, h2,
        and_false, if_false]
  · simp [Track.sampleAt, segment, h1]

theorem whole_segment {part : Nat → L → Option (Peak K)} {b : L} {i j : Nat}
    (h : Sounds part b i j) {R : Nat → Nat → Prop} (hR : ∀ i' j', R i' j' ↔ i' = i ∧ j' = j) :
    WholeOf R (fun k => part k b) (segment part b i j) := by
  refine ⟨segment_aligned h, ⟨j, (hR _ _).2 ⟨rfl, rfl⟩⟩, ⟨i, (hR _ _).2 ⟨rfl, segment_stop h⟩⟩,
    ?_, ?_, ?_⟩
  · intro i' j' h'
    obtain ⟨rfl, rfl⟩ := (hR _ _).1 h'
    exact ⟨le_refl _, (segment_stop h).ge⟩
  · intro i' j' k h' h1 h2
    obtain ⟨rfl, rfl⟩ := (hR _ _).1 h'
    rw [segment_sampleAt h, if_pos ⟨h1, h2⟩]
  · intro k hk
    rw [segment_sampleAt h, if_neg]
    rintro ⟨h1, h2⟩
    exact hk i j ((hR _ _).2 ⟨rfl, rfl⟩) h1 h2

theorem whole_merge {part : Nat → L → Option (Peak K)} {b : L} {i j : Nat} {u : Track K}
    (h : Sounds part b i j) {R R' : Nat → Nat → Prop} (hu : WholeOf R (fun k => part k b) u)
    (hlt : u.stop < i) (hR : ∀ i' j', R' i' j' ↔ R i' j' ∨ (i' = i ∧ j' = j)) :
    WholeOf R' (fun k => part k b) (mergeTrack u (segment part b i j)) := by
  have ha := segment_aligned h
  have hle : u.stop ≤ (segment part b i j).start := hlt.le
  have hm := mergeTrack_merged hu.aligned ha hle
  have hsamp := hm.sampleAt hu.aligned ha hle
  have hst := segment_stop h
  have hij := h.lt
  have hus : u.start ≤ u.stop := Nat.le_add_right _ _
  have hstop : (mergeTrack u (segment part b i j)).stop = j := by
    unfold Track.stop
    rw [hm.start, hm.lens.2.1, hst]
    omega
  have hstart : (segment part b i j).start = i := rfl
  refine ⟨hm.aligned hu.aligned ha hle, ?_, ?_, ?_, ?_, ?_⟩
  · obtain ⟨j', hj'⟩ := hu.first
    exact ⟨j', (hR _ _).2 (Or.inl (by rw [hm.start]; exact hj'))⟩
  · exact ⟨i, (hR _ _).2 (Or.inr ⟨rfl, hstop⟩)⟩
  · intro i' j' h'
    rw [hm.start, hstop]
    rcases (hR _ _).1 h' with h' | ⟨rfl, rfl⟩
    · have := hu.bounds _ _ h'
      omega
    · omega
  · intro i' j' k h' h1 h2
    rw [hsamp, hstart]
    rcases (hR _ _).1 h' with h' | ⟨rfl, rfl⟩
    · have := hu.bounds _ _ h'
      rw [if_pos (by omega)]
      exact hu.sounding i' j' k h' h1 h2
    · rw [if_neg (by omega), segment_sampleAt h, if_pos ⟨h1, h2⟩]
  · intro k hk
    rw [hsamp, hstart]
    by_cases hki : k < i
    · rw [if_pos hki]
      exact hu.silent k fun i' j' h' => hk i' j' ((hR _ _).2 (Or.inl h'))
    · rw [if_neg hki, segment_sampleAt h, if_neg]
      rintro ⟨h1, h2⟩
      exact hk i j ((hR _ _).2 (Or.inr ⟨rfl, rfl⟩)) h1 h2

/-- Two tracks made of the same intervals are equal. -/
theorem whole_unique {R : Nat → Nat → Prop} {val : Nat → Option (Peak K)} {u v : Track K}
    (hu : WholeOf R val u) (hv : WholeOf R val v) : u = v := by
  have hs : u.start = v.start := by
    obtain ⟨j, hj⟩ := hu.first
    obtain ⟨j', hj'⟩ := hv.first
    have h1 := hv.bounds _ _ hj
    have h2 := hu.bounds _ _ hj'
    omega
  have he : u.stop = v.stop := by
    obtain ⟨j, hj⟩ := hu.last
    obtain ⟨j', hj'⟩ := hv.last
    have h1 := hv.bounds _ _ hj
    have h2 := hu.bounds _ _ hj'
    omega
  have hlen : u.mag.length = v.mag.length := by
    unfold Track.stop at he
    omega
  have hsamp : ∀ k, u.sampleAt k = v.sampleAt k := by
    intro k
    by_cases hk : ∃ i j, R i j ∧ i ≤ k ∧ k < j
    · obtain ⟨i, j, h1, h2, h3⟩ := hk
      rw [hu.sounding i j k h1 h2 h3, hv.sounding i j k h1 h2 h3]
    · have hk' : ∀ i j, R i j → i ≤ k → ¬k < j := fun i j h1 h2 h3 => hk ⟨i, j, h1, h2, h3⟩
      rw [hu.silent k hk', hv.silent k hk']
  -- every entry is given by the samples
  have hent : ∀ (w : Track K), w.Aligned → ∀ l < w.mag.length,
      w.freq[l]? = some ((w.sampleAt (w.start + l)).map Peak.freq) ∧
      w.mag[l]? = some ((w.sampleAt (w.start + l)).map Peak.mag) ∧
      w.phase[l]? = some ((w.sampleAt (w.start + l)).map Peak.phase) := by
    intro w ⟨a1, a2, a3⟩ l hl
    obtain ⟨a4, a5⟩ := a3 l
    have e : w.start + l - w.start = l := by omega
    have hf := List.getElem?_eq_getElem (l := w.freq) (i := l) (by omega)
    have hm := List.getElem?_eq_getElem (l := w.mag) (i := l) hl
    have hp := List.getElem?_eq_getElem (l := w.phase) (i := l) (by omega)
    unfold Track.sampleAt
    rw [if_pos (Nat.le_add_right _ _), e]
    rw [hf, hm] at a4
    rw [hp, hm] at a5
    rw [hf, hm, hp]
    simp only [Option.some.injEq] at a4 a5
    cases h1 : w.mag[l] with
    | none =>
      rw [h1] at a4 a5
      rw [a4.2 rfl, a5.2 rfl]
      simp
    | some x =>
      rw [h1] at a4 a5
      cases h2 : w.freq[l] with
      | none => rw [h2] at a4; simp at a4
      | some y =>
        cases h3 : w.phase[l] with
        | none => rw [h3] at a5; simp at a5
        | some z => simp
  have hU := hent u hu.aligned
  have hV := hent v hv.aligned
  have hfu := hu.aligned.1
  have hpu := hu.aligned.2.1
  have hfv := hv.aligned.1
  have hpv := hv.aligned.2.1
  apply Track.ext hs
  · apply List.ext_getElem?
    intro l
    by_cases hl : l < u.mag.length
    · rw [(hU l hl).1, (hV l (by omega)).1, hsamp, hs]
    · rw [List.getElem?_eq_none (by omega), List.getElem?_eq_none (by omega)]
  · apply List.ext_getElem?
    intro l
    by_cases hl : l < u.mag.length
    · rw [(hU l hl).2.1, (hV l (by omega)).2.1, hsamp, hs]
    · rw [List.getElem?_eq_none (by omega), List.getElem?_eq_none (by omega)]
  · apply List.ext_getElem?
    intro l
    by_cases hl : l < u.mag.length
    · rw [(hU l hl).2.2, (hV l (by omega)).2.2, hsamp, hs]
    · rw [List.getElem?_eq_none (by omega), List.getElem?_eq_none (by omega)]

/-! ## Frequency differences -/

theorem avg_mem {l : List K} {lo hi : K} (hne : l ≠ []) (h : ∀ x ∈ l, lo ≤ x ∧ x ≤ hi) :
    lo ≤ l.sum / (l.length : K) ∧ l.sum / (l.length : K) ≤ hi := by
  have hpos : (0 : K) < l.length := by
    rw [Nat.cast_pos]; exact List.length_pos_iff.2 hne
  have hsum : (l.length : K) * lo ≤ l.sum ∧ l.sum ≤ (l.length : K) * hi := by
    clear hpos hne
    induction l with
    | nil => simp
    | cons a l ih =>
      have h1 := ih (fun x hx => h x (by simp [hx]))
      have h2 := h a (by simp)
      simp only [List.sum_cons, List.length_cons, Nat.cast_add, Nat.cast_one]
      constructor <;> nlinarith [h1.1, h1.2, h2.1, h2.2]
  rw [le_div_iff₀ hpos, div_le_iff₀ hpos]
  exact ⟨by linarith [hsum.1], by linarith [hsum.2]⟩

/-- All frequencies of the track are in the band. -/
def InBand (u : Track K) (lo hi : K) : Prop :=
  ∀ x, x ∈ u.freq.filterMap id → lo ≤ x ∧ x ≤ hi

theorem freqDiff_points {strategy : String} {u t : Track K} {d lo hi lo' hi' : K}
    (hu : InBand u lo hi) (ht : InBand t lo' hi') (h : FreqDiff strategy u t d) :
    ∃ x y, (lo ≤ x ∧ x ≤ hi) ∧ (lo' ≤ y ∧ y ≤ hi') ∧ d = |x - y| := by
  rcases h with ⟨_, h1, h2, h3⟩ | ⟨_, a, b, h1, h2, h3⟩
  · exact ⟨_, _, avg_mem h1 hu, avg_mem h2 ht, h3⟩
  · refine ⟨a, b, hu a ?_, ht b ?_, h3⟩
    · rw [List.mem_filterMap]
      exact ⟨some a, List.mem_of_getLast? h1, rfl⟩
    · rw [List.mem_filterMap]
      exact ⟨some b, List.mem_of_head? h2, rfl⟩

theorem whole_inBand {R : Nat → Nat → Prop} {val : Nat → Option (Peak K)} {u : Track K}
    {lo hi : K} (hu : WholeOf R val u)
    (hval : ∀ i j k p, R i j → i ≤ k → k < j → val k = some p → lo ≤ p.freq ∧ p.freq ≤ hi) :
    InBand u lo hi := by
  intro x hx
  rw [List.mem_filterMap] at hx
  obtain ⟨o, ho, hox⟩ := hx
  simp only [id] at hox
  subst hox
  obtain ⟨l, hl⟩ := List.mem_iff_getElem?.1 ho
  have hlt := getElem?_lt hl
  obtain ⟨a1, a2, a3⟩ := hu.aligned
  obtain ⟨a4, a5⟩ := a3 l
  have hm := List.getElem?_eq_getElem (l := u.mag) (i := l) (by omega)
  have hp := List.getElem?_eq_getElem (l := u.phase) (i := l) (by omega)
  have hs : ∃ p, u.sampleAt (u.start + l) = some p ∧ p.freq = x := by
    have e : u.start + l - u.start = l := by omega
    unfold Track.sampleAt
    rw [if_pos (Nat.le_add_right _ _), e]
    rw [hl, hm] at a4
    rw [hp, hm] at a5
    rw [hl, hm, hp]
    simp only [Option.some.injEq] at a4 a5
    cases h1 : u.mag[l] with
    | none => rw [h1] at a4; simp at a4
    | some y =>
      rw [h1] at a5
      cases h2 : u.phase[l] with
      | none => rw [h2] at a5; simp at a5
      | some z => exact ⟨_, rfl, rfl⟩
  obtain ⟨p, hp1, hp2⟩ := hs
  by_cases hk : ∃ i j, R i j ∧ i ≤ u.start + l ∧ u.start + l < j
  · obtain ⟨i, j, h1, h2, h3⟩ := hk
    rw [hu.sounding i j _ h1 h2 h3] at hp1
    rw [← hp2]
    exact hval i j _ p h1 h2 h3 hp1
  · rw [hu.silent _ (fun i j h1 h2 h3 => hk ⟨i, j, h1, h2, h3⟩)] at hp1
    simp at hp1

/-! ## The finished tracks -/

theorem run_order {part : Nat → L → Option (Peak K)} {n : Nat} {b : L} {i j i' j' : Nat}
    (h : Run part n b i j) (h' : Run part n b i' j') (hle : j' ≤ j)
    (hne : ¬(i' = i ∧ j' = j)) : j' < i := by
  by_contra hlt
  have h1 := h.1.lt
  have h2 := h'.1.lt
  by_cases he : j' = j
  · subst he
    exact hne ⟨sounds_unique h'.1 h.1, rfl⟩
  · obtain ⟨p, hp⟩ := h.1.some j' (by omega) (by omega)
    rcases h'.2 with h3 | ⟨_, h3⟩
    · rcases h.2 with h4 | ⟨h4, _⟩ <;> omega
    · rw [h3] at hp; simp at hp

variable [FloorRing K]

/-- The accepted runs of the partial `b` in a list. -/
def AccIn (c : ModalCfg K) (part : Nat → L → Option (Peak K)) (D : List (L × Nat × Nat)) (b : L)
    (i j : Nat) : Prop :=
  (b, i, j) ∈ D ∧ modalTrackOk c (atrack part b i j) = true

theorem fold_pause (c : ModalCfg K)
    (hstr : c.mergeStrategy = "average" ∨ c.mergeStrategy = "single") {frames : List (Frame K)}
    {part : Nat → L → Option (Peak K)} {lo hi : L → K} (hb : Banded c.toCfg frames part lo hi) :
    ∀ (D : List (L × Nat × Nat)), (∀ x ∈ D, Run part frames.length x.1 x.2.1 x.2.2) → D.Nodup →
      (D.Pairwise fun x y => x.2.2 ≤ y.2.2) →
      ∃ Λ : List L, Λ.Nodup ∧ (∀ b, b ∈ Λ ↔ ∃ i j, AccIn c part D b i j) ∧
        Λ.length = ((D.map fun x => atrack part x.1 x.2.1 x.2.2).foldl (saveModal c) []).length ∧
        ∀ (l : Nat) (b : L) (u : Track K), Λ[l]? = some b →
          ((D.map fun x => atrack part x.1 x.2.1 x.2.2).foldl (saveModal c) [])[l]? = some u →
          WholeOf (AccIn c part D b) (fun k => part k b) u := by
  intro D
  induction D using List.reverseRecOn with
  | nil =>
    intro _ _ _
    refine ⟨[], by simp, ?_, rfl, ?_⟩
    · intro b; simp [AccIn]
    · intro l b u h; simp at h
  | append_singleton D x ih =>
    intro hD hnd hsort
    have hD' : ∀ y ∈ D, Run part frames.length y.1 y.2.1 y.2.2 := fun y hy => hD y (by simp [hy])
    have hxr := hD x (by simp)
    rw [List.nodup_append] at hnd
    rw [List.pairwise_append] at hsort
    obtain ⟨Λ, hΛn, hΛ, hlen, hwh⟩ := ih hD' hnd.1 hsort.1
    have hxD : x ∉ D := fun h => hnd.2.2 x h x (by simp) rfl
    rw [List.map_append, List.foldl_append]
    simp only [List.map_cons, List.map_nil, List.foldl_cons, List.foldl_nil]
    have hJ : LastProper ((D.map fun x => atrack part x.1 x.2.1 x.2.2).foldl (saveModal c) []) := by
      refine (popSave_modal c hstr).foldl _ _ ?_ (popSave_modal c hstr).nil
      intro t ht
      obtain ⟨y, hy, rfl⟩ := List.mem_map.1 ht
      exact atrack_ne (hD' y hy).1
    generalize (D.map fun x => atrack part x.1 x.2.1 x.2.2).foldl (saveModal c) [] = tr at *
    obtain ⟨b, i, j⟩ := x
    simp only at hxr ⊢
    have hsame : ∀ b' i' j', b' ≠ b → (AccIn c part (D ++ [(b, i, j)]) b' i' j' ↔
        AccIn c part D b' i' j') := by
      intro b' i' j' hne
      simp [AccIn, hne]
    cases hok : modalTrackOk c (atrack part b i j) with
    | false =>
      have hall : ∀ b', AccIn c part (D ++ [(b, i, j)]) b' = AccIn c part D b' := by
        intro b'
        funext i' j'
        apply propext
        constructor
        · rintro ⟨h1, h2⟩
          refine ⟨?_, h2⟩
          rcases List.mem_append.1 h1 with h1 | h1
          · exact h1
          · simp only [List.mem_singleton, Prod.mk.injEq] at h1
            obtain ⟨rfl, rfl, rfl⟩ := h1
            rw [hok] at h2
            simp at h2
        · rintro ⟨h1, h2⟩
          exact ⟨by simp [h1], h2⟩
      have hsv : saveModal c tr (atrack part b i j) = tr := by
        simp [saveModal, finish_not_ok c _ _ hok]
      rw [hsv]
      simp only [hall]
      exact ⟨Λ, hΛn, hΛ, hlen, hwh⟩
    | true =>
      have hacc : ∀ i' j', AccIn c part (D ++ [(b, i, j)]) b i' j' ↔
          AccIn c part D b i' j' ∨ (i' = i ∧ j' = j) := by
        intro i' j'
        constructor
        · rintro ⟨h1, h2⟩
          rcases List.mem_append.1 h1 with h1 | h1
          · exact Or.inl ⟨h1, h2⟩
          · simp only [List.mem_singleton, Prod.mk.injEq, true_and] at h1
            exact Or.inr h1
        · rintro (⟨h1, h2⟩ | ⟨rfl, rfl⟩)
          · exact ⟨by simp [h1], h2⟩
          · exact ⟨by simp, hok⟩
      have hbefore : ∀ i' j', (b, i', j') ∈ D → j' < i := by
        intro i' j' h'
        refine run_order hxr (hD' _ h') (hsort.2.2 _ h' (b, i, j) (by simp)) ?_
        rintro ⟨rfl, rfl⟩
        exact hxD h'
      have hij := hxr.1.lt
      have hjn : j ≤ frames.length := by rcases hxr.2 with h | h <;> omega
      obtain ⟨p, hp⟩ := hxr.1.some i (le_refl _) hij
      have hin : i < frames.length := by omega
      have hseg : InBand (segment part b i j) (lo b) (hi b) := by
        refine whole_inBand (whole_segment hxr.1 (R := fun i' j' => i' = i ∧ j' = j)
          (fun _ _ => Iff.rfl)) ?_
        rintro i' j' k q ⟨rfl, rfl⟩ h1 h2 h3
        exact hb.inside k (by omega) b q h3
      have hband : ∀ (l : Nat) (b' : L) (u : Track K), Λ[l]? = some b' → tr[l]? = some u →
          InBand u (lo b') (hi b') := by
        intro l b' u h1 h2
        refine whole_inBand (hwh l b' u h1 h2) ?_
        intro i' j' k q h3 h4 h5 h6
        have hr := hD' _ h3.1
        have : j' ≤ frames.length := by rcases hr.2 with h | h <;> simp only at h <;> omega
        exact hb.inside k (by omega) b' q h6
      have hhead : (atrack part b i j).freq.head? = some p.freq := by
        obtain ⟨d, hd⟩ : ∃ d, j - i = d + 1 := ⟨j - i - 1, by omega⟩
        simp only [atrack, hd, List.range'_succ, List.filterMap_cons, hp, Option.map_some,
          List.head?_cons]
      rcases finish_spec c hstr tr hJ _ (atrack_ne hxr.1) hok p.freq hhead with
        ⟨l, u, d, h1, h2, h3, h4, _, h6⟩ | ⟨h1, h2⟩
      · -- merged into the track `u` at position `l`
        have hl := getElem?_lt h1
        have hlΛ : l < Λ.length := by omega
        have hb' := List.getElem?_eq_getElem hlΛ
        rw [numpyTrack_atrack hxr.1] at h3 h6
        have hlb : Λ[l] = b := by
          by_contra hne
          obtain ⟨y, z, hy, hz, hd⟩ := freqDiff_points (hband l _ u hb' h1) hseg h3
          rcases hb.apart i hin _ b p hne hp with h | h
          · have : z - y ≤ d := by rw [hd, abs_sub_comm]; exact le_abs_self _
            have h4' : d < c.freqDevOffset + c.freqDevSlope * p.freq := h4
            linarith [hy.2, hz.1]
          · have : y - z ≤ d := by rw [hd]; exact le_abs_self _
            have h4' : d < c.freqDevOffset + c.freqDevSlope * p.freq := h4
            linarith [hy.1, hz.2]
        rw [hlb] at hb'
        have hsv : saveModal c tr (atrack part b i j) =
            tr.set l (mergeTrack u (segment part b i j)) := by simp [saveModal, h6]
        rw [hsv]
        refine ⟨Λ, hΛn, ?_, by simp [hlen], ?_⟩
        · intro b'
          rw [hΛ]
          by_cases hbb : b' = b
          · subst hbb
            simp only [hacc]
            constructor
            · rintro ⟨i', j', h⟩; exact ⟨i', j', Or.inl h⟩
            · intro _; exact (hΛ b').1 (List.mem_of_getElem? hb')
          · simp only [hsame b' _ _ hbb]
        · intro l' b' u' h7 h8
          by_cases hll : l = l'
          · subst hll
            rw [hb'] at h7
            cases h7
            rw [List.getElem?_set_self hl] at h8
            cases h8
            have hw := hwh l b u hb' h1
            refine whole_merge hxr.1 hw ?_ hacc
            obtain ⟨i', hi'⟩ := hw.last
            exact hbefore i' u.stop hi'.1
          · rw [List.getElem?_set_ne hll] at h8
            have hbb : b' ≠ b := by
              rintro rfl
              exact hll (nodup_getElem?_inj hΛn hb' h7)
            have : AccIn c part (D ++ [(b, i, j)]) b' = AccIn c part D b' := by
              funext i' j'
              exact propext (hsame b' i' j' hbb)
            rw [this]
            exact hwh l' b' u' h7 h8
      · -- a new track
        rw [numpyTrack_atrack hxr.1] at h1 h2
        have hbΛ : b ∉ Λ := by
          intro hmem
          obtain ⟨l, hl⟩ := List.mem_iff_getElem?.1 hmem
          have hlt := getElem?_lt hl
          have hu := List.getElem?_eq_getElem (l := tr) (i := l) (by omega)
          have hw := hwh l b _ hl hu
          obtain ⟨i', hi'⟩ := hw.last
          have hst := hbefore i' _ hi'.1
          obtain ⟨diff, _, hdiff⟩ := diff_spec hstr (atrack_ne hxr.1)
          obtain ⟨d, _, hd⟩ := hdiff _ (hJ _ (List.mem_of_getElem? hu))
          have hfd := (hd d).2 rfl
          rw [numpyTrack_atrack hxr.1] at hfd
          have := h1 _ d (List.mem_of_getElem? hu) hst hfd
          obtain ⟨y, z, hy, hz, hd'⟩ := freqDiff_points (hband l _ _ hl hu) hseg hfd
          have hnar := hb.narrow i hin b p hp
          have : c.freqDevOffset + c.freqDevSlope * p.freq ≤ |y - z| := by rw [← hd']; exact this
          have h5 : |y - z| ≤ hi b - lo b := by
            rw [abs_le]
            constructor <;> linarith [hy.1, hy.2, hz.1, hz.2]
          linarith
        have hnone : ∀ i' j', ¬AccIn c part D b i' j' := fun i' j' h => hbΛ ((hΛ b).2 ⟨i', j', h⟩)
        have hsv : saveModal c tr (atrack part b i j) = tr ++ [segment part b i j] := by
          simp [saveModal, h2]
        rw [hsv]
        refine ⟨Λ ++ [b], ?_, ?_, by simp [hlen], ?_⟩
        · rw [List.nodup_append]
          refine ⟨hΛn, by simp, ?_⟩
          intro a ha b' hb' hab
          simp only [List.mem_singleton] at hb'
          subst hb'
          subst hab
          exact hbΛ ha
        · intro b'
          rw [List.mem_append, hΛ, List.mem_singleton]
          by_cases hbb : b' = b
          · subst hbb
            simp only [hacc, or_true, true_iff]
            exact ⟨i, j, Or.inr ⟨rfl, rfl⟩⟩
          · simp only [hsame b' _ _ hbb, hbb, or_false]
        · intro l' b' u' h7 h8
          by_cases hll : l' < Λ.length
          · rw [List.getElem?_append_left hll] at h7
            rw [List.getElem?_append_left (by omega)] at h8
            have hbb : b' ≠ b := by
              rintro rfl
              exact hbΛ (List.mem_of_getElem? h7)
            have : AccIn c part (D ++ [(b, i, j)]) b' = AccIn c part D b' := by
              funext i' j'
              exact propext (hsame b' i' j' hbb)
            rw [this]
            exact hwh l' b' u' h7 h8
          · have hl := getElem?_lt h7
            simp only [List.length_append, List.length_singleton] at hl
            have hl' : l' = Λ.length := by omega
            subst hl'
            simp only [List.getElem?_append_right (le_refl _), Nat.sub_self,
              List.getElem?_cons_zero, Option.some.injEq] at h7
            rw [hlen] at h8
            simp only [List.getElem?_append_right (le_refl _), Nat.sub_self,
              List.getElem?_cons_zero, Option.some.injEq] at h8
            subst h7
            subst h8
            refine whole_segment hxr.1 ?_
            intro i' j'
            rw [hacc]
            simp [hnone i' j']

/-- C123: partials that stay in narrow bands, apart from each other.  The modal tracker reports
exactly one track for each partial with an accepted run that ended before the last frame, made of
all of these runs with NaN in the pauses; a run that lasts until the last frame is reported on its
own.  With `strip_t`, those that begin late are left out. -/
theorem C123_pauses (c : ModalCfg K)
    (hstr : c.mergeStrategy = "average" ∨ c.mergeStrategy = "single") (prior : State K)
    (frames : List (Frame K)) (hv : ∀ f ∈ frames, f.Valid) (part : Nat → L → Option (Peak K))
    (lo hi : L → K) (hb : Banded c.toCfg frames part lo hi) :
    ∃ s, trackerFit (modalDeactivate c) c.toCfg prior frames = .ok s ∧
      (modalAllTracks c s).Nodup ∧
      ∀ u, u ∈ modalAllTracks c s ↔ InStrip c frames.length u.start u.stop ∧
        ((∃ b, WholeOf (Done c part frames.length b) (fun k => part k b) u) ∨
          ∃ b i, Run part frames.length b i frames.length ∧
            Accepted c part b i frames.length ∧ u = segment part b i frames.length) := by
  have hs := hb.separated
  obtain ⟨s, h1, h2⟩ := sep_run hs (popSave_modal c hstr) prior hv
  obtain ⟨D, E, hnd, hmem, htr, hsort, hDn, hEn, hact⟩ := sepInv_list h2
  refine ⟨s, h1, ?_⟩
  obtain ⟨Λ, hΛn, hΛ, hlen, hwh⟩ := fold_pause c hstr hb D
    (fun x hx => (hmem x).1 (by simp [hx])) (List.nodup_append.1 hnd).1 hsort
  rw [← htr] at hlen hwh
  have hdone : ∀ b, AccIn c part D b = Done c part frames.length b := by
    intro b
    funext i j
    apply propext
    constructor
    · rintro ⟨h3, h4⟩
      have hr := (hmem (b, i, j)).1 (by simp [h3])
      exact ⟨hr, hDn _ h3, (accepted_iff c hr.1).1 h4⟩
    · rintro ⟨h3, h4, h5⟩
      refine ⟨?_, (accepted_iff c h3.1).2 h5⟩
      rcases List.mem_append.1 ((hmem (b, i, j)).2 h3) with h6 | h6
      · exact h6
      · have := hEn _ h6
        simp only at this
        omega
  simp only [hdone] at hΛ hwh
  have hfin : ∀ u, u ∈ s.tracks ↔ ∃ b, WholeOf (Done c part frames.length b) (fun k => part k b) u := by
    intro u
    constructor
    · intro hu
      obtain ⟨l, hl⟩ := List.mem_iff_getElem?.1 hu
      have hlt := getElem?_lt hl
      exact ⟨_, hwh l _ u (List.getElem?_eq_getElem (by omega)) hl⟩
    · rintro ⟨b, hw⟩
      obtain ⟨j, hj⟩ := hw.first
      obtain ⟨l, hl⟩ := List.mem_iff_getElem?.1 ((hΛ b).2 ⟨_, j, hj⟩)
      have hlt := getElem?_lt hl
      have hu := List.getElem?_eq_getElem (l := s.tracks) (i := l) (by omega)
      rw [whole_unique hw (hwh l b _ hl hu)]
      exact List.mem_of_getElem? hu
  have hstopn : ∀ u ∈ s.tracks, u.stop < frames.length := by
    intro u hu
    obtain ⟨b, hw⟩ := (hfin u).1 hu
    obtain ⟨i, hi⟩ := hw.last
    exact hi.2.1
  have hE : ∀ x ∈ E, Run part frames.length x.1 x.2.1 frames.length := by
    intro x hx
    have h3 := (hmem x).1 (by simp [hx])
    rw [hEn x hx] at h3
    exact h3
  have hactm : ∀ u, u ∈ (s.active.filter (modalTrackOk c)).map numpyTrack ↔
      ∃ b i, Run part frames.length b i frames.length ∧
        Accepted c part b i frames.length ∧ u = segment part b i frames.length := by
    intro u
    rw [hact]
    simp only [List.mem_map, List.mem_filter]
    constructor
    · rintro ⟨t, ⟨⟨x, hx, rfl⟩, h4⟩, rfl⟩
      have hr := hE x hx
      rw [hEn x hx] at h4 ⊢
      exact ⟨x.1, x.2.1, hr, (accepted_iff c hr.1).1 h4, numpyTrack_atrack hr.1⟩
    · rintro ⟨b, i, hr, ha, rfl⟩
      have hxE : (b, i, frames.length) ∈ E := by
        rcases List.mem_append.1 ((hmem (b, i, frames.length)).2 hr) with h6 | h6
        · have := hDn _ h6
          simp at this
        · exact h6
      exact ⟨_, ⟨⟨_, hxE, rfl⟩, (accepted_iff c hr.1).2 ha⟩, numpyTrack_atrack hr.1⟩
  have hnod : (s.tracks ++ (s.active.filter (modalTrackOk c)).map numpyTrack).Nodup := by
    rw [List.nodup_append]
    refine ⟨?_, ?_, ?_⟩
    · rw [List.nodup_iff_getElem?_ne_getElem?]
      intro l l' hll hl' heq
      have hl : l < s.tracks.length := by omega
      rw [List.getElem?_eq_getElem hl, List.getElem?_eq_getElem hl'] at heq
      have heq := Option.some.inj heq
      have hΛl := List.getElem?_eq_getElem (l := Λ) (i := l) (by omega)
      have hΛl' := List.getElem?_eq_getElem (l := Λ) (i := l') (by omega)
      have w := hwh l _ _ hΛl (List.getElem?_eq_getElem hl)
      have w' := hwh l' _ _ hΛl' (List.getElem?_eq_getElem hl')
      rw [← heq] at w'
      -- the first sample tells the partial
      obtain ⟨j, hj⟩ := w.first
      obtain ⟨j', hj'⟩ := w'.first
      have e1 := w.sounding _ _ _ hj (le_refl _) hj.1.1.lt
      have e2 := w'.sounding _ _ _ hj' (le_refl _) hj'.1.1.lt
      obtain ⟨p, hp⟩ := hj.1.1.some _ (le_refl _) hj.1.1.lt
      rw [e1, hp] at e2
      have hlab := hs.label _ (by have := hj.1.1.lt; have := hj.2.1; omega) _ _ p hp e2.symm
      have := (List.Nodup.getElem_inj_iff hΛn).1 hlab
      omega
    · rw [hact, List.filter_map, List.map_map]
      refine List.Nodup.map_on ?_ ((List.nodup_append.1 hnd).2.1.filter _)
      intro x hx y hy hxy
      have hx' := hE x (List.mem_filter.1 hx).1
      have hy' := hE y (List.mem_filter.1 hy).1
      have ex := hEn x (List.mem_filter.1 hx).1
      have ey := hEn y (List.mem_filter.1 hy).1
      simp only [Function.comp, ex, ey] at hxy
      rw [numpyTrack_atrack hx'.1, numpyTrack_atrack hy'.1] at hxy
      obtain ⟨e1, e2, _⟩ := segment_inj hs hx' hy' hxy
      exact Prod.ext e1 (Prod.ext e2 (ex.trans ey.symm))
    · intro u hu v hv huv
      subst huv
      have h3 := hstopn u hu
      obtain ⟨b, i, hr, _, rfl⟩ := (hactm u).1 hv
      rw [segment_stop hr.1] at h3
      omega
  have hin : ∀ u, u ∈ s.tracks ++ (s.active.filter (modalTrackOk c)).map numpyTrack ↔
      ((∃ b, WholeOf (Done c part frames.length b) (fun k => part k b) u) ∨
          ∃ b i, Run part frames.length b i frames.length ∧
            Accepted c part b i frames.length ∧ u = segment part b i frames.length) := by
    intro u
    rw [List.mem_append, hfin, hactm]
  unfold modalAllTracks
  cases hst : c.stripT with
  | none =>
    have : c.stripN = none := by simp [ModalCfg.stripN, hst]
    simp only [this]
    refine ⟨hnod, ?_⟩
    intro u
    rw [hin]
    have : InStrip c frames.length u.start u.stop := by
      intro t ht; rw [hst] at ht; simp at ht
    simp [this]
  | some t =>
    have : c.stripN = some ⌈t * (c.fs / c.h)⌉ := by simp [ModalCfg.stripN, hst, Cfg.frameRate]
    simp only [this]
    refine ⟨hnod.filter _, ?_⟩
    intro u
    have hon : onsetOk c.reverse s.frame ⌈t * (c.fs / c.h)⌉ u = true ↔
          InStrip c frames.length u.start u.stop := by
      simp only [onsetOk, h2.frame, decide_eq_true_eq, InStrip, hst, Option.some.injEq,
        forall_eq', Track.stop, Nat.cast_add]
    rw [List.mem_filter, hin, hon]
    exact and_comm

/-! ### A concrete case: one partial pauses for two frames, another one does not -/

/-- Peaks of the two partials. -/
def exPause : Nat → Bool → Option (Peak ℚ)
  | 0, true => some ⟨100, -10, 0⟩
  | 1, true => some ⟨101, -11, 0⟩
  | 4, true => some ⟨102, -12, 1⟩
  | 5, true => some ⟨104, -13, 1⟩
  | 0, false => some ⟨200, -20, 1⟩
  | 1, false => some ⟨202, -22, 1⟩
  | 2, false => some ⟨201, -23, 1⟩
  | 3, false => some ⟨201, -24, 1⟩
  | 4, false => some ⟨201, -25, 1⟩
  | 5, false => some ⟨199, -26, 1⟩
  | _, _ => none

/-- The frames with the peaks of the two partials. -/
def exPauseFrames : List (Frame ℚ) :=
  [⟨[⟨100, -10, 0⟩, ⟨200, -20, 1⟩], [0, 1]⟩, ⟨[⟨101, -11, 0⟩, ⟨202, -22, 1⟩], [0, 1]⟩,
   ⟨[⟨201, -23, 1⟩], [0]⟩, ⟨[⟨201, -24, 1⟩], [0]⟩,
   ⟨[⟨102, -12, 1⟩, ⟨201, -25, 1⟩], [0, 1]⟩, ⟨[⟨104, -13, 1⟩, ⟨199, -26, 1⟩], [0, 1]⟩,
   ⟨[], []⟩]

theorem exPause_banded : Banded exCfg exPauseFrames exPause
    (fun b => if b then 100 else 199) (fun b => if b then 104 else 202) := by
  have hval : ∀ (k : Nat) (b : Bool) (p : Peak ℚ), exPause k b = some p →
      (if b then (100 : ℚ) else 199) ≤ p.freq ∧ p.freq ≤ (if b then 104 else 202) := by
    intro k b p
    match k with
    | 0 | 1 | 2 | 3 | 4 | 5 =>
      cases b <;> simp only [exPause, Option.some.injEq, reduceCtorEq, false_imp_iff] <;>
        rintro rfl <;> norm_num
    | k + 6 => cases b <;> simp [exPause]
  refine ⟨?_, by simp [exPauseFrames], by simp [exPauseFrames, exCfg], fun k _ b p => hval k b p,
    ?_, ?_⟩
  · intro k f hf p
    match k with
    | 0 | 1 | 2 | 3 | 4 | 5 | 6 =>
      simp [exPauseFrames] at hf; subst hf; simp [exPause, eq_comm, or_comm]
    | k + 7 => simp [exPauseFrames] at hf
  · intro k _ b p _
    cases b <;> norm_num [exCfg]
  · intro k _ b b' p hne _
    cases b <;> cases b' <;> simp at hne <;> norm_num [exCfg]

theorem exPause_valid : ∀ f ∈ exPauseFrames, f.Valid := by
  unfold exPauseFrames Frame.Valid
  decide +kernel

example : ∃ s, trackerFit (modalDeactivate (exModal false "single")) exCfg ⟨[], [], 0⟩
      exPauseFrames = .ok s ∧ (modalAllTracks (exModal false "single") s).Nodup :=
  have ⟨s, h1, h2, _⟩ := C123_pauses (exModal false "single") (Or.inr rfl) ⟨[], [], 0⟩
    exPauseFrames exPause_valid exPause _ _ exPause_banded
  ⟨s, h1, h2⟩

example : (trackerFit (modalDeactivate (exModal false "single")) exCfg ⟨[], [], 0⟩
      exPauseFrames).toOption.map (fun s =>
        (modalAllTracks (exModal false "single") s).map (·.freq)) =
    some [[some 100, some 101, none, none, some 102, some 104],
      [some 200, some 202, some 201, some 201, some 201, some 199]] := by
  decide +kernel

/-- Without the silent frame at the end, the second part of the partial is a track of its own. -/
example : (trackerFit (modalDeactivate { exModal false "single" with stripT := none }) exCfg
      ⟨[], [], 0⟩ (exPauseFrames.take 6)).toOption.map (fun s =>
        (modalAllTracks { exModal false "single" with stripT := none } s).map (·.freq)) =
    some [[some 100, some 101], [some 200, some 202, some 201, some 201, some 201, some 199],
      [some 102, some 104]] := by
  decide +kernel

end Verif.Tracker
