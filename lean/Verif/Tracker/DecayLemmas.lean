import Verif.Tracker.SeparatedProps
import Mathlib.Data.Real.Archimedean

/-!
# Lemmas: tracking of partials with constant frequencies and levels that fall linearly
-/

set_option autoImplicit false
set_option linter.unusedSectionVars false
set_option linter.unusedSimpArgs false

namespace Verif.Tracker

/-- Frames of partials (labelled by numbers) with constant frequencies `F` and levels that start at `M` and
fall by the same amount `-G` per step in time.  The partial `b` is seen as long as `lev b`, falling alike, is
above `t`.  `rev`: time runs backwards. -/
structure Falling (rev : Bool) (L : Nat) (G t : ℝ) (Pk : Nat → Prop) (F M lev : Nat → ℝ)
    (Φ : Nat → Nat → ℝ) (fr : List (Frame ℝ)) : Prop where
  len : fr.length = L
  falls : G < 0
  inj : ∀ b b', Pk b → Pk b' → t < lev b → t < lev b' → F b = F b' → b = b'
  peaks : ∀ (l : Nat) (f : Frame ℝ), fr[l]? = some f → ∃ bs : List Nat, bs.Nodup ∧
    (∀ b, b ∈ bs ↔ Pk b ∧ t < lev b + ((if rev then L - 1 - l else l : Nat) : ℝ) * G) ∧
    f.peaks = bs.map fun b => ⟨F b, M b + ((if rev then L - 1 - l else l : Nat) : ℝ) * G, Φ l b⟩

open Classical in
/-- The peaks of the partials. -/
noncomputable def fallPart (rev : Bool) (L : Nat) (G t : ℝ) (Pk : Nat → Prop) (F M lev : Nat → ℝ)
    (Φ : Nat → Nat → ℝ) (l b : Nat) : Option (Peak ℝ) :=
  if Pk b ∧ t < lev b + ((if rev then L - 1 - l else l : Nat) : ℝ) * G then
    some ⟨F b, M b + ((if rev then L - 1 - l else l : Nat) : ℝ) * G, Φ l b⟩
  else none

section

variable {rev : Bool} {L : Nat} {G t : ℝ} {Pk : Nat → Prop} {F M lev : Nat → ℝ} {Φ : Nat → Nat → ℝ}

theorem fallPart_some {l b : Nat} {p : Peak ℝ} (h : fallPart rev L G t Pk F M lev Φ l b = some p) :
    Pk b ∧ t < lev b + ((if rev then L - 1 - l else l : Nat) : ℝ) * G ∧
      p = ⟨F b, M b + ((if rev then L - 1 - l else l : Nat) : ℝ) * G, Φ l b⟩ := by
  unfold fallPart at h
  generalize (if rev then L - 1 - l else l : Nat) = e at h ⊢
  split at h
  · rename_i hc
    exact ⟨hc.1, hc.2, (Option.some.inj h).symm⟩
  · simp at h

theorem fallPart_none {l b : Nat} : fallPart rev L G t Pk F M lev Φ l b = none ↔
    ¬ (Pk b ∧ t < lev b + ((if rev then L - 1 - l else l : Nat) : ℝ) * G) := by
  unfold fallPart
  generalize (if rev then L - 1 - l else l : Nat) = e
  split <;> simp_all

theorem fallPart_pos {l b : Nat} (h : Pk b) (h' : t < lev b + ((if rev then L - 1 - l else l : Nat) : ℝ) * G) :
    fallPart rev L G t Pk F M lev Φ l b =
      some ⟨F b, M b + ((if rev then L - 1 - l else l : Nat) : ℝ) * G, Φ l b⟩ := by
  unfold fallPart
  rw [if_pos ⟨h, h'⟩]

theorem above_first (hG : G < 0) {b e : Nat} (h : t < lev b + (e : ℝ) * G) : t < lev b := by
  have : (0 : ℝ) ≤ e := Nat.cast_nonneg e
  nlinarith

theorem above_mono (hG : G < 0) {b e e' : Nat} (he : e' ≤ e) (h : t < lev b + (e : ℝ) * G) :
    t < lev b + (e' : ℝ) * G := by
  have : (e' : ℝ) ≤ e := by exact_mod_cast he
  nlinarith

theorem falling_separated {fr : List (Frame ℝ)} (hf : Falling rev L G t Pk F M lev Φ fr) (c : Cfg ℝ)
    (hdev : ∀ b, Pk b → t < lev b → 0 < c.freqDevOffset + c.freqDevSlope * F b)
    (hroom : ∀ bs : List Nat, bs.Nodup → (∀ b ∈ bs, Pk b ∧ t < lev b) → bs.length ≤ c.maxNSines)
    (hnew : rev = true → ∀ b b', Pk b → Pk b' → t < lev b → t < lev b' → lev b' < lev b →
      c.freqDevOffset + c.freqDevSlope * F b' ≤ |F b - F b'| ∨ M b' < M b) :
    Separated c fr (fallPart rev L G t Pk F M lev Φ) := by
  have hG := hf.falls
  refine ⟨?_, ?_, ?_, ?_, ?_, ?_⟩
  · intro k f hk p
    obtain ⟨bs, h1, h2, h3⟩ := hf.peaks k f hk
    rw [h3, List.mem_map]
    constructor
    · rintro ⟨b, hb, rfl⟩
      exact ⟨b, fallPart_pos ((h2 b).1 hb).1 ((h2 b).1 hb).2⟩
    · rintro ⟨b, hb⟩
      obtain ⟨g1, g2, rfl⟩ := fallPart_some hb
      exact ⟨b, (h2 b).2 ⟨g1, g2⟩, rfl⟩
  · intro f hm
    obtain ⟨k, hk⟩ := List.getElem?_of_mem hm
    obtain ⟨bs, h1, h2, h3⟩ := hf.peaks k f hk
    rw [h3]
    refine List.Nodup.map_on ?_ h1
    intro b hb b' hb' he
    have e := congrArg Peak.freq he
    exact hf.inj b b' ((h2 b).1 hb).1 ((h2 b').1 hb').1 (above_first hG ((h2 b).1 hb).2)
      (above_first hG ((h2 b').1 hb').2) e
  · intro k _ b b' p hb hb'
    obtain ⟨g1, g2, g3⟩ := fallPart_some hb
    obtain ⟨g1', g2', g3'⟩ := fallPart_some hb'
    rw [g3] at g3'
    exact hf.inj b b' g1 g1' (above_first hG g2) (above_first hG g2') (congrArg Peak.freq g3')
  · intro k _ b p q hb hb'
    obtain ⟨g1, g2, rfl⟩ := fallPart_some hb
    obtain ⟨_, _, rfl⟩ := fallPart_some hb'
    simp only [sub_self, abs_zero]
    exact hdev b g1 (above_first hG g2)
  · intro k hk b b' p q hne hb hb'
    obtain ⟨g1, g2, rfl⟩ := fallPart_some hb
    obtain ⟨g1', g2', rfl⟩ := fallPart_some hb'
    have hL := hf.len
    by_cases hp : t < lev b' + ((if rev then L - 1 - k else k : Nat) : ℝ) * G
    · right; left
      refine ⟨_, fallPart_pos g1' hp, ?_⟩
      simp only [sub_self, abs_zero]
      rw [abs_pos, sub_ne_zero]
      intro he
      exact hne (hf.inj b b' g1 g1' (above_first hG g2) (above_first hG g2') he)
    · cases hr : rev with
      | false =>
        exfalso
        rw [hr] at hp g2'
        exact hp (above_mono hG (by simp) g2')
      | true =>
        have hrl : lev b' < lev b := by linarith
        rcases hnew hr b b' g1 g1' (above_first hG g2) (above_first hG g2') hrl with h | h
        · exact Or.inl h
        · right; right
          subst hr
          refine ⟨fallPart_none.2 fun h => hp h.2, _, fallPart_pos g1 (above_mono hG ?_ g2), ?_⟩
          · simp only [if_true]; omega
          · simpa using h
  · intro f hm
    obtain ⟨k, hk⟩ := List.getElem?_of_mem hm
    obtain ⟨bs, h1, h2, h3⟩ := hf.peaks k f hk
    rw [h3, List.length_map]
    exact hroom bs h1 fun b hb => ⟨((h2 b).1 hb).1, above_first hG ((h2 b).1 hb).2⟩

/-- The frames in which a partial is seen. -/
theorem fall_run (hG : G < 0) (b i j : Nat) :
    Run (fallPart rev L G t Pk F M lev Φ) L b i j ↔ Pk b ∧ i < j ∧ j ≤ L ∧
      (if rev then j = L else i = 0) ∧
      ∀ e, e < L → (e < j - i ↔ t < lev b + (e : ℝ) * G) := by
  constructor
  · rintro ⟨hs, hend⟩
    have hlt := hs.lt
    have hjL : j ≤ L := by rcases hend with h | h <;> omega
    obtain ⟨p, hp⟩ := hs.some i (le_refl _) hlt
    have hpk := (fallPart_some hp).1
    refine ⟨hpk, hlt, hjL, ?_⟩
    cases hr : rev with
    | false =>
      subst hr
      have hi0 : i = 0 := by
        by_contra h0
        have := hs.first (i - 1) (by omega)
        rw [fallPart_none] at this
        exact this ⟨hpk, above_mono hG (by simp) (fallPart_some hp).2.1⟩
      subst hi0
      refine ⟨rfl, ?_⟩
      intro e he
      constructor
      · intro hej
        obtain ⟨q, hq⟩ := hs.some e (by omega) (by omega)
        simpa using (fallPart_some hq).2.1
      · intro ht
        by_contra hge
        rcases hend with h | ⟨h1, h2⟩
        · omega
        · rw [fallPart_none] at h2
          exact h2 ⟨hpk, above_mono hG (by simp; omega) ht⟩
    | true =>
      subst hr
      have hj : j = L := by
        rcases hend with h | ⟨h1, h2⟩
        · exact h
        · exfalso
          obtain ⟨q, hq⟩ := hs.some (j - 1) (by omega) (by omega)
          rw [fallPart_none] at h2
          exact h2 ⟨hpk, above_mono hG (by simp; omega) (fallPart_some hq).2.1⟩
      subst hj
      refine ⟨rfl, ?_⟩
      intro e he
      constructor
      · intro hej
        obtain ⟨q, hq⟩ := hs.some (j - 1 - e) (by omega) (by omega)
        have := (fallPart_some hq).2.1
        simp only [if_true] at this
        rwa [show j - 1 - (j - 1 - e) = e by omega] at this
      · intro ht
        by_contra hge
        have h2 := hs.first (i - 1) (by omega)
        rw [fallPart_none] at h2
        exact h2 ⟨hpk, above_mono hG (by simp; omega) ht⟩
  · rintro ⟨hpk, hlt, hjL, hrev, he⟩
    cases hr : rev with
    | false =>
      subst hr
      simp only [Bool.false_eq_true, if_false] at hrev
      subst hrev
      refine ⟨⟨hlt, ?_, by intro k hk; omega⟩, ?_⟩
      · intro k _ hk
        exact ⟨_, fallPart_pos hpk (by simpa using (he k (by omega)).1 (by omega))⟩
      · by_cases h : j = L
        · exact Or.inl h
        · refine Or.inr ⟨by omega, fallPart_none.2 ?_⟩
          rintro ⟨_, h2⟩
          have := (he j (by omega)).2 (by simpa using h2)
          omega
    | true =>
      subst hr
      simp only [if_true] at hrev
      subst hrev
      refine ⟨⟨hlt, ?_, ?_⟩, Or.inl rfl⟩
      · intro k hk1 hk2
        exact ⟨_, fallPart_pos hpk (by simpa using (he (j - 1 - k) (by omega)).1 (by omega))⟩
      · intro k hk
        refine fallPart_none.2 ?_
        rintro ⟨_, h2⟩
        have := (he (j - 1 - k) (by omega)).2 (by simpa using h2)
        omega

/-- Runs of different partials are never one after the other. -/
theorem fall_apart (hG : G < 0) (c : ModalCfg ℝ) :
    Apart c (fallPart rev L G t Pk F M lev Φ) L := by
  intro b i j b' i' j' p d h1 h2 _ _ hlt _ _
  rw [fall_run hG] at h1 h2
  obtain ⟨_, _, _, h3, _⟩ := h1
  obtain ⟨_, h4, h5, h6, _⟩ := h2
  cases hr : rev with
  | false => simp [hr] at h6; omega
  | true => simp [hr] at h3; omega

/-- Magnitudes in forward time are on a line. -/
theorem line_leastSquares (pts : List (ℝ × ℝ)) (k q : ℝ) (hl : ∀ p ∈ pts, p.2 = k * p.1 + q) :
    LeastSquares pts k q ∧ ∀ k' q', LeastSquares pts k' q' → ∀ p ∈ pts, p.2 = k' * p.1 + q' := by
  have h0 : ssr pts k q = 0 := by
    unfold ssr
    apply List.sum_eq_zero
    intro a ha
    obtain ⟨p, hp, rfl⟩ := List.mem_map.1 ha
    rw [hl p hp]; ring
  have hnn : ∀ k' q', ∀ a ∈ pts.map (fun p => (p.2 - (k' * p.1 + q')) ^ 2), (0 : ℝ) ≤ a := by
    intro k' q' a ha
    obtain ⟨p, _, rfl⟩ := List.mem_map.1 ha
    exact sq_nonneg _
  refine ⟨fun k' q' => by rw [h0]; exact List.sum_nonneg (hnn k' q'), ?_⟩
  intro k' q' h p hp
  have h1 := h k q
  rw [h0] at h1
  have h2 : (p.2 - (k' * p.1 + q')) ^ 2 ≤ ssr pts k' q' :=
    List.single_le_sum (hnn k' q') _ (List.mem_map.2 ⟨p, hp, rfl⟩)
  have h3 : p.2 - (k' * p.1 + q') = 0 := by
    have := sq_nonneg (p.2 - (k' * p.1 + q'))
    exact pow_eq_zero_iff (two_ne_zero) |>.1 (le_antisymm (by linarith) this)
  linarith

theorem forwardPoints_line (reverse : Bool) (mags : List ℝ) (G M : ℝ)
    (h : ∀ (i : Nat) (a : ℝ), (if reverse then mags.reverse else mags)[i]? = some a → a = M + i * G) :
    ∀ p ∈ forwardPoints reverse mags, p.2 = G * p.1 + M := by
  intro p hp
  unfold forwardPoints at hp
  obtain ⟨q, hq, rfl⟩ := List.mem_map.1 hp
  obtain ⟨i, hi⟩ := List.getElem?_of_mem hq
  rw [List.getElem?_zipIdx, Option.map_eq_some_iff] at hi
  obtain ⟨a, ha, rfl⟩ := hi
  simp only [zero_add]
  rw [h i a ha]; ring

theorem filterMap_some_map {α β : Type*} (f : α → Option β) (g : α → β) : ∀ l : List α,
    (∀ a ∈ l, f a = some (g a)) → l.filterMap f = l.map g := by
  intro l
  induction l with
  | nil => intro _; rfl
  | cons a l ih =>
    intro h
    rw [List.filterMap_cons, h a (by simp), List.map_cons, ih fun b hb => h b (by simp [hb])]

/-- What the parts of a run are. -/
theorem fall_values (hG : G < 0) {b i j : Nat} (h : Run (fallPart rev L G t Pk F M lev Φ) L b i j)
    (k : Nat) (h1 : i ≤ k) (h2 : k < j) : fallPart rev L G t Pk F M lev Φ k b =
      some ⟨F b, M b + ((if rev then L - 1 - k else k : Nat) : ℝ) * G, Φ k b⟩ := by
  obtain ⟨p, hp⟩ := h.1.some k h1 h2
  rw [hp, (fallPart_some hp).2.2]

theorem fall_mags (hG : G < 0) {b i j : Nat} (h : Run (fallPart rev L G t Pk F M lev Φ) L b i j) :
    magsOf (fallPart rev L G t Pk F M lev Φ) b i j =
      (List.range' i (j - i)).map fun k => M b + ((if rev then L - 1 - k else k : Nat) : ℝ) * G := by
  unfold magsOf
  apply filterMap_some_map
  intro k hk
  rw [List.mem_range'_1] at hk
  have := h.1.lt
  rw [fall_values hG h k hk.1 (by omega)]
  rfl

theorem fall_freqs (hG : G < 0) {b i j : Nat} (h : Run (fallPart rev L G t Pk F M lev Φ) L b i j) :
    freqsOf (fallPart rev L G t Pk F M lev Φ) b i j = List.replicate (j - i) (F b) := by
  unfold freqsOf
  rw [filterMap_some_map _ (fun _ => F b)]
  · simp
  · intro k hk
    rw [List.mem_range'_1] at hk
    have := h.1.lt
    rw [fall_values hG h k hk.1 (by omega)]
    rfl

/-- Which runs a modal tracker accepts. -/
theorem fall_accepted (hG : G < 0) (c : ModalCfg ℝ) (hrev : c.reverse = rev) {b i j : Nat}
    (h : Run (fallPart rev L G t Pk F M lev Φ) L b i j) :
    Accepted c (fallPart rev L G t Pk F M lev Φ) b i j ↔
      max 2 ⌈c.minSineDur * (c.fs / c.h)⌉ ≤ ((j - i : Nat) : ℤ) ∧
      (∀ lo, c.freqLo = some lo → lo ≤ F b) ∧ (∀ hi, c.freqHi = some hi → F b ≤ hi) ∧
      c.peakThreshold ≤ M b := by
  have hrun := (fall_run hG b i j).1 h
  obtain ⟨_, hlt, hjL, hends, _⟩ := hrun
  have hmean : (freqsOf (fallPart rev L G t Pk F M lev Φ) b i j).sum / ((j - i : Nat) : ℝ) = F b := by
    rw [fall_freqs hG h, List.sum_replicate, nsmul_eq_mul]
    have : ((j - i : Nat) : ℝ) ≠ 0 := by
      have : j - i ≠ 0 := by omega
      exact_mod_cast this
    field_simp
  have hline : ∀ p ∈ forwardPoints c.reverse (magsOf (fallPart rev L G t Pk F M lev Φ) b i j),
      p.2 = G * p.1 + M b := by
    apply forwardPoints_line
    intro m a ha
    rw [fall_mags hG h, hrev] at ha
    cases hr : rev with
    | false =>
      simp only [hr, Bool.false_eq_true, if_false, List.getElem?_map] at ha hends
      subst hends
      rw [Option.map_eq_some_iff] at ha
      obtain ⟨k, hk, rfl⟩ := ha
      have hm := (List.getElem?_eq_some_iff.1 hk).1
      rw [List.length_range'] at hm
      rw [List.getElem?_range' hm] at hk
      simp at hk
      rw [← hk]
    | true =>
      simp only [hr, if_true] at ha hends
      subst hends
      have hm := (List.getElem?_eq_some_iff.1 ha).1
      simp only [List.length_reverse, List.length_map, List.length_range'] at hm
      rw [List.getElem?_reverse (by simpa using hm), List.getElem?_map] at ha
      simp only [List.length_map, List.length_range'] at ha
      rw [List.getElem?_range' (by omega)] at ha
      simp only [Option.map_some, Option.some.injEq] at ha
      rw [← ha]
      congr 3
      omega
  constructor
  · rintro ⟨a1, a2, a3, k, q, a4, a5, a6⟩
    refine ⟨a1, fun lo hlo => hmean ▸ a2 lo hlo, fun hi hhi => hmean ▸ a3 hi hhi, ?_⟩
    have := (line_leastSquares _ G (M b) hline).2 k q a4 (0, M b) ?_
    · simp only [mul_zero, zero_add] at this
      rw [this]; exact a6
    · have hne : (if c.reverse then (magsOf (fallPart rev L G t Pk F M lev Φ) b i j).reverse
          else magsOf (fallPart rev L G t Pk F M lev Φ) b i j) ≠ [] := by
        intro h0
        have h1 := congrArg List.length h0
        rw [fall_mags hG h] at h1
        split at h1 <;> simp at h1 <;> omega
      have hpt : ∃ v, ((0 : ℝ), v) ∈
          forwardPoints c.reverse (magsOf (fallPart rev L G t Pk F M lev Φ) b i j) := by
        unfold forwardPoints
        obtain ⟨v, l, hv⟩ := List.exists_cons_of_ne_nil hne
        rw [hv]
        exact ⟨v, by simp⟩
      obtain ⟨v, hv⟩ := hpt
      have := hline _ hv
      simp only [mul_zero, zero_add] at this
      rwa [this] at hv
  · rintro ⟨a1, a2, a3, a4⟩
    exact ⟨a1, fun lo hlo => hmean.symm ▸ a2 lo hlo, fun hi hhi => hmean.symm ▸ a3 hi hhi, G, M b,
      (line_leastSquares _ G (M b) hline).1, hG.le, a4⟩

end

end Verif.Tracker
