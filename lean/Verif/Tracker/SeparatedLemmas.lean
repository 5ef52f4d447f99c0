import Verif.Tracker.SeparatedSpec
import Verif.Tracker.BaseLemmas

/-! # Lemmas: tracking of separated partials -/

set_option autoImplicit false
set_option linter.unusedSectionVars false
set_option linter.unusedSimpArgs false

namespace Verif.Tracker

variable {K : Type*} [Field K] [LinearOrder K] {L : Type*}

/-- The active track of the partial `b` over the frames from `i` to `j - 1`. -/
def atrack (part : Nat → L → Option (Peak K)) (b : L) (i j : Nat) : ATrack K :=
  ⟨i, (List.range' i (j - i)).filterMap fun k => (part k b).map Peak.freq,
    (List.range' i (j - i)).filterMap fun k => (part k b).map Peak.mag,
    (List.range' i (j - i)).filterMap fun k => (part k b).map Peak.phase⟩

theorem range'_step (i j : Nat) (h : i ≤ j) :
    List.range' i (j + 1 - i) = List.range' i (j - i) ++ [j] := by
  have e : j + 1 - i = (j - i) + 1 := by omega
  rw [e, List.range'_1_concat]
  congr 2
  omega

theorem atrack_step {part : Nat → L → Option (Peak K)} {b : L} {i j : Nat} {p : Peak K}
    (h : i ≤ j) (hp : part j b = some p) :
    atrack part b i (j + 1) = ⟨(atrack part b i j).start, (atrack part b i j).freq ++ [p.freq],
      (atrack part b i j).mag ++ [p.mag], (atrack part b i j).phase ++ [p.phase]⟩ := by
  simp only [atrack, range'_step i j h, List.filterMap_append, List.filterMap_cons, hp,
    Option.map_some, List.filterMap_nil]

theorem atrack_self (part : Nat → L → Option (Peak K)) (b : L) (i : Nat) :
    atrack part b i i = ⟨i, [], [], []⟩ := by
  simp [atrack]

theorem atrack_newborn {part : Nat → L → Option (Peak K)} {b : L} {i : Nat} {p : Peak K}
    (hp : part i b = some p) : atrack part b i (i + 1) = newborn i p := by
  rw [atrack_step (le_refl i) hp, atrack_self]
  simp [newborn]

theorem atrack_last {part : Nat → L → Option (Peak K)} {b : L} {i k : Nat} {p : Peak K}
    (h : i ≤ k) (hp : part k b = some p) :
    (atrack part b i (k + 1)).freq.getLast? = some p.freq := by
  rw [atrack_step h hp]
  simp

theorem numpyTrack_atrack {part : Nat → L → Option (Peak K)} {b : L} {i j : Nat}
    (h : Sounds part b i j) : numpyTrack (atrack part b i j) = segment part b i j := by
  have key : ∀ (g : Peak K → K),
      ((List.range' i (j - i)).filterMap fun k => (part k b).map g).map some =
        (List.range' i (j - i)).map fun k => (part k b).map g := by
    intro g
    have hs : ∀ k ∈ List.range' i (j - i), ∃ p, part k b = some p := by
      intro k hk
      rw [List.mem_range'_1] at hk
      have := h.lt
      exact h.some k hk.1 (by omega)
    generalize List.range' i (j - i) = l at hs
    induction l with
    | nil => rfl
    | cons a l ih =>
      obtain ⟨p, hp⟩ := hs a (by simp)
      simp only [List.filterMap_cons, hp, Option.map_some, List.map_cons]
      rw [ih (fun k hk => hs k (by simp [hk]))]
  simp only [numpyTrack, atrack, segment, key]

theorem atrack_length {part : Nat → L → Option (Peak K)} {b : L} {i j : Nat}
    (h : Sounds part b i j) : (atrack part b i j).freq.length = j - i := by
  have := congrArg (fun t => t.freq.length) (numpyTrack_atrack h)
  simpa [numpyTrack, segment] using this

theorem atrack_mag_length {part : Nat → L → Option (Peak K)} {b : L} {i j : Nat}
    (h : Sounds part b i j) : (atrack part b i j).mag.length = j - i := by
  have := congrArg (fun t => t.mag.length) (numpyTrack_atrack h)
  simpa [numpyTrack, segment] using this

theorem atrack_ne {part : Nat → L → Option (Peak K)} {b : L} {i j : Nat}
    (h : Sounds part b i j) : (atrack part b i j).freq ≠ [] := by
  intro h0
  have := atrack_length h
  have := h.lt
  rw [h0] at *
  simp at *
  omega

/-! ## Runs -/

theorem sounds_unique {part : Nat → L → Option (Peak K)} {b : L} {i i' j : Nat}
    (h : Sounds part b i j) (h' : Sounds part b i' j) : i = i' := by
  rcases Nat.lt_trichotomy i i' with hlt | heq | hlt
  · exfalso
    obtain ⟨p, hp⟩ := h.some (i' - 1) (by omega) (by have := h'.lt; omega)
    rw [h'.first (i' - 1) (by omega)] at hp
    simp at hp
  · exact heq
  · exfalso
    obtain ⟨p, hp⟩ := h'.some (i - 1) (by omega) (by have := h.lt; omega)
    rw [h.first (i - 1) (by omega)] at hp
    simp at hp

theorem sounds_exists {part : Nat → L → Option (Peak K)} {b : L} :
    ∀ (k : Nat) (p : Peak K), part k b = some p → ∃ i, Sounds part b i (k + 1) := by
  intro k
  induction k with
  | zero =>
    intro p hp
    refine ⟨0, by omega, ?_, by intro k hk; omega⟩
    intro k h1 h2
    have : k = 0 := by omega
    subst this
    exact ⟨p, hp⟩
  | succ k ih =>
    intro p hp
    cases h : part k b with
    | none =>
      refine ⟨k + 1, by omega, ?_, ?_⟩
      · intro l h1 h2
        have : l = k + 1 := by omega
        subst this
        exact ⟨p, hp⟩
      · intro l hl
        have : l = k := by omega
        subst this
        exact h
    | some q =>
      obtain ⟨i, hi⟩ := ih q h
      have := hi.lt
      refine ⟨i, by omega, ?_, hi.first⟩
      intro l h1 h2
      by_cases hl : l = k + 1
      · subst hl; exact ⟨p, hp⟩
      · exact hi.some l h1 (by omega)

theorem sounds_step {part : Nat → L → Option (Peak K)} {b : L} {i n : Nat} {p : Peak K}
    (h : Sounds part b i n) (hp : part n b = some p) : Sounds part b i (n + 1) := by
  have := h.lt
  refine ⟨by omega, ?_, h.first⟩
  intro l h1 h2
  by_cases hl : l = n
  · subst hl; exact ⟨p, hp⟩
  · exact h.some l h1 (by omega)

theorem sounds_back {part : Nat → L → Option (Peak K)} {b : L} {i n : Nat}
    (h : Sounds part b i (n + 1)) (hi : i < n) : Sounds part b i n :=
  ⟨hi, fun l h1 h2 => h.some l h1 (by omega), h.first⟩

/-! ## The matching -/

theorem nodup_getElem?_inj {α : Type*} {l : List α} (h : l.Nodup) {i j : Nat} {a : α}
    (hi : l[i]? = some a) (hj : l[j]? = some a) : i = j := by
  have h1 := getElem?_lt hi
  have h2 := getElem?_lt hj
  rw [List.getElem?_eq_getElem h1] at hi
  rw [List.getElem?_eq_getElem h2] at hj
  exact (List.Nodup.getElem_inj_iff h).1 ((Option.some.inj hi).trans (Option.some.inj hj).symm)

theorem match_label {c : Cfg K} {frames : List (Frame K)} {part : Nat → L → Option (Peak K)}
    (hs : Separated c frames part) {n : Nat} {f : Frame K} (hf : frames[n]? = some f)
    {B : List (L × Nat)} (hBn : B.Nodup) (hB : ∀ x, x ∈ B ↔ Sounds part x.1 x.2 n)
    {m : List (Option Nat)}
    (hg : Greedy c (B.map fun x => atrack part x.1 x.2 n) f.peaks m) :
    ∀ (i p : Nat) (x : L × Nat) (q : Peak K), m[i]? = some (some p) → B[i]? = some x →
      f.peaks[p]? = some q → part n x.1 = some q := by
  obtain ⟨rank, hrank⟩ := hg.ordered
  have main : ∀ (r i p : Nat) (x : L × Nat) (q : Peak K), rank p = r → m[i]? = some (some p) →
      B[i]? = some x → f.peaks[p]? = some q → part n x.1 = some q := by
    intro r
    induction r using Nat.strong_induction_on with
    | _ r ih =>
      intro i p x q hr hm hx hq
      have hn := getElem?_lt hf
      have hS := (hB x).1 (List.mem_of_getElem? hx)
      obtain ⟨k, rfl⟩ : ∃ k, n = k + 1 := ⟨n - 1, by have := hS.lt; omega⟩
      obtain ⟨b', hb'⟩ := (hs.mem _ f hf q).1 (List.mem_of_getElem? hq)
      have hlt := hS.lt
      obtain ⟨pp, hpp⟩ := hS.some k (by omega) (by omega)
      have hA : (B.map fun x => atrack part x.1 x.2 (k + 1))[i]? =
          some (atrack part x.1 x.2 (k + 1)) := by simp [hx]
      have hlast := atrack_last (i := x.2) (by omega) hpp
      have hnear := hg.near i p _ q pp.freq hm hA hq hlast
      by_cases hb : x.1 = b'
      · rw [hb]; exact hb'
      · exfalso
        rcases hs.own k hn x.1 b' pp q hb hpp hb' with hfar | ⟨p', hp', hcl⟩ | ⟨-, r', hr1, hr2⟩
        · exact absurd hnear (not_lt.2 hfar)
        · obtain ⟨i', hi'⟩ := sounds_exists k p' hp'
          have hmem : ((b', i') : L × Nat) ∈ B := (hB (b', i')).2 hi'
          obtain ⟨j, hj⟩ := List.mem_iff_getElem?.1 hmem
          have hA' : (B.map fun x => atrack part x.1 x.2 (k + 1))[j]? =
              some (atrack part b' i' (k + 1)) := by simp [hj]
          have hi'lt := hi'.lt
          have hlast' := atrack_last (i := i') (by omega) hp'
          obtain ⟨w, hw1, hw2⟩ := hrank i j p _ _ q pp.freq p'.freq hm hA hA' hq hlast hlast'
            (Or.inl hcl)
          have hwlt := hg.valid w (List.mem_of_getElem? hw1)
          have hwq := ih (rank w) (by omega) j w (b', i') f.peaks[w] rfl hw1 hj
            (List.getElem?_eq_getElem hwlt)
          simp only [hb', Option.some.injEq] at hwq
          have hwp : w = p := nodup_getElem?_inj (hs.distinct f (List.mem_of_getElem? hf))
            (by rw [hwq]; exact List.getElem?_eq_getElem hwlt) hq
          subst hwp
          have hij := hg.inj i j w hm hw1
          subst hij
          rw [hx] at hj
          cases hj
          exact hb rfl
        · obtain ⟨w, hw⟩ := List.mem_iff_getElem?.1 ((hs.mem _ f hf r').2 ⟨x.1, hr1⟩)
          have hnr := hs.near k hn x.1 pp r' hpp hr1
          have hno : ∀ q' qk, m[i]? = some (some q') → f.peaks[q']? = some qk → ¬ r'.mag ≤ qk.mag := by
            intro q' qk h1 h2 h3
            rw [hm] at h1
            cases h1
            rw [hq] at h2
            cases h2
            exact absurd h3 (not_le.2 hr2)
          by_cases hwm : some w ∈ m
          · obtain ⟨i2, hi2⟩ := List.mem_iff_getElem?.1 hwm
            have hi2B : i2 < B.length := by
              have := getElem?_lt hi2
              rwa [hg.len, List.length_map] at this
            have hx2 := List.getElem?_eq_getElem hi2B
            have hS2 := (hB B[i2]).1 (List.mem_of_getElem? hx2)
            have hlt2 := hS2.lt
            obtain ⟨p2, hp2⟩ := hS2.some k (by omega) (by omega)
            have hA2 : (B.map fun x => atrack part x.1 x.2 (k + 1))[i2]? =
                some (atrack part B[i2].1 B[i2].2 (k + 1)) := by simp [hx2]
            have hlast2 := atrack_last (i := B[i2].2) (by omega) hp2
            have hnear2 := hg.near i2 w _ r' p2.freq hi2 hA2 hw hlast2
            have hb2 : B[i2].1 ≠ x.1 := by
              intro he
              rw [he] at hS2
              have he' : B[i2] = x := Prod.ext he (sounds_unique hS2 hS)
              have hii : i2 = i := nodup_getElem?_inj hBn (by rw [hx2, he']) hx
              subst hii
              exact hno w r' hi2 hw (le_refl _)
            rcases hs.own k hn B[i2].1 x.1 p2 r' hb2 hp2 hr1 with h | ⟨p3, h3, h4⟩ | ⟨h, -⟩
            · exact absurd hnear2 (not_lt.2 h)
            · rw [hpp] at h3
              cases h3
              obtain ⟨q', qk, g1, g2, g3⟩ := hg.nearest i2 i w _ _ r' p2.freq pp.freq hi2 hA2 hA hw
                hlast2 hlast (Or.inl h4)
              exact hno q' qk g1 g2 g3
            · rw [hpp] at h
              simp at h
          · obtain ⟨q', qk, g1, g2, g3⟩ := hg.loudest w i _ r' pp.freq hwm hw hA hlast hnr
            exact hno q' qk g1 g2 g3
  intro i p x q h1 h2 h3
  exact main _ i p x q rfl h1 h2 h3

/-- The matching gives every sounding partial its own next peak. -/
theorem match_iff {c : Cfg K} {frames : List (Frame K)} {part : Nat → L → Option (Peak K)}
    (hs : Separated c frames part) {n : Nat} {f : Frame K} (hf : frames[n]? = some f)
    {B : List (L × Nat)} (hBn : B.Nodup) (hB : ∀ x, x ∈ B ↔ Sounds part x.1 x.2 n)
    {m : List (Option Nat)}
    (hg : Greedy c (B.map fun x => atrack part x.1 x.2 n) f.peaks m) (i : Nat) (x : L × Nat)
    (hx : B[i]? = some x) :
    ∃ o, m[i]? = some o ∧ (o.bind fun p => f.peaks[p]?) = part n x.1 ∧
      (o = none ↔ part n x.1 = none) := by
  have hlab := match_label hs hf hBn hB hg
  have hnd := hs.distinct f (List.mem_of_getElem? hf)
  have hlen : i < m.length := by
    rw [hg.len, List.length_map]; exact getElem?_lt hx
  refine ⟨m[i], List.getElem?_eq_getElem hlen, ?_⟩
  cases ho : m[i] with
  | some p =>
    have hmi : m[i]? = some (some p) := by rw [List.getElem?_eq_getElem hlen, ho]
    have hp := hg.valid p (List.mem_of_getElem? hmi)
    have hq := List.getElem?_eq_getElem hp
    have := hlab i p x _ hmi hx hq
    rw [this]
    simp [hq]
  | none =>
    have hmi : m[i]? = some none := by rw [List.getElem?_eq_getElem hlen, ho]
    cases hq : part n x.1 with
    | none => simp
    | some q =>
      exfalso
      have hn := getElem?_lt hf
      have hS := (hB x).1 (List.mem_of_getElem? hx)
      obtain ⟨k, rfl⟩ : ∃ k, n = k + 1 := ⟨n - 1, by have := hS.lt; omega⟩
      have hlt := hS.lt
      obtain ⟨pp, hpp⟩ := hS.some k (by omega) (by omega)
      have hA : (B.map fun x => atrack part x.1 x.2 (k + 1))[i]? =
          some (atrack part x.1 x.2 (k + 1)) := by simp [hx]
      have hlast := atrack_last (i := x.2) (by omega) hpp
      obtain ⟨p, hp⟩ := List.mem_iff_getElem?.1 ((hs.mem _ f hf q).2 ⟨x.1, hq⟩)
      have hnear := hs.near k hn x.1 pp q hpp hq
      by_cases hpm : some p ∈ m
      · obtain ⟨j, hj⟩ := List.mem_iff_getElem?.1 hpm
        have hjB : j < B.length := by
          have := getElem?_lt hj
          rwa [hg.len, List.length_map] at this
        have hjx := List.getElem?_eq_getElem hjB
        have h2 := hlab j p B[j] q hj hjx hp
        have hlab2 := hs.label _ hn _ _ _ h2 hq
        have hS2 := (hB B[j]).1 (List.mem_of_getElem? hjx)
        rw [hlab2] at hS2
        have he : B[j] = x := Prod.ext hlab2 (sounds_unique hS2 hS)
        rw [he] at hjx
        have hij := nodup_getElem?_inj hBn hjx hx
        subst hij
        rw [hj] at hmi
        simp at hmi
      · obtain ⟨w, wk, hw, hwk, _⟩ := hg.loudest p i _ q pp.freq hpm hp hA hlast hnear
        rw [hmi] at hw
        simp at hw

theorem match_lists {part : Nat → L → Option (Peak K)} {n : Nat} {peaks : List (Peak K)} :
    ∀ (B : List (L × Nat)) (m : List (Option Nat)), m.length = B.length →
      (∀ x ∈ B, x.2 ≤ n) →
      (∀ (i : Nat) (x : L × Nat), B[i]? = some x →
        ∃ o, m[i]? = some o ∧ (o.bind fun p => peaks[p]?) = part n x.1 ∧
          (o = none ↔ part n x.1 = none)) →
      continued (B.map fun x => atrack part x.1 x.2 n) peaks m =
        (B.filter fun x => (part n x.1).isSome).map (fun x => atrack part x.1 x.2 (n + 1)) ∧
      dropped (B.map fun x => atrack part x.1 x.2 n) m =
        (B.filter fun x => (part n x.1).isNone).map (fun x => atrack part x.1 x.2 n) := by
  intro B
  induction B with
  | nil => intro m _ _ _; simp [continued, dropped]
  | cons x B ih =>
    intro m hl hle h
    cases m with
    | nil => simp at hl
    | cons o m =>
      obtain ⟨ih1, ih2⟩ := ih m (by simpa using hl) (fun y hy => hle y (by simp [hy]))
        (fun i y hy => by simpa using h (i + 1) y (by simpa using hy))
      obtain ⟨o', h1, h2, h3⟩ := h 0 x rfl
      simp only [List.getElem?_cons_zero, Option.some.injEq] at h1
      subst h1
      unfold continued at ih1 ⊢
      unfold dropped at ih2 ⊢
      simp only [List.map_cons, List.zip_cons_cons, List.filterMap_cons, List.filter_cons]
      rw [h2]
      cases hp : part n x.1 with
      | none =>
        have ho := h3.2 hp
        subst ho
        simp only [Option.map_none, Option.isSome_none, Bool.false_eq_true, if_false,
          Option.isNone_none, if_true, List.map_cons, ih1, ih2]
        exact ⟨trivial, trivial⟩
      | some q =>
        have ho : o ≠ none := fun h0 => by rw [h3.1 h0] at hp; simp at hp
        have ho' : o.isNone = false := by cases o <;> simp_all
        simp only [Option.map_some, Option.isSome_some, if_true, Option.isNone_some, ho',
          Bool.false_eq_true, if_false, List.map_cons, ih1, ih2]
        rw [atrack_step (hle x (by simp)) hp]
        exact ⟨rfl, trivial⟩

theorem exists_forall₂ {α β : Type*} {R : α → β → Prop} :
    ∀ (l : List α), (∀ a ∈ l, ∃ b, R a b) → ∃ l', List.Forall₂ R l l' := by
  intro l
  induction l with
  | nil => intro _; exact ⟨[], .nil⟩
  | cons a l ih =>
    intro h
    obtain ⟨b, hb⟩ := h a (by simp)
    obtain ⟨l', hl'⟩ := ih (fun x hx => h x (by simp [hx]))
    exact ⟨b :: l', .cons hb hl'⟩

theorem mem_unused {peaks : List (Peak K)} {m : List (Option Nat)} {q : Peak K} :
    q ∈ unused peaks m ↔ ∃ p : Nat, peaks[p]? = some q ∧ some p ∉ m := by
  simp only [unused, List.mem_map, List.mem_filter, decide_eq_true_eq]
  constructor
  · rintro ⟨⟨a, p⟩, ⟨h1, h2⟩, rfl⟩
    exact ⟨p, by simpa [List.mem_zipIdx_iff_getElem?] using h1, h2⟩
  · rintro ⟨p, h1, h2⟩
    exact ⟨(q, p), ⟨by simpa [List.mem_zipIdx_iff_getElem?] using h1, h2⟩, rfl⟩

theorem unused_nodup {peaks : List (Peak K)} {m : List (Option Nat)} (h : peaks.Nodup) :
    (unused peaks m).Nodup := by
  unfold unused
  have hsub : ((peaks.zipIdx.filter fun pi => decide (some pi.2 ∉ m)).map Prod.fst).Sublist
      (peaks.zipIdx.map Prod.fst) := List.filter_sublist.map _
  rw [List.zipIdx_map_fst] at hsub
  exact hsub.nodup h

/-! ## The state of the tracker -/

/-- What the tracker knows after `n` frames. -/
structure SepInv (part : Nat → L → Option (Peak K))
    (save : List (Track K) → ATrack K → List (Track K)) (n : Nat) (s : State K) : Prop where
  frame : s.frame = n
  active : ∃ B : List (L × Nat), B.Nodup ∧ (∀ x, x ∈ B ↔ Sounds part x.1 x.2 n) ∧
    s.active = B.map fun x => atrack part x.1 x.2 n
  tracks : ∃ D : List (L × Nat × Nat), D.Nodup ∧ D.Pairwise (fun x y => x.2.2 ≤ y.2.2) ∧
    (∀ x, x ∈ D ↔ Sounds part x.1 x.2.1 x.2.2 ∧ x.2.2 < n ∧ part x.2.2 x.1 = none) ∧
    s.tracks = (D.map fun x => atrack part x.1 x.2.1 x.2.2).foldl save []

theorem sepInv_reset (part : Nat → L → Option (Peak K))
    (save : List (Track K) → ATrack K → List (Track K)) (prior : State K) :
    SepInv part save 0 (reset prior) := by
  refine ⟨rfl, ⟨[], by simp, ?_, rfl⟩, ⟨[], by simp, by simp, ?_, rfl⟩⟩
  · intro x
    constructor
    · intro h; simp at h
    · intro h; have := h.lt; omega
  · intro x
    constructor
    · intro h; simp at h
    · intro h; omega

theorem sepInv_step {c : Cfg K} {frames : List (Frame K)} {part : Nat → L → Option (Peak K)}
    (hs : Separated c frames part) {save : List (Track K) → ATrack K → List (Track K)}
    {n : Nat} {f : Frame K} (hf : frames[n]? = some f) {m : List (Option Nat)} {s s' : State K}
    (hinv : SepInv part save n s) (hstep : StepSpec save c f.peaks m s s') :
    SepInv part save (n + 1) s' := by
  classical
  obtain ⟨B, hBn, hB, hact⟩ := hinv.active
  obtain ⟨D, hDn, hDs, hD, htr⟩ := hinv.tracks
  have hg := hstep.greedy
  rw [hact] at hg
  have hn := getElem?_lt hf
  have hm := match_iff hs hf hBn hB hg
  have hlab := match_label hs hf hBn hB hg
  have hle : ∀ x ∈ B, x.2 ≤ n := fun x hx => ((hB x).1 hx).lt.le
  have hml : m.length = B.length := by rw [hg.len, List.length_map]
  obtain ⟨hcont, hdrop⟩ := match_lists B m hml hle hm
  have hnd := hs.distinct f (List.mem_of_getElem? hf)
  -- the labels of the new tracks
  obtain ⟨N, hN⟩ := exists_forall₂ (R := fun q b => part n b = some q) (unused f.peaks m) (by
    intro q hq
    obtain ⟨p, hp, _⟩ := mem_unused.1 hq
    exact (hs.mem n f hf q).1 (List.mem_of_getElem? hp))
  have hNmem : ∀ b, b ∈ N ↔ ∃ q, q ∈ unused f.peaks m ∧ part n b = some q := by
    intro b
    constructor
    · intro hb
      obtain ⟨i, hi⟩ := List.mem_iff_getElem?.1 hb
      have hlt := getElem?_lt hi
      rw [← hN.length_eq] at hlt
      refine ⟨(unused f.peaks m)[i], List.getElem_mem hlt, ?_⟩
      have := List.forall₂_iff_get.1 hN
      have h2 := this.2 i hlt (getElem?_lt hi)
      have h3 : N.get ⟨i, getElem?_lt hi⟩ = b := by
        have := List.getElem?_eq_getElem (getElem?_lt hi)
        rw [hi] at this
        exact (Option.some.inj this).symm
      rw [h3] at h2
      exact h2
    · rintro ⟨q, hq, hb⟩
      obtain ⟨i, hi⟩ := List.mem_iff_getElem?.1 hq
      have hlt := getElem?_lt hi
      have hlt' := hlt
      rw [hN.length_eq] at hlt'
      have h2 := (List.forall₂_iff_get.1 hN).2 i hlt hlt'
      have h3 : (unused f.peaks m).get ⟨i, hlt⟩ = q := by
        have := List.getElem?_eq_getElem hlt
        rw [hi] at this
        exact (Option.some.inj this).symm
      rw [h3] at h2
      have := hs.label n hn _ _ _ hb h2
      rw [this]
      exact List.getElem_mem hlt'
  have hNn : N.Nodup := by
    rw [List.nodup_iff_getElem?_ne_getElem?]
    intro i j hij hj heq
    have hi : i < N.length := by omega
    rw [List.getElem?_eq_getElem hi, List.getElem?_eq_getElem hj] at heq
    have heq := Option.some.inj heq
    have hli : i < (unused f.peaks m).length := by rw [hN.length_eq]; exact hi
    have hlj : j < (unused f.peaks m).length := by rw [hN.length_eq]; exact hj
    have h1 := (List.forall₂_iff_get.1 hN).2 i hli hi
    have h2 := (List.forall₂_iff_get.1 hN).2 j hlj hj
    simp only [List.get_eq_getElem] at h1 h2
    rw [heq, h2] at h1
    have := (List.Nodup.getElem_inj_iff (unused_nodup (m := m) hnd)).1 (Option.some.inj h1)
    omega
  -- a partial with an unused peak was silent
  have hNnew : ∀ b ∈ N, ∀ k, k + 1 = n → part k b = none := by
    intro b hb k hk
    cases hp : part k b with
    | none => rfl
    | some pp =>
      exfalso
      obtain ⟨q, hq, hbq⟩ := (hNmem b).1 hb
      obtain ⟨i, hi⟩ := sounds_exists k pp hp
      rw [hk] at hi
      obtain ⟨j, hj⟩ := List.mem_iff_getElem?.1 ((hB (b, i)).2 hi)
      obtain ⟨o, ho1, ho2, ho3⟩ := hm j (b, i) hj
      obtain ⟨p, hp1, hp2⟩ := mem_unused.1 hq
      cases o with
      | none => rw [ho3.1 rfl] at hbq; simp at hbq
      | some p' =>
        simp only [Option.bind_some, hbq] at ho2
        have : p' = p := nodup_getElem?_inj hnd ho2 hp1
        subst this
        exact hp2 (List.mem_of_getElem? ho1)
  -- all unused peaks are activated
  have hlen : (unused f.peaks m).length + (continued s.active f.peaks m).length ≤ c.maxNSines := by
    have h1 := (matched_unused_perm f.peaks m hg.valid hg.inj).length_eq
    have h2 : (continued s.active f.peaks m).length = (matchedPeaks f.peaks m).length := by
      have hl : m.length = s.active.length := hstep.greedy.len
      generalize s.active = A at hl
      clear * - hl
      unfold continued matchedPeaks
      induction A generalizing m with
      | nil =>
        have : m = [] := List.length_eq_zero_iff.1 (by simpa using hl)
        subst this; rfl
      | cons a A ih =>
        cases m with
        | nil => simp at hl
        | cons o m =>
          have := ih (m := m) (by simpa using hl)
          simp only [List.zip_cons_cons, List.filterMap_cons]
          cases o.bind fun p => f.peaks[p]? with
          | none => simpa using this
          | some q => simpa using this
    have h3 := hs.room f (List.mem_of_getElem? hf)
    rw [List.length_append] at h1
    omega
  have htake : (unused f.peaks m).take (c.maxNSines - (continued s.active f.peaks m).length) =
      unused f.peaks m := List.take_of_length_le (by omega)
  refine ⟨by rw [hstep.frame, hinv.frame], ?_, ?_⟩
  · refine ⟨(B.filter fun x => (part n x.1).isSome) ++ N.map (fun b => (b, n)), ?_, ?_, ?_⟩
    · rw [List.nodup_append]
      refine ⟨hBn.filter _, hNn.map (fun a b h => by simpa using h), ?_⟩
      intro x hx y hy hxy
      subst hxy
      have h1 := ((hB x).1 (List.mem_filter.1 hx).1).lt
      obtain ⟨b, _, rfl⟩ := List.mem_map.1 hy
      simp at h1
    · intro x
      rw [List.mem_append, List.mem_filter, List.mem_map]
      constructor
      · rintro (⟨h1, h2⟩ | ⟨b, hb, rfl⟩)
        · obtain ⟨q, hq⟩ := Option.isSome_iff_exists.1 h2
          exact sounds_step ((hB x).1 h1) hq
        · obtain ⟨q, _, hbq⟩ := (hNmem b).1 hb
          refine ⟨by simp, ?_, hNnew b hb⟩
          intro k h1 h2
          simp only at h1
          have : k = n := by omega
          subst this
          exact ⟨q, hbq⟩
      · intro h
        have hlt := h.lt
        obtain ⟨q, hq⟩ := h.some n (by omega) (by omega)
        by_cases hx : x.2 < n
        · left
          exact ⟨(hB x).2 (sounds_back h hx), by rw [hq]; rfl⟩
        · right
          have hx2 : x.2 = n := by omega
          refine ⟨x.1, (hNmem x.1).2 ⟨q, ?_, hq⟩, by rw [← hx2]⟩
          obtain ⟨p, hp⟩ := List.mem_iff_getElem?.1 ((hs.mem n f hf q).2 ⟨x.1, hq⟩)
          refine mem_unused.2 ⟨p, hp, ?_⟩
          intro hpm
          obtain ⟨j, hj⟩ := List.mem_iff_getElem?.1 hpm
          have hjB : j < B.length := by rw [← hml]; exact getElem?_lt hj
          have h2 := hlab j p B[j] q hj (List.getElem?_eq_getElem hjB) hp
          have h3 := hs.label n hn _ _ _ h2 hq
          have hS := (hB B[j]).1 (List.getElem_mem hjB)
          rw [h3] at hS
          have hSlt := hS.lt
          obtain ⟨r, hr⟩ := hS.some (n - 1) (by omega) (by omega)
          rw [h.first (n - 1) (by omega)] at hr
          simp at hr
    · rw [hstep.active, htake, hinv.frame]
      rw [hact, hcont, List.map_append, List.map_map]
      congr 1
      have : ∀ (U : List (Peak K)) (N : List L), List.Forall₂ (fun q b => part n b = some q) U N →
          U.map (newborn n) = N.map ((fun x => atrack part x.1 x.2 (n + 1)) ∘ fun b => (b, n)) := by
        intro U N h
        induction h with
        | nil => rfl
        | cons hab _ ih =>
          simp only [List.map_cons, Function.comp]
          rw [atrack_newborn hab]
          congr 1
      exact this _ _ hN
  · refine ⟨D ++ (B.filter fun x => (part n x.1).isNone).reverse.map (fun x => (x.1, x.2, n)),
      ?_, ?_, ?_, ?_⟩
    · rw [List.nodup_append]
      refine ⟨hDn, (List.nodup_reverse.2 (hBn.filter _)).map (fun a b h => ?_), ?_⟩
      · simp only [Prod.mk.injEq, and_true] at h
        exact Prod.ext h.1 h.2
      · intro x hx y hy hxy
        subst hxy
        have h1 := ((hD x).1 hx).2.1
        obtain ⟨b, _, rfl⟩ := List.mem_map.1 hy
        simp at h1
    · rw [List.pairwise_append]
      refine ⟨hDs, ?_, ?_⟩
      · rw [List.pairwise_map]
        exact List.pairwise_of_forall (fun _ _ => le_refl _)
      · intro x hx y hy
        have h1 := ((hD x).1 hx).2.1
        obtain ⟨b, _, rfl⟩ := List.mem_map.1 hy
        exact h1.le
    · intro x
      rw [List.mem_append, List.mem_map, hD]
      constructor
      · rintro (⟨h1, h2, h3⟩ | ⟨y, hy, rfl⟩)
        · exact ⟨h1, by omega, h3⟩
        · rw [List.mem_reverse, List.mem_filter] at hy
          exact ⟨(hB y).1 hy.1, by simp, by simpa using hy.2⟩
      · rintro ⟨h1, h2, h3⟩
        by_cases hx : x.2.2 < n
        · exact Or.inl ⟨h1, hx, h3⟩
        · right
          have hx2 : x.2.2 = n := by omega
          rw [hx2] at h1 h3
          refine ⟨(x.1, x.2.1), ?_, by rw [← hx2]⟩
          rw [List.mem_reverse, List.mem_filter]
          exact ⟨(hB (x.1, x.2.1)).2 h1, by simp [h3]⟩
    · rw [hstep.tracks, htr, hact, hdrop, List.map_append, List.foldl_append, List.map_map,
        ← List.map_reverse]
      rfl

theorem sep_run [IsStrictOrderedRing K] {c : Cfg K} {frames : List (Frame K)}
    {part : Nat → L → Option (Peak K)} (hs : Separated c frames part)
    {save : List (Track K) → ATrack K → List (Track K)}
    {deact : State K → Nat → Except PyErr (State K)} {J : List (Track K) → Prop}
    (hd : PopSave J save deact) (prior : State K) (hv : ∀ f ∈ frames, f.Valid) :
    ∃ s, trackerFit deact c prior frames = .ok s ∧ SepInv part save frames.length s := by
  obtain ⟨s, h1, _, _, h4⟩ := run_induction save deact hd c
    (fun hist s => (∃ rest, hist ++ rest = frames) → SepInv part save hist.length s) (by
      intro hist f m s s' _ _ _ hP hst ⟨rest, hrest⟩
      have hf : frames[hist.length]? = some f := by rw [← hrest]; simp
      have := sepInv_step hs hf (hP ⟨f :: rest, by rw [← hrest]; simp⟩) hst
      simpa using this) frames [] (reset prior) hv (wf_reset c prior) hd.nil
      (fun _ => sepInv_reset part save prior)
  refine ⟨s, h1, ?_⟩
  simpa using h4 ⟨[], by simp⟩

end Verif.Tracker
