import Mathlib.Data.Rat.Floor
import Verif.Float.TrackerLemmas
import Verif.Tracker.BaseLemmas

/-!
# The sine tracker in floating point (C146)
-/

set_option autoImplicit false
set_option linter.unusedSectionVars false
set_option linter.unusedSimpArgs false

namespace Verif.Float

open Verif.Tracker

variable {K : Type} [Field K] [LinearOrder K] [IsStrictOrderedRing K] [FloorRing K] (A : Arith K)

/-! ## One update -/

/-- C146: one update with computed distances follows the greedy matching for exact distances and the
computed threshold. -/
theorem C146_step (c : Cfg K) (order : List Nat) (peaks : List (Peak K)) (s : State K)
    (hs : IsArgsort peaks order) (hne : ∀ t ∈ s.active, t.freq ≠ [])
    (hT : ∀ t ∈ s.active, ∀ f, t.freq.getLast? = some f → A.Rep f)
    (hP : ∀ pk ∈ peaks, A.Rep pk.freq) :
    ∃ m s', callF A (deactivateF A c) c order peaks s = .ok s' ∧
      StepF (trackOkF A c) (dfF A c) c.maxNSines peaks m s s' := by
  obtain ⟨m, s', h1, h2, _⟩ := callF_spec A (saveF A c) (deactivateF A c) (popSaveF A c) c order
    peaks s hs hne trivial
  exact ⟨m, s', h1, step_of A c hT hP h2⟩

/-! ## Histories -/

/-- C146: whole analyses with representable frequencies. -/
theorem C146_fit (c : Cfg K) (prior : State K) (frames : List (Frame K))
    (hv : ∀ f ∈ frames, f.Valid) (hr : ∀ f ∈ frames, ∀ pk ∈ f.peaks, A.Rep pk.freq) :
    ∃ s, trackerFitF A c prior frames = .ok s ∧ s.frame = frames.length ∧
      s.active.length ≤ c.maxNSines ∧
      (∀ t ∈ s.active, t.start < frames.length ∧ t.freq.length = frames.length - t.start ∧
        t.mag.length = t.freq.length ∧ t.phase.length = t.freq.length ∧
        ∀ (i : Nat) (f g : K), t.freq[i]? = some f → t.freq[i + 1]? = some g →
          |f - g| < dfF A c g) ∧
      (∀ u ∈ s.tracks, minSineLenF A c ≤ (u.freq.length : ℤ) ∧
        u.mag.length = u.freq.length ∧ u.phase.length = u.freq.length ∧
        u.start + u.freq.length ≤ frames.length ∧
        none ∉ u.freq ∧ none ∉ u.mag ∧ none ∉ u.phase ∧
        ∀ (i : Nat) (f g : K), u.freq[i]? = some (some f) → u.freq[i + 1]? = some (some g) →
          |f - g| < dfF A c g) ∧
      ∀ k, (samplesAt k s.everyTrack).Subperm ((frames[k]?.map (·.peaks)).getD []) := by
  obtain ⟨s, h1, h⟩ := run_wf A c frames [] (reset prior) hv hr (wf_resetF A c prior)
  rw [List.nil_append] at h
  refine ⟨s, h1, h.frame, h.bound, ?_, ?_, h.samples⟩
  · intro t ht
    have g := h.good t ht
    have g1 := g.clock
    have g2 := g.pos
    rw [h.frame] at g1
    exact ⟨by omega, by omega, g.magLen, g.phaseLen, g.jump⟩
  · intro u hu
    obtain ⟨t, n, rfl, g, h3, h4⟩ := h.done u hu
    have g1 := g.clock
    rw [h.frame] at h3
    unfold trackOkF at h4
    refine ⟨by simpa [numpyTrack] using h4, by simp [numpyTrack, g.magLen],
      by simp [numpyTrack, g.phaseLen], by simp [numpyTrack]; omega, by simp [numpyTrack],
      by simp [numpyTrack], by simp [numpyTrack], ?_⟩
    intro i f f' hf hf'
    simp only [numpyTrack, List.getElem?_map, Option.map_eq_some_iff, Option.some.injEq] at hf hf'
    obtain ⟨a, ha, rfl⟩ := hf
    obtain ⟨b, hb, rfl⟩ := hf'
    exact g.jump i a b ha hb

/-! ## The computed threshold and the computed length -/

/-- C146: error of the computed threshold. -/
theorem C146_threshold (c : Cfg K) (f : K) (ho : A.Rep c.freqDevOffset)
    (h0 : 0 ≤ c.freqDevOffset) (h1 : 0 ≤ c.freqDevSlope) (hf : 0 ≤ f) :
    |dfF A c f - (c.freqDevOffset + c.freqDevSlope * f)| ≤
      3 * A.u * (c.freqDevOffset + c.freqDevSlope * f) + 2 * A.eta := by
  unfold dfF Arith.add Arith.mul
  have hx : 0 ≤ c.freqDevSlope * f := mul_nonneg h1 hf
  generalize c.freqDevSlope * f = x at hx ⊢
  generalize c.freqDevOffset = o at ho h0 ⊢
  have e1 := A.err x
  have e2 := A.errAdd o (A.rnd x) ho (Arith.rnd_rep x)
  have hn : 0 ≤ A.rnd x := Arith.rnd_nonneg hx
  rw [abs_of_nonneg hx] at e1
  rw [abs_of_nonneg (by linarith : 0 ≤ o + A.rnd x)] at e2
  have hu := A.u_pos
  have hu' := A.u_le
  have he := A.eta_nonneg
  rw [abs_le] at e1 e2 ⊢
  have p1 : A.u * (A.rnd x) ≤ A.u * (x + (A.u * x + A.eta)) :=
    mul_le_mul_of_nonneg_left (by linarith [e1.2]) hu.le
  have p2 : A.u * (A.u * x) ≤ 1 / 8 * (A.u * x) :=
    mul_le_mul_of_nonneg_right hu' (mul_nonneg hu.le hx)
  have p3 : A.u * A.eta ≤ 1 / 8 * A.eta := mul_le_mul_of_nonneg_right hu' he
  have p4 : 0 ≤ A.u * x := mul_nonneg hu.le hx
  have p5 : 0 ≤ A.u * o := mul_nonneg hu.le h0
  have e3 : A.u * (o + A.rnd x) ≤ A.u * o + A.u * x + 1 / 8 * (A.u * x) + 1 / 8 * A.eta := by
    have : A.u * (x + (A.u * x + A.eta)) = A.u * x + A.u * (A.u * x) + A.u * A.eta := by ring
    have : A.u * (o + A.rnd x) = A.u * o + A.u * A.rnd x := by ring
    linarith
  have e4 : 3 * A.u * (o + x) = 3 * (A.u * o) + 3 * (A.u * x) := by ring
  rw [e4]
  constructor
  · linarith [e1.1, e2.1]
  · linarith [e1.2, e2.2]

/-- C146: a constant threshold is computed exactly. -/
theorem C146_constant (c : Cfg K) (f : K) (ho : A.Rep c.freqDevOffset)
    (h : c.freqDevSlope = 0) : dfF A c f = c.freqDevOffset := by
  unfold dfF Arith.add Arith.mul
  rw [h, zero_mul, Arith.rnd_zero, add_zero]
  exact ho

/-- Bound of the error of `min_sine_dur * frame_rate`. -/
def lenErr (c : Cfg K) : K :=
  3 * A.u * (c.minSineDur * (c.fs / c.h)) + 2 * A.eta * (c.minSineDur + 1)

theorem len_err (c : Cfg K) (hd : 0 ≤ c.minSineDur) (hf : 0 ≤ c.fs) (hh : 0 < c.h) :
    |A.mul c.minSineDur (A.div c.fs c.h) - c.minSineDur * (c.fs / c.h)| ≤ lenErr A c := by
  unfold lenErr Arith.mul Arith.div
  have hr : 0 ≤ c.fs / c.h := div_nonneg hf hh.le
  generalize c.fs / c.h = r at hr ⊢
  generalize c.minSineDur = d at hd ⊢
  have e1 := A.err r
  have hn : 0 ≤ A.rnd r := Arith.rnd_nonneg hr
  have e2 := A.err (d * A.rnd r)
  rw [abs_of_nonneg hr] at e1
  rw [abs_of_nonneg (mul_nonneg hd hn)] at e2
  have hu := A.u_pos
  have hu' := A.u_le
  have he := A.eta_nonneg
  rw [abs_le] at e1 e2 ⊢
  have q1 : d * A.rnd r ≤ d * (r + (A.u * r + A.eta)) :=
    mul_le_mul_of_nonneg_left (by linarith [e1.2]) hd
  have q2 : d * (r - (A.u * r + A.eta)) ≤ d * A.rnd r :=
    mul_le_mul_of_nonneg_left (by linarith [e1.1]) hd
  have q3 : d * (r + (A.u * r + A.eta)) = d * r + A.u * (d * r) + d * A.eta := by ring
  have q4 : d * (r - (A.u * r + A.eta)) = d * r - A.u * (d * r) - d * A.eta := by ring
  rw [q3] at q1
  rw [q4] at q2
  have p0 : 0 ≤ d * r := mul_nonneg hd hr
  have p1 : A.u * (d * A.rnd r) ≤ A.u * (d * r + A.u * (d * r) + d * A.eta) :=
    mul_le_mul_of_nonneg_left q1 hu.le
  have p2 : A.u * (A.u * (d * r)) ≤ 1 / 8 * (A.u * (d * r)) :=
    mul_le_mul_of_nonneg_right hu' (mul_nonneg hu.le p0)
  have p3 : A.u * (d * A.eta) ≤ 1 / 8 * (d * A.eta) :=
    mul_le_mul_of_nonneg_right hu' (mul_nonneg hd he)
  have p4 : A.u * (d * r + A.u * (d * r) + d * A.eta) =
      A.u * (d * r) + A.u * (A.u * (d * r)) + A.u * (d * A.eta) := by ring
  rw [p4] at p1
  have p5 : 0 ≤ A.u * (d * r) := mul_nonneg hu.le p0
  have p6 : 0 ≤ d * A.eta := mul_nonneg hd he
  have e4 : 3 * A.u * (d * r) + 2 * A.eta * (d + 1) =
      3 * (A.u * (d * r)) + 2 * (d * A.eta) + 2 * A.eta := by ring
  rw [e4]
  constructor
  · linarith [e2.1]
  · linarith [e2.2]

/-- C146: the computed minimum length is at least two and, apart from the error, the minimum
duration; it differs from the exact one by at most one, and not at all if no integer is near. -/
theorem C146_length (c : Cfg K) (hd : 0 ≤ c.minSineDur) (hf : 0 ≤ c.fs) (hh : 0 < c.h) :
    2 ≤ minSineLenF A c ∧
    c.minSineDur * (c.fs / c.h) - lenErr A c ≤ (minSineLenF A c : K) ∧
    (lenErr A c < 1 → |minSineLenF A c - max 2 ⌈c.minSineDur * (c.fs / c.h)⌉| ≤ 1) ∧
    ((∀ n : ℤ, lenErr A c < |c.minSineDur * (c.fs / c.h) - n|) →
      minSineLenF A c = max 2 ⌈c.minSineDur * (c.fs / c.h)⌉) := by
  have e := len_err A c hd hf hh
  unfold minSineLenF
  generalize A.mul c.minSineDur (A.div c.fs c.h) = y at e ⊢
  generalize c.minSineDur * (c.fs / c.h) = x at e ⊢
  rw [abs_le] at e
  refine ⟨le_max_left _ _, ?_, ?_, ?_⟩
  · have h1 := Int.le_ceil y
    have h2 : (⌈y⌉ : K) ≤ ((max 2 ⌈y⌉ : ℤ) : K) := Int.cast_le.2 (le_max_right _ _)
    linarith [e.1]
  · intro hlt
    have h1 : ⌈y⌉ ≤ ⌈x⌉ + 1 := by
      rw [Int.ceil_le]
      push_cast
      linarith [Int.le_ceil x, e.2]
    have h2 : ⌈x⌉ ≤ ⌈y⌉ + 1 := by
      rw [Int.ceil_le]
      push_cast
      linarith [Int.le_ceil y, e.1]
    rw [abs_le]
    omega
  · intro hn
    have : ⌈y⌉ = ⌈x⌉ := by
      rw [Int.ceil_eq_iff]
      have h1 := hn (⌈x⌉ - 1)
      have h2 := hn ⌈x⌉
      have h3 := Int.le_ceil x
      have h4 := Int.ceil_lt_add_one x
      push_cast at h1
      rw [abs_of_pos (by linarith)] at h1
      rw [abs_of_nonpos (by linarith)] at h2
      constructor
      · linarith [e.1]
      · linarith [e.2]
    rw [this]

/-! ## Agreement with the exact tracker -/

/-- The frequencies for which rounding does not matter: representable, and for each pair the
computed threshold decides as the exact one and is at most half the frequency. -/
structure Settled (c : Cfg K) (S : K → Prop) : Prop where
  rep : ∀ f, S f → A.Rep f
  half : ∀ p, S p → 2 * dfF A c p ≤ p
  agree : ∀ f p, S f → S p →
    (|f - p| < dfF A c p ↔ |f - p| < c.freqDevOffset + c.freqDevSlope * p)

/-- All tracks have a last frequency in `S`. -/
def LastIn (S : K → Prop) (T : List (ATrack K)) : Prop :=
  ∀ t ∈ T, ∃ f, t.freq.getLast? = some f ∧ S f

theorem continueOne_same {c : Cfg K} {S : K → Prop} (hS : Settled A c S) {peaks : List (Peak K)}
    (hP : ∀ pk ∈ peaks, S pk.freq) (p : Nat) (l : LoopSt K) (hl : LastIn S l.active) :
    continueOneF A c peaks p l = continueOne c peaks p l := by
  unfold continueOneF continueOne
  cases hp : getE peaks p with
  | error e => rfl
  | ok pk =>
    dsimp only
    have hpk : S pk.freq := by
      unfold getE at hp
      split at hp
      · rename_i a h
        cases hp
        exact hP _ (List.mem_of_getElem? h)
      · cases hp
    generalize hit : (List.range l.active.length).filter (fun i => l.freeTrack.getD i false) = it
    have hsorted : it.Pairwise (· < ·) := by
      rw [← hit]; exact List.Pairwise.filter _ List.pairwise_lt_range
    have hmem : ∀ i ∈ it, i < l.active.length := by
      intro i hi
      rw [← hit] at hi
      exact List.mem_range.1 (List.mem_of_mem_filter hi)
    by_cases hne : it = []
    · subst hne; rfl
    let fr : Nat → K := fun i => lastFreq (l.active.getD i ⟨0, [], [], []⟩)
    have hfr : ∀ i ∈ it, ∃ t, l.active[i]? = some t ∧ t.freq.getLast? = some (fr i) ∧ S (fr i) := by
      intro i hi
      have hlt := hmem i hi
      obtain ⟨f, h1, h2⟩ := hl _ (List.getElem_mem hlt)
      have e : fr i = f := by simp [fr, List.getD_eq_getElem?_getD, hlt, lastFreq, h1]
      exact ⟨_, List.getElem?_eq_getElem hlt, by rw [e]; exact h1, by rw [e]; exact h2⟩
    have hkF : ∀ i ∈ it, lastDistF A l.active pk i = .ok (distF A (fr i) pk.freq) := by
      intro i hi
      obtain ⟨t, h1, h2, _⟩ := hfr i hi
      simp only [lastDistF, getE, h1, lastE, h2]
    have hk : ∀ i ∈ it, lastDist l.active pk i = .ok (|fr i - pk.freq|) := by
      intro i hi
      obtain ⟨t, h1, h2, _⟩ := hfr i hi
      simp only [lastDist, getE, h1, lastE, h2]
    obtain ⟨i, pre, post, hs, hm, hpre, hpost⟩ := minKey_spec _ _ it hne hkF
    obtain ⟨j, pre', post', hs', hm', hpre', hpost'⟩ := minKey_spec _ _ it hne hk
    rw [hm, hm']
    dsimp only
    have hii : i ∈ it := by rw [hs]; simp
    have hjj : j ∈ it := by rw [hs']; simp
    have hFmin : ∀ k ∈ it, distF A (fr i) pk.freq ≤ distF A (fr k) pk.freq := by
      intro k hk
      rw [hs] at hk
      simp only [List.mem_append, List.mem_cons] at hk
      rcases hk with hk | rfl | hk
      · exact (hpre k hk).le
      · exact le_refl _
      · exact hpost k hk
    have hEmin : ∀ k ∈ it, |fr j - pk.freq| ≤ |fr k - pk.freq| := by
      intro k hk
      rw [hs'] at hk
      simp only [List.mem_append, List.mem_cons] at hk
      rcases hk with hk | rfl | hk
      · exact (hpre' k hk).le
      · exact le_refl _
      · exact hpost' k hk
    have hiff : ∀ k ∈ it, distF A (fr k) pk.freq < dfF A c pk.freq ↔
        |fr k - pk.freq| < c.df pk.freq := by
      intro k hk
      obtain ⟨_, _, _, h3⟩ := hfr k hk
      rw [dist_lt_iff A (hS.rep _ h3) (hS.rep _ hpk) (dfF_rep A c _) (hS.half _ hpk)]
      exact hS.agree _ _ h3 hpk
    by_cases hd : distF A (fr i) pk.freq < dfF A c pk.freq
    · have hSi := (hfr i hii).choose_spec.2.2
      have hSj := (hfr j hjj).choose_spec.2.2
      have h1 := dist_lt A (dfF_rep A c _) hd
      obtain ⟨e1, e2⟩ := dist_order A (hS.rep _ hSi) (hS.rep _ hSj) (hS.rep _ hpk) (dfF_rep A c _)
        (hS.half _ hpk) h1 (hEmin i hii)
      have hij : i = j := by
        by_contra hne'
        have c1 : j ∉ pre := by
          intro h
          have a1 := hpre j h
          have a2 := hEmin i hii
          rw [e1, e2] at a1
          linarith
        have c2 : i ∉ pre' := by
          intro h
          have a1 := hpre' i h
          have a2 := hFmin j hjj
          rw [e1, e2] at a2
          linarith
        have m1 : j ∈ post := by
          rw [hs] at hjj
          simp only [List.mem_append, List.mem_cons] at hjj
          rcases hjj with h | h | h
          · exact absurd h c1
          · exact absurd h.symm hne'
          · exact h
        have m2 : i ∈ post' := by
          rw [hs'] at hii
          simp only [List.mem_append, List.mem_cons] at hii
          rcases hii with h | h | h
          · exact absurd h c2
          · exact absurd h hne'
          · exact h
        have o1 : i < j := by
          have := hsorted
          rw [hs, List.pairwise_append] at this
          exact (List.pairwise_cons.1 this.2.1).1 j m1
        have o2 : j < i := by
          have := hsorted
          rw [hs', List.pairwise_append] at this
          exact (List.pairwise_cons.1 this.2.1).1 i m2
        omega
      subst hij
      rw [if_pos hd, if_pos ((hiff i hii).1 hd)]
      cases getE l.active i <;> rfl
    · have hd' : ¬ |fr j - pk.freq| < c.df pk.freq := by
        intro h
        exact hd (lt_of_le_of_lt (hFmin j hjj) ((hiff j hjj).2 h))
      rw [if_neg hd, if_neg hd']

theorem continueOne_last {c : Cfg K} {S : K → Prop} {peaks : List (Peak K)}
    (hP : ∀ pk ∈ peaks, S pk.freq) (p : Nat) (l l' : LoopSt K) (hl : LastIn S l.active)
    (h : continueOne c peaks p l = .ok l') : LastIn S l'.active := by
  unfold continueOne at h
  cases hp : getE peaks p with
  | error e => rw [hp] at h; cases h
  | ok pk =>
    rw [hp] at h
    have hpk : S pk.freq := by
      unfold getE at hp
      split at hp
      · rename_i a h
        cases hp
        exact hP _ (List.mem_of_getElem? h)
      · cases hp
    dsimp only at h
    split at h
    · cases h
    · cases h
    · split at h
      · split at h
        · cases h
        · cases h
          intro t ht
          rcases List.mem_or_eq_of_mem_set ht with ht | rfl
          · exact hl t ht
          · exact ⟨pk.freq, by simp [ATrack.push], hpk⟩
      · cases h
        exact hl

theorem continueLoop_same {c : Cfg K} {S : K → Prop} (hS : Settled A c S) {peaks : List (Peak K)}
    (hP : ∀ pk ∈ peaks, S pk.freq) : ∀ (ps : List Nat) (l : LoopSt K), LastIn S l.active →
      continueLoopF A c peaks ps l = continueLoop c peaks ps l ∧
      ∀ l', continueLoop c peaks ps l = .ok l' → LastIn S l'.active := by
  intro ps
  induction ps with
  | nil =>
    intro l hl
    exact ⟨rfl, fun l' h => by cases h; exact hl⟩
  | cons p ps ih =>
    intro l hl
    unfold continueLoopF continueLoop
    by_cases hf : l.freeTrack.any id = true
    · rw [if_pos hf, if_pos hf, continueOne_same A hS hP p l hl]
      cases h1 : continueOne c peaks p l with
      | error e => exact ⟨rfl, fun l' h => by cases h⟩
      | ok l1 => exact ih l1 (continueOne_last hP p l l1 hl h1)
    · rw [if_neg hf, if_neg hf]
      exact ⟨rfl, fun l' h => by cases h; exact hl⟩

theorem deactivate_same {c : Cfg K} (hlen : minSineLenF A c = c.minSineLen) :
    deactivateF A c = deactivate c := by
  funext s i
  unfold deactivateF deactivate
  have : trackOkF A c = trackOk c := by
    funext t
    unfold trackOkF trackOk
    rw [hlen]
  rw [this]
  rfl

theorem deactivate_last {c : Cfg K} {S : K → Prop} {s s' : State K} {i : Nat}
    (hl : LastIn S s.active) (h : deactivate c s i = .ok s') : LastIn S s'.active := by
  unfold deactivate popE at h
  cases h1 : s.active[i]? with
  | none => rw [h1] at h; cases h
  | some t =>
    rw [h1] at h
    dsimp only at h
    have : LastIn S (s.active.eraseIdx i) := fun u hu => hl u (List.mem_of_mem_eraseIdx hu)
    split at h <;> (cases h; exact this)

theorem deactivateLoop_last {c : Cfg K} {S : K → Prop} : ∀ (is : List Nat) (s s' : State K),
    LastIn S s.active → deactivateLoop (deactivate c) is s = .ok s' → LastIn S s'.active := by
  intro is
  induction is with
  | nil => intro s s' hl h; cases h; exact hl
  | cons i is ih =>
    intro s s' hl h
    unfold deactivateLoop at h
    cases h1 : deactivate c s i with
    | error e => rw [h1] at h; cases h
    | ok s1 =>
      rw [h1] at h
      exact ih s1 s' (deactivate_last hl h1) h

theorem activateLoop_last {c : Cfg K} {S : K → Prop} {n : Nat} {peaks : List (Peak K)}
    (hP : ∀ pk ∈ peaks, S pk.freq) : ∀ (ps : List Nat) (act act' : List (ATrack K)),
    LastIn S act → activateLoop c n peaks ps act = .ok act' → LastIn S act' := by
  intro ps
  induction ps with
  | nil => intro act act' hl h; cases h; exact hl
  | cons p ps ih =>
    intro act act' hl h
    unfold activateLoop at h
    split at h
    · cases h; exact hl
    · cases hp : getE peaks p with
      | error e => rw [hp] at h; cases h
      | ok pk =>
        rw [hp] at h
        refine ih _ act' ?_ h
        intro t ht
        rcases List.mem_append.1 ht with ht | ht
        · exact hl t ht
        · rw [List.mem_singleton] at ht
          subst ht
          refine ⟨pk.freq, rfl, ?_⟩
          unfold getE at hp
          split at hp
          · rename_i a h'
            cases hp
            exact hP _ (List.mem_of_getElem? h')
          · cases hp

theorem call_same {c : Cfg K} {S : K → Prop} (hS : Settled A c S)
    (hlen : minSineLenF A c = c.minSineLen) {peaks : List (Peak K)}
    (hP : ∀ pk ∈ peaks, S pk.freq) (order : List Nat) (s : State K) (hl : LastIn S s.active) :
    callF A (deactivateF A c) c order peaks s = call (deactivate c) c order peaks s ∧
    ∀ s', call (deactivate c) c order peaks s = .ok s' → LastIn S s'.active := by
  have h0 := continueLoop_same A hS hP order
    ⟨s.active, List.replicate s.active.length true, List.replicate peaks.length true⟩ hl
  unfold callF call
  rw [h0.1, deactivate_same A hlen]
  refine ⟨rfl, fun s' h => ?_⟩
  cases h1 : continueLoop c peaks order
      ⟨s.active, List.replicate s.active.length true, List.replicate peaks.length true⟩ with
  | error e => rw [h1] at h; cases h
  | ok l =>
    rw [h1] at h
    dsimp only at h
    have hl1 := h0.2 l h1
    split at h
    · cases h
    · rename_i s₁ h2
      have hl2 := deactivateLoop_last _ _ _ hl1 h2
      split at h
      · cases h
      · rename_i act h3
        cases h
        exact activateLoop_last hP _ _ _ hl2 h3

theorem run_same {c : Cfg K} {S : K → Prop} (hS : Settled A c S)
    (hlen : minSineLenF A c = c.minSineLen) : ∀ (frames : List (Frame K)) (s : State K),
    (∀ f ∈ frames, ∀ pk ∈ f.peaks, S pk.freq) → LastIn S s.active →
    runFromF A (deactivateF A c) c frames s = runFrom (deactivate c) c frames s := by
  intro frames
  induction frames with
  | nil => intro s _ _; rfl
  | cons f frames ih =>
    intro s hP hl
    obtain ⟨h1, h2⟩ := call_same A hS hlen (hP f (by simp)) f.order s hl
    unfold runFromF runFrom
    rw [h1]
    cases h3 : call (deactivate c) c f.order f.peaks s with
    | error e => rfl
    | ok s1 => exact ih s1 (fun g hg => hP g (by simp [hg])) (h2 s1 h3)

/-- C146: where no decision is within the rounding error, the analysis is the exact one. -/
theorem C146_same (c : Cfg K) (S : K → Prop) (hS : Settled A c S)
    (hlen : minSineLenF A c = max 2 ⌈c.minSineDur * (c.fs / c.h)⌉) (prior : State K)
    (frames : List (Frame K)) (hP : ∀ f ∈ frames, ∀ pk ∈ f.peaks, S pk.freq) :
    trackerFitF A c prior frames = trackerFit (deactivate c) c prior frames :=
  run_same A hS hlen frames (reset prior) hP (by intro t ht; simp [reset] at ht)

/-- C146: with a constant representable threshold it is enough that the frequencies are
representable and at least twice the threshold. -/
theorem C146_constant_same (c : Cfg K) (ho : A.Rep c.freqDevOffset) (h0 : c.freqDevSlope = 0)
    (hlen : minSineLenF A c = max 2 ⌈c.minSineDur * (c.fs / c.h)⌉) (prior : State K)
    (frames : List (Frame K))
    (hP : ∀ f ∈ frames, ∀ pk ∈ f.peaks, A.Rep pk.freq ∧ 2 * c.freqDevOffset ≤ pk.freq) :
    trackerFitF A c prior frames = trackerFit (deactivate c) c prior frames := by
  refine C146_same A c (fun f => A.Rep f ∧ 2 * c.freqDevOffset ≤ f) ⟨fun f h => h.1, ?_, ?_⟩ hlen
    prior frames hP
  · intro p h
    rw [C146_constant A c p ho h0]
    exact h.2
  · intro f p _ _
    rw [C146_constant A c p ho h0, h0, zero_mul, add_zero]

/-! ## Cases -/

/-- The double nearest to 1/100. -/
def hundredth : ℚ := 5764607523034235 / 2 ^ 59

/-- The default thresholds, with two tracks and two frames at least. -/
def exCfgF : Cfg ℚ := ⟨44100, 500, 2, 1 / 50, 20, hundredth⟩

/-- A partial near 1000 Hz, and another one near 440 Hz. -/
def exFramesF : List (Frame ℚ) :=
  [⟨[⟨1000, -10, 0⟩, ⟨440, -20, 1⟩], [0, 1]⟩,
   ⟨[⟨8001 / 8, -11, 0⟩, ⟨441, -12, 1⟩, ⟨3000, -5, 2⟩], [2, 0, 1]⟩,
   ⟨[⟨1001, -12, 0⟩], [0]⟩]

instance (A : Arith ℚ) (x : ℚ) : Decidable (A.Rep x) := inferInstanceAs (Decidable (_ = _))

theorem exFramesF_ok : (∀ f ∈ exFramesF, f.Valid) ∧
    ∀ f ∈ exFramesF, ∀ pk ∈ f.peaks, (double ℚ).Rep pk.freq := by
  constructor
  · unfold exFramesF Frame.Valid IsArgsort
    intro f hf
    simp only [List.mem_cons, List.not_mem_nil, or_false] at hf
    rcases hf with rfl | rfl | rfl <;> refine ⟨by decide, ?_⟩ <;> simp <;> norm_num
  · decide +kernel

/-- The hypotheses of `C146_fit` and what is found. -/
example : (trackerFitF (double ℚ) exCfgF ⟨[], [], 0⟩ exFramesF).toOption.map
      (fun s => (s.active.map (fun t => (t.start, t.freq)),
        s.tracks.map (fun t => (t.start, t.freq)))) =
    some ([(0, [1000, 8001 / 8, 1001])], [(0, [some 440, some 441])]) := by
  decide +kernel

/-- The hypotheses of `C146_step`: two tracks and three peaks. -/
example : ∃ m s', callF (double ℚ) (deactivateF (double ℚ) exCfgF) exCfgF [2, 0, 1]
      [⟨8001 / 8, -11, 0⟩, ⟨441, -12, 1⟩, ⟨3000, -5, 2⟩]
      ⟨[], [⟨0, [1000], [-10], [0]⟩, ⟨0, [440], [-20], [1]⟩], 1⟩ = .ok s' ∧
    StepF (trackOkF (double ℚ) exCfgF) (dfF (double ℚ) exCfgF) 2
      [⟨8001 / 8, -11, 0⟩, ⟨441, -12, 1⟩, ⟨3000, -5, 2⟩] m
      ⟨[], [⟨0, [1000], [-10], [0]⟩, ⟨0, [440], [-20], [1]⟩], 1⟩ s' := by
  refine C146_step (double ℚ) exCfgF _ _ _
    (exFramesF_ok.1 ⟨[⟨8001 / 8, -11, 0⟩, ⟨441, -12, 1⟩, ⟨3000, -5, 2⟩], [2, 0, 1]⟩
      (by simp [exFramesF])) ?_ ?_
    (exFramesF_ok.2 ⟨_, [2, 0, 1]⟩ (by simp [exFramesF]))
  · simp
  · have : (double ℚ).Rep 1000 ∧ (double ℚ).Rep 440 := by decide +kernel
    simp [this]

/-- The frequencies of `exFramesF` are settled for the default thresholds. -/
example : Settled (double ℚ) exCfgF (fun f => f ∈ [1000, 440, 8001 / 8, 441, 3000, 1001]) ∧
    minSineLenF (double ℚ) exCfgF = max 2 ⌈exCfgF.minSineDur * (exCfgF.fs / exCfgF.h)⌉ := by
  have h : ∀ f ∈ [1000, 440, 8001 / 8, 441, 3000, (1001 : ℚ)],
      ∀ p ∈ [1000, 440, 8001 / 8, 441, 3000, (1001 : ℚ)],
        (|f - p| < dfF (double ℚ) exCfgF p ↔
          |f - p| < exCfgF.freqDevOffset + exCfgF.freqDevSlope * p) := by
    decide +kernel
  refine ⟨⟨?_, ?_, fun f p hf hp => h f hf p hp⟩, ?_⟩ <;> decide +kernel

/-- C146: a decision that rounding changes.  The double nearest to 0.01 is a little larger, so
that the exact threshold at 1000 Hz is a little more than 30 Hz; the computed one is 30 Hz. -/
theorem C146_off :
    (trackerFitF (double ℚ) exCfgF ⟨[], [], 0⟩
      [⟨[⟨970, 0, 0⟩], [0]⟩, ⟨[⟨1000, 0, 0⟩], [0]⟩]).toOption.map
        (fun s => s.active.map (·.freq)) = some [[1000]] ∧
    (trackerFit (deactivate exCfgF) exCfgF ⟨[], [], 0⟩
      [⟨[⟨970, 0, 0⟩], [0]⟩, ⟨[⟨1000, 0, 0⟩], [0]⟩]).toOption.map
        (fun s => s.active.map (·.freq)) = some [[970, 1000]] := by
  decide +kernel

/-- C146: a minimum length that rounding changes: the double nearest to 0.1 seconds at 30 frames
per second. -/
theorem C146_length_off :
    minSineLenF (double ℚ) ⟨30, 1, 2, 3602879701896397 / 2 ^ 55, 20, hundredth⟩ = 3 ∧
    max 2 ⌈(3602879701896397 / 2 ^ 55 : ℚ) * (30 / 1)⌉ = 4 := by
  decide +kernel

/-- The hypotheses of `C146_threshold`, `C146_constant` and `C146_length`. -/
example : (double ℚ).Rep exCfgF.freqDevOffset ∧ 0 ≤ exCfgF.freqDevOffset ∧
    0 ≤ exCfgF.freqDevSlope ∧ 0 ≤ exCfgF.minSineDur ∧ 0 ≤ exCfgF.fs ∧ 0 < exCfgF.h ∧
    lenErr (double ℚ) exCfgF < 1 := by
  decide +kernel

/-- A constant threshold. -/
example : (double ℚ).Rep (⟨44100, 500, 2, 1 / 50, 20, 0⟩ : Cfg ℚ).freqDevOffset ∧
    ∀ f ∈ exFramesF, ∀ pk ∈ f.peaks, (double ℚ).Rep pk.freq ∧ 2 * 20 ≤ pk.freq := by
  decide +kernel

end Verif.Float
