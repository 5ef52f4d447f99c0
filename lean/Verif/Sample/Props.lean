import Mathlib.Tactic.Ring
import Mathlib.Tactic.FieldSimp
import Mathlib.Tactic.Linarith
import Verif.Sample.Lemmas
import Verif.Sample.Spec
import Verif.Tracker.Spec
import Verif.Sms.Props

/-!
# Properties of `SAMPLE` over an ordered field (C20, C22, C24, C26)
-/

set_option autoImplicit false
set_option linter.unusedSectionVars false
set_option linter.unusedSimpArgs false

namespace Verif.Sample

open Verif.Tracker

variable {K : Type*} [Field K] [LinearOrder K] [IsStrictOrderedRing K]

/-! ## C20 -/

theorem frameTime_eq (c : Analysis K) (n s i : Nat) :
    frameTime c n s i = (if c.reverse then (n : K) / c.fs else 0) +
      (if c.reverse then -1 else 1) * (((s + i : Nat) : K) * c.h / c.fs +
        if c.padded then 0 else (c.wsize : K) / 2 / c.fs) := by
  have e : ((i : K) + (s : K)) / (c.fs / c.h) = ((s + i : Nat) : K) * c.h / c.fs := by
    rw [div_div_eq_mul_div]; push_cast; ring
  simp only [frameTime, e]
  cases c.padded <;> cases c.reverse <;> simp <;> ring

/-- C20: the samples kept are those with numbers, each with the time of its frame: frame index times
hop over sampling rate, plus half a window if the input is not padded; the duration of the audio
minus that in reverse mode.  The hypotheses on `t` hold for every track of both trackers
(`C02_clock`, `C02_clock_modal`, `C06_min_length`). -/
theorem C20_times (c : Analysis K) (n : Nat) (t : Track K) (hf : t.freq.length = t.mag.length)
    (hp : t.phase.length = t.mag.length)
    (hnan : ∀ j : Nat, (t.freq[j]? = some none ↔ t.mag[j]? = some none) ∧
      (t.phase[j]? = some none ↔ t.mag[j]? = some none))
    (h1 : t.mag.length ≠ 1) :
    ∃ r kept, preprocessTrack c n t = .ok r ∧
      kept = (List.range' t.start t.mag.length).filterMap
        (fun k => (t.sampleAt k).map fun pk => (k, pk)) ∧
      r.time = kept.map (fun e =>
        if c.reverse then
          (n : K) / c.fs - ((e.1 : K) * c.h / c.fs + if c.padded then 0 else (c.wsize : K) / 2 / c.fs)
        else (e.1 : K) * c.h / c.fs + if c.padded then 0 else (c.wsize : K) / 2 / c.fs) ∧
      r.freq = kept.map (fun e => some e.2.freq) ∧
      r.mag = kept.map (fun e => some (e.2.mag + c.doubleDb)) ∧
      r.phase = kept.map (fun e => some e.2.phase) := by
  set N := t.mag.length with hN
  have em := eq_map_range t.mag none
  have ef := eq_map_range t.freq none
  have ep := eq_map_range t.phase none
  rw [hf] at ef
  rw [hp] at ep
  rw [← hN] at em
  set g : Nat → Bool := fun i => (t.mag.getD i none).isSome with hg
  have eg : t.mag.map Option.isSome = (List.range N).map g := by
    conv_lhs => rw [em]
    rw [List.map_map]; rfl
  have k0 : mask (List.range N) (t.mag.map Option.isSome) = .ok ((List.range N).filter g) := by
    rw [eg]
    have := mask_map (List.range N) id g
    simpa using this
  have k1 : filterItem t.freq (t.mag.map Option.isSome) =
      .ok (((List.range N).filter g).map fun i => t.freq.getD i none) := by
    rw [filterItem, if_neg (by omega), eg]
    conv_lhs => rw [ef]
    exact mask_map _ _ _
  have k2 : filterItem t.mag (t.mag.map Option.isSome) =
      .ok (((List.range N).filter g).map fun i => t.mag.getD i none) := by
    rw [filterItem, if_neg (by omega), eg]
    conv_lhs => rw [em]
    exact mask_map _ _ _
  have k3 : filterItem t.phase (t.mag.map Option.isSome) =
      .ok (((List.range N).filter g).map fun i => t.phase.getD i none) := by
    rw [filterItem, if_neg (by omega), eg]
    conv_lhs => rw [ep]
    exact mask_map _ _ _
  -- the samples
  have hs : ∀ i ∈ List.range N, (g i = true ∧ ∃ f m p, t.sampleAt (t.start + i) = some ⟨f, m, p⟩ ∧
        t.freq.getD i none = some f ∧ t.mag.getD i none = some m ∧ t.phase.getD i none = some p) ∨
      (g i = false ∧ t.sampleAt (t.start + i) = none) := by
    intro i hi
    have hi : i < N := List.mem_range.1 hi
    obtain ⟨n1, n2⟩ := hnan i
    have b1 : t.freq[i]? = some (t.freq[i]'(by omega)) := List.getElem?_eq_getElem (by omega)
    have b2 : t.mag[i]? = some (t.mag[i]'(by omega)) := List.getElem?_eq_getElem (by omega)
    have b3 : t.phase[i]? = some (t.phase[i]'(by omega)) := List.getElem?_eq_getElem (by omega)
    rw [b1, b2] at n1
    rw [b3, b2] at n2
    simp only [Track.sampleAt, hg, List.getD_eq_getElem?_getD, Nat.le_add_right, if_true,
      Nat.add_sub_cancel_left, b1, b2, b3, Option.getD_some]
    cases hm : t.mag[i]'(by omega) with
    | none =>
      simp only [hm, iff_true, Option.some.injEq] at n1 n2
      right
      simp [n1]
    | some m =>
      simp only [hm, reduceCtorEq, iff_false, Option.some.injEq] at n1 n2
      left
      obtain ⟨f, hf'⟩ := Option.ne_none_iff_exists'.1 n1
      obtain ⟨p, hp'⟩ := Option.ne_none_iff_exists'.1 n2
      exact ⟨rfl, f, m, p, by simp [hf', hp'], hf', rfl, hp'⟩
  have hrange : List.range' t.start N = (List.range N).map (t.start + ·) := by
    rw [List.range'_eq_map_range]
  -- everything as a function of the kept samples
  have key : ∀ {β : Type _} (F : Nat → β) (G : Nat × Peak K → β),
      (∀ i ∈ List.range N, ∀ f m p, t.freq.getD i none = some f → t.mag.getD i none = some m →
        t.phase.getD i none = some p → F i = G (t.start + i, ⟨f, m, p⟩)) →
      ((List.range N).filter g).map F = ((List.range' t.start N).filterMap
        (fun k => (t.sampleAt k).map fun pk => (k, pk))).map G := by
    intro β F G hFG
    rw [hrange, List.filterMap_map]
    generalize List.range N = l at hs hFG
    induction l with
    | nil => rfl
    | cons i l ih =>
      have ih := ih (fun j hj => hs j (by simp [hj])) (fun j hj => hFG j (by simp [hj]))
      rcases hs i (by simp) with ⟨g1, f, m, p, g2, g3, g4, g5⟩ | ⟨g1, g2⟩
      · rw [List.filter_cons_of_pos g1, List.filterMap_cons]
        simp only [Function.comp_apply, g2, Option.map_some, List.map_cons]
        exact congrArg₂ List.cons (hFG i (by simp) f m p g3 g4 g5) ih
      · rw [List.filter_cons_of_neg (by simp [g1]), List.filterMap_cons]
        simp only [Function.comp_apply, g2, Option.map_none]
        exact ih
  refine ⟨⟨((List.range N).filter g).map (frameTime c n t.start),
    ((List.range N).filter g).map fun i => t.freq.getD i none,
    (((List.range N).filter g).map fun i => t.mag.getD i none).map
      (fun m => m.map (· + c.doubleDb)),
    ((List.range N).filter g).map fun i => t.phase.getD i none⟩, _, ?_, rfl, ?_, ?_, ?_, ?_⟩
  · simp only [preprocessTrack, k0, k1, k2, k3, ← hN]
  · apply key
    intro i _ f m p _ _ _
    rw [frameTime_eq]
    cases c.reverse <;> simp <;> ring
  · apply key
    intro i _ f m p h _ _
    exact h
  · rw [List.map_map]
    refine key _ _ ?_
    intro i _ f m p _ h _
    simp only [Function.comp_apply, h, Option.map_some]
  · apply key
    intro i _ f m p _ _ h
    exact h

/-- C20: the time given to frame `k` is the middle of the `w` samples of the original audio that the
frame shows, in both directions; with padding and a window of odd size half a sample from it.  In
reverse mode the frame shows the samples backwards. -/
theorem C20_frame_centre (padded reverse : Bool) (w hop : Nat) (fs : K) (hfs : fs ≠ 0)
    (hh : 1 ≤ hop) (x : List K) (hx : padded = true ∨ w ≤ x.length) :
    ∃ frames, Sms.timeFrames padded w hop (if reverse then x.reverse else x) = .ok frames ∧
      ∀ (k : Nat) (f : List K), frames[k]? = some f → ∃ lo : ℤ,
        (∀ (j s : Nat), j < w → s < x.length → (s : ℤ) = lo + j →
          f[if reverse then w - 1 - j else j]? = x[s]?) ∧
        (padded = false → 0 ≤ lo ∧ lo + w ≤ x.length) ∧
        (let T := (k : K) * (hop : K) / fs + if padded then 0 else (w : K) / 2 / fs
         (if reverse then (x.length : K) / fs - T else T) * fs =
          (lo : K) + (w : K) / 2 +
            if padded then (if reverse then -1 else 1) * ((w % 2 : Nat) : K) / 2 else 0) := by
  set x' := if reverse then x.reverse else x with hx'
  have hlen : x'.length = x.length := by rw [hx']; split <;> simp
  have hrev : ∀ s : Nat, s < x.length → reverse = true → x'[x.length - 1 - s]? = x[s]? := by
    intro s hs hr
    rw [hx', if_pos hr, List.getElem?_reverse (by omega)]
    congr 1; omega
  have hfwd : reverse = false → x' = x := by intro hr; simp [hx', hr]
  -- the signal that is cut into frames
  obtain ⟨y, a, hy1, hy2, hy3, ha⟩ : ∃ (y : List K) (a : Nat), 
      Sms.padInput padded w x' = .ok (y, a) ∧ (∀ s : Nat, s < x.length → y[a + s]? = x'[s]?) ∧
      y.length = x.length + (if padded then w else 0) ∧ a = if padded then (w + 1) / 2 else 0 := by
    cases padded with
    | false => exact ⟨x', 0, by simp [Sms.padInput], by simp, by simp [hlen], rfl⟩
    | true =>
      refine ⟨_, _, Sms.padInput_true w x', ?_, ?_, rfl⟩
      · intro s hs
        rw [List.append_assoc, List.getElem?_append_right (by simp), List.length_replicate,
          Nat.add_sub_cancel_left, List.getElem?_append_left (by omega)]
      · simp; omega
  have hw : w ≤ y.length := by
    rcases hx with h | h
    · simp [hy3, h]
    · omega
  obtain ⟨frames, f1, f2, _, f4⟩ := Sms.C18_windows y w hop hh hw
  refine ⟨frames, by simp only [Sms.timeFrames, hy1, f1], ?_⟩
  intro k f hf
  have hk : k < frames.length := (List.getElem?_eq_some_iff.1 hf).1
  obtain ⟨f5, f', f6, f7, f8⟩ := f4 k hk
  have e : f' = f := by rw [hf] at f6; simpa using f6.symm
  subst e
  refine ⟨if reverse then (x.length : ℤ) - k * hop + a - w else k * hop - a, ?_, ?_, ?_⟩
  · intro j s hj hs hjs
    cases reverse with
    | false =>
      simp only [Bool.false_eq_true, if_false] at hjs ⊢
      rw [f8 j hj, show k * hop + j = a + s by zify; omega, hy2 s hs, hfwd rfl]
    | true =>
      simp only [if_true] at hjs ⊢
      rw [f8 _ (by omega), ← hrev s hs rfl, ← hy2 _ (by omega)]
      congr 1
      zify
      have : ((w - 1 - j : Nat) : ℤ) = w - 1 - j := by omega
      have : ((x.length - 1 - s : Nat) : ℤ) = x.length - 1 - s := by omega
      omega
  · intro hp
    subst hp
    simp only [Bool.false_eq_true, if_false] at ha hy3
    zify at f5
    rw [hy3] at f5
    cases reverse
    · simp [ha] at f5 ⊢; constructor
      · positivity
      · omega
    · simp [ha] at f5 ⊢; constructor
      · omega
      · positivity
  · have hmod : ((w : Nat) : K) = 2 * ((w / 2 : Nat) : K) + ((w % 2 : Nat) : K) := by
      have := Nat.div_add_mod w 2
      exact_mod_cast this.symm
    have ha' : padded = true → (a : K) = (w : K) / 2 + ((w % 2 : Nat) : K) / 2 := by
      intro hp
      have : a = w / 2 + w % 2 := by rw [ha, if_pos hp]; omega
      rw [this]; push_cast; rw [hmod]; push_cast; ring
    have ha0 : padded = false → a = 0 := by intro hp; simp [ha, hp]
    cases padded with
    | false =>
      rw [ha0 rfl]
      cases reverse <;> simp <;> field_simp <;> ring
    | true =>
      have := ha' rfl
      cases reverse <;> simp [this] <;> field_simp <;> ring

/-- A merged track with a gap, analysed backwards without padding. -/
def exAnalysis (padded reverse : Bool) : Analysis ℚ := ⟨10, 5, 4, padded, reverse, 6⟩

def exTrack : Track ℚ :=
  ⟨3, [some 100, none, some 102], [some (-20), none, some (-22)], [some 1, none, some 2]⟩

example : (preprocessTrack (exAnalysis false true) 100 exTrack).toOption =
    some ⟨[83 / 10, 73 / 10], [some 100, some 102], [some (-14), some (-16)], [some 1, some 2]⟩ := by
  decide +kernel

example : (preprocessTrack (exAnalysis true false) 100 exTrack).toOption.map (·.time) =
    some [3 / 2, 5 / 2] := by
  decide +kernel

/-! ## C22 -/

theorem maskColumns_ok {ι α : Type*} (l : List ι) (g : ι → Bool) (rows : List (ι → α)) :
    maskColumns (l.map g) (rows.map fun f => l.map f) =
      .ok (rows.map fun f => (l.filter g).map f) := by
  induction rows with
  | nil => rfl
  | cons f rows ih => simp only [List.map_cons, maskColumns, mask_map, ih]

/-- C22: the matrix after a fit has its rows, one column per entirely finite parameter tuple, in
order, and nothing else; no tuples at all give empty rows. -/
theorem C22_finite_columns {α : Type*} (nrows : Nat) (hn : 1 ≤ nrows)
    (params : List (List (Option α))) (hp : ∀ p ∈ params, p.length = nrows) :
    ∃ rows, cleanParams nrows params = .ok rows ∧ rows.length = nrows ∧
      (∀ row ∈ rows, none ∉ row) ∧
      ∀ (r : Nat) (row : List (Option α)), rows[r]? = some row →
        row.map some = (params.filter fun p => p.all Option.isSome).map fun p => p[r]? := by
  set rows : List (List (Option α)) := (List.range nrows).map fun r =>
    (params.filter fun p => p.all Option.isSome).map fun p => p.getD r none with hrows
  have main : cleanParams nrows params = .ok rows := by
    cases params with
    | nil =>
      have : ∀ n, maskColumns ([] : List Bool) (List.replicate n ([] : List (Option α))) =
          .ok (List.replicate n []) := by
        intro n
        induction n with
        | zero => rfl
        | succ n ih => simp [List.replicate_succ, maskColumns, ih, mask]
      have hv : validParams (List.replicate nrows ([] : List (Option α))) = [] := by
        cases nrows <;> simp [validParams, ncols, List.replicate_succ]
      simp only [cleanParams, hv, this]
      simp [hrows]
    | cons p ps =>
      set l := p :: ps with hl
      have hst : stack nrows l = .ok ((List.range nrows).map fun r => l.map fun p => p.getD r none) := by
        rw [stack, if_pos (by simpa using hp)]
        congr 1
        apply List.map_congr_left
        intro r hr
        rw [← List.filterMap_eq_map]
        apply List.filterMap_congr
        intro p' hp'
        have : r < p'.length := by rw [hp p' hp']; exact List.mem_range.1 hr
        simp [this]
      have hnc : ncols ((List.range nrows).map fun r => l.map fun p => p.getD r none) = l.length := by
        obtain ⟨n, rfl⟩ : ∃ n, nrows = n + 1 := ⟨nrows - 1, by omega⟩
        simp [List.range_succ_eq_map, ncols]
      have hv : validParams ((List.range nrows).map fun r => l.map fun p => p.getD r none) =
          l.map fun p => p.all Option.isSome := by
        rw [validParams, hnc]
        apply List.ext_getElem (by simp)
        intro j h1 h2
        simp only [List.length_map, List.length_range] at h1
        simp only [List.getElem_map, List.getElem_range]
        rw [Bool.eq_iff_iff, List.all_eq_true, List.all_eq_true]
        have hj : l[j].length = nrows := hp _ (List.getElem_mem _)
        constructor
        · intro h o ho
          obtain ⟨r, hr, rfl⟩ := List.getElem_of_mem ho
          have := h (l.map fun p => p.getD r none) (by
            simp only [List.mem_map, List.mem_range]
            exact ⟨r, by omega, rfl⟩)
          simp only [List.getElem?_map, List.getElem?_eq_getElem h1, Option.map_some,
            List.getD_eq_getElem?_getD, List.getElem?_eq_getElem hr, Option.getD_some] at this
          cases hc : l[j][r] <;> simp_all
        · intro h row hrow
          simp only [List.mem_map, List.mem_range] at hrow
          obtain ⟨r, hr, rfl⟩ := hrow
          have hr' : r < l[j].length := by omega
          have := h l[j][r] (List.getElem_mem _)
          simp only [List.getElem?_map, List.getElem?_eq_getElem h1, Option.map_some,
            List.getD_eq_getElem?_getD, List.getElem?_eq_getElem hr', Option.getD_some]
          obtain ⟨v, hv⟩ := Option.isSome_iff_exists.1 this
          rw [hv]
      rw [hl]
      simp only [cleanParams]
      rw [← hl, hst]
      simp only []
      rw [hv]
      have := maskColumns_ok l (fun p => p.all Option.isSome)
        ((List.range nrows).map fun r => fun p : List (Option α) => p.getD r none)
      simp only [List.map_map] at this
      exact this
  have hget : ∀ (r : Nat) (row : List (Option α)), rows[r]? = some row → r < nrows ∧
      row = (params.filter fun p => p.all Option.isSome).map fun p => p.getD r none := by
    intro r row h
    rw [hrows, List.getElem?_map] at h
    obtain ⟨r', h1, h2⟩ := Option.map_eq_some_iff.1 h
    have hr : r < nrows := by simpa using (List.getElem?_eq_some_iff.1 h1).1
    rw [List.getElem?_range hr] at h1
    cases h1
    exact ⟨hr, h2.symm⟩
  refine ⟨rows, main, by simp [hrows], ?_, ?_⟩
  · intro row hrow hnone
    obtain ⟨r, hr'⟩ := List.mem_iff_getElem?.1 hrow
    obtain ⟨hr, rfl⟩ := hget r row hr'
    simp only [List.mem_map, List.mem_filter, List.all_eq_true] at hnone
    obtain ⟨p, ⟨h1, h2⟩, h3⟩ := hnone
    have : r < p.length := by rw [hp p h1]; exact hr
    simp only [List.getD_eq_getElem?_getD, List.getElem?_eq_getElem this, Option.getD_some] at h3
    have := h2 _ (List.getElem_mem this)
    simp [h3] at this
  · intro r row h
    obtain ⟨hr, rfl⟩ := hget r row h
    rw [List.map_map]
    apply List.map_congr_left
    intro p hp'
    have : r < p.length := by rw [hp p (List.mem_filter.1 hp').1]; exact hr
    simp [this]

/-- Two finite columns and two with NaN or infinities. -/
example : (cleanParams 3 [[some (440 : ℚ), some 1, some 2], [some 100, none, some 1],
      [some 220, some 3, some 4], [none, none, some 1]]).toOption =
    some [[some 440, some 220], [some 1, some 3], [some 2, some 4]] := by
  decide +kernel

example : (cleanParams (α := ℚ) 3 []).toOption = some [[], [], []] := by decide

/-! ## C24 and C26 -/

theorem feature_ofModes (key : Feature) (ms : List (Mode K)) (mx : Option Int) :
    (Fitted.mk (ms.map (·.f)) (ms.map (·.d)) (ms.map (·.a)) mx).feature key.name =
      .ok (ms.map fun m => key.val m) := by
  cases key <;> simp [Fitted.feature, Feature.name, Feature.val, Fitted.energies]
  intro m _
  simp only [modalEnergy]
  ring

/-- The order in which the modes are listed. -/
theorem modeArgsort_ofModes (argsort : List K → List Nat)
    (hsort : ∀ keys, IsArgsortAsc keys (argsort keys)) (key : Feature) (reverse : Bool)
    (ms : List (Mode K)) (mx : Option Int) :
    ∃ (o : List Nat) (os : List (Mode K)),
      (Fitted.mk (ms.map (·.f)) (ms.map (·.d)) (ms.map (·.a)) mx).modeArgsort argsort
        key.name reverse = .ok o ∧ (∀ i ∈ o, i < ms.length) ∧ o.map (fun i => ms[i]?) = os.map some ∧
      os.Perm ms ∧
      os.Pairwise fun m m' => if reverse then key.val m' ≤ key.val m else key.val m ≤ key.val m' := by
  obtain ⟨h1, h2⟩ := hsort (ms.map fun m => key.val m)
  set o := argsort (ms.map fun m => key.val m) with ho
  simp only [List.length_map] at h1
  have hlt : ∀ i ∈ o, i < ms.length := fun i hi => List.mem_range.1 (h1.mem_iff.1 hi)
  -- the modes in this order
  have hex : ∀ l : List Nat, (∀ i ∈ l, i < ms.length) →
      l.map (fun i => ms[i]?) = (l.filterMap fun i => ms[i]?).map some := by
    intro l hl
    induction l with
    | nil => rfl
    | cons i l ih =>
      have hi : i < ms.length := hl i (by simp)
      simp only [List.map_cons, List.filterMap_cons, List.getElem?_eq_getElem hi, List.map_cons]
      rw [ih (fun j hj => hl j (by simp [hj]))]
  have hperm : (o.filterMap fun i => ms[i]?).Perm ms := by
    have := h1.filterMap (fun i => ms[i]?)
    have e : (List.range ms.length).filterMap (fun i => ms[i]?) = ms := by
      have := hex (List.range ms.length) (fun i hi => List.mem_range.1 hi)
      have e2 : (List.range ms.length).map (fun i => ms[i]?) = ms.map some := by
        apply List.ext_getElem (by simp)
        intro i h1 h2
        simp only [List.length_map] at h2
        simp [h2]
      rw [e2] at this
      exact (List.map_injective_iff.2 (Option.some_injective _) this).symm
    rwa [e] at this
  have hpair : (o.filterMap fun i => ms[i]?).Pairwise fun m m' => key.val m ≤ key.val m' := by
    rw [List.pairwise_filterMap]
    apply h2.imp
    intro i j hij m hm m' hm'
    exact hij _ _ (by simp [hm]) (by simp [hm'])
  cases reverse with
  | false =>
    refine ⟨o, o.filterMap fun i => ms[i]?, ?_, hlt, hex o hlt, hperm, by simpa using hpair⟩
    simp [Fitted.modeArgsort, feature_ofModes, ← ho]
  | true =>
    refine ⟨o.reverse, (o.filterMap fun i => ms[i]?).reverse, ?_, by simpa using hlt, ?_,
      (List.reverse_perm _).trans hperm, ?_⟩
    · simp [Fitted.modeArgsort, feature_ofModes, ← ho]
    · rw [List.map_reverse, hex o hlt, List.map_reverse]
    · simpa [List.pairwise_reverse] using hpair

theorem fancy_modes {α : Type*} (g : Mode K → α) (ms os : List (Mode K)) (o : List Nat)
    (h : o.map (fun i => ms[i]?) = os.map some) : fancy (ms.map g) o = .ok (os.map g) := by
  unfold fancy
  induction o generalizing os with
  | nil =>
    cases os with
    | nil => rfl
    | cons a b => simp at h
  | cons i o ih =>
    cases os with
    | nil => simp at h
    | cons m os =>
      simp only [List.map_cons, List.cons.injEq] at h
      have := ih os h.2
      simp only [List.map_cons, Np.take, this]
      have hi : (ms.map g)[i]? = some (g m) := by simp [h.1]
      have : Np.index (ms.map g) (Int.ofNat i) = .ok (g m) := by
        simp only [Np.index, getE]
        rw [if_neg (by simp)]
        simp only [Int.ofNat_eq_natCast, Int.toNat_natCast, hi]
      rw [this]

/-- What `predict` passes to `additive_synth`. -/
theorem predictArgs_ofModes (argsort : List K → List Nat)
    (hsort : ∀ keys, IsArgsortAsc keys (argsort keys)) (key : Feature) (reverse : Bool)
    (ms : List (Mode K)) (mx : Option Int) :
    ∃ os : List (Mode K), os.Perm ms ∧
      (os.Pairwise fun m m' => if reverse then key.val m' ≤ key.val m else key.val m ≤ key.val m') ∧
      ∀ (nModes : Option Int) (n : Int), n = (nModes.getD (mx.getD ms.length)) →
        let cut := os.take (if 0 ≤ n then n.toNat else ((ms.length : Int) + n).toNat)
        (Fitted.mk (ms.map (·.f)) (ms.map (·.d)) (ms.map (·.a)) mx).predictArgs argsort nModes
            key.name reverse (some (ms.map (·.φ))) =
          .ok (cut.map (·.f), cut.map (·.d), cut.map (·.a), some (cut.map (·.φ))) ∧
        (Fitted.mk (ms.map (·.f)) (ms.map (·.d)) (ms.map (·.a)) mx).predictArgs argsort nModes
            key.name reverse none =
          .ok (cut.map (·.f), cut.map (·.d), cut.map (·.a), none) := by
  obtain ⟨o, os, h1, h2, h3, h4, h5⟩ := modeArgsort_ofModes argsort hsort key reverse ms mx
  refine ⟨os, h4, h5, ?_⟩
  intro nModes n hn
  set N := if 0 ≤ n then n.toNat else ((ms.length : Int) + n).toNat with hN
  have hol : o.length = ms.length := by
    have := congrArg List.length h3
    simp only [List.length_map] at this
    rw [this, h4.length_eq]
  have hsel : (Fitted.mk (ms.map (·.f)) (ms.map (·.d)) (ms.map (·.a)) mx).selectModes argsort nModes
      key.name reverse = .ok (o.take N) := by
    have e : (Fitted.mk (ms.map (·.f)) (ms.map (·.d)) (ms.map (·.a)) mx).nModes nModes = n := by
      rw [hn]; cases nModes <;> cases mx <;> simp [Fitted.nModes]
    simp only [Fitted.selectModes, h1]
    rw [e, slice_prefix, hol]
  have hcut : (o.take N).map (fun i => ms[i]?) = (os.take N).map some := by
    rw [List.map_take, h3, List.map_take]
  have hf : ∀ g : Mode K → K, fancy (ms.map g) (o.take N) = .ok ((os.take N).map g) :=
    fun g => fancy_modes g ms _ _ hcut
  constructor
  · simp only [Fitted.predictArgs, hsel, fancyOpt, hf]
  · simp only [Fitted.predictArgs, hsel, fancyOpt, hf]

/-- C24: `predict` with `n` modes uses `min n N` of the `N` modes, those with most energy (or with
the largest or smallest value of the other features), each with its own parameters and phase. -/
theorem C24_best_modes (argsort : List K → List Nat)
    (hsort : ∀ keys, IsArgsortAsc keys (argsort keys)) (key : Feature) (reverse : Bool)
    (ms : List (Mode K)) (mx nModes : Option Int) (n : Nat)
    (hn : nModes = some (n : Int) ∨ nModes = none ∧ mx = some (n : Int) ∨
      nModes = none ∧ mx = none ∧ n = ms.length) :
    ∃ best rest : List (Mode K), (best ++ rest).Perm ms ∧ best.length = min n ms.length ∧
      Best key reverse best rest ∧
      ∀ ph, ph = some (ms.map (·.φ)) ∨ ph = none →
        (Fitted.mk (ms.map (·.f)) (ms.map (·.d)) (ms.map (·.a)) mx).predictArgs argsort nModes
            key.name reverse ph =
          .ok (best.map (·.f), best.map (·.d), best.map (·.a),
            if ph = none then none else some (best.map (·.φ))) := by
  obtain ⟨os, h1, h2, h3⟩ := predictArgs_ofModes argsort hsort key reverse ms mx
  obtain ⟨h4, h5⟩ := h3 nModes (n : Int) (by rcases hn with h | ⟨h, h'⟩ | ⟨h, h', h''⟩ <;> simp [*])
  simp only [Int.natCast_nonneg, if_true, Int.toNat_natCast] at h4 h5
  refine ⟨os.take n, os.drop n, by rwa [List.take_append_drop],
    by rw [List.length_take, h1.length_eq], ⟨?_, ?_⟩, ?_⟩
  · exact h2.sublist (List.take_sublist _ _)
  · rw [← List.take_append_drop n os, List.pairwise_append] at h2
    exact h2.2.2
  · intro ph hph
    rcases hph with rfl | rfl
    · simpa using h4
    · simpa using h5

/-- C24: a negative number of modes leaves the weakest ones out (Python slicing). -/
theorem C24_negative (argsort : List K → List Nat)
    (hsort : ∀ keys, IsArgsortAsc keys (argsort keys)) (key : Feature) (reverse : Bool)
    (ms : List (Mode K)) (mx : Option Int) (n : Nat) (hn : 1 ≤ n) :
    ∃ best rest : List (Mode K), (best ++ rest).Perm ms ∧ best.length = ms.length - n ∧
      Best key reverse best rest ∧
      (Fitted.mk (ms.map (·.f)) (ms.map (·.d)) (ms.map (·.a)) mx).predictArgs argsort
          (some (-(n : Int))) key.name reverse none =
        .ok (best.map (·.f), best.map (·.d), best.map (·.a), none) := by
  obtain ⟨os, h1, h2, h3⟩ := predictArgs_ofModes argsort hsort key reverse ms mx
  obtain ⟨_, h5⟩ := h3 (some (-(n : Int))) (-(n : Int)) rfl
  rw [if_neg (by omega), show ((ms.length : Int) + -(n : Int)).toNat = ms.length - n by omega] at h5
  refine ⟨os.take (ms.length - n), os.drop (ms.length - n), by rwa [List.take_append_drop],
    by rw [List.length_take, h1.length_eq]; omega, ⟨?_, ?_⟩, h5⟩
  · exact h2.sublist (List.take_sublist _ _)
  · rw [← List.take_append_drop (ms.length - n) os, List.pairwise_append] at h2
    exact h2.2.2

/-- C24: an unknown order is an `AttributeError`. -/
theorem C24_unknown_order (argsort : List K → List Nat) (s : Fitted K) (order : String)
    (reverse : Bool) (nModes : Option Int) (ph : Option (List K))
    (ho : ∀ key : Feature, order ≠ key.name) :
    s.predictArgs argsort nModes order reverse ph = .error .attributeError := by
  have h1 := ho .energies
  have h2 := ho .freqs
  have h3 := ho .decays
  have h4 := ho .amps
  simp only [Feature.name] at h1 h2 h3 h4
  simp [Fitted.predictArgs, Fitted.selectModes, Fitted.modeArgsort, Fitted.feature, *]

/-- An argsort that the kernel can evaluate. -/
def exArgsort (keys : List ℚ) : List Nat :=
  ((keys.zipIdx).insertionSort (fun a b => a.1 ≤ b.1)).map Prod.snd

def exModes : List (Mode ℚ) := [⟨100, 1, 1, 10⟩, ⟨200, 2, 3, 20⟩, ⟨300, 4, 1, 30⟩, ⟨50, 1, 3, 40⟩]

example : ((Fitted.mk (exModes.map (·.f)) (exModes.map (·.d)) (exModes.map (·.a)) none).predictArgs
      exArgsort (some 2) "energies" true (some (exModes.map (·.φ)))).toOption.map
        (fun r => (r.1, r.2.2.2)) = some ([200, 50], some [20, 40]) := by
  decide +kernel

/-- C26: the SDT parameters list all modes, strongest first, with consistent columns. -/
theorem C26_sdt_params (argsort : List K → List Nat)
    (hsort : ∀ keys, IsArgsortAsc keys (argsort keys)) (key : Feature) (reverse : Bool)
    (ms : List (Mode K)) (mx : Option Int) (hms : ms ≠ []) :
    ∃ (r : SdtParams K) (os : List (Mode K)),
      (Fitted.mk (ms.map (·.f)) (ms.map (·.d)) (ms.map (·.a)) mx).sdtParams argsort key.name
        reverse = .ok r ∧ os.Perm ms ∧ Best key reverse os [] ∧
      r.nModes = ms.length ∧ r.nPickups = 1 ∧ r.fragmentSize = 1 ∧
      r.freqs = os.map (·.f) ∧ r.decays = os.map (·.d) ∧ r.gains = [os.map (·.a)] ∧
      r.weights.length = ms.length ∧ r.weights.sum = 1 ∧ (∀ w ∈ r.weights, w = 1 / (ms.length : K)) ∧
      r.activeModes ≤ ms.length ∧ (mx = none → r.activeModes = ms.length) ∧
      (∀ m, mx = some m → r.activeModes = min m ms.length) ∧
      -- the active modes are the ones that `predict` uses
      ((∀ m, mx = some m → 0 ≤ m) → ∃ d a, (Fitted.mk (ms.map (·.f)) (ms.map (·.d)) (ms.map (·.a))
        mx).predictArgs argsort none key.name reverse none =
          .ok (r.freqs.take r.activeModes.toNat, d, a, none)) := by
  obtain ⟨o, os, h1, h2, h3, h4, h5⟩ := modeArgsort_ofModes argsort hsort key reverse ms mx
  have hf : ∀ g : Mode K → K, fancy (ms.map g) o = .ok (os.map g) :=
    fun g => fancy_modes g ms _ _ h3
  have hN : ms.length ≠ 0 := by simpa using hms
  have hNK : (ms.length : K) ≠ 0 := by exact_mod_cast hN
  have hol : o.length = ms.length := by
    have := congrArg List.length h3
    simp only [List.length_map] at this
    rw [this, h4.length_eq]
  obtain ⟨act, hact⟩ : ∃ act, act =
    (Fitted.mk (ms.map (·.f)) (ms.map (·.d)) (ms.map (·.a)) mx).activeModes := ⟨_, rfl⟩
  refine ⟨⟨ms.length, 1, act, 1, os.map (·.f), os.map (·.d),
    List.replicate ms.length (1 / (ms.length : K)), [os.map (·.a)]⟩, os, ?_, h4, ⟨h5, by simp⟩, rfl,
    rfl, rfl, rfl, rfl, rfl, by simp, ?_, ?_, ?_, ?_, ?_, ?_⟩
  · simp only [Fitted.sdtParams, h1, hf, List.length_map, if_neg hN]
    rw [hact]
  · simp only [List.sum_replicate, nsmul_eq_mul]
    field_simp
  · intro w hw
    exact List.eq_of_mem_replicate hw
  · cases mx <;> simp [hact, Fitted.activeModes]
  · intro h; simp [hact, Fitted.activeModes, h]
  · intro m h; simp [hact, Fitted.activeModes, h]
  · intro hpos
    obtain ⟨N, hN'⟩ : ∃ N, N = o.take act.toNat := ⟨_, rfl⟩
    have hsel : (Fitted.mk (ms.map (·.f)) (ms.map (·.d)) (ms.map (·.a)) mx).selectModes argsort none
        key.name reverse = .ok (o.take act.toNat) := by
      simp only [Fitted.selectModes, h1]
      congr 1
      cases mx with
      | none => rw [slice_prefix]; simp [hact, Fitted.activeModes, Fitted.nModes]
      | some m =>
        have := hpos m rfl
        have e : (Fitted.mk (ms.map (·.f)) (ms.map (·.d)) (ms.map (·.a)) (some m)).nModes none = m :=
          rfl
        simp only [hact, Fitted.activeModes, List.length_map]
        rw [e, slice_prefix, if_pos this]
        rcases le_total m (ms.length : Int) with h | h
        · rw [min_eq_left h]
        · rw [min_eq_right h, List.take_of_length_le (by omega), List.take_of_length_le (by omega)]
    have hcut : (o.take act.toNat).map (fun i => ms[i]?) = (os.take act.toNat).map some := by
      rw [List.map_take, h3, List.map_take]
    have hf' : ∀ g : Mode K → K, fancy (ms.map g) (o.take act.toNat) =
        .ok ((os.take act.toNat).map g) := fun g => fancy_modes g ms _ _ hcut
    refine ⟨(os.take act.toNat).map (·.d), (os.take act.toNat).map (·.a), ?_⟩
    simp only [Fitted.predictArgs, hsel, fancyOpt, hf', List.map_take]

/-- C26: without modes the division `1 / n_modes` raises. -/
theorem C26_no_modes (argsort : List K → List Nat)
    (hsort : ∀ keys, IsArgsortAsc keys (argsort keys)) (key : Feature) (reverse : Bool)
    (mx : Option Int) :
    (Fitted.mk ([] : List K) [] [] mx).sdtParams argsort key.name reverse =
      .error .zeroDivisionError := by
  obtain ⟨o, os, h1, h2, h3, h4, h5⟩ := modeArgsort_ofModes argsort hsort key reverse
    ([] : List (Mode K)) mx
  simp only [List.map_nil] at h1
  have : o = [] := by
    cases o with
    | nil => rfl
    | cons a l => exact absurd (h2 a (by simp)) (by simp)
  subst this
  simp [Fitted.sdtParams, h1, fancy, Np.take]

example : ((Fitted.mk (exModes.map (·.f)) (exModes.map (·.d)) (exModes.map (·.a)) (some 3)).sdtParams
      exArgsort "freqs" true).toOption.map (fun r => (r.freqs, r.gains, r.activeModes, r.weights)) =
    some ([300, 200, 100, 50], [[1, 3, 1, 3]], 3, [1 / 4, 1 / 4, 1 / 4, 1 / 4]) := by
  decide +kernel

end Verif.Sample
