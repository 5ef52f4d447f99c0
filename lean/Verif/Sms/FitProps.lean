import Verif.Sms.FitLemmas
import Verif.Tracker.Parts
import Verif.Learn.Props

/-!
# Properties of the whole analysis (C08, C63)
-/

set_option autoImplicit false
set_option linter.unusedSectionVars false

namespace Verif.Sms

open Verif.Tracker Verif.Learn

variable {K : Type*} [Field K] [LinearOrder K] [IsStrictOrderedRing K] [FloorRing K]

/-! ## C08 -/

/-- C08: two objects with the same parameters give the same result (tracks, storage contents, or
exception) for the same input, whatever they were used for before. -/
theorem C08_no_memory (spec : List K → List K × List K) (sort : List (Peak K) → List Nat)
    (m₁ m₂ : Model K) (x : List K) (kw : Kwargs K) (hp : m₁.params = m₂.params)
    (hs : m₁.storage.save = m₂.storage.save) :
    m₁.fit spec sort x kw = m₂.fit spec sort x kw := by
  have h1 : m₁.storage.reset = m₂.storage.reset := by simp [Storage.reset, hs]
  simp only [Model.fit, Model.setParams, hp, h1, Tracker.reset]
  rfl

theorem fitLoop_save (spec : List K → List K × List K) (sort : List (Peak K) → List Nat)
    (p : Params K) (w : List K) : ∀ (xs : List (List K)) (s s' : State K)
    (st st' : Storage (Saved K)), fitLoop spec sort p w xs (s, st) = .ok (s', st') →
      st'.save = st.save := by
  intro xs
  induction xs with
  | nil => intro s s' st st' h; cases h; rfl
  | cons x xs ih =>
    intro s s' st st' h
    unfold fitLoop at h
    split at h
    · simp at h
    · split at h
      · simp at h
      · split at h
        · simp at h
        · split at h
          · simp at h
          · rw [ih _ _ _ _ h, append_save, append_save]

theorem fit_params (spec : List K → List K × List K) (sort : List (Peak K) → List Nat)
    (m m' : Model K) (x : List K) (kw : Kwargs K) (h : m.fit spec sort x kw = .ok m') :
    m'.params = kw.upd m.params ∧
      m'.storage.save = kw.save.getD (kw.intermediate.getD m.storage.reset).save := by
  simp only [Model.fit, Model.setParams] at h
  split at h
  · simp at h
  · split at h
    · simp at h
    · split at h
      · simp at h
      · rename_i hl
        cases h
        exact ⟨rfl, fitLoop_save _ _ _ _ _ _ _ _ _ hl⟩

/-- C08: fitting after an earlier fit is the same as fitting at once (the keyword arguments of the
first fit remain in force; here the second fit repeats them). -/
theorem C08_refit (spec : List K → List K × List K) (sort : List (Peak K) → List Nat)
    (m m' : Model K) (x y : List K) (kw : Kwargs K) (hkw : ∀ p, kw.upd (kw.upd p) = kw.upd p)
    (hi : kw.intermediate = none)
    (h : m.fit spec sort x kw = .ok m') : m'.fit spec sort y kw = m.fit spec sort y kw := by
  obtain ⟨h1, h2⟩ := fit_params spec sort m m' x kw h
  have e1 : kw.upd m'.params = kw.upd m.params := by rw [h1, hkw]
  have e2 : kw.save.getD m'.storage.save = kw.save.getD m.storage.save := by
    rw [h2, hi]
    cases kw.save <;> rfl
  simp only [Model.fit, Model.setParams, e1, Tracker.reset, hi, Option.getD_none, Storage.reset, e2]

/-- Fitting twice with the same input is the same as fitting once. -/
theorem C08_twice (spec : List K → List K × List K) (sort : List (Peak K) → List Nat)
    (m m' : Model K) (x : List K) (h : m.fit spec sort x Kwargs.none = .ok m') :
    m'.fit spec sort x Kwargs.none = .ok m' := by
  rw [C08_refit spec sort m m' x x Kwargs.none (fun _ => rfl) rfl h, h]

/-- What the storage holds after the loop: one entry per frame. -/
theorem storage_entries (sv : Bool) (hsv : sv = true) (A : List (Rec K)) (hA : A ≠ []) (key : String)
    (hkey : key = "stft" ∨ key = "peaks") :
    ∃ l, ((Storage.init sv).run (A.flatMap Rec.ops)).getitem key = .ok l ∧ l.length = A.length := by
  subst hsv
  set kvs : List (String × Saved K) :=
    A.flatMap fun r => [("stft", .stft r.mx r.px), ("peaks", .peaks r.pk)] with hkvs
  have e : A.flatMap Rec.ops = kvs.map fun kv => Op.append kv.1 kv.2 none := by
    rw [hkvs, List.map_flatMap]; rfl
  have hlen : ((kvs.filter fun kv => kv.1 = key).map fun kv => some kv.2).length = A.length := by
    rw [List.length_map, hkvs]
    clear hA e hkvs
    induction A with
    | nil => rfl
    | cons r A ih =>
      rw [List.flatMap_cons, List.filter_append, List.length_append, ih]
      rcases hkey with rfl | rfl <;> simp <;> omega
  have hmem : key ∈ kvs.map Prod.fst := by
    obtain ⟨r, hr⟩ := List.exists_mem_of_ne_nil A hA
    rw [hkvs]
    simp only [List.map_flatMap, List.mem_flatMap]
    exact ⟨r, hr, by rcases hkey with rfl | rfl <;> simp⟩
  rw [e, C32_appends kvs key hmem]
  exact ⟨_, rfl, hlen⟩

/-! ## C63 -/

/-- C63: with a usable window and input, `fit` succeeds with the documented number of frames, and
every sample of every reported track is a refined spectral peak of its own frame: less than half a
bin from a local maximum above the threshold, at least as high as it, and strictly between 0 and the
Nyquist frequency.  Every reported track has aligned arrays with at least two samples, ends before
the last frame, and (modal tracker) is made of parts that passed the acceptance test. -/
theorem C63_end_to_end (spec : List K → List K × List K) (sort : List (Peak K) → List Nat)
    (hsort : ∀ peaks, IsArgsort peaks (sort peaks))
    (m : Model K) (x : List K) (kw : Kwargs K) (p : Params K) (hp : p = kw.upd m.params)
    (hspec : ∀ z, z.length = p.n →
      (spec z).1.length = p.n / 2 + 1 ∧ (spec z).2.length = p.n / 2 + 1)
    (hw : p.w.sum ≠ 0) (h2 : 2 ≤ p.w.length) (hn : p.w.length ≤ p.n) (hh : 1 ≤ p.hop)
    (hfs : 0 < p.tracker.fs)
    (hk : p.modal = true → p.tracker.mergeStrategy = "average" ∨ p.tracker.mergeStrategy = "single")
    (hx : p.padded = true ∨ p.w.length ≤ x.length) :
    ∃ m' frames, m.fit spec sort x kw = .ok m' ∧
      timeFrames p.padded p.w.length p.hop 
        (if p.modal = true ∧ p.tracker.reverse = true then x.reverse else x) = .ok frames ∧
      frames.length = (if p.padded then 1 + x.length / p.hop
        else 1 + (x.length - p.w.length) / p.hop) ∧
      m'.state.frame = frames.length ∧
      (kw.intermediate = none → m'.storage.save = true → ∀ key, key = "stft" ∨ key = "peaks" →
        ∃ l, m'.storage.getitem key = .ok l ∧ l.length = frames.length) ∧
      m'.params = p ∧
      (∀ tr ∈ m'.tracks, tr.Aligned ∧ 2 ≤ (tr.freq.filterMap id).length ∧ tr.stop ≤ frames.length ∧
        (p.modal = true → Parts p.cfg tr)) ∧
      ∀ tr ∈ m'.tracks, ∀ k pk, tr.sampleAt k = some pk →
        ∃ f mx px, frames[k]? = some f ∧
          dft spec f (p.w.map fun a => a / p.w.sum) p.n = .ok (mx, px) ∧
          (∃ (j : Nat) (loc a b c : K), 1 ≤ j ∧ mx[j - 1]? = some a ∧ mx[j]? = some b ∧
            mx[j + 1]? = some c ∧ a < b ∧ c < b ∧ p.t < b ∧ |loc - (j : K)| < 1 / 2 ∧
            pk.freq = loc * p.tracker.fs / (p.n : K) ∧ b ≤ pk.mag) ∧
          0 < pk.freq ∧ pk.freq < p.tracker.fs / 2 := by
  have hrev : (if p.modal = true ∧ p.tracker.reverse = true then x.reverse else x) =
      if p.reverse then x.reverse else x := by simp [Params.reverse]
  rw [hrev]
  set x' := if p.reverse then x.reverse else x with hx'
  have hlen : x'.length = x.length := by rw [hx']; split <;> simp
  obtain ⟨frames, f1, f2⟩ := timeFrames_ok p.padded p.w.length p.hop x' hh (by rwa [hlen])
  rw [hlen] at f2
  set w' := p.w.map fun a => a / p.w.sum with hw'
  have hwl : w'.length = p.w.length := by simp [hw']
  obtain ⟨A, a1, a2, a3⟩ := fitLoop_run spec sort hsort p w'
    (fun z hz => by rw [(hspec z hz).1, (hspec z hz).2]) (by omega) (by omega) frames
    (fun f hf => by rw [hwl]; exact timeFrames_rows _ _ _ _ _ f1 f hf)
  have hvalid : ∀ f ∈ A.map Rec.frame, f.Valid := by
    intro f hf
    obtain ⟨r, hr, rfl⟩ := List.mem_map.1 hf
    obtain ⟨k, hk'⟩ := List.getElem?_of_mem hr
    have hlt : k < frames.length := by rw [← a1]; exact (List.getElem?_eq_some_iff.1 hk').1
    exact (a2 k _ r (List.getElem?_eq_getElem hlt) hk').2.1
  -- the tracker run
  have hrun : ∃ s, runFrom p.deact p.cfg.toCfg (A.map Rec.frame) (Tracker.reset m.state) = .ok s ∧
      s.frame = (A.map Rec.frame).length ∧
      (∀ tr ∈ (if p.modal then modalAllTracks p.cfg s else allTracks p.cfg.toCfg s),
        GoodFin p.cfg.toCfg s.frame tr ∧ (p.modal = true → Parts p.cfg tr)) ∧
      ∀ k, (samplesAt k (if p.modal then modalAllTracks p.cfg s
        else allTracks p.cfg.toCfg s)).Subperm
          ((((A.map Rec.frame)[k]?).map (·.peaks)).getD []) := by
    unfold Params.deact
    cases hm : p.modal with
    | true =>
      obtain ⟨s, hs⟩ := (C01_active_bound_modal p.cfg m.state _ hvalid).2 (hk hm)
      have hc := (C02_clock_modal p.cfg m.state _ hvalid s hs).1
      obtain ⟨r1, _, r3, _⟩ := modal_run p.cfg m.state _ hvalid s hs
      have r5 := parts_run p.cfg m.state _ hvalid s hs
      refine ⟨s, hs, hc, fun tr htr => ⟨goodFin_modalAllTracks r1 r3 tr htr, fun _ => r5 tr htr⟩, ?_⟩
      intro k
      exact (C03_samples_modal p.cfg m.state _ hvalid s hs k).2
    | false =>
      obtain ⟨s, hs, hc, _⟩ := C02_clock p.cfg.toCfg m.state _ hvalid
      obtain ⟨s', hs', h3⟩ := C03_samples p.cfg.toCfg m.state _ hvalid
      rw [hs] at hs'
      cases hs'
      obtain ⟨s'', hs'', r1, _, r3, _⟩ := base_run p.cfg.toCfg m.state _ hvalid
      rw [hs] at hs''
      cases hs''
      exact ⟨s, hs, hc, fun tr htr => ⟨goodFin_allTracks r1 r3 tr htr, by simp⟩, fun k => (h3 k).2⟩
  obtain ⟨s, s1, s2, sg, s3⟩ := hrun
  set st := { (kw.intermediate.getD m.storage.reset) with
    save := kw.save.getD (kw.intermediate.getD m.storage.reset).save } with hst
  refine ⟨⟨p, s, st.run (A.flatMap Rec.ops), some w'⟩, frames, ?_, f1, f2, ?_, ?_, rfl, ?_, ?_⟩
  · simp only [Model.fit, Model.setParams, ← hp, normalizedWindow, if_neg hw, Option.getD_some]
    rw [f1]
    simp only
    rw [a3, s1]
    rfl
  · simp only
    rw [s2, List.length_map, a1]
  · intro hi hsave key hkey
    have hst' : st = Storage.init st.save := by
      rw [hst, hi]; rfl
    have hsv : st.save = true := by
      rw [← hsave]
      simp only
      rw [run_save]
      intro o ho b hb
      obtain ⟨r, _, hr⟩ := List.mem_flatMap.1 ho
      subst hb
      simp [Rec.ops] at hr
    have hne : A ≠ [] := by
      intro h0
      rw [h0] at a1
      have hpos : 0 < frames.length := by
        rw [f2]
        split <;> exact Nat.add_pos_left Nat.one_pos _
      simp only [List.length_nil] at a1
      omega
    obtain ⟨l, l1, l2⟩ := storage_entries st.save hsv A hne key hkey
    refine ⟨l, ?_, by rw [l2, a1]⟩
    simp only
    rw [hst']
    exact l1
  · intro tr htr
    obtain ⟨g1, g2⟩ := sg tr htr
    refine ⟨g1.aligned, ?_, ?_, g2⟩
    · have := g1.long
      have h2' : (2 : ℤ) ≤ p.cfg.toCfg.minSineLen := le_max_left _ _
      omega
    · have := g1.past
      rw [s2, List.length_map, a1] at this
      exact this
  · intro tr htr k pk hpk
    have hmem : pk ∈ samplesAt k (if p.modal then modalAllTracks p.cfg s
        else allTracks p.cfg.toCfg s) :=
      List.mem_filterMap.2 ⟨tr, htr, hpk⟩
    have hmem' := (s3 k).subset hmem
    rw [List.getElem?_map] at hmem'
    cases hA : A[k]? with
    | none => rw [hA] at hmem'; simp at hmem'
    | some r =>
      rw [hA] at hmem'
      simp only [Option.map_some, Option.getD_some] at hmem'
      have hlt : k < frames.length := by rw [← a1]; exact (List.getElem?_eq_some_iff.1 hA).1
      obtain ⟨d1, _, d3⟩ := a2 k _ r (List.getElem?_eq_getElem hlt) hA
      have hr := d3 pk hmem'
      refine ⟨frames[k], r.mx, r.px, List.getElem?_eq_getElem hlt, d1, hr, ?_⟩
      obtain ⟨j, loc, a, b, c, j1, j2, j3, j4, j5, j6, j7, j8, j9, j10⟩ := hr
      have hmx : r.mx.length = p.n / 2 + 1 := by
        unfold dft at d1
        obtain ⟨z, z1, z2, _⟩ := C17_buffer frames[k] w' p.n
          (by rw [hwl]; exact timeFrames_rows _ _ _ _ _ f1 _ (List.getElem_mem hlt))
          (by omega) (by omega)
        rw [z1] at d1
        simp only [Except.ok.injEq] at d1
        have := (hspec z z2).1
        rw [d1] at this
        exact this
      have hj : j + 1 < p.n / 2 + 1 := by
        rw [← hmx]; exact (List.getElem?_eq_some_iff.1 j4).1
      have hj' : 2 * j + 2 ≤ p.n := by omega
      have hjK : 2 * (j : K) + 2 ≤ (p.n : K) := by exact_mod_cast hj'
      have hj1 : (1 : K) ≤ (j : K) := by exact_mod_cast j1
      have hnK : (0 : K) < (p.n : K) := by linarith
      obtain ⟨l1, l2⟩ := abs_lt.1 j8
      have hfs' : p.cfg.fs = p.tracker.fs := rfl
      rw [j9, hfs']
      constructor
      · apply div_pos (mul_pos (by linarith) hfs) hnK
      · rw [div_lt_iff₀ hnK]
        have : loc * 2 < (p.n : K) := by linarith
        nlinarith

/-- C63: an input too short for one window gives no tracks or a `ValueError`. -/
theorem C63_short (spec : List K → List K × List K) (sort : List (Peak K) → List Nat)
    (m : Model K) (x : List K) (kw : Kwargs K) (p : Params K) (hp : p = kw.upd m.params)
    (hw : p.w.sum ≠ 0) (hh : 1 ≤ p.hop) (hpad : p.padded = false) (hx : x.length < p.w.length) :
    (p.w.length ≤ x.length + p.hop →
      ∃ m', m.fit spec sort x kw = .ok m' ∧ m'.tracks = [] ∧ m'.state.frame = 0) ∧
    (x.length + p.hop < p.w.length → m.fit spec sort x kw = .error .valueError) := by
  set x' := if p.reverse then x.reverse else x with hx'
  have hlen : x'.length = x.length := by rw [hx']; split <;> simp
  have ht := (C19_unpadded x' p.w.length p.hop).2
  rw [← hpad] at ht
  obtain ⟨g1, g2, _⟩ := C18_short x' p.w.length p.hop
  rw [hlen] at g1 g2
  constructor
  · intro h
    refine ⟨⟨p, Tracker.reset m.state, { (kw.intermediate.getD m.storage.reset) with
        save := kw.save.getD (kw.intermediate.getD m.storage.reset).save },
      some (p.w.map fun a => a / p.w.sum)⟩, ?_, ?_, rfl⟩
    · simp only [Model.fit, Model.setParams, ← hp, normalizedWindow, if_neg hw, Option.getD_some]
      rw [← hx', ht, g1 hh hx h]
      rfl
    · unfold Model.tracks
      simp only [Tracker.reset]
      split
      · simp only [modalAllTracks, List.filter_nil, List.map_nil, List.append_nil]
        split <;> rfl
      · rfl
  · intro h
    simp only [Model.fit, Model.setParams, ← hp, normalizedWindow, if_neg hw, Option.getD_some]
    rw [← hx', ht, g2 hh h]

/-! ## Concrete cases -/

/-- Order of peak indices by decreasing magnitude. -/
def exLe (peaks : List (Peak ℚ)) (i j : Nat) : Prop :=
  (peaks.getD j ⟨0, 0, 0⟩).mag ≤ (peaks.getD i ⟨0, 0, 0⟩).mag

instance (peaks : List (Peak ℚ)) : DecidableRel (exLe peaks) := fun i j => by
  unfold exLe; infer_instance

instance (peaks : List (Peak ℚ)) : Std.Total (exLe peaks) := ⟨fun _ _ => le_total _ _⟩

instance (peaks : List (Peak ℚ)) : IsTrans Nat (exLe peaks) := ⟨fun _ _ _ h1 h2 => le_trans h2 h1⟩

/-- A sort for the examples. -/
def exSort (peaks : List (Peak ℚ)) : List Nat :=
  (List.range peaks.length).insertionSort (exLe peaks)

theorem exSort_argsort (peaks : List (Peak ℚ)) : IsArgsort peaks (exSort peaks) := by
  constructor
  · exact List.perm_insertionSort _ _
  · refine (List.pairwise_insertionSort (exLe peaks) (List.range peaks.length)).imp ?_
    intro i j hij p q hp hq
    simpa [exLe, List.getD_eq_getElem?_getD, hp, hq] using hij

/-- A stand-in for the FFT: the first half of the buffer plus one. -/
def exSpec (z : List ℚ) : List ℚ × List ℚ := (z.take (z.length / 2 + 1), z.take (z.length / 2 + 1))

theorem exSpec_length (z : List ℚ) : (exSpec z).1.length = z.length / 2 + 1 ∨ z = [] := by
  by_cases h : z = []
  · exact Or.inr h
  · left
    have := List.length_pos_iff.2 h
    simp [exSpec]
    omega

/-- Rectangular window of 4 in an FFT of 8, hop 2, plain tracker. -/
def exParams : Params ℚ :=
  ⟨[1, 1, 1, 1], 8, 0, true, false, exModal false "average", 2⟩

/-- A new object. -/
def exModel (save : Bool) : Model ℚ := ⟨exParams, ⟨[], [], 0⟩, Storage.init save, none⟩

/-- Limit of C08: a storage object passed to `fit` itself (`intermediate=`) is not reset, because
the reset comes before `set_params`; entries of earlier fits remain in it. -/
theorem C08_given_storage_not_reset :
    ((exModel true).fit exSpec exSort [1, 8] ⟨id, none, some ⟨true,
      some [("stft", [some (.stft [] [])])]⟩⟩).toOption.map
      (fun m => (m.state.frame, (m.storage.getitem "stft").toOption.map List.length)) =
        some (2, some 3) := by
  decide +kernel

/-- All hypotheses of `C63_end_to_end` hold for this object, and there is something to find. -/
example : exParams.w.sum ≠ 0 ∧ 2 ≤ exParams.w.length ∧ exParams.w.length ≤ exParams.n ∧
    1 ≤ exParams.hop ∧ 0 < exParams.tracker.fs ∧
    (∀ z, z.length = exParams.n → (exSpec z).1.length = exParams.n / 2 + 1) ∧
    ((exModel true).fit exSpec exSort [1, 8, 1, 8, 1, 8, 1] Kwargs.none).toOption.map
      (fun m => (m.tracks.map (·.freq), m.state.frame)) =
        some ([[some (29/24), some (29/24), some (29/24)]], 4) := by
  refine ⟨by decide +kernel, by decide, by decide, by decide, by decide +kernel, ?_, ?_⟩
  · intro z hz
    rcases exSpec_length z with h | h
    · rw [h, hz]
    · subst h; simp [exParams] at hz
  · decide +kernel

end Verif.Sms
