import Verif.Sms.FitProps
import Verif.Tracker.ExtendLemmas

/-!
# Lemmas for C133: recordings with the same beginning
-/

set_option autoImplicit false
set_option linter.unusedSectionVars false
set_option linter.unusedSimpArgs false

namespace Verif.Sms

open Verif.Tracker Verif.Learn

variable {K : Type*} [Field K] [LinearOrder K] [IsStrictOrderedRing K] [FloorRing K]

theorem fitLoop_append (spec : List K → List K × List K) (sort : List (Peak K) → List Nat) (p : Params K)
    (w : List K) (G : List (List K)) : ∀ (F : List (List K)) (z : State K × Storage (Saved K)),
    fitLoop spec sort p w (F ++ G) z =
      match fitLoop spec sort p w F z with
      | .error e => .error e
      | .ok z' => fitLoop spec sort p w G z' := by
  intro F
  induction F with
  | nil => intro z; rfl
  | cons f F ih =>
    intro ⟨s, st⟩
    rw [List.cons_append]
    simp only [fitLoop]
    cases dft spec f w p.n with
    | error e => rfl
    | ok mp =>
      obtain ⟨mx, px⟩ := mp
      simp only
      cases peakDetectInterp mx px (some p.t) with
      | error e => rfl
      | ok pk =>
        simp only
        cases toPeaks p.cfg.fs p.n pk with
        | error e => rfl
        | ok peaks =>
          simp only
          cases call p.deact p.cfg.toCfg (sort peaks) peaks s with
          | error e => rfl
          | ok s' => exact ih _

theorem runFrom_append (deact : State K → Nat → Except PyErr (State K)) (c : Cfg K) (B : List (Frame K)) :
    ∀ (A : List (Frame K)) (s : State K), runFrom deact c (A ++ B) s =
      match runFrom deact c A s with
      | .error e => .error e
      | .ok s' => runFrom deact c B s' := by
  intro A
  induction A with
  | nil => intro s; rfl
  | cons f A ih =>
    intro s
    rw [List.cons_append]
    simp only [runFrom]
    cases call deact c f.order f.peaks s with
    | error e => rfl
    | ok s' => exact ih s'

/-- The frames that lie inside `z`. -/
def insideFrames (w hop : Nat) (z : List K) : List (List K) :=
  (List.range (if w ≤ z.length then 1 + (z.length - w) / hop else 0)).map fun i => (z.drop (i * hop)).take w

theorem overlapping_inside (w hop : Nat) (hh : 1 ≤ hop) (z y : List K) (hw : w ≤ (z ++ y).length) :
    ∃ G, overlappingWindows (z ++ y) w (some hop) = .ok (insideFrames w hop z ++ G) := by
  rw [overlappingWindows_eq _ w hop hh hw]
  set N := if w ≤ z.length then 1 + (z.length - w) / hop else 0 with hN
  have hle : N ≤ 1 + ((z ++ y).length - w) / hop := by
    rw [hN]
    split
    · have : (z.length - w) / hop ≤ ((z ++ y).length - w) / hop :=
        Nat.div_le_div_right (by rw [List.length_append]; omega)
      omega
    · exact Nat.zero_le _
  obtain ⟨k, hk⟩ := Nat.exists_eq_add_of_le hle
  refine ⟨(List.range k).map fun i => (((z ++ y).drop ((N + i) * hop)).take w), ?_⟩
  congr 1
  rw [hk, List.range_add, List.map_append, List.map_map]
  congr 1
  unfold insideFrames
  rw [← hN]
  apply List.map_congr_left
  intro i hi
  rw [List.mem_range] at hi
  have hb : i * hop + w ≤ z.length := by
    rw [hN] at hi
    split at hi
    · have h1 : i ≤ (z.length - w) / hop := by omega
      have h2 : i * hop ≤ z.length - w := le_trans (Nat.mul_le_mul_right _ h1) (Nat.div_mul_le_self _ _)
      omega
    · omega
  rw [List.drop_append_of_le_length (by omega), List.take_append_of_le_length (by rw [List.length_drop]; omega)]

theorem insideFrames_rows (w hop : Nat) (z : List K) : ∀ f ∈ insideFrames w hop z, f.length = w := by
  intro f hf
  unfold insideFrames at hf
  obtain ⟨i, hi, rfl⟩ := List.mem_map.1 hf
  rw [List.mem_range] at hi
  split at hi
  · have h1 : i ≤ (z.length - w) / hop := by omega
    have h2 : i * hop ≤ z.length - w := le_trans (Nat.mul_le_mul_right _ h1) (Nat.div_mul_le_self _ _)
    rw [List.length_take, List.length_drop]
    omega
  · omega

/-- The beginning of the analysed signal. -/
def opening (padded : Bool) (w : Nat) (x : List K) : List K :=
  (if padded then List.replicate ((w + 1) / 2) 0 else []) ++ x

theorem insideFrames_length (padded : Bool) (w hop : Nat) (x : List K) :
    (insideFrames w hop (opening padded w x)).length = sharedFrames padded w hop x.length := by
  unfold insideFrames opening sharedFrames
  cases padded <;> simp [Nat.add_comm]

theorem timeFrames_inside (padded : Bool) (w hop : Nat) (hh : 1 ≤ hop) (x y : List K)
    (hw : padded = true ∨ w ≤ x.length) :
    ∃ G, timeFrames padded w hop (x ++ y) = .ok (insideFrames w hop (opening padded w x) ++ G) := by
  cases padded with
  | false =>
    rw [(C19_unpadded (x ++ y) w hop).2]
    have hw' : w ≤ x.length := by simpa using hw
    obtain ⟨G, h⟩ := overlapping_inside w hop hh x y (by rw [List.length_append]; omega)
    exact ⟨G, by simpa [opening] using h⟩
  | true =>
    unfold timeFrames
    rw [padInput_true]
    obtain ⟨G, h⟩ := overlapping_inside w hop hh (opening true w x) (y ++ List.replicate (w / 2) 0)
      (by simp [opening]; omega)
    refine ⟨G, ?_⟩
    rw [← h]
    simp [opening, List.append_assoc]

/-- What the state after the shared frames says about the tracks reported at the end. -/
structure Ahead (p : Params K) (s : State K) (m' : Model K) : Prop where
  params : m'.params = p
  back : ∀ u ∈ m'.tracks, u.stop < s.frame → u ∈ s.tracks ∧
    ((p.reverse = true → p.tracker.stripT = none) →
      ∀ n, p.modal = true → p.cfg.stripN = some n → (u.start : ℤ) ≤ n)
  old : (p.reverse = true → p.tracker.stripT = none) → ∀ u ∈ s.tracks,
    (∀ n, p.modal = true → p.cfg.stripN = some n → (u.start : ℤ) ≤ n) →
    ∃ u' ∈ m'.tracks, Extends u u' ∧ (p.modal = false → u' = u)
  active : p.modal = false → ∀ t ∈ s.active, trackOk p.cfg.toCfg t = true →
    ∃ u' ∈ m'.tracks, Extends (numpyTrack t) u'

theorem ahead_of_run (p : Params K) (prior : State K) (A : List (Frame K)) (hA : ∀ f ∈ A, f.Valid)
    (hk : p.modal = true → p.tracker.mergeStrategy = "average" ∨ p.tracker.mergeStrategy = "single") :
    ∃ s, runFrom p.deact p.cfg.toCfg A (Tracker.reset prior) = .ok s ∧ s.frame = A.length ∧
      (∀ t ∈ s.active, t.start + t.mag.length = s.frame) ∧
      ∀ B : List (Frame K), (∀ f ∈ B, f.Valid) → ∃ s',
        runFrom p.deact p.cfg.toCfg (A ++ B) (Tracker.reset prior) = .ok s' ∧
        ∀ m' : Model K, m'.params = p → m'.state = s' → Ahead p s m' := by
  have stops : ∀ s : State K, Wf p.cfg.toCfg s → ∀ t ∈ s.active, t.start + t.mag.length = s.frame := by
    intro s hw t ht
    have hg := hw.good t ht
    rw [hg.magLen]
    exact hg.clock
  cases hm : p.modal with
  | false =>
    have hde : p.deact = deactivate p.cfg.toCfg := by simp [Params.deact, hm]
    have hrev : p.reverse = false := by simp [Params.reverse, hm]
    rw [hde]
    have hd := popSave_base p.cfg.toCfg
    have hS := saveExt_base p.cfg.toCfg
    have hok : ∀ (t : ATrack K) (pk : Peak K), trackOk p.cfg.toCfg t = true →
        trackOk p.cfg.toCfg (t.push pk) = true := by
      intro t pk h
      unfold trackOk at h ⊢
      simp only [decide_eq_true_eq] at h ⊢
      simp only [ATrack.push, List.length_append, List.length_singleton]
      push_cast
      push_cast at h
      omega
    obtain ⟨s, r1, r2, r3, _⟩ := further_run hd hS hok p.cfg.toCfg A (Tracker.reset prior) hA
      (wf_reset _ _) trivial
    refine ⟨s, r1, frame_count _ _ hd _ A prior s hA r1, stops s r2, ?_⟩
    intro B hB
    obtain ⟨s', q1, q2, _, q4⟩ := further_run hd hS hok p.cfg.toCfg B s hB r2 r3
    refine ⟨s', by rw [runFrom_append, r1]; exact q1, ?_⟩
    intro m' hp hst
    have htr : m'.tracks = s'.tracks ++ (s'.active.filter (trackOk p.cfg.toCfg)).map numpyTrack := by
      unfold Model.tracks
      rw [hp, hst, hm]
      rfl
    refine ⟨hp, ?_, ?_, ?_⟩
    · intro u hu hlt
      refine ⟨?_, fun _ n h => by simp [hm] at h⟩
      rw [htr] at hu
      rcases List.mem_append.1 hu with hu | hu
      · exact q4.back u hu hlt
      · obtain ⟨t, ht, rfl⟩ := List.mem_map.1 hu
        have := stops s' q2 t (List.mem_filter.1 ht).1
        have hfr := q4.frame
        simp only [Track.stop, numpyTrack, List.length_map] at hlt
        omega
    · intro _ u hu _
      obtain ⟨u', hu', rfl⟩ := q4.old u hu
      exact ⟨u, by rw [htr]; exact List.mem_append_left _ hu', Extends.refl u, fun _ => rfl⟩
    · intro _ t ht ho
      rcases q4.active t ht ho with ⟨t', ht', ho', e⟩ | ⟨u', hu', e⟩
      · refine ⟨numpyTrack t', ?_, e⟩
        rw [htr]
        exact List.mem_append_right _ (List.mem_map.2 ⟨t', List.mem_filter.2 ⟨ht', ho'⟩, rfl⟩)
      · exact ⟨u', by rw [htr]; exact List.mem_append_left _ hu', e⟩
  | true =>
    have hde : p.deact = modalDeactivate p.cfg := by simp [Params.deact, hm]
    have hk' : p.cfg.mergeStrategy = "average" ∨ p.cfg.mergeStrategy = "single" := hk hm
    rw [hde]
    have hd := popSave_modal p.cfg hk'
    have hS := saveExt_modal p.cfg hk'
    have hok : ∀ (t : ATrack K) (pk : Peak K), False → False := fun _ _ h => h
    obtain ⟨s, r1, r2, r3, _⟩ := further_run hd hS hok p.cfg.toCfg A (Tracker.reset prior) hA
      (wf_reset _ _) (by simpa [Tracker.reset] using hd.nil)
    refine ⟨s, r1, frame_count _ _ hd _ A prior s hA r1, stops s r2, ?_⟩
    intro B hB
    obtain ⟨s', q1, q2, _, q4⟩ := further_run hd hS hok p.cfg.toCfg B s hB r2 r3
    refine ⟨s', by rw [runFrom_append, r1]; exact q1, ?_⟩
    intro m' hp hst
    have htr : m'.tracks = modalAllTracks p.cfg s' := by
      unfold Model.tracks
      rw [hp, hst, hm]
      rfl
    have hon : ∀ (n : ℤ), p.cfg.stripN = some n → (p.reverse = true → p.tracker.stripT = none) →
        ∀ u : Track K, onsetOk p.cfg.reverse s'.frame n u = true ↔ (u.start : ℤ) ≤ n := by
      intro n hn hr u
      have hrev : p.cfg.reverse = false := by
        by_contra hc
        have hc' : p.tracker.reverse = true := by simpa [Params.cfg] using hc
        have := hr (by simp [Params.reverse, hm, hc'])
        simp [ModalCfg.stripN, Params.cfg, this] at hn
      simp [onsetOk, hrev]
    refine ⟨hp, ?_, ?_, fun h => by simp [hm] at h⟩
    · intro u hu hlt
      rw [htr] at hu
      refine ⟨?_, ?_⟩
      · rcases List.mem_append.1 (modalAllTracks_mem hu) with hu | hu
        · exact q4.back u hu hlt
        · obtain ⟨t, ht, rfl⟩ := List.mem_map.1 hu
          have := stops s' q2 t (List.mem_filter.1 ht).1
          have hfr := q4.frame
          simp only [Track.stop, numpyTrack, List.length_map] at hlt
          omega
      · intro hr n _ hn
        unfold modalAllTracks at hu
        rw [hn] at hu
        exact (hon n hn hr u).1 (List.mem_filter.1 hu).2
    · intro hr u hu hs
      obtain ⟨u', hu', e⟩ := q4.old u hu
      refine ⟨u', ?_, e, fun h => by simp [hm] at h⟩
      rw [htr]
      unfold modalAllTracks
      cases hn : p.cfg.stripN with
      | none => exact List.mem_append_left _ hu'
      | some n =>
        refine List.mem_filter.2 ⟨List.mem_append_left _ hu', (hon n hn hr u').2 ?_⟩
        rw [e.start]
        exact hs n hm hn

/-- All recordings that begin, in the direction of the analysis, with `x` share the state after the frames
inside `x`. -/
theorem fit_shared (spec : List K → List K × List K) (sort : List (Peak K) → List Nat)
    (hsort : ∀ peaks, IsArgsort peaks (sort peaks))
    (m : Model K) (x : List K) (kw : Kwargs K) (p : Params K) (hp : p = kw.upd m.params)
    (hspec : ∀ z, z.length = p.n → (spec z).2.length = (spec z).1.length)
    (hw : p.w.sum ≠ 0) (h2 : 2 ≤ p.w.length) (hn : p.w.length ≤ p.n) (hh : 1 ≤ p.hop)
    (hk : p.modal = true → p.tracker.mergeStrategy = "average" ∨ p.tracker.mergeStrategy = "single")
    (hx : p.padded = true ∨ p.w.length ≤ x.length) :
    ∃ s : State K, s.frame = sharedFrames p.padded p.w.length p.hop x.length ∧
      (∀ t ∈ s.active, t.start + t.mag.length = s.frame) ∧
      (∀ y, ∃ m', m.fit spec sort (onward p.reverse x y) kw = .ok m' ∧ Ahead p s m') ∧
      (p.padded = false → ∃ m', m.fit spec sort x kw = .ok m' ∧ m'.params = p ∧ m'.state = s) := by
  set x' := if p.reverse then x.reverse else x with hx'
  have hlen : x'.length = x.length := by rw [hx']; split <;> simp
  set w' := p.w.map fun a => a / p.w.sum with hw'
  have hwl : w'.length = p.w.length := by simp [hw']
  set F := insideFrames p.w.length p.hop (opening p.padded p.w.length x') with hF
  obtain ⟨A, a1, a2, a3⟩ := fitLoop_run spec sort hsort p w' hspec (by omega) (by omega) F
    (fun f hf => by rw [hwl]; exact insideFrames_rows _ _ _ f hf)
  have valid : ∀ (F : List (List K)) (A : List (Rec K)), A.length = F.length →
      (∀ (k : Nat) (x : List K) (r : Rec K), F[k]? = some x → A[k]? = some r →
          dft spec x w' p.n = .ok (r.mx, r.px) ∧ r.frame.Valid ∧
          ∀ q ∈ r.frame.peaks, RefinedPeak p.cfg.fs p.t p.n r.mx q) →
      ∀ f ∈ A.map Rec.frame, f.Valid := by
    intro F A a1 a2 f hf
    obtain ⟨r, hr, rfl⟩ := List.mem_map.1 hf
    obtain ⟨k, hk'⟩ := List.getElem?_of_mem hr
    have hlt : k < F.length := by rw [← a1]; exact (List.getElem?_eq_some_iff.1 hk').1
    exact (a2 k _ r (List.getElem?_eq_getElem hlt) hk').2.1
  obtain ⟨s, s1, s2, s3, s4⟩ := ahead_of_run p m.state (A.map Rec.frame) (valid F A a1 a2) hk
  have hframe : s.frame = sharedFrames p.padded p.w.length p.hop x.length := by
    rw [s2, List.length_map, a1, hF, insideFrames_length, hlen]
  refine ⟨s, hframe, s3, ?_, ?_⟩
  · intro y
    set y' := if p.reverse then y.reverse else y with hy'
    have hj : (if p.reverse then (onward p.reverse x y).reverse else onward p.reverse x y) = x' ++ y' := by
      rw [hx', hy']
      cases p.reverse <;> simp [onward]
    obtain ⟨G, g1⟩ := timeFrames_inside p.padded p.w.length p.hop hh x' y' (by rwa [hlen])
    have hrows := timeFrames_rows _ _ _ _ _ g1
    obtain ⟨B, b1, b2, b3⟩ := fitLoop_run spec sort hsort p w' hspec (by omega) (by omega) G
      (fun f hf => by rw [hwl]; exact hrows f (List.mem_append_right _ hf))
    obtain ⟨s', q1, q2⟩ := s4 (B.map Rec.frame) (valid G B b1 b2)
    rw [runFrom_append, s1] at q1
    simp only at q1
    set st := { (kw.intermediate.getD m.storage.reset) with
      save := kw.save.getD (kw.intermediate.getD m.storage.reset).save } with hst
    refine ⟨⟨p, s', (st.run (A.flatMap Rec.ops)).run (B.flatMap Rec.ops), some w'⟩, ?_, q2 _ rfl rfl⟩
    simp only [Model.fit, Model.setParams, ← hp, normalizedWindow, if_neg hw, Option.getD_some]
    rw [hj, g1]
    simp only
    rw [fitLoop_append, a3, s1]
    simp only [Except.map]
    rw [b3, q1]
    rfl
  · intro hpad
    have hxl : p.w.length ≤ x'.length := by rw [hlen]; simpa [hpad] using hx
    have g1 : timeFrames p.padded p.w.length p.hop x' = .ok F := by
      rw [hpad, (C19_unpadded x' _ _).2, overlappingWindows_eq _ _ _ hh hxl, hF, hpad]
      simp [insideFrames, opening, hxl]
    set st := { (kw.intermediate.getD m.storage.reset) with
      save := kw.save.getD (kw.intermediate.getD m.storage.reset).save } with hst
    refine ⟨⟨p, s, st.run (A.flatMap Rec.ops), some w'⟩, ?_, rfl, rfl⟩
    simp only [Model.fit, Model.setParams, ← hp, normalizedWindow, if_neg hw, Option.getD_some]
    rw [← hx', g1]
    simp only
    rw [a3, s1]
    rfl

end Verif.Sms
