import Verif.Tracker.DelayLemmas
import Verif.Sms.DelaySpec
import Verif.Sms.RescaleLemmas
import Verif.Sms.ExtendLemmas
import Verif.Sms.SpectrumLemmas

/-!
# Lemmas for C135: the analysis of a sound after silence
-/

set_option autoImplicit false
set_option linter.unusedSectionVars false
set_option linter.unusedSimpArgs false

namespace Verif.Sms

open Verif.Tracker Verif.Learn

variable {K : Type*} [Field K] [LinearOrder K] [IsStrictOrderedRing K] [FloorRing K]

/-! ## Frames -/

theorem take_silence (n w : Nat) (y : List K) (h : w ≤ n) :
    (List.replicate n (0 : K) ++ y).take w = List.replicate w 0 := by
  rw [List.take_append_of_le_length (by simpa using h), List.take_replicate, Nat.min_eq_left h]

theorem overlapping_delay (d w hop Z : Nat) (y : List K) (hh : 1 ≤ hop) (hz : w ≤ Z + hop) :
    overlappingWindows (silence (d * hop) ++ (silence Z ++ y)) w (some hop) =
      (overlappingWindows (silence Z ++ y) w (some hop)).map (List.replicate d (silence w) ++ ·) := by
  unfold silence
  have early : ∀ i, i < d → ((List.replicate (d * hop) (0 : K) ++ (List.replicate Z 0 ++ y)).drop (i * hop)).take w =
      List.replicate w 0 := by
    intro i hi
    have h1 : (i + 1) * hop ≤ d * hop := Nat.mul_le_mul_right _ hi
    have h2 : (i + 1) * hop = i * hop + hop := by ring
    rw [← List.append_assoc, List.replicate_append_replicate, List.drop_append_of_le_length (by simp; omega),
      List.drop_replicate]
    exact take_silence _ _ _ (by omega)
  have late : ∀ i, ((List.replicate (d * hop) (0 : K) ++ (List.replicate Z 0 ++ y)).drop ((d + i) * hop)) =
      (List.replicate Z 0 ++ y).drop (i * hop) := by
    intro i
    rw [Nat.add_mul, ← List.drop_drop, List.drop_append_of_le_length (by simp),
      List.drop_of_length_le (l := List.replicate (d * hop) (0 : K)) (by simp), List.nil_append]
  have hconst : (List.range d).map (fun i =>
      ((List.replicate (d * hop) (0 : K) ++ (List.replicate Z 0 ++ y)).drop (i * hop)).take w) =
      List.replicate d (List.replicate w 0) := by
    rw [List.eq_replicate_iff]
    refine ⟨by simp, ?_⟩
    intro b hb
    obtain ⟨i, hi, rfl⟩ := List.mem_map.1 hb
    exact early i (List.mem_range.1 hi)
  set Y := List.replicate Z (0 : K) ++ y with hY
  have hL : Z ≤ Y.length := by rw [hY]; simp
  by_cases hw : w ≤ Y.length
  · rw [overlappingWindows_eq _ _ _ hh hw, overlappingWindows_eq _ _ _ hh (by simp; omega)]
    simp only [Except.map, Except.ok.injEq]
    have hlen : 1 + ((List.replicate (d * hop) (0 : K) ++ Y).length - w) / hop = d + (1 + (Y.length - w) / hop) := by
      rw [List.length_append, List.length_replicate,
        show d * hop + Y.length - w = (Y.length - w) + d * hop by omega, Nat.add_mul_div_right _ _ (by omega)]
      omega
    rw [hlen, List.range_add, List.map_append, List.map_map, hconst]
    congr 1
    apply List.map_congr_left
    intro i _
    simp only [Function.comp, late]
  · rw [(C18_short Y w hop).1 hh (by omega) (by omega)]
    simp only [Except.map, List.append_nil]
    rcases Nat.eq_zero_or_pos d with rfl | hd
    · simp only [Nat.zero_mul, List.replicate_zero, List.nil_append]
      exact (C18_short Y w hop).1 hh (by omega) (by omega)
    · have hdh : hop ≤ d * hop := Nat.le_mul_of_pos_left _ hd
      rw [overlappingWindows_eq _ _ _ hh (by simp; omega)]
      have hlen : 1 + ((List.replicate (d * hop) (0 : K) ++ Y).length - w) / hop = d := by
        rw [List.length_append, List.length_replicate]
        obtain ⟨e, rfl⟩ : ∃ e, d = e + 1 := ⟨d - 1, by omega⟩
        rw [show (e + 1) * hop + Y.length - w = (hop + Y.length - w) + e * hop by
          rw [Nat.add_mul] ; omega, Nat.add_mul_div_right _ _ (by omega), Nat.div_eq_of_lt (by omega)]
        omega
      rw [hlen, hconst]

theorem timeFrames_delay (p : Params K) (d z : Nat) (y : List K) (hh : 1 ≤ p.hop) (hz : EnoughSilence p z) :
    timeFrames p.padded p.w.length p.hop (silence (d * p.hop) ++ (silence z ++ y)) =
      (timeFrames p.padded p.w.length p.hop (silence z ++ y)).map
        (List.replicate d (silence p.w.length) ++ ·) := by
  unfold EnoughSilence at hz
  cases hp : p.padded with
  | false =>
    rw [hp] at hz
    rw [(C19_unpadded _ _ _).2, (C19_unpadded _ _ _).2]
    exact overlapping_delay d _ _ z y hh (by simpa using hz)
  | true =>
    rw [hp] at hz
    simp only [if_true] at hz
    unfold timeFrames
    rw [padInput_true, padInput_true]
    simp only
    set a := (p.w.length + 1) / 2
    set b := p.w.length / 2
    have e1 : List.replicate a (0 : K) ++ (silence (d * p.hop) ++ (silence z ++ y)) ++ List.replicate b 0 =
        silence (d * p.hop) ++ (silence (a + z) ++ (y ++ List.replicate b 0)) := by
      unfold silence
      simp only [← List.append_assoc, List.replicate_append_replicate]
      congr 3
      omega
    have e2 : List.replicate a (0 : K) ++ (silence z ++ y) ++ List.replicate b 0 =
        silence (a + z) ++ (y ++ List.replicate b 0) := by
      unfold silence
      simp only [← List.append_assoc, List.replicate_append_replicate]
    rw [e1, e2]
    exact overlapping_delay d _ _ (a + z) _ hh (by omega)

/-! ## Silent frames -/

theorem dft_silence (spec : List K → List K × List K) (w : List K) (n : Nat) (h2 : 2 ≤ w.length)
    (hn : w.length ≤ n) : dft spec (silence w.length) w n = .ok (spec (List.replicate n 0)) := by
  unfold dft silence
  rw [dftBuffer_eq _ w n (by simp) h2 hn]
  have hz : List.zipWith (· * ·) (List.replicate w.length (0 : K)) w = List.replicate w.length 0 := by
    rw [List.eq_replicate_iff]
    refine ⟨by simp, ?_⟩
    intro b hb
    obtain ⟨i, hi⟩ := List.getElem?_of_mem hb
    rw [List.getElem?_zipWith] at hi
    rcases h1 : (List.replicate w.length (0 : K))[i]? with _ | a
    · simp [h1] at hi
    · have ha : a = 0 := by
        have := List.mem_of_getElem? h1
        exact (List.mem_replicate.1 this).2
      rcases h3 : w[i]? with _ | c
      · simp [h1, h3] at hi
      · simp [h1, h3, ha] at hi
        exact hi.symm
  simp only [hz, List.drop_replicate, List.take_replicate, List.replicate_append_replicate]
  congr 3
  omega

theorem peaks_silence (mx px : List K) (t : K) (v : K) (h : ∀ a ∈ mx, a = v) :
    peakDetectInterp mx px (some t) = .ok [] := by
  obtain ⟨l, h1, _, h3⟩ := C14_peak_detect mx (some t)
  have hl : l = [] := by
    rw [List.eq_nil_iff_forall_not_mem]
    intro p hp
    obtain ⟨a, b, c, _, ha, hb, _, hlt, _⟩ := (h3 p).1 hp
    rw [h a (List.mem_of_getElem? ha), h b (List.mem_of_getElem? hb)] at hlt
    exact lt_irrefl _ hlt
  unfold peakDetectInterp
  rw [h1, hl]
  rfl

theorem fitLoop_silence (spec : List K → List K × List K) (sort : List (Peak K) → List Nat) (p : Params K)
    (w : List K) (hsil : FlatSilence spec p.n) (h2 : 2 ≤ w.length) (hn : w.length ≤ p.n) :
    ∀ (d f : Nat) (st : Storage (Saved K)), ∃ st',
      fitLoop spec sort p w (List.replicate d (silence w.length)) (⟨[], [], f⟩, st) = .ok (⟨[], [], f + d⟩, st') := by
  obtain ⟨v, hv⟩ := hsil
  intro d
  induction d with
  | zero => intro f st; exact ⟨st, rfl⟩
  | succ d ih =>
    intro f st
    rw [List.replicate_succ]
    simp only [fitLoop, dft_silence spec w p.n h2 hn]
    have e : spec (List.replicate p.n 0) = ((spec (List.replicate p.n 0)).1, (spec (List.replicate p.n 0)).2) := rfl
    rw [e]
    simp only [peaks_silence _ _ p.t v hv, toPeaks, call_empty]
    obtain ⟨st', h⟩ := ih (f + 1) (((st.append "stft" (.stft (spec (List.replicate p.n 0)).1
      (spec (List.replicate p.n 0)).2) .none).1.append "peaks" (.peaks []) .none).1)
    refine ⟨st', ?_⟩
    rw [h, show f + 1 + d = f + (d + 1) by omega]

/-! ## The loop -/

theorem fitLoop_delay (spec : List K → List K × List K) (sort : List (Peak K) → List Nat) (d : Nat)
    (p p' : Params K) (hn : p'.n = p.n) (ht : p'.t = p.t) (hc : p'.cfg.toCfg = p.cfg.toCfg)
    (hd : Punctual d p.deact p'.deact) (w : List K) :
    ∀ (xs : List (List K)) (s : State K) (st st' : Storage (Saved K)),
    (fitLoop spec sort p' w xs (s.delay d, st')).map Prod.fst =
      (fitLoop spec sort p w xs (s, st)).map fun z => z.1.delay d := by
  intro xs
  induction xs with
  | nil => intro s st st'; rfl
  | cons x xs ih =>
    intro s st st'
    simp only [fitLoop]
    rw [hn, ht, hc]
    cases dft spec x w p.n with
    | error e => rfl
    | ok mp =>
      obtain ⟨mx, px⟩ := mp
      simp only
      cases peakDetectInterp mx px (some p.t) with
      | error e => rfl
      | ok pk =>
        simp only
        cases toPeaks p.cfg.fs p.n pk with
        | error e => rfl
        | ok peaks =>
          simp only [call_delay hd]
          cases call p.deact p.cfg.toCfg (sort peaks) peaks s with
          | error e => rfl
          | ok s' => exact ih s' _ _

/-- The analysis of a sound after silence, in the direction of the analysis. -/
theorem fitBody_delay (spec : List K → List K × List K) (sort : List (Peak K) → List Nat) (d z : Nat)
    (p p' : Params K) (hsil : FlatSilence spec p.n) (h2 : 2 ≤ p.w.length) (hn : p.w.length ≤ p.n)
    (hh : 1 ≤ p.hop) (hz : EnoughSilence p z) (hw' : p'.w = p.w) (hn' : p'.n = p.n) (ht' : p'.t = p.t)
    (hp' : p'.padded = p.padded) (hhop' : p'.hop = p.hop) (hc : p'.cfg.toCfg = p.cfg.toCfg)
    (hd : Punctual d p.deact p'.deact) (st st' : Storage (Saved K)) (x x' y : List K)
    (hx : (if p.reverse then x.reverse else x) = silence z ++ y)
    (hx' : (if p'.reverse then x'.reverse else x') = silence (d * p.hop) ++ (silence z ++ y)) :
    (fitBody spec sort p' st' x').map Prod.fst =
      (fitBody spec sort p st x).map fun r => r.1.delay d := by
  unfold fitBody
  rw [hw', hp', hhop', hx, hx', timeFrames_delay p d z y hh hz]
  cases hnw : normalizedWindow p.w with
  | error e => rfl
  | ok w' =>
    have hl : w'.length = p.w.length := by
      unfold normalizedWindow at hnw
      split at hnw
      · simp at hnw
      · cases hnw; simp
    simp only
    cases timeFrames p.padded p.w.length p.hop (silence z ++ y) with
    | error e => rfl
    | ok frames =>
      simp only [Except.map]
      rw [fitLoop_append]
      obtain ⟨st1, h1⟩ := fitLoop_silence spec sort p' w' (by rw [hn']; exact hsil) (by omega) (by omega) d 0 st'
      rw [hl] at h1
      rw [h1]
      simp only
      have h0 : (⟨[], [], 0 + d⟩ : State K) = State.delay d ⟨[], [], 0⟩ := rfl
      rw [h0]
      have := fitLoop_delay spec sort d p p' hn' ht' hc hd w' frames ⟨[], [], 0⟩ st st1
      cases ha : fitLoop spec sort p' w' frames (State.delay d ⟨[], [], 0⟩, st1) with
      | error e =>
        cases hb : fitLoop spec sort p w' frames (⟨[], [], 0⟩, st) with
        | error e' => rw [ha, hb] at this; simpa [Except.map] using this
        | ok z => rw [ha, hb] at this; simp [Except.map] at this
      | ok z =>
        cases hb : fitLoop spec sort p w' frames (⟨[], [], 0⟩, st) with
        | error e' => rw [ha, hb] at this; simp [Except.map] at this
        | ok z' => rw [ha, hb] at this; simpa [Except.map] using this

theorem fit_delay (spec : List K → List K × List K) (sort : List (Peak K) → List Nat) (d z : Nat)
    (m m' : Model K) (hsil : FlatSilence spec m.params.n) (h2 : 2 ≤ m.params.w.length)
    (hn : m.params.w.length ≤ m.params.n) (hh : 1 ≤ m.params.hop) (hz : EnoughSilence m.params z)
    (hw' : m'.params.w = m.params.w) (hn' : m'.params.n = m.params.n) (ht' : m'.params.t = m.params.t)
    (hp' : m'.params.padded = m.params.padded) (hhop' : m'.params.hop = m.params.hop)
    (hc : m'.params.cfg.toCfg = m.params.cfg.toCfg) (hd : Punctual d m.params.deact m'.params.deact)
    (x x' y : List K) (hx : (if m.params.reverse then x.reverse else x) = silence z ++ y)
    (hx' : (if m'.params.reverse then x'.reverse else x') = silence (d * m.params.hop) ++ (silence z ++ y)) :
    (m'.fit spec sort x' Kwargs.none).map (fun r => (r.params, r.state)) =
      (m.fit spec sort x Kwargs.none).map fun r => (m'.params, r.state.delay d) := by
  have h := fitBody_delay spec sort d z m.params m'.params hsil h2 hn hh hz hw' hn' ht' hp' hhop' hc hd
    m.storage.reset m'.storage.reset x x' y hx hx'
  rw [fit_eq_body, fit_eq_body]
  cases ha : fitBody spec sort m'.params m'.storage.reset x' with
  | error e =>
    cases hb : fitBody spec sort m.params m.storage.reset x with
    | error e' => rw [ha, hb] at h; simpa [Except.map] using h
    | ok z => rw [ha, hb] at h; simp [Except.map] at h
  | ok r =>
    cases hb : fitBody spec sort m.params m.storage.reset x with
    | error e' => rw [ha, hb] at h; simp [Except.map] at h
    | ok r' => rw [ha, hb] at h; simpa [Except.map] using h

theorem punctual_deact (d : Nat) (τ : K) (p : Params K) : Punctual d p.deact (p.later τ).deact := by
  unfold Params.deact
  have e : (p.later τ).modal = p.modal := rfl
  rw [e]
  split
  · exact punctual_modal d τ p.cfg
  · exact punctual_base d p.cfg.toCfg

theorem later_zero (p : Params K) : p.later 0 = p := by
  obtain ⟨w, n, t, pd, md, ⟨c, lo, hi, pt, r, ms, st⟩, hop⟩ := p
  cases st <;> simp [Params.later, ModalCfg.later]

end Verif.Sms
