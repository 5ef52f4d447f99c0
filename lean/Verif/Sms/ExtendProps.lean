import Verif.Sms.ExtendLemmas

/-!
# Recordings with the same beginning (C133)
-/

set_option autoImplicit false
set_option linter.unusedSectionVars false
set_option linter.unusedSimpArgs false

namespace Verif.Sms

open Verif.Tracker Verif.Learn

variable {K : Type*} [Field K] [LinearOrder K] [IsStrictOrderedRing K] [FloorRing K]

/-- C133: two recordings that begin in the same way (that end in the same way, if the analysis is backward):
a track reported for the one that is over before the last frame inside the common part is also there in the
other, for the plain tracker as it is, for the modal tracker possibly with later tracks merged to its end. -/
theorem C133_common (spec : List K → List K × List K) (sort : List (Peak K) → List Nat)
    (hsort : ∀ peaks, IsArgsort peaks (sort peaks))
    (m : Model K) (x y₁ y₂ : List K) (kw : Kwargs K) (p : Params K) (hp : p = kw.upd m.params)
    (hspec : ∀ z, z.length = p.n → (spec z).2.length = (spec z).1.length)
    (hw : p.w.sum ≠ 0) (h2 : 2 ≤ p.w.length) (hn : p.w.length ≤ p.n) (hh : 1 ≤ p.hop)
    (hk : p.modal = true → p.tracker.mergeStrategy = "average" ∨ p.tracker.mergeStrategy = "single")
    (hx : p.padded = true ∨ p.w.length ≤ x.length)
    (hstrip : p.modal = true → p.tracker.reverse = true → p.tracker.stripT = none) :
    ∃ m₁ m₂, m.fit spec sort (onward (p.modal && p.tracker.reverse) x y₁) kw = .ok m₁ ∧
      m.fit spec sort (onward (p.modal && p.tracker.reverse) x y₂) kw = .ok m₂ ∧
      ∀ u ∈ m₁.tracks, u.stop < sharedFrames p.padded p.w.length p.hop x.length →
        ∃ u' ∈ m₂.tracks, Extends u u' ∧ (p.modal = false → u' = u) := by
  obtain ⟨s, s1, _, s3, _⟩ := fit_shared spec sort hsort m x kw p hp hspec hw h2 hn hh hk hx
  obtain ⟨m₁, f1, a1⟩ := s3 y₁
  obtain ⟨m₂, f2, a2⟩ := s3 y₂
  have hr : p.reverse = true → p.tracker.stripT = none := by
    intro h
    simp only [Params.reverse, Bool.and_eq_true] at h
    exact hstrip h.1 h.2
  refine ⟨m₁, m₂, f1, f2, ?_⟩
  intro u hu hlt
  rw [← s1] at hlt
  obtain ⟨b1, b2⟩ := a1.back u hu hlt
  exact a2.old hr u b1 (b2 hr)

/-- C133: unpadded analysis of a recording and of one that goes on after it (that has more before it, if the
analysis is backward).  With the plain tracker, every track of the first recording is the beginning of a track
of the longer one.  With both trackers, the tracks of the longer recording that are over before the last frame
of the first one are among its tracks. -/
theorem C133_longer (spec : List K → List K × List K) (sort : List (Peak K) → List Nat)
    (hsort : ∀ peaks, IsArgsort peaks (sort peaks))
    (m : Model K) (x y : List K) (kw : Kwargs K) (p : Params K) (hp : p = kw.upd m.params)
    (hspec : ∀ z, z.length = p.n → (spec z).2.length = (spec z).1.length)
    (hw : p.w.sum ≠ 0) (h2 : 2 ≤ p.w.length) (hn : p.w.length ≤ p.n) (hh : 1 ≤ p.hop)
    (hk : p.modal = true → p.tracker.mergeStrategy = "average" ∨ p.tracker.mergeStrategy = "single")
    (hpad : p.padded = false) (hx : p.w.length ≤ x.length)
    (hstrip : p.modal = true → p.tracker.reverse = true → p.tracker.stripT = none) :
    ∃ m₁ m₂, m.fit spec sort x kw = .ok m₁ ∧
      m.fit spec sort (onward (p.modal && p.tracker.reverse) x y) kw = .ok m₂ ∧
      (∀ u ∈ m₁.tracks, p.modal = false ∨ u.stop < 1 + (x.length - p.w.length) / p.hop →
        ∃ u' ∈ m₂.tracks, Extends u u') ∧
      ∀ u' ∈ m₂.tracks, u'.stop < 1 + (x.length - p.w.length) / p.hop → u' ∈ m₁.tracks := by
  obtain ⟨s, s1, s2, s3, s4⟩ := fit_shared spec sort hsort m x kw p hp hspec hw h2 hn hh hk (.inr hx)
  obtain ⟨m₁, f1, g1, g2⟩ := s4 hpad
  obtain ⟨m₂, f2, a2⟩ := s3 y
  have hr : p.reverse = true → p.tracker.stripT = none := by
    intro h
    simp only [Params.reverse, Bool.and_eq_true] at h
    exact hstrip h.1 h.2
  have hN : s.frame = 1 + (x.length - p.w.length) / p.hop := by
    rw [s1, hpad]
    simp [sharedFrames, hx]
  rw [← hN]
  have hnil : onward p.reverse x [] = x := by unfold onward; split <;> simp
  have a1 : Ahead p s m₁ := by
    obtain ⟨m', f', a⟩ := s3 []
    rw [hnil, f1] at f'
    cases f'
    exact a
  refine ⟨m₁, m₂, f1, f2, ?_, ?_⟩
  · intro u hu h
    by_cases hlt : u.stop < s.frame
    · obtain ⟨b1, b2⟩ := a1.back u hu hlt
      obtain ⟨u', h1, h2, _⟩ := a2.old hr u b1 (b2 hr)
      exact ⟨u', h1, h2⟩
    · have hm : p.modal = false := h.resolve_right hlt
      have htr : m₁.tracks = s.tracks ++ (s.active.filter (trackOk p.cfg.toCfg)).map numpyTrack := by
        unfold Model.tracks
        rw [g1, g2, hm]
        rfl
      rw [htr] at hu
      rcases List.mem_append.1 hu with hu | hu
      · obtain ⟨u', h1, h2, _⟩ := a2.old hr u hu (fun n h => by simp [hm] at h)
        exact ⟨u', h1, h2⟩
      · obtain ⟨t, ht, rfl⟩ := List.mem_map.1 hu
        rw [List.mem_filter] at ht
        exact a2.active hm t ht.1 ht.2
  · intro u' hu' hlt
    obtain ⟨b1, b2⟩ := a2.back u' hu' hlt
    obtain ⟨v, hv, e, hv'⟩ := a1.old hr u' b1 (b2 hr)
    cases hm : p.modal with
    | false => rw [← hv' hm]; exact hv
    | true =>
      have htr : m₁.tracks = modalAllTracks p.cfg s := by
        unfold Model.tracks
        rw [g1, g2, hm]
        rfl
      rw [htr]
      unfold modalAllTracks
      cases hs : p.cfg.stripN with
      | none => exact List.mem_append_left _ b1
      | some n =>
        refine List.mem_filter.2 ⟨List.mem_append_left _ b1, ?_⟩
        have hrev : p.cfg.reverse = false := by
          by_contra hc
          have hc' : p.tracker.reverse = true := by simpa [Params.cfg] using hc
          have := hr (by simp [Params.reverse, hm, hc'])
          simp [ModalCfg.stripN, Params.cfg, this] at hs
        simpa [onsetOk, hrev] using b2 hr n hm hs

/-! ## Concrete cases -/

/-- Unpadded, plain tracker. -/
def exOnward : Model ℚ := { exModel false with params := { exParams with padded := false } }

/-- A track of the short recording goes on in the longer one, where a second one follows. -/
example : (exOnward.fit exSpec exSort [1, 8, 1, 8, 1, 8, 1] Kwargs.none).toOption.map
      (fun m => m.tracks.map fun u => (u.start, u.freq)) = some [(0, [some (29/24), some (29/24)])] ∧
    (exOnward.fit exSpec exSort ([1, 8, 1, 8, 1, 8, 1] ++ [8, 1, 1, 1, 1, 1, 8, 1, 8, 1, 8]) Kwargs.none).toOption.map
      (fun m => m.tracks.map fun u => (u.start, u.freq)) =
        some [(0, [some (29/24), some (29/24), some (29/24)]), (5, [some (29/24), some (29/24), some (29/24)])] := by
  constructor <;> decide +kernel

/-- Unpadded, backward modal tracker that keeps only tracks with an onset in the first frame or the second. -/
def exStrip : Model ℚ := { exModel false with params := { exParams with
  padded := false, modal := true, tracker := { exModal true "average" with
    stripT := some (1 / 10), fs := 10, minSineDur := 0, freqLo := none, freqHi := none, peakThreshold := -100 } } }

/-- The limit of C133 on `strip_t` with a backward tracker: a track that is over before the last common frame
is reported for the recording and dropped for the recording with more before it, because its onset is counted
from the end of the analysis. -/
theorem C133_backward_strip :
    (exStrip.fit exSpec exSort [1, 1, 8, 1, 8, 1, 8, 1] Kwargs.none).toOption.map
      (fun m => (m.state.frame, m.tracks.map Track.stop)) = some (3, [2]) ∧
    (exStrip.fit exSpec exSort ([1, 1, 1, 1, 1, 1] ++ [1, 1, 8, 1, 8, 1, 8, 1])
      Kwargs.none).toOption.map (fun m => (m.state.frame, m.tracks.map Track.stop)) = some (6, []) := by
  constructor <;> decide +kernel

end Verif.Sms
