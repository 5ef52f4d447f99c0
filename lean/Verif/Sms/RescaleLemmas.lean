import Verif.Tracker.RescaleLemmas
import Verif.Sms.RescaleSpec
import Verif.Sms.FitProps

/-!
# Lemmas for C134: the analysis at another sampling frequency
-/

set_option autoImplicit false
set_option linter.unusedSectionVars false
set_option linter.unusedSimpArgs false

namespace Verif.Sms

open Verif.Tracker Verif.Learn

variable {K : Type*} [Field K] [LinearOrder K] [IsStrictOrderedRing K] [FloorRing K]

theorem toPeaks_rate (c fs : K) (n : Nat) : ∀ pk : List (Option (K × K × K)),
    toPeaks (c * fs) n pk = (toPeaks fs n pk).map (List.map (Peak.rescale c 0 id)) := by
  intro pk
  induction pk with
  | nil => rfl
  | cons a pk ih =>
    cases a with
    | none => rfl
    | some a =>
      obtain ⟨loc, mag, ph⟩ := a
      simp only [toPeaks, ih]
      cases toPeaks fs n pk with
      | error e => rfl
      | ok l =>
        simp only [Except.map, List.map_cons, Peak.rescale, add_zero, id]
        rw [show loc * (c * fs) / (n : K) = c * (loc * fs / (n : K)) by ring]

theorem follows_deact (c G : K) (ψ : K → K) (hc : 0 < c) (p p' : Params K)
    (hp : p'.cfg = p.cfg.rescale c G) (hm : p'.modal = p.modal) : Follows c G ψ p.deact p'.deact := by
  unfold Params.deact
  rw [hm, hp]
  split
  · exact follows_modal c G ψ hc p.cfg
  · exact follows_base c G ψ hc p.cfg

theorem removes_deact (p : Params K) : Removes p.deact := by
  unfold Params.deact
  split
  · exact removes_modal p.cfg
  · exact removes_base p.cfg.toCfg

theorem fitLoop_rate (spec : List K → List K × List K) (sort : List (Peak K) → List Nat) (hs : LevelsOnly sort)
    (c : K) (hc : 0 < c) (p : Params K) (w : List K) : ∀ (xs : List (List K)) (s : State K) (st : Storage (Saved K)),
    Even s.active →
    fitLoop spec sort (p.rate c) w xs (s.rescale c 0 id, st) =
      (fitLoop spec sort p w xs (s, st)).map (Prod.map (State.rescale c 0 id) id) ∧
    ∀ z, fitLoop spec sort p w xs (s, st) = .ok z → Even z.1.active := by
  intro xs
  induction xs with
  | nil => intro s st h; exact ⟨rfl, fun z hz => by cases hz; exact h⟩
  | cons x xs ih =>
    intro s st h
    simp only [fitLoop]
    have e1 : (p.rate c).n = p.n := rfl
    have e2 : (p.rate c).t = p.t := rfl
    have e3 : (p.rate c).cfg = p.cfg.rescale c 0 := rfl
    have e4 : (p.rate c).cfg.fs = c * p.cfg.fs := rfl
    rw [e1, e2, e4, e3]
    cases dft spec x w p.n with
    | error e => exact ⟨rfl, fun z hz => by simp at hz⟩
    | ok mp =>
      obtain ⟨mx, px⟩ := mp
      simp only
      cases peakDetectInterp mx px (some p.t) with
      | error e => exact ⟨rfl, fun z hz => by simp at hz⟩
      | ok pk =>
        simp only [toPeaks_rate]
        cases toPeaks p.cfg.fs p.n pk with
        | error e => exact ⟨rfl, fun z hz => by simp at hz⟩
        | ok peaks =>
          simp only [Except.map]
          have hso : sort (peaks.map (Peak.rescale c 0 id)) = sort peaks := by
            apply hs
            rw [List.map_map]
            apply List.map_congr_left
            intro q _
            simp [Peak.rescale]
          obtain ⟨c1, c2⟩ := call_rescale hc (follows_deact c 0 id hc p (p.rate c) rfl rfl) (removes_deact p)
            p.cfg (sort peaks) peaks s h
          rw [hso, c1]
          cases hcl : call p.deact p.cfg.toCfg (sort peaks) peaks s with
          | error e => exact ⟨rfl, fun z hz => by simp at hz⟩
          | ok s' => exact ih s' _ (c2 s' hcl)

/-- What `fit` without keyword arguments computes. -/
def fitBody (spec : List K → List K × List K) (sort : List (Peak K) → List Nat) (p : Params K)
    (st : Storage (Saved K)) (x : List K) : Except PyErr (State K × Storage (Saved K) × List K) :=
  match normalizedWindow p.w with
  | .error e => .error e
  | .ok w' =>
    match timeFrames p.padded p.w.length p.hop (if p.reverse then x.reverse else x) with
    | .error e => .error e
    | .ok frames =>
      match fitLoop spec sort p w' frames (⟨[], [], 0⟩, st) with
      | .error e => .error e
      | .ok z => .ok (z.1, z.2, w')

theorem fit_eq_body (spec : List K → List K × List K) (sort : List (Peak K) → List Nat) (m : Model K)
    (x : List K) : m.fit spec sort x Kwargs.none =
      (fitBody spec sort m.params m.storage.reset x).map (fun z => ⟨m.params, z.1, z.2.1, some z.2.2⟩) := by
  have h0 : m.fit spec sort x Kwargs.none =
      match normalizedWindow m.params.w with
      | .error e => .error e
      | .ok w' =>
        match timeFrames m.params.padded m.params.w.length m.params.hop
            (if m.params.reverse then x.reverse else x) with
        | .error e => .error e
        | .ok frames =>
          match fitLoop spec sort m.params w' frames (⟨[], [], 0⟩, m.storage.reset) with
          | .error e => .error e
          | .ok (s, st) => .ok ⟨m.params, s, st, some w'⟩ := rfl
  rw [h0]
  unfold fitBody
  cases normalizedWindow m.params.w with
  | error e => rfl
  | ok w' =>
    simp only
    cases timeFrames m.params.padded m.params.w.length m.params.hop
        (if m.params.reverse = true then x.reverse else x) with
    | error e => rfl
    | ok frames =>
      simp only
      cases fitLoop spec sort m.params w' frames (⟨[], [], 0⟩, m.storage.reset) with
      | error e => rfl
      | ok z => rfl

theorem fitBody_rate (spec : List K → List K × List K) (sort : List (Peak K) → List Nat) (hs : LevelsOnly sort)
    (c : K) (hc : 0 < c) (p : Params K) (st : Storage (Saved K)) (x : List K) :
    fitBody spec sort (p.rate c) st x =
      (fitBody spec sort p st x).map (Prod.map (State.rescale c 0 id) id) ∧
    ∀ z, fitBody spec sort p st x = .ok z → Even z.1.active := by
  have hE : Even (⟨[], [], 0⟩ : State K).active := by intro t ht; simp at ht
  have er : (p.rate c).reverse = p.reverse := rfl
  unfold fitBody
  rw [er]
  simp only [Params.rate]
  cases normalizedWindow p.w with
  | error e => exact ⟨rfl, fun z hz => by simp at hz⟩
  | ok w' =>
    simp only
    cases timeFrames p.padded p.w.length p.hop (if p.reverse = true then x.reverse else x) with
    | error e => exact ⟨rfl, fun z hz => by simp at hz⟩
    | ok frames =>
      simp only
      obtain ⟨f1, f2⟩ := fitLoop_rate spec sort hs c hc p w' frames ⟨[], [], 0⟩ st hE
      have f1' : fitLoop spec sort { p with tracker := p.tracker.rescale c 0 } w' frames (⟨[], [], 0⟩, st) =
        (fitLoop spec sort p w' frames (⟨[], [], 0⟩, st)).map (Prod.map (State.rescale c 0 id) id) := f1
      rw [f1']
      cases hl : fitLoop spec sort p w' frames (⟨[], [], 0⟩, st) with
      | error e => exact ⟨rfl, fun z hz => by simp at hz⟩
      | ok z =>
        refine ⟨rfl, fun z' hz => ?_⟩
        cases hz
        exact f2 _ hl

theorem fit_rate (spec : List K → List K × List K) (sort : List (Peak K) → List Nat) (hs : LevelsOnly sort)
    (c : K) (hc : 0 < c) (m : Model K) (x : List K) :
    (m.rate c).fit spec sort x Kwargs.none = (m.fit spec sort x Kwargs.none).map (Model.rate c) ∧
    ∀ m', m.fit spec sort x Kwargs.none = .ok m' → Even m'.state.active ∧ m'.params = m.params := by
  obtain ⟨b1, b2⟩ := fitBody_rate spec sort hs c hc m.params m.storage.reset x
  rw [fit_eq_body, fit_eq_body]
  have e1 : (m.rate c).params = m.params.rate c := rfl
  have e2 : (m.rate c).storage = m.storage := rfl
  rw [e1, e2, b1]
  cases hb : fitBody spec sort m.params m.storage.reset x with
  | error e => exact ⟨rfl, fun m' hm => by simp [Except.map] at hm⟩
  | ok z =>
    refine ⟨rfl, fun m' hm => ?_⟩
    cases hm
    exact ⟨b2 z hb, rfl⟩

theorem tracks_rescale (c G : K) (ψ : K → K) (hc : 0 < c) (m m' : Model K)
    (hp : m'.params.cfg = m.params.cfg.rescale c G) (hm : m'.params.modal = m.params.modal)
    (hst : m'.state = m.state.rescale c G ψ) (hE : Even m.state.active) :
    m'.tracks = m.tracks.map (Track.rescale c G ψ) := by
  unfold Model.tracks
  rw [hp, hm, hst]
  split
  · exact modalAllTracks_rescale c G ψ hc _ _ hE
  · exact allTracks_rescale c G ψ hc _ _

end Verif.Sms
