import Verif.Tracker.DelaySpec
import Verif.Tracker.RescaleLemmas

/-!
# Lemmas for C135: the tracker after empty frames
-/

set_option autoImplicit false
set_option linter.unusedSectionVars false
set_option linter.unusedSimpArgs false

namespace Verif.Tracker

variable {K : Type*} [Field K] [LinearOrder K] [IsStrictOrderedRing K]

/-- The loop variables of a tracker that was late. -/
def LoopSt.delay (d : Nat) (l : LoopSt K) : LoopSt K := ⟨l.active.map (ATrack.delay d), l.freeTrack, l.freePeak⟩

theorem lastDist_delay (d : Nat) (act : List (ATrack K)) (pk : Peak K) (i : Nat) :
    lastDist (act.map (ATrack.delay d)) pk i = lastDist act pk i := by
  unfold lastDist
  rw [getE_map]
  cases getE act i <;> rfl

theorem continueOne_delay (d : Nat) (k : Cfg K) (peaks : List (Peak K)) (p : Nat) (l : LoopSt K) :
    continueOne k peaks p (l.delay d) = (continueOne k peaks p l).map (LoopSt.delay d) := by
  unfold continueOne
  cases getE peaks p with
  | error e => rfl
  | ok pk =>
    have hl : lastDist (l.delay d).active pk = lastDist l.active pk := by
      funext i; exact lastDist_delay d l.active pk i
    have e1 : (l.delay d).active = l.active.map (ATrack.delay d) := rfl
    have e2 : (l.delay d).freeTrack = l.freeTrack := rfl
    simp only [hl]
    simp only [e1, e2, List.length_map]
    cases minKey (fun x y : K => decide (x < y))
      ((List.range l.active.length).filter (fun i => l.freeTrack.getD i false)) (lastDist l.active pk) with
    | error e => rfl
    | ok o =>
      cases o with
      | none => rfl
      | some td =>
        obtain ⟨ti, v⟩ := td
        simp only
        split
        · rw [getE_map]
          cases getE l.active ti with
          | error e => rfl
          | ok t => simp [Except.map, LoopSt.delay, List.map_set, ATrack.push, ATrack.delay]
        · rfl

theorem continueLoop_delay (d : Nat) (k : Cfg K) (peaks : List (Peak K)) : ∀ (ps : List Nat) (l : LoopSt K),
    continueLoop k peaks ps (l.delay d) = (continueLoop k peaks ps l).map (LoopSt.delay d) := by
  intro ps
  induction ps with
  | nil => intro l; rfl
  | cons p ps ih =>
    intro l
    simp only [continueLoop, continueOne_delay]
    have hf : (l.delay d).freeTrack = l.freeTrack := rfl
    rw [hf]
    split
    · cases continueOne k peaks p l with
      | error e => rfl
      | ok l' => exact ih l'
    · rfl

theorem activateLoop_delay (d : Nat) (k : Cfg K) (frame : Nat) (peaks : List (Peak K)) :
    ∀ (ps : List Nat) (act : List (ATrack K)),
    activateLoop k (frame + d) peaks ps (act.map (ATrack.delay d)) =
      (activateLoop k frame peaks ps act).map (List.map (ATrack.delay d)) := by
  intro ps
  induction ps with
  | nil => intro act; rfl
  | cons p ps ih =>
    intro act
    simp only [activateLoop, List.length_map]
    split
    · rfl
    · cases getE peaks p with
      | error e => rfl
      | ok pk =>
        have := ih (act ++ [⟨frame, [pk.freq], [pk.mag], [pk.phase]⟩])
        rw [List.map_append] at this
        exact this

/-- A `deactivate` method that does the same when it is late. -/
def Punctual (d : Nat) (deact deact' : State K → Nat → Except PyErr (State K)) : Prop :=
  ∀ s i, deact' (s.delay d) i = (deact s i).map (State.delay d)

theorem deactivateLoop_delay {d : Nat} {deact deact' : State K → Nat → Except PyErr (State K)}
    (hf : Punctual d deact deact') : ∀ (is : List Nat) (s : State K),
      deactivateLoop deact' is (s.delay d) = (deactivateLoop deact is s).map (State.delay d) := by
  intro is
  induction is with
  | nil => intro s; rfl
  | cons i is ih =>
    intro s
    simp only [deactivateLoop]
    rw [hf s i]
    cases deact s i with
    | error e => rfl
    | ok s1 => exact ih s1

theorem call_delay {d : Nat} {deact deact' : State K → Nat → Except PyErr (State K)}
    (hf : Punctual d deact deact') (k : Cfg K) (order : List Nat) (peaks : List (Peak K)) (s : State K) :
    call deact' k order peaks (s.delay d) = (call deact k order peaks s).map (State.delay d) := by
  unfold call
  have e0 : (⟨(s.delay d).active, List.replicate (s.delay d).active.length true,
      List.replicate peaks.length true⟩ : LoopSt K) =
      LoopSt.delay d ⟨s.active, List.replicate s.active.length true, List.replicate peaks.length true⟩ := by
    simp [LoopSt.delay, State.delay]
  rw [e0, continueLoop_delay]
  cases continueLoop k peaks order ⟨s.active, List.replicate s.active.length true,
        List.replicate peaks.length true⟩ with
  | error e => rfl
  | ok l =>
    simp only [Except.map]
    have e1 : ({ s.delay d with active := (l.delay d).active } : State K) =
        State.delay d { s with active := l.active } := rfl
    have e2 : (l.delay d).active.length = l.active.length := by simp [LoopSt.delay]
    have e3 : (l.delay d).freeTrack = l.freeTrack := rfl
    have e4 : (l.delay d).freePeak = l.freePeak := rfl
    rw [e1, e2, e3, e4, deactivateLoop_delay hf]
    cases deactivateLoop deact
      ((List.range l.active.length).reverse.filter (fun i => l.freeTrack.getD i false))
      { s with active := l.active } with
    | error e => rfl
    | ok s1 =>
      simp only [Except.map]
      have e5 : (s1.delay d).active = s1.active.map (ATrack.delay d) := rfl
      have e6 : (s1.delay d).frame = s1.frame + d := rfl
      rw [e5, e6, activateLoop_delay]
      cases activateLoop k s1.frame peaks
          ((List.range peaks.length).filter (fun p => l.freePeak.getD p false)) s1.active with
      | error e => rfl
      | ok act => simp [Except.map, State.delay, Nat.add_right_comm]

/-- A frame without peaks, before all tracks, is only counted. -/
theorem call_empty (deact : State K → Nat → Except PyErr (State K)) (k : Cfg K) (order : List Nat) (f : Nat) :
    call deact k order [] ⟨[], [], f⟩ = .ok ⟨[], [], f + 1⟩ := by
  cases order <;> rfl

/-! ## `deactivate` -/

theorem trackOk_delay [FloorRing K] (d : Nat) (k : Cfg K) (t : ATrack K) : trackOk k (t.delay d) = trackOk k t := rfl

theorem modalTrackOk_delay [FloorRing K] (d : Nat) (τ : K) (k : ModalCfg K) (t : ATrack K) :
    modalTrackOk (k.later τ) (t.delay d) = modalTrackOk k t := rfl

theorem punctual_base [FloorRing K] (d : Nat) (k : Cfg K) : Punctual d (deactivate k) (deactivate k) := by
  intro s i
  unfold deactivate
  have e5 : (s.delay d).active = s.active.map (ATrack.delay d) := rfl
  rw [e5, popE_map]
  cases popE s.active i with
  | error e => rfl
  | ok tr =>
    obtain ⟨t, rest⟩ := tr
    simp only [Except.map, trackOk_delay]
    by_cases h : trackOk k t = true
    · simp [h, State.delay, numpyTrack, ATrack.delay, Track.delay]
    · simp [h, State.delay]

theorem diff_delay (d : Nat) (strategy : String)
    (g : Track K → Track K → Except PyErr (Option K)) (hg : freqDiffFunction strategy = .ok g) (t u : Track K) :
    g (t.delay d) (u.delay d) = g t u := by
  unfold freqDiffFunction at hg
  split at hg
  · cases hg; rfl
  · split at hg
    · cases hg; rfl
    · simp at hg

theorem mergeTrack_delay (d : Nat) (u t : Track K) :
    mergeTrack (u.delay d) (t.delay d) = (mergeTrack u t).delay d := by
  have h : t.start + d - (u.start + d) - u.mag.length = t.start - u.start - u.mag.length := by omega
  simp [mergeTrack, Track.delay, h]

theorem finish_delay [FloorRing K] (d : Nat) (τ : K) (k : ModalCfg K) (tr : List (Track K)) (a : ATrack K) :
    finish (k.later τ) (tr.map (Track.delay d)) (a.delay d) = (finish k tr a).map (List.map (Track.delay d)) := by
  have hn : numpyTrack (a.delay d) = (numpyTrack a).delay d := rfl
  unfold finish
  simp only [modalTrackOk_delay, hn]
  split
  · have e0 : (k.later τ).mergeStrategy = k.mergeStrategy := rfl
    rw [e0]
    cases hd : freqDiffFunction (K := K) k.mergeStrategy with
    | error e => rfl
    | ok g =>
      simp only
      have hz : (tr.map (Track.delay d)).zipIdx.filter (fun ui => decide (ui.1.start + ui.1.mag.length <
            ((numpyTrack a).delay d).start)) =
          (tr.zipIdx.filter (fun ui => decide (ui.1.start + ui.1.mag.length < (numpyTrack a).start))).map
            (Prod.map (Track.delay d) id) := by
        rw [List.zipIdx_map, List.filter_map]
        congr 1
        apply List.filter_congr
        intro ui _
        have h : ui.1.start + d + ui.1.mag.length < (numpyTrack a).start + d ↔
          ui.1.start + ui.1.mag.length < (numpyTrack a).start := by omega
        exact decide_eq_decide.2 h
      rw [hz, minKey_map (Prod.map (Track.delay d) id) id nanLt nanLt
        (fun ui => g ui.1 (numpyTrack a)) (fun ui => g ui.1 ((numpyTrack a).delay d)) (fun _ _ => rfl) _
        (fun ui _ => by
          have := diff_delay d _ g hd ui.1 (numpyTrack a)
          simp only [Prod.map]
          rw [this]
          cases g ui.1 (numpyTrack a) <;> rfl)]
      cases minKey nanLt (tr.zipIdx.filter (fun ui => decide (ui.1.start + ui.1.mag.length <
          (numpyTrack a).start))) (fun ui => g ui.1 (numpyTrack a)) with
      | error e => rfl
      | ok o =>
        cases o with
        | none => simp [Except.map]
        | some uid =>
          obtain ⟨⟨u, i⟩, df⟩ := uid
          simp only [Except.map, Option.map_some, Prod.map, id]
          have e1 : (a.delay d).freq = a.freq := rfl
          rw [e1]
          cases getE a.freq 0 with
          | error e => rfl
          | ok f0 =>
            have e2 : (k.later τ).toCfg.df f0 = k.toCfg.df f0 := rfl
            simp only [e2]
            split
            · simp [mergeTrack_delay, List.map_set]
            · simp
  · rfl

theorem punctual_modal [FloorRing K] (d : Nat) (τ : K) (k : ModalCfg K) :
    Punctual d (modalDeactivate k) (modalDeactivate (k.later τ)) := by
  intro s i
  unfold modalDeactivate
  have e5 : (s.delay d).active = s.active.map (ATrack.delay d) := rfl
  have e6 : (s.delay d).tracks = s.tracks.map (Track.delay d) := rfl
  rw [e5, popE_map]
  cases popE s.active i with
  | error e => rfl
  | ok tr =>
    obtain ⟨t, rest⟩ := tr
    simp only [Except.map]
    rw [e6, finish_delay]
    cases finish k s.tracks t <;> rfl

/-! ## Results -/

theorem allTracks_delay [FloorRing K] (d : Nat) (k : Cfg K) (s : State K) :
    allTracks k (s.delay d) = (allTracks k s).map (Track.delay d) := by
  unfold allTracks
  simp only [State.delay, List.map_append, List.filter_map, List.map_map]
  rfl

theorem stripN_later [FloorRing K] (d : Nat) (k : ModalCfg K) (hfs : 0 < k.fs) (hh : 0 < k.h) :
    (k.later ((d : K) * k.h / k.fs)).stripN = k.stripN.map (· + (d : ℤ)) := by
  unfold ModalCfg.stripN
  simp only [ModalCfg.later]
  cases k.stripT with
  | none => rfl
  | some t =>
    simp only [Option.map_some, Option.some.injEq, Cfg.frameRate]
    rw [show (t + (d : K) * k.h / k.fs) * (k.fs / k.h) = t * (k.fs / k.h) + (d : K) by
      field_simp]
    rw [Int.ceil_add_natCast]

/-- All tracks of the modal tracker before the strip filter. -/
theorem modal_list_delay [FloorRing K] (d : Nat) (τ : K) (k : ModalCfg K) (s : State K) :
    (s.delay d).tracks ++ ((s.delay d).active.filter (modalTrackOk (k.later τ))).map numpyTrack =
      (s.tracks ++ (s.active.filter (modalTrackOk k)).map numpyTrack).map (Track.delay d) := by
  simp only [State.delay, List.map_append, List.filter_map, List.map_map]
  rfl

theorem modalAllTracks_before [FloorRing K] (d : Nat) (k : ModalCfg K) (s : State K) (hr : k.reverse = false)
    (hfs : 0 < k.fs) (hh : 0 < k.h) :
    modalAllTracks (k.later ((d : K) * k.h / k.fs)) (s.delay d) = (modalAllTracks k s).map (Track.delay d) := by
  unfold modalAllTracks
  simp only [modal_list_delay, stripN_later d k hfs hh]
  cases k.stripN with
  | none => rfl
  | some n =>
    simp only [Option.map_some, List.filter_map]
    congr 1
    apply List.filter_congr
    intro u _
    simp [onsetOk, Track.delay, ModalCfg.later, State.delay, hr]

theorem modalAllTracks_after [FloorRing K] (d : Nat) (k : ModalCfg K) (s : State K) (hr : k.reverse = true) :
    modalAllTracks k (s.delay d) = (modalAllTracks k s).map (Track.delay d) := by
  have hl := modal_list_delay d 0 k s
  have h0 : (k.later 0) = k := by
    cases k with
    | mk c lo hi pt r ms st => cases st <;> simp [ModalCfg.later]
  rw [h0] at hl
  unfold modalAllTracks
  simp only [hl]
  cases k.stripN with
  | none => rfl
  | some n =>
    simp only [List.filter_map]
    congr 1
    apply List.filter_congr
    intro u _
    simp only [onsetOk, Track.delay, State.delay, hr, Function.comp, if_true, decide_eq_decide]
    push_cast
    constructor <;> intro h <;> linarith

end Verif.Tracker
