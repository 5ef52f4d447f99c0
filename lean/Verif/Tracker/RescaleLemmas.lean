import Mathlib.Tactic.Ring
import Mathlib.Tactic.Linarith
import Mathlib.Tactic.FieldSimp
import Verif.Tracker.RescaleSpec

/-!
# Lemmas for C134: the tracker in other units
-/

set_option autoImplicit false
set_option linter.unusedSectionVars false
set_option linter.unusedSimpArgs false

namespace Verif.Tracker

theorem getE_map {α β : Type*} (f : α → β) (l : List α) (i : Nat) :
    getE (l.map f) i = (getE l i).map f := by
  unfold getE
  rw [List.getElem?_map]
  cases l[i]? <;> rfl

theorem lastE_map {α β : Type*} (f : α → β) (l : List α) : lastE (l.map f) = (lastE l).map f := by
  unfold lastE
  rw [List.getLast?_map]
  cases l.getLast? <;> rfl

theorem minKeyLoop_map {α β V W : Type*} (f : α → β) (g : V → W) (lt : V → V → Bool) (lt' : W → W → Bool)
    (key : α → Except PyErr V) (key' : β → Except PyErr W) (hlt : ∀ x y, lt' (g x) (g y) = lt x y) :
    ∀ (l : List α), (∀ a ∈ l, key' (f a) = (key a).map g) → ∀ acc : Option (α × V),
      minKeyLoop lt' key' (l.map f) (acc.map (Prod.map f g)) =
        (minKeyLoop lt key l acc).map (Option.map (Prod.map f g)) := by
  intro l
  induction l with
  | nil => intro _ acc; rfl
  | cons a l ih =>
    intro hk acc
    have ih' := ih (fun b hb => hk b (by simp [hb]))
    rw [List.map_cons]
    simp only [minKeyLoop]
    rw [hk a (by simp)]
    cases key a with
    | error e => rfl
    | ok x =>
      cases acc with
      | none => exact ih' (some (a, x))
      | some ax =>
        obtain ⟨b, y⟩ := ax
        simp only [Except.map, Option.map_some, Prod.map, hlt]
        split
        · exact ih' (some (a, x))
        · exact ih' (some (b, y))

theorem minKey_map {α β V W : Type*} (f : α → β) (g : V → W) (lt : V → V → Bool) (lt' : W → W → Bool)
    (key : α → Except PyErr V) (key' : β → Except PyErr W) (hlt : ∀ x y, lt' (g x) (g y) = lt x y)
    (l : List α) (hk : ∀ a ∈ l, key' (f a) = (key a).map g) :
    minKey lt' (l.map f) key' = (minKey lt l key).map (Option.map (Prod.map f g)) :=
  minKeyLoop_map f g lt lt' key key' hlt l hk none

variable {K : Type*} [Field K] [LinearOrder K] [IsStrictOrderedRing K]

theorem df_rescale (c G : K) (k : ModalCfg K) (f : K) :
    (k.rescale c G).toCfg.df (c * f) = c * k.toCfg.df f := by
  simp only [ModalCfg.rescale, Cfg.df]
  ring

theorem frameRate_rescale (c G : K) (k : ModalCfg K) :
    (k.rescale c G).toCfg.frameRate = c * k.toCfg.frameRate := by
  simp only [ModalCfg.rescale, Cfg.frameRate]
  ring

theorem minSineLen_rescale [FloorRing K] (c G : K) (hc : 0 < c) (k : ModalCfg K) :
    (k.rescale c G).toCfg.minSineLen = k.toCfg.minSineLen := by
  unfold Cfg.minSineLen
  rw [frameRate_rescale]
  have : (k.rescale c G).toCfg.minSineDur * (c * k.toCfg.frameRate) =
      k.toCfg.minSineDur * k.toCfg.frameRate := by
    simp only [ModalCfg.rescale]
    field_simp
  rw [this]

theorem stripN_rescale [FloorRing K] (c G : K) (hc : 0 < c) (k : ModalCfg K) :
    (k.rescale c G).stripN = k.stripN := by
  unfold ModalCfg.stripN
  rw [frameRate_rescale]
  simp only [ModalCfg.rescale]
  cases k.stripT with
  | none => rfl
  | some t =>
    simp only [Option.map_some]
    rw [show t / c * (c * k.toCfg.frameRate) = t * k.toCfg.frameRate by field_simp]

theorem trackOk_rescale [FloorRing K] (c G : K) (ψ : K → K) (hc : 0 < c) (k : ModalCfg K) (t : ATrack K) :
    trackOk (k.rescale c G).toCfg (t.rescale c G ψ) = trackOk k.toCfg t := by
  unfold trackOk
  rw [minSineLen_rescale c G hc]
  simp [ATrack.rescale]

theorem numpyTrack_rescale (c G : K) (ψ : K → K) (t : ATrack K) :
    numpyTrack (t.rescale c G ψ) = (numpyTrack t).rescale c G ψ := by
  simp [numpyTrack, ATrack.rescale, Track.rescale, Function.comp_def]

theorem push_rescale (c G : K) (ψ : K → K) (t : ATrack K) (p : Peak K) :
    (t.rescale c G ψ).push (p.rescale c G ψ) = (t.push p).rescale c G ψ := by
  simp [ATrack.push, ATrack.rescale, Peak.rescale]

theorem lastDist_rescale (c G : K) (ψ : K → K) (hc : 0 < c) (act : List (ATrack K)) (pk : Peak K) (i : Nat) :
    lastDist (act.map (ATrack.rescale c G ψ)) (pk.rescale c G ψ) i = (lastDist act pk i).map (c * ·) := by
  unfold lastDist
  rw [getE_map]
  cases getE act i with
  | error e => rfl
  | ok t =>
    simp only [Except.map, ATrack.rescale, Peak.rescale]
    rw [lastE_map]
    cases lastE t.freq with
    | error e => rfl
    | ok f =>
      simp only [Except.map]
      rw [← mul_sub, abs_mul, abs_of_pos hc]

/-- The loop variables in other units. -/
def LoopSt.rescale (c G : K) (ψ : K → K) (l : LoopSt K) : LoopSt K :=
  ⟨l.active.map (ATrack.rescale c G ψ), l.freeTrack, l.freePeak⟩

theorem continueOne_rescale (c G : K) (ψ : K → K) (hc : 0 < c) (k : ModalCfg K) (peaks : List (Peak K))
    (p : Nat) (l : LoopSt K) :
    continueOne (k.rescale c G).toCfg (peaks.map (Peak.rescale c G ψ)) p (l.rescale c G ψ) =
      (continueOne k.toCfg peaks p l).map (LoopSt.rescale c G ψ) := by
  unfold continueOne
  rw [getE_map]
  cases getE peaks p with
  | error e => rfl
  | ok pk =>
    simp only [Except.map, LoopSt.rescale, List.length_map]
    have hm := minKey_map (id : Nat → Nat) (c * ·) (fun x y : K => decide (x < y)) (fun x y : K => decide (x < y))
      (lastDist l.active pk) (lastDist (l.active.map (ATrack.rescale c G ψ)) (pk.rescale c G ψ))
      (fun x y => by simp [mul_lt_mul_iff_right₀ hc])
      ((List.range l.active.length).filter (fun i => l.freeTrack.getD i false))
      (fun i _ => lastDist_rescale c G ψ hc l.active pk i)
    rw [List.map_id] at hm
    rw [hm]
    cases minKey (fun x y : K => decide (x < y))
      ((List.range l.active.length).filter (fun i => l.freeTrack.getD i false)) (lastDist l.active pk) with
    | error e => rfl
    | ok o =>
      cases o with
      | none => rfl
      | some td =>
        obtain ⟨ti, d⟩ := td
        have hdf : (k.rescale c G).toCfg.df (pk.rescale c G ψ).freq = c * k.toCfg.df pk.freq :=
          df_rescale c G k pk.freq
        simp only [Except.map, Option.map_some, Prod.map, id, hdf, mul_lt_mul_iff_right₀ hc]
        split
        · rw [getE_map]
          cases getE l.active ti with
          | error e => rfl
          | ok t =>
            simp only [Except.map, LoopSt.rescale, List.map_set, push_rescale]
        · rfl

theorem continueLoop_rescale (c G : K) (ψ : K → K) (hc : 0 < c) (k : ModalCfg K) (peaks : List (Peak K)) :
    ∀ (ps : List Nat) (l : LoopSt K),
    continueLoop (k.rescale c G).toCfg (peaks.map (Peak.rescale c G ψ)) ps (l.rescale c G ψ) =
      (continueLoop k.toCfg peaks ps l).map (LoopSt.rescale c G ψ) := by
  intro ps
  induction ps with
  | nil => intro l; rfl
  | cons p ps ih =>
    intro l
    simp only [continueLoop]
    rw [continueOne_rescale c G ψ hc]
    have hf : (l.rescale c G ψ).freeTrack = l.freeTrack := rfl
    rw [hf]
    split
    · cases continueOne k.toCfg peaks p l with
      | error e => rfl
      | ok l' => exact ih l'
    · rfl

theorem activateLoop_rescale (c G : K) (ψ : K → K) (k : ModalCfg K) (frame : Nat) (peaks : List (Peak K)) :
    ∀ (ps : List Nat) (act : List (ATrack K)),
    activateLoop (k.rescale c G).toCfg frame (peaks.map (Peak.rescale c G ψ)) ps
        (act.map (ATrack.rescale c G ψ)) =
      (activateLoop k.toCfg frame peaks ps act).map (List.map (ATrack.rescale c G ψ)) := by
  intro ps
  induction ps with
  | nil => intro act; rfl
  | cons p ps ih =>
    intro act
    simp only [activateLoop, List.length_map]
    have hmax : (k.rescale c G).toCfg.maxNSines = k.toCfg.maxNSines := rfl
    rw [hmax]
    split
    · rfl
    · rw [getE_map]
      cases getE peaks p with
      | error e => rfl
      | ok pk =>
        simp only [Except.map]
        have := ih (act ++ [⟨frame, [pk.freq], [pk.mag], [pk.phase]⟩])
        rw [List.map_append] at this
        exact this

/-- All active tracks have as many levels as frequencies. -/
def Even (act : List (ATrack K)) : Prop := ∀ t ∈ act, t.mag.length = t.freq.length

theorem even_set {act : List (ATrack K)} (h : Even act) {t : ATrack K} (ht : t.mag.length = t.freq.length)
    (i : Nat) : Even (act.set i t) := by
  intro u hu
  rcases List.mem_or_eq_of_mem_set hu with hu | rfl
  · exact h u hu
  · exact ht

theorem even_continueOne (k : Cfg K) (peaks : List (Peak K)) (p : Nat) (l l' : LoopSt K) (h : Even l.active)
    (hr : continueOne k peaks p l = .ok l') : Even l'.active := by
  unfold continueOne at hr
  split at hr
  · simp at hr
  · split at hr
    · simp at hr
    · simp at hr
    · split at hr
      · split at hr
        · simp at hr
        · rename_i t ht
          cases hr
          apply even_set h
          have hmem : t ∈ l.active := by
            unfold getE at ht
            split at ht
            · rename_i hg; cases ht; exact List.mem_of_getElem? hg
            · simp at ht
          simp [ATrack.push, h t hmem]
      · cases hr; exact h

theorem even_continueLoop (k : Cfg K) (peaks : List (Peak K)) : ∀ (ps : List Nat) (l l' : LoopSt K),
    Even l.active → continueLoop k peaks ps l = .ok l' → Even l'.active := by
  intro ps
  induction ps with
  | nil => intro l l' h hr; cases hr; exact h
  | cons p ps ih =>
    intro l l' h hr
    simp only [continueLoop] at hr
    split at hr
    · split at hr
      · simp at hr
      · rename_i l1 h1
        exact ih l1 l' (even_continueOne k peaks p l l1 h h1) hr
    · cases hr; exact h

theorem even_activateLoop (k : Cfg K) (frame : Nat) (peaks : List (Peak K)) :
    ∀ (ps : List Nat) (act act' : List (ATrack K)), Even act →
      activateLoop k frame peaks ps act = .ok act' → Even act' := by
  intro ps
  induction ps with
  | nil => intro act act' h hr; cases hr; exact h
  | cons p ps ih =>
    intro act act' h hr
    simp only [activateLoop] at hr
    split at hr
    · cases hr; exact h
    · split at hr
      · simp at hr
      · refine ih _ _ ?_ hr
        intro t ht
        rcases List.mem_append.1 ht with ht | ht
        · exact h t ht
        · rw [List.mem_singleton.1 ht]; rfl

/-- `deactivate` removes the track from the active ones. -/
def Removes (deact : State K → Nat → Except PyErr (State K)) : Prop :=
  ∀ s i s', deact s i = .ok s' → s'.active = s.active.eraseIdx i

theorem removes_base [FloorRing K] (k : Cfg K) : Removes (deactivate k) := by
  intro s i s' h
  unfold deactivate popE at h
  split at h
  · simp at h
  · rename_i hp
    split at hp
    · cases hp
      split at h <;> cases h <;> rfl
    · simp at hp

theorem removes_modal [FloorRing K] (k : ModalCfg K) : Removes (modalDeactivate k) := by
  intro s i s' h
  unfold modalDeactivate popE at h
  split at h
  · simp at h
  · rename_i hp
    split at hp
    · cases hp
      split at h
      · simp at h
      · cases h; rfl
    · simp at hp

/-- The two `deactivate` methods agree up to the units. -/
def Follows (c G : K) (ψ : K → K) (deact deact' : State K → Nat → Except PyErr (State K)) : Prop :=
  ∀ s i, Even s.active → deact' (s.rescale c G ψ) i = (deact s i).map (State.rescale c G ψ)

theorem deactivateLoop_rescale {c G : K} {ψ : K → K} {deact deact' : State K → Nat → Except PyErr (State K)}
    (hf : Follows c G ψ deact deact') (hr : Removes deact) : ∀ (is : List Nat) (s : State K), Even s.active →
      deactivateLoop deact' is (s.rescale c G ψ) = (deactivateLoop deact is s).map (State.rescale c G ψ) ∧
      ∀ s', deactivateLoop deact is s = .ok s' → Even s'.active := by
  intro is
  induction is with
  | nil => intro s h; exact ⟨rfl, fun s' hs => by cases hs; exact h⟩
  | cons i is ih =>
    intro s h
    simp only [deactivateLoop]
    rw [hf s i h]
    cases hd : deact s i with
    | error e => exact ⟨rfl, fun s' hs => by simp at hs⟩
    | ok s1 =>
      apply ih
      rw [hr s i s1 hd]
      exact fun t ht => h t (List.mem_of_mem_eraseIdx ht)

theorem call_rescale {c G : K} {ψ : K → K} (hc : 0 < c) {deact deact' : State K → Nat → Except PyErr (State K)}
    (hf : Follows c G ψ deact deact') (hr : Removes deact) (k : ModalCfg K) (order : List Nat)
    (peaks : List (Peak K)) (s : State K) (h : Even s.active) :
    call deact' (k.rescale c G).toCfg order (peaks.map (Peak.rescale c G ψ)) (s.rescale c G ψ) =
      (call deact k.toCfg order peaks s).map (State.rescale c G ψ) ∧
    ∀ s', call deact k.toCfg order peaks s = .ok s' → Even s'.active := by
  unfold call
  have e0 : (⟨(s.rescale c G ψ).active, List.replicate (s.rescale c G ψ).active.length true,
      List.replicate (peaks.map (Peak.rescale c G ψ)).length true⟩ : LoopSt K) =
      LoopSt.rescale c G ψ ⟨s.active, List.replicate s.active.length true,
        List.replicate peaks.length true⟩ := by
    simp [LoopSt.rescale, State.rescale]
  rw [e0, continueLoop_rescale c G ψ hc]
  cases hl : continueLoop k.toCfg peaks order ⟨s.active, List.replicate s.active.length true,
        List.replicate peaks.length true⟩ with
  | error e => exact ⟨rfl, fun s' hs => by simp at hs⟩
  | ok l =>
    have hle := even_continueLoop k.toCfg peaks order _ l h hl
    simp only [Except.map]
    have e1 : ({ s.rescale c G ψ with active := (l.rescale c G ψ).active } : State K) =
        State.rescale c G ψ { s with active := l.active } := rfl
    have e2 : (l.rescale c G ψ).active.length = l.active.length := by simp [LoopSt.rescale]
    have e3 : (l.rescale c G ψ).freeTrack = l.freeTrack := rfl
    have e4 : (l.rescale c G ψ).freePeak = l.freePeak := rfl
    obtain ⟨d1, d2⟩ := deactivateLoop_rescale hf hr
      ((List.range l.active.length).reverse.filter (fun i => l.freeTrack.getD i false))
      { s with active := l.active } hle
    rw [e1, e2, e3, e4, d1]
    cases hdl : deactivateLoop deact
      ((List.range l.active.length).reverse.filter (fun i => l.freeTrack.getD i false))
      { s with active := l.active } with
    | error e => exact ⟨rfl, fun s' hs => by simp at hs⟩
    | ok s1 =>
      have hs1 := d2 s1 hdl
      simp only [Except.map, List.length_map]
      have e5 : (s1.rescale c G ψ).active = s1.active.map (ATrack.rescale c G ψ) := rfl
      have e6 : (s1.rescale c G ψ).frame = s1.frame := rfl
      rw [e5, e6, activateLoop_rescale]
      cases hal : activateLoop k.toCfg s1.frame peaks
          ((List.range peaks.length).filter (fun p => l.freePeak.getD p false)) s1.active with
      | error e => exact ⟨rfl, fun s' hs => by simp at hs⟩
      | ok act =>
        refine ⟨rfl, fun s' hs => ?_⟩
        cases hs
        exact even_activateLoop k.toCfg _ peaks _ _ _ hs1 hal

/-! ## `deactivate` -/

theorem popE_map {α β : Type*} (f : α → β) (l : List α) (i : Nat) :
    popE (l.map f) i = (popE l i).map (fun p => (f p.1, p.2.map f)) := by
  unfold popE
  rw [List.getElem?_map]
  cases l[i]? with
  | none => rfl
  | some a => simp [Except.map, List.eraseIdx_map]

theorem follows_base [FloorRing K] (c G : K) (ψ : K → K) (hc : 0 < c) (k : ModalCfg K) :
    Follows c G ψ (deactivate k.toCfg) (deactivate (k.rescale c G).toCfg) := by
  intro s i _
  unfold deactivate
  have e5 : (s.rescale c G ψ).active = s.active.map (ATrack.rescale c G ψ) := rfl
  rw [e5, popE_map]
  cases popE s.active i with
  | error e => rfl
  | ok tr =>
    obtain ⟨t, rest⟩ := tr
    simp only [Except.map, trackOk_rescale c G ψ hc]
    split
    · simp [State.rescale, numpyTrack_rescale]
    · rfl

theorem sum_map_mul_const (c : K) (l : List K) : (l.map (c * ·)).sum = c * l.sum := by
  induction l with
  | nil => simp
  | cons a l ih => simp only [List.map_cons, List.sum_cons, ih]; ring

theorem mean_mul (c : K) (l : List K) : mean (l.map (c * ·)) = c * mean l := by
  unfold mean
  rw [sum_map_mul_const, List.length_map, mul_div_assoc]

theorem sum_map_add_const (G : K) (l : List K) : (l.map (· + G)).sum = l.sum + l.length * G := by
  induction l with
  | nil => simp
  | cons a l ih => simp only [List.map_cons, List.sum_cons, ih, List.length_cons]; push_cast; ring

theorem mean_add (G : K) (l : List K) (h : l ≠ []) : mean (l.map (· + G)) = mean l + G := by
  unfold mean
  rw [sum_map_add_const, List.length_map]
  have : (l.length : K) ≠ 0 := by
    have := List.length_pos_iff.2 h
    exact_mod_cast this.ne'
  field_simp

theorem olsSlope_add (G : K) (xs ys : List K) (h : ys ≠ []) :
    olsSlope xs (ys.map (· + G)) = olsSlope xs ys := by
  unfold olsSlope
  rw [mean_add G ys h, List.zip_map_right, List.map_map]
  congr 2
  apply List.map_congr_left
  intro p _
  simp only [Function.comp, Prod.map, id]
  ring

theorem olsIntercept_add (G : K) (xs ys : List K) (h : ys ≠ []) :
    olsIntercept xs (ys.map (· + G)) = olsIntercept xs ys + G := by
  unfold olsIntercept
  rw [olsSlope_add G xs ys h, mean_add G ys h]
  ring

theorem modalTrackOk_rescale [FloorRing K] (c G : K) (ψ : K → K) (hc : 0 < c) (k : ModalCfg K) (t : ATrack K)
    (h : t.mag.length = t.freq.length) :
    modalTrackOk (k.rescale c G) (t.rescale c G ψ) = modalTrackOk k t := by
  unfold modalTrackOk
  rw [trackOk_rescale c G ψ hc]
  cases hok : trackOk k.toCfg t with
  | false => rfl
  | true =>
    have hne : t.mag ≠ [] := by
      have h2 : (2 : ℤ) ≤ t.freq.length := by
        unfold trackOk Cfg.minSineLen at hok
        rw [decide_eq_true_eq] at hok
        exact le_trans (le_max_left _ _) hok
      intro hc'
      rw [hc'] at h
      simp at h
      rw [← h] at h2
      simp at h2
    have hm : mean (t.rescale c G ψ).freq = c * mean t.freq := mean_mul c t.freq
    have e1 : (k.rescale c G).freqLo = k.freqLo.map (c * ·) := rfl
    have e2 : (k.rescale c G).freqHi = k.freqHi.map (c * ·) := rfl
    have e3 : (k.rescale c G).peakThreshold = k.peakThreshold + G := rfl
    have e4 : (k.rescale c G).reverse = k.reverse := rfl
    have e5 : (t.rescale c G ψ).mag = t.mag.map (· + G) := rfl
    simp only [hm, e1, e2, e3, e4, e5, List.length_map, olsSlope_add G _ _ hne, olsIntercept_add G _ _ hne,
      add_lt_add_iff_right]
    cases k.freqLo <;> cases k.freqHi <;>
      simp only [Option.map_some, Option.map_none, gt_iff_lt, mul_lt_mul_iff_right₀ hc]

/-! ## Merging -/

theorem filterMap_id_rescale (c : K) (l : List (Option K)) :
    (l.map (Option.map (c * ·))).filterMap id = (l.filterMap id).map (c * ·) := by
  rw [List.filterMap_map, List.map_filterMap]
  rfl

theorem nanmean_rescale (c : K) (l : List (Option K)) :
    nanmean (l.map (Option.map (c * ·))) = (nanmean l).map (c * ·) := by
  unfold nanmean
  rw [filterMap_id_rescale]
  cases l.filterMap id with
  | nil => rfl
  | cons a as =>
    have := mean_mul c (a :: as)
    rw [List.map_cons] at this ⊢
    simp only [Option.map_some, this]

theorem abs_rescale (c : K) (hc : 0 < c) (a b : K) : |c * a - c * b| = c * |a - b| := by
  rw [← mul_sub, abs_mul, abs_of_pos hc]

theorem diff_rescale (c G : K) (ψ : K → K) (hc : 0 < c) (strategy : String)
    (d : Track K → Track K → Except PyErr (Option K)) (hd : freqDiffFunction strategy = .ok d) (t u : Track K) :
    d (t.rescale c G ψ) (u.rescale c G ψ) = (d t u).map (Option.map (c * ·)) := by
  unfold freqDiffFunction at hd
  split at hd
  · cases hd
    unfold trackDiffSingle
    simp only [Track.rescale]
    rw [lastE_map]
    cases lastE t.freq with
    | error e => rfl
    | ok a =>
      simp only [Except.map]
      rw [getE_map]
      cases getE u.freq 0 with
      | error e => rfl
      | ok b =>
        cases a <;> cases b <;> simp [Except.map, abs_rescale c hc]
  · split at hd
    · cases hd
      unfold trackDiffAvg
      simp only [Track.rescale, nanmean_rescale]
      cases nanmean t.freq <;> cases nanmean u.freq <;> simp [Except.map, abs_rescale c hc]
    · simp at hd

theorem mergeTrack_rescale (c G : K) (ψ : K → K) (u t : Track K) :
    mergeTrack (u.rescale c G ψ) (t.rescale c G ψ) = (mergeTrack u t).rescale c G ψ := by
  simp [mergeTrack, Track.rescale]

theorem nanLt_rescale (c : K) (hc : 0 < c) (x y : Option K) :
    nanLt (x.map (c * ·)) (y.map (c * ·)) = nanLt x y := by
  cases x <;> cases y <;> simp [nanLt, mul_lt_mul_iff_right₀ hc]

theorem finish_rescale [FloorRing K] (c G : K) (ψ : K → K) (hc : 0 < c) (k : ModalCfg K) (tr : List (Track K))
    (a : ATrack K) (h : a.mag.length = a.freq.length) :
    finish (k.rescale c G) (tr.map (Track.rescale c G ψ)) (a.rescale c G ψ) =
      (finish k tr a).map (List.map (Track.rescale c G ψ)) := by
  unfold finish
  simp only [modalTrackOk_rescale c G ψ hc k a h, numpyTrack_rescale]
  split
  · have e0 : (k.rescale c G).mergeStrategy = k.mergeStrategy := rfl
    rw [e0]
    cases hd : freqDiffFunction (K := K) k.mergeStrategy with
    | error e => rfl
    | ok d =>
      simp only
      have hz : (tr.map (Track.rescale c G ψ)).zipIdx.filter (fun ui => decide (ui.1.start + ui.1.mag.length <
            ((numpyTrack a).rescale c G ψ).start)) =
          (tr.zipIdx.filter (fun ui => decide (ui.1.start + ui.1.mag.length < (numpyTrack a).start))).map
            (Prod.map (Track.rescale c G ψ) id) := by
        rw [List.zipIdx_map, List.filter_map]
        congr 1
        apply List.filter_congr
        intro ui _
        simp [Track.rescale]
      rw [hz, minKey_map (Prod.map (Track.rescale c G ψ) id) (Option.map (c * ·)) nanLt nanLt
        (fun ui => d ui.1 (numpyTrack a)) (fun ui => d ui.1 ((numpyTrack a).rescale c G ψ))
        (nanLt_rescale c hc) _ (fun ui _ => diff_rescale c G ψ hc _ d hd ui.1 _)]
      cases minKey nanLt (tr.zipIdx.filter (fun ui => decide (ui.1.start + ui.1.mag.length <
          (numpyTrack a).start))) (fun ui => d ui.1 (numpyTrack a)) with
      | error e => rfl
      | ok o =>
        cases o with
        | none => simp [Except.map]
        | some uid =>
          obtain ⟨⟨u, i⟩, df⟩ := uid
          simp only [Except.map, Option.map_some, Prod.map, id]
          have e1 : (a.rescale c G ψ).freq = a.freq.map (c * ·) := rfl
          rw [e1, getE_map]
          cases getE a.freq 0 with
          | error e => rfl
          | ok f0 =>
            simp only [Except.map]
            rw [df_rescale]
            have := nanLt_rescale c hc df (some (k.toCfg.df f0))
            rw [Option.map_some] at this
            rw [this]
            split
            · simp [mergeTrack_rescale, List.map_set]
            · simp
  · rfl

theorem follows_modal [FloorRing K] (c G : K) (ψ : K → K) (hc : 0 < c) (k : ModalCfg K) :
    Follows c G ψ (modalDeactivate k) (modalDeactivate (k.rescale c G)) := by
  intro s i hE
  unfold modalDeactivate
  have e5 : (s.rescale c G ψ).active = s.active.map (ATrack.rescale c G ψ) := rfl
  have e6 : (s.rescale c G ψ).tracks = s.tracks.map (Track.rescale c G ψ) := rfl
  rw [e5, popE_map]
  cases hp : popE s.active i with
  | error e => rfl
  | ok tr =>
    obtain ⟨t, rest⟩ := tr
    have ht : t.mag.length = t.freq.length := by
      unfold popE at hp
      split at hp
      · rename_i hg; cases hp; exact hE t (List.mem_of_getElem? hg)
      · simp at hp
    simp only [Except.map]
    rw [e6, finish_rescale c G ψ hc k s.tracks t ht]
    cases finish k s.tracks t with
    | error e => rfl
    | ok tracks => rfl

/-! ## Results -/

theorem allTracks_rescale [FloorRing K] (c G : K) (ψ : K → K) (hc : 0 < c) (k : ModalCfg K) (s : State K) :
    allTracks (k.rescale c G).toCfg (s.rescale c G ψ) =
      (allTracks k.toCfg s).map (Track.rescale c G ψ) := by
  unfold allTracks
  simp only [State.rescale, List.map_append, List.filter_map, List.map_map]
  congr 1
  have : (trackOk (k.rescale c G).toCfg ∘ ATrack.rescale c G ψ) = trackOk k.toCfg := by
    funext t; exact trackOk_rescale c G ψ hc k t
  rw [this]
  apply List.map_congr_left
  intro t _
  exact numpyTrack_rescale c G ψ t

theorem modalAllTracks_rescale [FloorRing K] (c G : K) (ψ : K → K) (hc : 0 < c) (k : ModalCfg K) (s : State K)
    (hE : Even s.active) :
    modalAllTracks (k.rescale c G) (s.rescale c G ψ) =
      (modalAllTracks k s).map (Track.rescale c G ψ) := by
  have key : (s.rescale c G ψ).tracks ++
      ((s.rescale c G ψ).active.filter (modalTrackOk (k.rescale c G))).map numpyTrack =
      (s.tracks ++ (s.active.filter (modalTrackOk k)).map numpyTrack).map (Track.rescale c G ψ) := by
    simp only [State.rescale, List.map_append, List.filter_map, List.map_map]
    congr 1
    have : s.active.filter (modalTrackOk (k.rescale c G) ∘ ATrack.rescale c G ψ) =
        s.active.filter (modalTrackOk k) := by
      apply List.filter_congr
      intro t ht
      exact modalTrackOk_rescale c G ψ hc k t (hE t ht)
    rw [this]
    apply List.map_congr_left
    intro t _
    exact numpyTrack_rescale c G ψ t
  unfold modalAllTracks
  simp only [key, stripN_rescale c G hc]
  cases k.stripN with
  | none => rfl
  | some n =>
    simp only [List.filter_map]
    congr 1
    apply List.filter_congr
    intro u _
    simp [onsetOk, Track.rescale, ModalCfg.rescale, State.rescale]

end Verif.Tracker
