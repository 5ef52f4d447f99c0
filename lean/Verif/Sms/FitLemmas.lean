import Verif.Sms.FitModel
import Verif.Sms.Props
import Verif.Learn.Lemmas
import Verif.Tracker.Props
import Mathlib.Tactic

set_option autoImplicit false
set_option linter.unusedSectionVars false
set_option linter.unusedSimpArgs false

namespace Verif.Sms

open Verif.Tracker Verif.Learn

variable {K : Type*} [Field K] [LinearOrder K] [IsStrictOrderedRing K] [FloorRing K]

/-- What is known about one peak of a frame: it is a refined local maximum of the spectrum. -/
def RefinedPeak (fs t : K) (n : Nat) (mx : List K) (pk : Peak K) : Prop :=
  ∃ (j : Nat) (loc a b c : K), 1 ≤ j ∧ mx[j - 1]? = some a ∧ mx[j]? = some b ∧
    mx[j + 1]? = some c ∧ a < b ∧ c < b ∧ t < b ∧ |loc - (j : K)| < 1 / 2 ∧
    pk.freq = loc * fs / (n : K) ∧ b ≤ pk.mag

theorem toPeaks_map (fs : K) (n : Nat) (l : List (K × K × K)) :
    toPeaks fs n (l.map some) = .ok (l.map fun e => ⟨e.1 * fs / (n : K), e.2.1, e.2.2⟩) := by
  induction l with
  | nil => rfl
  | cons e l ih =>
    obtain ⟨a, b, c⟩ := e
    simp [toPeaks, ih]

theorem all_some {α : Type*} (res : List (Option α)) (hall : ∀ e ∈ res, ∃ z, e = some z) :
    ∃ l : List α, res = l.map some := by
  induction res with
  | nil => exact ⟨[], rfl⟩
  | cons e res ih =>
    obtain ⟨z, rfl⟩ := hall e List.mem_cons_self
    obtain ⟨l, rfl⟩ := ih (fun e he => hall e (List.mem_cons_of_mem _ he))
    exact ⟨z :: l, rfl⟩

/-- Analysis of one spectrum. -/
theorem peaks_ok (fs t : K) (n : Nat) (mx px : List K) (hl : px.length = mx.length) :
    ∃ pk peaks, peakDetectInterp mx px (some t) = .ok pk ∧ toPeaks fs n pk = .ok peaks ∧
      ∀ q ∈ peaks, RefinedPeak fs t n mx q := by
  obtain ⟨ploc, res, h1, h2, h3, h4, _⟩ := C15_refine mx px (some t) hl
  obtain ⟨ploc', g1, _, g3⟩ := C14_peak_detect mx (some t)
  rw [h1] at g1
  cases g1
  have hall : ∀ e ∈ res, ∃ z, e = some z := by
    intro e he
    obtain ⟨i, hi⟩ := List.getElem?_of_mem he
    have hlt : i < ploc.length := by
      rw [← h3]; exact (List.getElem?_eq_some_iff.1 hi).1
    obtain ⟨loc, m, ph, b, r1, _⟩ := h4 i _ (List.getElem?_eq_getElem hlt)
    rw [hi] at r1
    exact ⟨_, by simpa using r1⟩
  have hres := all_some res hall
  obtain ⟨l, rfl⟩ := hres
  refine ⟨_, _, h2, toPeaks_map fs n l, ?_⟩
  intro q hq
  obtain ⟨e, he, rfl⟩ := List.mem_map.1 hq
  obtain ⟨i, hi⟩ := List.getElem?_of_mem he
  have hlt : i < ploc.length := by
    rw [← h3]; simpa using (List.getElem?_eq_some_iff.1 hi).1
  obtain ⟨loc, m, ph, b, r1, r2, r3, r4, _⟩ := h4 i _ (List.getElem?_eq_getElem hlt)
  have hmem : ploc[i] ∈ ploc := List.getElem_mem hlt
  obtain ⟨a, b', c, s1, s2, s3, s4, s5, s6, s7⟩ := (g3 _).1 hmem
  rw [r2] at s3
  cases s3
  rw [List.getElem?_map, hi] at r1
  simp only [Option.map_some, Option.some.injEq] at r1
  subst r1
  exact ⟨ploc[i], loc, a, b, c, s1, s2, r2, s4, s5, s6, s7 t rfl, r3, rfl, r4⟩

/-- The record of one analysed frame. -/
structure Rec (K : Type*) where
  mx : List K
  px : List K
  pk : List (Option (K × K × K))
  frame : Frame K

/-- The writes to the storage for one frame. -/
def Rec.ops (r : Rec K) : List (Op (Saved K)) :=
  [.append "stft" (.stft r.mx r.px) none, .append "peaks" (.peaks r.pk) none]

/-- The loop is the tracker run on the peaks of each frame. -/
theorem fitLoop_run_peaks (spec : List K → List K × List K) (sort : List (Peak K) → List Nat)
    (hsort : ∀ peaks, IsArgsort peaks (sort peaks)) (p : Params K) (w : List K)
    (hspec : ∀ z, z.length = p.n → (spec z).2.length = (spec z).1.length)
    (h2 : 2 ≤ w.length) (hn : w.length ≤ p.n) :
    ∀ xs : List (List K), (∀ x ∈ xs, x.length = w.length) →
      ∃ A : List (Rec K), A.length = xs.length ∧
        (∀ (k : Nat) (x : List K) (r : Rec K), xs[k]? = some x → A[k]? = some r →
          dft spec x w p.n = .ok (r.mx, r.px) ∧ r.frame.Valid ∧
          (∀ q ∈ r.frame.peaks, RefinedPeak p.cfg.fs p.t p.n r.mx q) ∧
          peakDetectInterp r.mx r.px (some p.t) = .ok r.pk ∧
          toPeaks p.cfg.fs p.n r.pk = .ok r.frame.peaks) ∧
        ∀ s st, fitLoop spec sort p w xs (s, st) =
          (runFrom p.deact p.cfg.toCfg (A.map Rec.frame) s).map
            (fun s' => (s', st.run (A.flatMap Rec.ops))) := by
  intro xs
  induction xs with
  | nil =>
    intro _
    refine ⟨[], rfl, by simp, ?_⟩
    intro s st
    rfl
  | cons x xs ih =>
    intro hx
    obtain ⟨A, a1, a2, a3⟩ := ih (fun y hy => hx y (List.mem_cons_of_mem _ hy))
    have hb := C17_buffer x w p.n (hx x List.mem_cons_self) h2 hn
    obtain ⟨z, z1, z2, _⟩ := hb
    have hd : dft spec x w p.n = .ok (spec z) := by simp [dft, z1]
    obtain ⟨pk, peaks, q1, q2, q3⟩ :=
      peaks_ok p.cfg.fs p.t p.n (spec z).1 (spec z).2 (hspec z z2)
    refine ⟨⟨(spec z).1, (spec z).2, pk, ⟨peaks, sort peaks⟩⟩ :: A, by simp [a1], ?_, ?_⟩
    · intro k y r hy hr
      cases k with
      | zero =>
        simp only [List.getElem?_cons_zero, Option.some.injEq] at hy hr
        subst hy; subst hr
        exact ⟨hd, hsort peaks, q3, q1, q2⟩
      | succ k =>
        simp only [List.getElem?_cons_succ] at hy hr
        exact a2 k y r hy hr
    · intro s st
      unfold fitLoop
      rw [hd]
      have e : spec z = ((spec z).1, (spec z).2) := rfl
      rw [e]
      simp only
      rw [q1]
      simp only
      rw [q2]
      simp only [List.map_cons, runFrom]
      cases hc : call p.deact p.cfg.toCfg (sort peaks) peaks s with
      | error e => rfl
      | ok s' =>
        simp only
        rw [a3]
        rfl

/-- The loop is the tracker run on refined peaks of each frame. -/
theorem fitLoop_run (spec : List K → List K × List K) (sort : List (Peak K) → List Nat)
    (hsort : ∀ peaks, IsArgsort peaks (sort peaks)) (p : Params K) (w : List K)
    (hspec : ∀ z, z.length = p.n → (spec z).2.length = (spec z).1.length)
    (h2 : 2 ≤ w.length) (hn : w.length ≤ p.n) :
    ∀ xs : List (List K), (∀ x ∈ xs, x.length = w.length) →
      ∃ A : List (Rec K), A.length = xs.length ∧
        (∀ (k : Nat) (x : List K) (r : Rec K), xs[k]? = some x → A[k]? = some r →
          dft spec x w p.n = .ok (r.mx, r.px) ∧ r.frame.Valid ∧
          ∀ q ∈ r.frame.peaks, RefinedPeak p.cfg.fs p.t p.n r.mx q) ∧
        ∀ s st, fitLoop spec sort p w xs (s, st) =
          (runFrom p.deact p.cfg.toCfg (A.map Rec.frame) s).map
            (fun s' => (s', st.run (A.flatMap Rec.ops))) := by
  intro xs hx
  obtain ⟨A, a1, a2, a3⟩ := fitLoop_run_peaks spec sort hsort p w hspec h2 hn xs hx
  exact ⟨A, a1, fun k x r h1 h2 => ⟨(a2 k x r h1 h2).1, (a2 k x r h1 h2).2.1, (a2 k x r h1 h2).2.2.1⟩, a3⟩

theorem overlapping_rows {α : Type*} (x : List α) (w hop : Nat) (frames : List (List α))
    (h : overlappingWindows x w (some hop) = .ok frames) : ∀ f ∈ frames, f.length = w := by
  intro f hf
  by_cases hh : 1 ≤ hop
  · by_cases hw : w ≤ x.length
    · obtain ⟨fr, g1, _, _, g4⟩ := C18_windows x w hop hh hw
      rw [g1] at h
      cases h
      obtain ⟨i, hi⟩ := List.getElem?_of_mem hf
      obtain ⟨_, f', f1, f2, _⟩ := g4 i (List.getElem?_eq_some_iff.1 hi).1
      rw [hi] at f1
      cases f1
      exact f2
    · by_cases hc : w ≤ x.length + hop
      · rw [(C18_short x w hop).1 hh (by omega) hc] at h
        cases h
        simp at hf
      · rw [(C18_short x w hop).2.1 hh (by omega)] at h
        simp at h
  · have : hop = 0 := by omega
    subst this
    rw [(C18_short x w 0).2.2] at h
    simp at h

theorem timeFrames_rows (padded : Bool) (w hop : Nat) (x : List K) (frames : List (List K))
    (h : timeFrames padded w hop x = .ok frames) : ∀ f ∈ frames, f.length = w := by
  unfold timeFrames at h
  cases hp : padInput padded w x with
  | error e => rw [hp] at h; simp at h
  | ok ya => rw [hp] at h; exact overlapping_rows ya.1 w hop frames h

theorem timeFrames_ok (padded : Bool) (w hop : Nat) (x : List K) (hh : 1 ≤ hop)
    (hx : padded = true ∨ w ≤ x.length) : ∃ frames, timeFrames padded w hop x = .ok frames ∧
      frames.length = if padded then 1 + x.length / hop else 1 + (x.length - w) / hop := by
  cases padded with
  | false =>
    obtain ⟨fr, g1, g2, _⟩ := C18_windows x w hop hh (by simpa using hx)
    refine ⟨fr, ?_, by simpa using g2⟩
    rw [(C19_unpadded x w hop).2, g1]
  | true =>
    unfold timeFrames
    rw [padInput_true]
    have hlen : (List.replicate ((w + 1) / 2) (0 : K) ++ x ++ List.replicate (w / 2) 0).length =
        x.length + w := by simp; omega
    obtain ⟨fr, g1, g2, _⟩ := C18_windows (List.replicate ((w + 1) / 2) (0 : K) ++ x ++
      List.replicate (w / 2) 0) w hop hh (by omega)
    refine ⟨fr, g1, ?_⟩
    rw [g2, hlen, Nat.add_sub_cancel]
    rfl

end Verif.Sms
