import Verif.Sms.LastLemmas

/-!
# C129: the tracks of a sound with peaks that last
-/

set_option autoImplicit false
set_option linter.unusedSectionVars false
set_option linter.unusedSimpArgs false

namespace Verif.Sms

open Verif.Tracker Verif.Learn

/-- Allowed deviation of the frequency, at the frequency `f`. -/
def allowed (p : Params ℝ) (f : ℝ) : ℝ := p.tracker.freqDevOffset + p.tracker.freqDevSlope * f

/-- Refined frequency and level of the maximum at the bin `b` of the frame `e`, in the order of time. -/
noncomputable def peakFreq (p : Params ℝ) (x : List ℝ) (e b : Nat) : ℝ :=
  refinedFreq (frameSpectrum p x e) p.tracker.fs p.n b

/-- See `peakFreq`. -/
noncomputable def peakLevel (p : Params ℝ) (x : List ℝ) (e b : Nat) : ℝ := refinedLevel (frameSpectrum p x e) b

/-- The maxima above the threshold of the frame `e` are at the bins `b` of `S` with `e < N b`: every maximum
is there from the first frame on, for `N b` frames, and does not come back.  `e` and `e'` in `own` are frames that are
analysed one after the other. -/
structure Lasting (p : Params ℝ) (x : List ℝ) (S : List Nat) (N : Nat → Nat) : Prop extends Usable p x where
  nodup : S.Nodup
  count : ∀ b ∈ S, N b ≤ frameCount p x
  peaks : ∀ e, e < frameCount p x → ∀ b, PeakBin (frameSpectrum p x e) p.n b ∧ p.t < dB (frameSpectrum p x e b) ↔
    b ∈ S ∧ e < N b
  clip : ∀ b ∈ S, ∀ e, e < N b → floatEps ≤ frameSpectrum p x e (b - 1) ∧ floatEps ≤ frameSpectrum p x e (b + 1)
  room : S.length ≤ p.tracker.maxNSines
  near : ∀ b ∈ S, ∀ e, e + 1 < N b → |peakFreq p x e b - peakFreq p x (e + 1) b| <
    allowed p (peakFreq p x (if p.reverse then e else e + 1) b)
  own : ∀ b ∈ S, ∀ b' ∈ S, b ≠ b' → ∀ e e', (if p.reverse then e = e' + 1 else e' = e + 1) → e < N b → e' < N b' →
    allowed p (peakFreq p x e' b') ≤ |peakFreq p x e b - peakFreq p x e' b'| ∨
    (e < N b' ∧ |peakFreq p x e b' - peakFreq p x e' b'| < |peakFreq p x e b - peakFreq p x e' b'|) ∨
    (N b' ≤ e ∧ e' < N b ∧ peakLevel p x e' b' < peakLevel p x e' b)

/-- The modal tracker accepts the maximum at the bin `b`, seen in the first `N` frames: the mean frequency is within
the limits, and the least-squares line through the levels does not rise and begins above the threshold of
peaks. -/
def AcceptedPeak (p : Params ℝ) (x : List ℝ) (b N : Nat) : Prop :=
  (∀ lo, p.tracker.freqLo = some lo → lo ≤ ((List.range N).map fun e => peakFreq p x e b).sum / N) ∧
  (∀ hi, p.tracker.freqHi = some hi → ((List.range N).map fun e => peakFreq p x e b).sum / N ≤ hi) ∧
  ∃ k q, LeastSquares ((List.range N).map fun (e : Nat) => ((e : ℝ), peakLevel p x e b)) k q ∧ k ≤ 0 ∧
    p.tracker.peakThreshold ≤ q

theorem lasting_separated {p : Params ℝ} {x : List ℝ} {S : List Nat} {N : Nat → Nat} (h : Lasting p x S N)
    (fr : List (Frame ℝ)) (Φ : Nat → Nat → ℝ) (hlen : fr.length = frameCount p x)
    (hpk : ∀ (l : Nat) (f : Frame ℝ), fr[l]? = some f → ∃ bs : List Nat, bs.Nodup ∧
      (∀ b, b ∈ bs ↔ PeakBin (frameSpectrum p x (timeIndex p.reverse fr.length l)) p.n b ∧
        p.t < dB (frameSpectrum p x (timeIndex p.reverse fr.length l) b)) ∧
      f.peaks = bs.map fun b =>
        ⟨refinedFreq (frameSpectrum p x (timeIndex p.reverse fr.length l)) p.tracker.fs p.n b,
          refinedLevel (frameSpectrum p x (timeIndex p.reverse fr.length l)) b,
          Φ (timeIndex p.reverse fr.length l) b⟩) :
    Separated p.cfg.toCfg fr (lastPart p.reverse (frameCount p x) S N fun e b =>
      ⟨peakFreq p x e b, peakLevel p x e b, Φ e b⟩) := by
  rw [hlen] at hpk
  set L := frameCount p x with hL
  have htl : ∀ l, l < L → timeIndex p.reverse L l < L := by
    intro l hl
    unfold timeIndex
    split <;> omega
  have hget : ∀ f ∈ fr, ∃ l, l < L ∧ fr[l]? = some f := by
    intro f hf
    obtain ⟨l, hl⟩ := List.getElem?_of_mem hf
    exact ⟨l, by rw [← hlen]; exact (List.getElem?_eq_some_iff.1 hl).1, hl⟩
  have hn : 0 < p.n := by have := h.two; have := h.fftSize; omega
  have heps := floatEps_pos
  have hnear : ∀ b ∈ S, ∀ e, e < N b →
      |peakFreq p x e b - b * p.tracker.fs / p.n| < p.tracker.fs / (2 * p.n) := by
    intro b hb e he
    have hc := h.clip b hb e he
    exact (refinedFreq_near _ _ _ _ h.fs hn ((h.peaks e (lt_of_lt_of_le he (h.count b hb)) b).2 ⟨hb, he⟩).1
      (by linarith) (by linarith)).1
  have hinj : ∀ e, ∀ b ∈ S, ∀ b' ∈ S, e < N b → e < N b' → peakFreq p x e b = peakFreq p x e b' → b = b' := by
    intro e b hb b' hb' h1 h2 he
    exact refinedFreq_inj _ _ _ _ _ h.fs hn (hnear b hb e h1) (hnear b' hb' e h2) he
  have hmem : ∀ (l : Nat) (f : Frame ℝ), fr[l]? = some f → ∃ bs : List Nat, bs.Nodup ∧
      (∀ b, b ∈ bs ↔ b ∈ S ∧ timeIndex p.reverse L l < N b) ∧
      f.peaks = bs.map fun b => ⟨peakFreq p x (timeIndex p.reverse L l) b,
        peakLevel p x (timeIndex p.reverse L l) b, Φ (timeIndex p.reverse L l) b⟩ := by
    intro l f hf
    obtain ⟨bs, h1, h2, h3⟩ := hpk l f hf
    refine ⟨bs, h1, ?_, h3⟩
    intro b
    rw [h2, h.peaks _ (htl l (by rw [← hlen]; exact (List.getElem?_eq_some_iff.1 hf).1))]
  refine ⟨?_, ?_, ?_, ?_, ?_, ?_⟩
  · intro k f hk q
    obtain ⟨bs, h1, h2, h3⟩ := hmem k f hk
    rw [h3, List.mem_map]
    constructor
    · rintro ⟨b, hb, rfl⟩
      exact ⟨b, lastPart_some.2 ⟨(h2 b).1 hb, rfl⟩⟩
    · rintro ⟨b, hb⟩
      obtain ⟨g1, g2⟩ := lastPart_some.1 hb
      exact ⟨b, (h2 b).2 g1, g2⟩
  · intro f hm
    obtain ⟨k, _, hk⟩ := hget f hm
    obtain ⟨bs, h1, h2, h3⟩ := hmem k f hk
    rw [h3]
    refine List.Nodup.map_on ?_ h1
    intro b hb b' hb' he
    exact hinj _ b ((h2 b).1 hb).1 b' ((h2 b').1 hb').1 ((h2 b).1 hb).2 ((h2 b').1 hb').2
      (congrArg Peak.freq he)
  · intro k _ b b' q hb hb'
    obtain ⟨⟨g1, g2⟩, g3⟩ := lastPart_some.1 hb
    obtain ⟨⟨g1', g2'⟩, g3'⟩ := lastPart_some.1 hb'
    rw [← g3] at g3'
    exact hinj _ b g1 b' g1' g2 g2' (congrArg Peak.freq g3').symm
  · intro k hk b q q' hb hb'
    obtain ⟨⟨g1, g2⟩, rfl⟩ := lastPart_some.1 hb
    obtain ⟨⟨g1', g2'⟩, rfl⟩ := lastPart_some.1 hb'
    show |peakFreq p x _ b - peakFreq p x _ b| < allowed p (peakFreq p x _ b)
    rw [hlen] at hk
    have hn := h.near b g1
    unfold timeIndex at g2 g2' ⊢
    cases hr : p.reverse with
    | false =>
      simp only [hr, Bool.false_eq_true, if_false] at hn g2 g2' ⊢
      exact hn k g2'
    | true =>
      simp only [hr, if_true] at hn g2 g2' ⊢
      have := hn (L - 1 - (k + 1)) (by omega)
      rw [show L - 1 - (k + 1) + 1 = L - 1 - k by omega, abs_sub_comm] at this
      exact this
  · intro k hk b b' q q' hne hb hb'
    obtain ⟨⟨g1, g2⟩, rfl⟩ := lastPart_some.1 hb
    obtain ⟨⟨g1', g2'⟩, rfl⟩ := lastPart_some.1 hb'
    rw [hlen] at hk
    rcases h.own b g1 b' g1' hne (timeIndex p.reverse L k) (timeIndex p.reverse L (k + 1)) (by
      unfold timeIndex; split <;> omega) g2 g2' with h1 | ⟨h1, h2⟩ | ⟨h1, h2, h3⟩
    · exact Or.inl h1
    · exact Or.inr (Or.inl ⟨_, lastPart_some.2 ⟨⟨g1', h1⟩, rfl⟩, h2⟩)
    · exact Or.inr (Or.inr ⟨lastPart_none.2 (fun h0 => absurd h0.2 (by omega)), _,
        lastPart_some.2 ⟨⟨g1, h2⟩, rfl⟩, h3⟩)
  · intro f hm
    obtain ⟨k, _, hk⟩ := hget f hm
    obtain ⟨bs, h1, h2, h3⟩ := hmem k f hk
    rw [h3, List.length_map]
    refine le_trans ?_ h.room
    exact (List.subperm_of_subset h1 fun b hb => ((h2 b).1 hb).1).length_le

/-- C129: the tracks of a sound whose maxima last.  Every bin of `S` whose maximum lasts long enough, and (modal
tracker) is accepted, gives one track with the refined frequency and level of the maximum in every
frame; there are no other tracks. -/
theorem C129_tracks (tol : ℝ) (sort : List (Peak ℝ) → List Nat)
    (hsort : ∀ peaks, IsArgsort peaks (sort peaks)) (m : Model ℝ) (x : List ℝ) (p : Params ℝ)
    (hp : p = m.params) (S : List Nat) (N : Nat → Nat) (h : Lasting p x S N) :
    ∃ (m' : Model ℝ) (Φ : Nat → Nat → ℝ), m.fit (spectrum tol) sort x Kwargs.none = .ok m' ∧
      m'.params = p ∧ m'.tracks.Nodup ∧
      ∀ u, u ∈ m'.tracks ↔ ∃ b ∈ S, max 2 ⌈p.tracker.minSineDur * (p.tracker.fs / p.hop)⌉ ≤ (N b : ℤ) ∧
        (p.modal = true → AcceptedPeak p x b (N b)) ∧
        u = lastTrack p.reverse (frameCount p x) (N b) fun e => ⟨peakFreq p x e b, peakLevel p x e b, Φ e b⟩ := by
  subst hp
  obtain ⟨fr, Φ, hv, hlen, hpk, hfit⟩ := time_peaks tol sort hsort m x h.toUsable (by
    intro e b he h1 h2
    obtain ⟨h3, h4⟩ := (h.peaks e he b).1 ⟨h1, h2⟩
    exact h.clip b h3 e h4)
  have hsep := lasting_separated h fr Φ hlen hpk
  set p := m.params with hp
  set L := frameCount p x with hL
  have hmain : ∃ s, trackerFit p.deact p.cfg.toCfg m.state fr = .ok s ∧
      (if p.modal then modalAllTracks p.cfg s else allTracks p.cfg.toCfg s).Nodup ∧
      ∀ u, u ∈ (if p.modal then modalAllTracks p.cfg s else allTracks p.cfg.toCfg s) ↔
        ∃ b ∈ S, max 2 ⌈p.tracker.minSineDur * (p.tracker.fs / p.hop)⌉ ≤ (N b : ℤ) ∧
        (p.modal = true → AcceptedPeak p x b (N b)) ∧
        u = lastTrack p.reverse L (N b) fun e => ⟨peakFreq p x e b, peakLevel p x e b, Φ e b⟩ := by
    unfold Params.deact
    cases hm : p.modal with
    | false =>
      obtain ⟨s, s1, s2, s3⟩ := C122_tracks p.cfg.toCfg m.state fr hv _ hsep
      rw [hlen] at s3
      refine ⟨s, s1, s2, ?_⟩
      intro u
      simp only [Bool.false_eq_true, if_false, false_imp_iff, true_and]
      rw [s3 u]
      constructor
      · rintro ⟨b, i, j, r1, r2, rfl⟩
        obtain ⟨hb, h0, rfl, rfl⟩ := (last_run h.count b i j).1 r1
        rw [Nat.add_sub_cancel_left] at r2
        exact ⟨b, hb, r2, last_segment hb (h.count b hb)⟩
      · rintro ⟨b, hb, r2, rfl⟩
        have h0 : 0 < N b := by
          have : (2 : ℤ) ≤ N b := le_trans (le_max_left _ _) r2
          omega
        refine ⟨b, _, _, (last_run h.count b _ _).2 ⟨hb, h0, rfl, rfl⟩, ?_, (last_segment
          (P := fun e b => (⟨peakFreq p x e b, peakLevel p x e b, Φ e b⟩ : Peak ℝ)) hb (h.count b hb)).symm⟩
        rw [Nat.add_sub_cancel_left]
        exact r2
    | true =>
      obtain ⟨s, s1, s2, s3⟩ := C122_modal p.cfg (h.merge hm) m.state fr hv _ hsep
        (by rw [hlen]; exact last_apart h.count p.cfg)
      rw [hlen] at s3
      refine ⟨s, s1, s2, ?_⟩
      intro u
      have hrv : p.cfg.reverse = p.reverse := by simp [Params.reverse, hm, Params.cfg]
      simp only [if_true, forall_const]
      rw [s3 u]
      constructor
      · rintro ⟨b, i, j, r1, r2, r3, rfl⟩
        obtain ⟨hb, h0, rfl, rfl⟩ := (last_run h.count b i j).1 r1
        obtain ⟨e1, e2, e3, e4⟩ := (last_accepted p.cfg hrv hb (h.count b hb)).1 r2
        exact ⟨b, hb, e1, ⟨e2, e3, e4⟩, last_segment hb (h.count b hb)⟩
      · rintro ⟨b, hb, r2, ⟨e2, e3, e4⟩, rfl⟩
        have h0 : 0 < N b := by
          have : (2 : ℤ) ≤ N b := le_trans (le_max_left _ _) r2
          omega
        have hNb := h.count b hb
        refine ⟨b, _, _, (last_run h.count b _ _).2 ⟨hb, h0, rfl, rfl⟩,
          (last_accepted p.cfg hrv hb hNb).2 ⟨r2, e2, e3, e4⟩, ?_, (last_segment
          (P := fun e b => (⟨peakFreq p x e b, peakLevel p x e b, Φ e b⟩ : Peak ℝ)) hb hNb).symm⟩
        intro t ht
        have h0 : 0 ≤ t := h.strip hm t ht
        have hc : 0 ≤ ⌈t * (p.cfg.fs / p.cfg.h)⌉ := by
          apply Int.ceil_nonneg
          have := h.fs.le
          exact mul_nonneg h0 (div_nonneg this (Nat.cast_nonneg _))
        rw [hrv]
        cases hrev : p.reverse
        · simp only [Bool.false_eq_true, if_false]
          exact hc
        · simp only [if_true]
          omega
  obtain ⟨s, s1, s2, s3⟩ := hmain
  obtain ⟨m', m1, m2, m3⟩ := hfit s s1
  have htr : m'.tracks = if p.modal then modalAllTracks p.cfg s else allTracks p.cfg.toCfg s := by
    unfold Model.tracks
    rw [m2, m3]
  exact ⟨m', Φ, m1, m2, by rw [htr]; exact s2, fun u => by rw [htr, s3 u]⟩

/-! ## A concrete case -/

/-- Level of the frames of the example. -/
noncomputable def exGain (g h : ℝ) (e : Nat) : ℝ := if e = 0 then 1 else if e = 1 then g else h

/-- Three periods of an oscillation of a quarter of the sampling frequency that decays unevenly. -/
noncomputable def exUneven (g h : ℝ) : List ℝ := [1, 0, -1, 0, g, 0, -g, 0, h, 0, -h, 0]

theorem exUneven_spectrum (g h : ℝ) (hg : 1 / 4 ≤ g) (hh : 1 / 4 ≤ h) (rev modal : Bool) (e : Nat) (he : e < 3) (k : Nat) :
    frameSpectrum (exSimilar rev modal) (exUneven g h) e k =
      exGain g h e * firstSpectrum (exSimilar rev modal) exSimilarSound k := by
  have hf : timeFrame (exSimilar rev modal).reverse (exUneven g h) 4 4 e =
      (earliestFrame (exSimilar rev modal).reverse exSimilarSound 4 4).map (exGain g h e * ·) := by
    generalize (exSimilar rev modal).reverse = r
    interval_cases e <;> cases r <;>
      simp [timeFrame, earliestFrame, exUneven, exSound, exGain] <;> norm_num
  have hge : 0 ≤ exGain g h e := by unfold exGain; split_ifs <;> linarith
  have := congrArg norm (centredBin_smul (exGain g h e)
    (earliestFrame (exSimilar rev modal).reverse exSimilarSound 4 4)
    ((exSimilar rev modal).w.map fun a => a / (exSimilar rev modal).w.sum) (exSimilar rev modal).n k)
  rw [← hf, norm_mul, Complex.norm_real, Real.norm_of_nonneg hge] at this
  exact this

theorem exUneven_values (g h : ℝ) (hg : 1 / 4 ≤ g) (hh : 1 / 4 ≤ h) (rev modal : Bool) (e : Nat) (he : e < 3) :
    frameSpectrum (exSimilar rev modal) (exUneven g h) e 1 = exGain g h e * (√2 / 4) ∧
    frameSpectrum (exSimilar rev modal) (exUneven g h) e 2 = exGain g h e * (1 / 2) ∧
    frameSpectrum (exSimilar rev modal) (exUneven g h) e 3 = exGain g h e * (√2 / 4) := by
  obtain ⟨v1, v2, v3⟩ := exSimilar_values rev modal
  simp only [exUneven_spectrum g h hg hh rev modal e he, v1, v2, v3, and_self]

theorem exGain_low (g h : ℝ) (hg : 1 / 4 ≤ g) (hh : 1 / 4 ≤ h) (e : Nat) : 1 / 4 ≤ exGain g h e ∧ (-50 : ℝ) < dB (exGain g h e * (1 / 2)) := by
  have hle : 1 / 4 ≤ exGain g h e := by unfold exGain; split_ifs <;> linarith
  refine ⟨hle, ?_⟩
  have h10 : dB (1 / 100) = -40 := by
    unfold dB
    rw [show (1 / 100 : ℝ) = (10 ^ 2)⁻¹ by norm_num, Real.logb_inv, Real.logb_pow,
      Real.logb_self_eq_one (by norm_num)]
    norm_num
  have : dB (1 / 100) < dB (exGain g h e * (1 / 2)) := by
    rw [dB_lt (by norm_num) (by linarith)]
    linarith
  linarith

theorem exUneven_freq (g h : ℝ) (hg : 1 / 4 ≤ g) (hh : 1 / 4 ≤ h) (rev modal : Bool) (e : Nat) (he : e < 3) :
    peakFreq (exSimilar rev modal) (exUneven g h) e 2 = 2 := by
  obtain ⟨v1, v2, v3⟩ := exUneven_values g h hg hh rev modal e he
  unfold peakFreq refinedFreq vertexPlace
  rw [show 2 - 1 = 1 from rfl, show 2 + 1 = 3 from rfl, v1, v3]
  norm_num [exSimilar]

/-- The hypotheses of `C129_tracks` are met in both directions, with both trackers. -/
theorem exUneven_lasting (g h : ℝ) (hg : 1 / 4 ≤ g) (hh : 1 / 4 ≤ h) (rev modal : Bool) :
    Lasting (exSimilar rev modal) (exUneven g h) [2] (fun _ => 3) := by
  have hL : frameCount (exSimilar rev modal) (exUneven g h) = 3 := by simp [frameCount, exSimilar, exUneven]
  have hU := (exSimilar_decaying rev modal).toUsable
  refine ⟨⟨hU.window, hU.two, hU.fftSize, hU.hop, hU.fs, hU.unpadded, by simp [exSimilar, exUneven], hU.merge,
    hU.strip, hU.devOffset, hU.devSlope, hU.floor⟩, by simp, by simp [hL], ?_, ?_, by simp [exSimilar], ?_, ?_⟩
  · intro e he b
    rw [hL] at he
    obtain ⟨g1, g2⟩ := exGain_low g h hg hh e
    have hge : 0 < exGain g h e := by linarith
    have hP : PeakBin (frameSpectrum (exSimilar rev modal) (exUneven g h) e) (exSimilar rev modal).n b ↔ b = 2 := by
      rw [← exSimilar_peak rev modal b]
      constructor
      · rintro ⟨a1, a2, a3, a4⟩
        rw [exUneven_spectrum g h hg hh rev modal e he, exUneven_spectrum g h hg hh rev modal e he] at a3 a4
        exact ⟨a1, a2, lt_of_mul_lt_mul_left a3 hge.le, lt_of_mul_lt_mul_left a4 hge.le⟩
      · rintro ⟨a1, a2, a3, a4⟩
        refine ⟨a1, a2, ?_, ?_⟩
        · rw [exUneven_spectrum g h hg hh rev modal e he, exUneven_spectrum g h hg hh rev modal e he]
          exact mul_lt_mul_of_pos_left a3 hge
        · rw [exUneven_spectrum g h hg hh rev modal e he, exUneven_spectrum g h hg hh rev modal e he]
          exact mul_lt_mul_of_pos_left a4 hge
    rw [hP, List.mem_singleton]
    constructor
    · rintro ⟨rfl, _⟩; exact ⟨rfl, he⟩
    · rintro ⟨rfl, _⟩
      refine ⟨rfl, ?_⟩
      rw [(exUneven_values g h hg hh rev modal e he).2.1]
      simp only [exSimilar]
      linarith
  · intro b hb e he
    rw [List.mem_singleton] at hb
    subst hb
    obtain ⟨v1, v2, v3⟩ := exUneven_values g h hg hh rev modal e he
    obtain ⟨g1, _⟩ := exGain_low g h hg hh e
    rw [show 2 - 1 = 1 from rfl, show 2 + 1 = 3 from rfl, v1, v3]
    have h2 : 1 ≤ √2 := by rw [Real.le_sqrt (by norm_num) (by norm_num)]; norm_num
    have : floatEps ≤ 1 / 4 * (1 / 4) := by unfold floatEps; norm_num
    have h3 : (1 : ℝ) / 4 * (1 / 4) ≤ exGain g h e * (√2 / 4) := mul_le_mul g1 (by linarith) (by norm_num) (by linarith)
    exact ⟨by linarith, by linarith⟩
  · intro b hb e he
    rw [List.mem_singleton] at hb
    subst hb
    rw [exUneven_freq g h hg hh rev modal e (by omega), exUneven_freq g h hg hh rev modal (e + 1) he,
      exUneven_freq g h hg hh rev modal _ (by split <;> omega)]
    norm_num [allowed, exSimilar]
  · intro b hb b' hb' hne
    rw [List.mem_singleton] at hb hb'
    exact absurd (hb.trans hb'.symm) hne

/-- The track of the example, with the plain tracker. -/
example (tol : ℝ) (sort : List (Peak ℝ) → List Nat) (hsort : ∀ peaks, IsArgsort peaks (sort peaks))
    (m : Model ℝ) (hm : m.params = exSimilar false false) :
    ∃ m' φ, m.fit (spectrum tol) sort (exUneven (1 / 3) (1 / 4)) Kwargs.none = .ok m' ∧
      m'.tracks = [⟨0, [some 2, some 2, some 2],
        [some (dB (1 / 2)), some (dB (1 / 6)), some (dB (1 / 8))], φ⟩] := by
  obtain ⟨m', Φ, h1, h2, h3, h4⟩ := C129_tracks tol sort hsort m (exUneven (1 / 3) (1 / 4)) _ hm.symm [2] (fun _ => 3)
    (exUneven_lasting (1 / 3) (1 / 4) (by norm_num) (by norm_num) false false)
  have hlev : ∀ e, e < 3 → peakLevel (exSimilar false false) (exUneven (1 / 3) (1 / 4)) e 2 = dB (exGain (1 / 3) (1 / 4) e * (1 / 2)) := by
    intro e he
    obtain ⟨v1, v2, v3⟩ := exUneven_values (1 / 3) (1 / 4) (by norm_num) (by norm_num) false false e he
    unfold peakLevel refinedLevel vertexHeight
    rw [show 2 - 1 = 1 from rfl, show 2 + 1 = 3 from rfl, v1, v3, v2]
    norm_num
  refine ⟨m', [some (Φ 0 2), some (Φ 1 2), some (Φ 2 2)], h1, ?_⟩
  apply List.perm_singleton.1
  rw [List.perm_ext_iff_of_nodup h3 (List.nodup_singleton _)]
  intro u
  rw [h4, List.mem_singleton]
  have ht : lastTrack (exSimilar false false).reverse (frameCount (exSimilar false false) (exUneven (1 / 3) (1 / 4))) 3
      (fun e => ⟨peakFreq (exSimilar false false) (exUneven (1 / 3) (1 / 4)) e 2, peakLevel (exSimilar false false) (exUneven (1 / 3) (1 / 4)) e 2,
        Φ e 2⟩) = ⟨0, [some 2, some 2, some 2],
        [some (dB (1 / 2)), some (dB (1 / 6)), some (dB (1 / 8))], [some (Φ 0 2), some (Φ 1 2), some (Φ 2 2)]⟩ := by
    have hr : (exSimilar false false).reverse = false := rfl
    simp only [lastTrack, hr, timeIndex, Bool.false_eq_true, if_false, List.range_succ, List.range_zero,
      List.nil_append, List.cons_append, List.map_cons, List.map_nil,
      exUneven_freq (1 / 3) (1 / 4) (by norm_num) (by norm_num) false false 0 (by norm_num), exUneven_freq (1 / 3) (1 / 4) (by norm_num) (by norm_num) false false 1 (by norm_num),
      exUneven_freq (1 / 3) (1 / 4) (by norm_num) (by norm_num) false false 2 (by norm_num), hlev 0 (by norm_num), hlev 1 (by norm_num), hlev 2 (by norm_num)]
    norm_num [exGain]
  constructor
  · rintro ⟨b, hb, _, _, hu⟩
    rw [List.mem_singleton] at hb
    subst hb
    rw [hu, ← ht]
  · intro hu
    refine ⟨2, by simp, ?_, by simp [exSimilar], ?_⟩
    · simp [exSimilar]
    · rw [hu, ← ht]

end Verif.Sms
