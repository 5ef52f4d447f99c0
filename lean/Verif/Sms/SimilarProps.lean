import Verif.Sms.SimilarLemmas

/-!
# C125: analysis of sounds that decay by a constant factor per hop
-/

set_option autoImplicit false
set_option linter.unusedSectionVars false
set_option linter.unusedSimpArgs false

namespace Verif.Sms

open Verif.Tracker Verif.Learn

/-- Magnitude spectrum of the earliest frame, seen through the normalised window. -/
noncomputable def firstSpectrum (p : Params ℝ) (x : List ℝ) (k : Nat) : ℝ :=
  ‖centredBin (earliestFrame p.reverse x p.w.length p.hop) (p.w.map fun a => a / p.w.sum) p.n k‖

/-- A track of `N` frames among `L` frames, of constant frequency, with a level that falls by `-G` per frame
in time. -/
noncomputable def fallingTrack (rev : Bool) (L N : Nat) (f M G : ℝ) (φ : Nat → ℝ) : Track ℝ :=
  ⟨if rev then L - N else 0, List.replicate N (some f),
    (List.range N).map fun i => some (M + ((if rev then N - 1 - i else i : Nat) : ℝ) * G),
    (List.range N).map fun i => some (φ ((if rev then L - N else 0) + i))⟩

/-- What is assumed of the parameters: unpadded analysis of a sound that is not shorter than the window, with a
usable window, and a threshold that is not below the machine precision. -/
structure Usable (p : Params ℝ) (x : List ℝ) : Prop where
  window : p.w.sum ≠ 0
  two : 2 ≤ p.w.length
  fftSize : p.w.length ≤ p.n
  hop : 1 ≤ p.hop
  fs : 0 < p.tracker.fs
  unpadded : p.padded = false
  long : p.w.length ≤ x.length
  merge : p.modal = true → p.tracker.mergeStrategy = "average" ∨ p.tracker.mergeStrategy = "single"
  strip : p.modal = true → ∀ s, p.tracker.stripT = some s → 0 ≤ s
  devOffset : 0 < p.tracker.freqDevOffset
  devSlope : 0 ≤ p.tracker.freqDevSlope
  floor : dB floatEps ≤ p.t

/-- What is assumed of the parameters and of the spectrum of a sound that is multiplied by `c` after every hop:
no bin beside a peak is below the machine precision while the peak is above the threshold, and there are
enough tracks.  With backward analysis, a peak with a lower bin is too far away for being taken for one with a
higher bin, or lower also after refinement. -/
structure Clear (p : Params ℝ) (x : List ℝ) (c : ℝ) : Prop extends Usable p x where
  clip : ∀ b e, PeakBin (firstSpectrum p x) p.n b → e ≤ (x.length - p.w.length) / p.hop →
    p.t < dB (firstSpectrum p x b) + e * dB |c| →
    floatEps ≤ |c| ^ e * firstSpectrum p x (b - 1) ∧ floatEps ≤ |c| ^ e * firstSpectrum p x (b + 1)
  room : ∀ bs : List Nat, bs.Nodup →
    (∀ b ∈ bs, PeakBin (firstSpectrum p x) p.n b ∧ p.t < dB (firstSpectrum p x b)) →
    bs.length ≤ p.tracker.maxNSines
  order : p.reverse = true → ∀ b b', PeakBin (firstSpectrum p x) p.n b →
    PeakBin (firstSpectrum p x) p.n b' → p.t < dB (firstSpectrum p x b) →
    p.t < dB (firstSpectrum p x b') → firstSpectrum p x b' < firstSpectrum p x b →
    p.tracker.freqDevOffset + p.tracker.freqDevSlope *
        refinedFreq (firstSpectrum p x) p.tracker.fs p.n b' ≤
      |refinedFreq (firstSpectrum p x) p.tracker.fs p.n b -
        refinedFreq (firstSpectrum p x) p.tracker.fs p.n b'| ∨
    refinedLevel (firstSpectrum p x) b' < refinedLevel (firstSpectrum p x) b

/-- What is assumed of the parameters and of the sound: as above, and the sound is multiplied by `c` after every
hop (`0 < |c| < 1`). -/
structure Decaying (p : Params ℝ) (x : List ℝ) (c : ℝ) : Prop extends Clear p x c where
  similar : SelfSimilar x p.hop c
  nonzero : c ≠ 0
  decays : |c| < 1

theorem firstSpectrum_nonneg (p : Params ℝ) (x : List ℝ) (k : Nat) : 0 ≤ firstSpectrum p x k := norm_nonneg _

theorem Decaying.gain {p : Params ℝ} {x : List ℝ} {c : ℝ} (h : Decaying p x c) : dB |c| < 0 := by
  have := (dB_lt (abs_pos.2 h.nonzero) one_pos).2 h.decays
  simpa [dB] using this

/-- The refined values of a peak. -/
theorem Decaying.refined {p : Params ℝ} {x : List ℝ} {c : ℝ} (h : Decaying p x c) (b : Nat)
    (hb : PeakBin (firstSpectrum p x) p.n b) (ht : p.t < dB (firstSpectrum p x b)) :
    |refinedFreq (firstSpectrum p x) p.tracker.fs p.n b - b * p.tracker.fs / p.n| <
        p.tracker.fs / (2 * p.n) ∧
      dB (firstSpectrum p x b) ≤ refinedLevel (firstSpectrum p x) b ∧
      0 < refinedFreq (firstSpectrum p x) p.tracker.fs p.n b := by
  obtain ⟨c1, c2⟩ := h.clip b 0 hb (Nat.zero_le _) (by simpa using ht)
  have heps := floatEps_pos
  simp only [pow_zero, one_mul] at c1 c2
  have l1 : dB (firstSpectrum p x (b - 1)) < dB (firstSpectrum p x b) :=
    (dB_lt (by linarith) (by linarith [hb.left])).2 hb.left
  have l2 : dB (firstSpectrum p x (b + 1)) < dB (firstSpectrum p x b) :=
    (dB_lt (by linarith) (by linarith [hb.right])).2 hb.right
  have hn : (0 : ℝ) < p.n := by
    have := h.two; have := h.fftSize
    exact_mod_cast (by omega : 0 < p.n)
  have hfs := h.fs
  have hv := abs_lt.1 (vertexPlace_bound l1 l2)
  have hb1 : (1 : ℝ) ≤ b := by exact_mod_cast hb.pos
  refine ⟨?_, ?_, ?_⟩
  · unfold refinedFreq
    rw [← sub_div, ← sub_mul, add_sub_cancel_left, abs_div, abs_mul, abs_of_pos hfs, abs_of_pos hn,
      div_lt_div_iff₀ hn (by positivity)]
    have := vertexPlace_bound l1 l2
    have h2 : |vertexPlace (dB (firstSpectrum p x (b - 1))) (dB (firstSpectrum p x b))
      (dB (firstSpectrum p x (b + 1)))| * p.tracker.fs < 1 / 2 * p.tracker.fs :=
        mul_lt_mul_of_pos_right this hfs
    nlinarith
  · unfold refinedLevel vertexHeight
    have hden : 8 * (dB (firstSpectrum p x (b - 1)) - 2 * dB (firstSpectrum p x b) +
      dB (firstSpectrum p x (b + 1))) < 0 := by linarith
    have := div_nonpos_of_nonneg_of_nonpos
      (sq_nonneg (dB (firstSpectrum p x (b - 1)) - dB (firstSpectrum p x (b + 1)))) hden.le
    linarith
  · unfold refinedFreq
    apply div_pos (mul_pos (by linarith) hfs) hn

theorem refined_inj {p : Params ℝ} {x : List ℝ} {c : ℝ} (h : Decaying p x c) (b b' : Nat)
    (hb : PeakBin (firstSpectrum p x) p.n b) (hb' : PeakBin (firstSpectrum p x) p.n b')
    (ht : p.t < dB (firstSpectrum p x b)) (ht' : p.t < dB (firstSpectrum p x b'))
    (he : refinedFreq (firstSpectrum p x) p.tracker.fs p.n b =
      refinedFreq (firstSpectrum p x) p.tracker.fs p.n b') : b = b' := by
  have h1 := abs_lt.1 (h.refined b hb ht).1
  have h2 := abs_lt.1 (h.refined b' hb' ht').1
  have hn : (0 : ℝ) < p.n := by
    have := h.two; have := h.fftSize
    exact_mod_cast (by omega : 0 < p.n)
  have hfs := h.fs
  rw [he] at h1
  have hstep : p.tracker.fs / (2 * p.n) + p.tracker.fs / (2 * p.n) = p.tracker.fs / p.n := by
    field_simp; ring
  have k1 : (b : ℝ) * p.tracker.fs / p.n - b' * p.tracker.fs / p.n < p.tracker.fs / p.n := by linarith
  have k2 : (b' : ℝ) * p.tracker.fs / p.n - b * p.tracker.fs / p.n < p.tracker.fs / p.n := by linarith
  rw [← sub_div, ← sub_mul, div_lt_div_iff_of_pos_right hn] at k1 k2
  have j1 : (b : ℝ) - b' < 1 := by
    by_contra h0
    have : 1 * p.tracker.fs ≤ ((b : ℝ) - b') * p.tracker.fs :=
      mul_le_mul_of_nonneg_right (not_lt.1 h0) hfs.le
    linarith
  have j2 : (b' : ℝ) - b < 1 := by
    by_contra h0
    have : 1 * p.tracker.fs ≤ ((b' : ℝ) - b) * p.tracker.fs :=
      mul_le_mul_of_nonneg_right (not_lt.1 h0) hfs.le
    linarith
  have i1 : b < b' + 1 := by
    have : (b : ℝ) < b' + 1 := by linarith
    exact_mod_cast this
  have i2 : b' < b + 1 := by
    have : (b' : ℝ) < b + 1 := by linarith
    exact_mod_cast this
  omega

/-- The frames that the tracker sees. -/
theorem similar_falling (tol : ℝ) (sort : List (Peak ℝ) → List Nat)
    (hsort : ∀ peaks, IsArgsort peaks (sort peaks)) (m : Model ℝ) (x : List ℝ) (c : ℝ)
    (h : Decaying m.params x c) :
    ∃ (fr : List (Frame ℝ)) (Φ : Nat → Nat → ℝ), (∀ f ∈ fr, f.Valid) ∧
      Falling m.params.reverse (1 + (x.length - m.params.w.length) / m.params.hop) (dB |c|) m.params.t
        (PeakBin (firstSpectrum m.params x) m.params.n)
        (refinedFreq (firstSpectrum m.params x) m.params.tracker.fs m.params.n)
        (refinedLevel (firstSpectrum m.params x)) (fun b => dB (firstSpectrum m.params x b)) Φ fr ∧
      ∀ s, trackerFit m.params.deact m.params.cfg.toCfg m.state fr = .ok s →
        ∃ m', m.fit (spectrum tol) sort x Kwargs.none = .ok m' ∧ m'.params = m.params ∧ m'.state = s := by
  set p := m.params with hp
  set A := firstSpectrum p x with hA
  set w' := p.w.map fun a => a / p.w.sum with hw'
  have hwl : w'.length = p.w.length := by simp [hw']
  have h2 := h.two
  have hn := h.fftSize
  obtain ⟨frames, f1, f2, f3, f4⟩ := similar_frames h.similar h.hop h.long p.reverse
  obtain ⟨R, a1, a2, a3⟩ := fitLoop_run_peaks (spectrum tol) sort hsort p w'
    (fun z hz => by
      have hz0 : z ≠ [] := by rintro rfl; simp at hz; omega
      rw [(spectrum_lengths tol z hz0).1, (spectrum_lengths tol z hz0).2]) (by omega) (by omega) frames
    (fun f hf => by rw [hwl]; exact timeFrames_rows _ _ _ _ _ f1 f hf)
  have hpos : 0 < |c| := abs_pos.2 h.nonzero
  -- every frame
  have hrec : ∀ (l : Nat) (f : Frame ℝ), (R.map Rec.frame)[l]? = some f → f.Valid ∧
      ∃ (bs : List Nat) (φ : Nat → ℝ), bs.Nodup ∧
        (∀ b, b ∈ bs ↔ PeakBin A p.n b ∧
          p.t < dB (A b) + ((if p.reverse then frames.length - 1 - l else l : Nat) : ℝ) * dB |c|) ∧
        f.peaks = bs.map fun b => ⟨refinedFreq A p.tracker.fs p.n b, refinedLevel A b +
          ((if p.reverse then frames.length - 1 - l else l : Nat) : ℝ) * dB |c|, φ b⟩ := by
    intro l f hf
    rw [List.getElem?_map, Option.map_eq_some_iff] at hf
    obtain ⟨r, hr, rfl⟩ := hf
    have hl : l < frames.length := by rw [← a1]; exact (List.getElem?_eq_some_iff.1 hr).1
    obtain ⟨d1, d2, d3, d4, d5⟩ := a2 l _ r (f4 l hl) hr
    refine ⟨d2, ?_⟩
    set e : Nat := if p.reverse then frames.length - 1 - l else l with he
    have heL : e ≤ (x.length - p.w.length) / p.hop := by
      rw [he, ]; split <;> omega
    obtain ⟨mx, px, g1, g2, g3, g4, _⟩ := C124_dft tol
      ((earliestFrame p.reverse x p.w.length p.hop).map (c ^ e * ·)) w' p.n
      (by rw [List.length_map, f3, hwl]) (by omega) (by omega)
    rw [d1] at g1
    simp only [Except.ok.injEq, Prod.mk.injEq] at g1
    obtain ⟨rfl, rfl⟩ := g1
    have hm : ∀ k, k ≤ p.n / 2 → r.mx[k]? = some (dB (max (|c| ^ e * A k) floatEps)) := by
      intro k hk
      rw [g4 k hk, centredBin_smul, norm_mul, Complex.norm_real, Real.norm_eq_abs, abs_pow]
      rfl
    obtain ⟨ploc, pk, ph, q1, q2, q3, q4⟩ := peaks_exact p.cfg.fs p.t p.n r.mx r.px (by rw [g3, g2])
    rw [d4] at q3
    cases q3
    rw [d5] at q4
    have hmem : ∀ b, b ∈ ploc ↔ PeakBin A p.n b ∧ p.t < dB (A b) + e * dB |c| := by
      intro b
      rw [q2, similar_peaks r.mx A p.n e |c| p.t hpos (firstSpectrum_nonneg p x) h.floor g2 hm b]
    refine ⟨ploc, ph, q1, hmem, ?_⟩
    rw [Except.ok.inj q4]
    apply List.map_congr_left
    intro b hb
    obtain ⟨hpk, htb⟩ := (hmem b).1 hb
    obtain ⟨c1, c2⟩ := h.clip b e hpk heL htb
    have hb1 := hpk.pos
    have hb2 := hpk.top
    have c0 : floatEps ≤ |c| ^ e * A b :=
      le_trans c1 (mul_le_mul_of_nonneg_left hpk.left.le (pow_pos hpos e).le)
    have v1 := similar_levels r.mx A p.n e |c| hpos hm (b - 1) (by omega) c1
    have v2 := similar_levels r.mx A p.n e |c| hpos hm b (by omega) c0
    have v3 := similar_levels r.mx A p.n e |c| hpos hm (b + 1) (by omega) c2
    rw [v1, v2, v3, vertexPlace_shift, vertexHeight_shift]
    rfl
  choose! hv bs φ hbs using hrec
  refine ⟨R.map Rec.frame, fun l => φ l ((R.map Rec.frame).getD l ⟨[], []⟩), ?_, ?_, ?_⟩
  · intro f hf
    obtain ⟨l, hl⟩ := List.getElem?_of_mem hf
    exact hv l f hl
  · refine ⟨by rw [List.length_map, a1, f2], h.gain, ?_, ?_⟩
    · intro b b' h1 h2 h3 h4 h5
      exact refined_inj h b b' h1 h2 h3 h4 h5
    · intro l f hf
      obtain ⟨q1, q2, q3⟩ := hbs l f hf
      rw [f2] at q2 q3
      refine ⟨bs l f, q1, q2, ?_⟩
      simp only [List.getD_eq_getElem?_getD, hf, Option.getD_some]
      exact q3
  · intro s hs
    refine ⟨⟨p, s, m.storage.reset.run (R.flatMap Rec.ops), some w'⟩, ?_, rfl, rfl⟩
    simp only [Model.fit, Model.setParams, Kwargs.none, id, ← hp, normalizedWindow, if_neg h.window,
      Option.getD_some, Option.getD_none, h.unpadded]
    rw [f1]
    simp only
    rw [a3, show runFrom p.deact p.cfg.toCfg (R.map Rec.frame) (Tracker.reset m.state) = .ok s from hs]
    rfl

/-- C125: the tracks of a sound that decays by the factor `|c|` per hop.  Every peak of the spectrum of the
earliest frame that is above the threshold gives one track, if it is long enough and (modal tracker) accepted;
there are no other tracks.  The track has the refined frequency of the peak in all frames, and a level that
falls from the refined level of the peak by exactly the decay of the sound; it lasts as long as the peak is
above the threshold. -/
theorem C125_tracks (tol : ℝ) (sort : List (Peak ℝ) → List Nat)
    (hsort : ∀ peaks, IsArgsort peaks (sort peaks)) (m : Model ℝ) (x : List ℝ) (c : ℝ) (p : Params ℝ)
    (hp : p = m.params) (A : Nat → ℝ) (hA : A = firstSpectrum p x) (L : Nat)
    (hL : L = 1 + (x.length - p.w.length) / p.hop) (h : Decaying p x c) :
    ∃ (m' : Model ℝ) (Φ : Nat → Nat → ℝ), m.fit (spectrum tol) sort x Kwargs.none = .ok m' ∧
      m'.params = p ∧ m'.tracks.Nodup ∧
      (∀ b, PeakBin A p.n b → p.t < dB (A b) →
        |refinedFreq A p.tracker.fs p.n b - b * p.tracker.fs / p.n| < p.tracker.fs / (2 * p.n) ∧
        dB (A b) ≤ refinedLevel A b) ∧
      ∀ u, u ∈ m'.tracks ↔ ∃ b N, PeakBin A p.n b ∧ N ≤ L ∧
        (∀ e, e < L → (e < N ↔ p.t < dB (A b) + e * dB |c|)) ∧
        max 2 ⌈p.tracker.minSineDur * (p.tracker.fs / p.hop)⌉ ≤ (N : ℤ) ∧
        (p.modal = true → (∀ lo, p.tracker.freqLo = some lo → lo ≤ refinedFreq A p.tracker.fs p.n b) ∧
          (∀ hi, p.tracker.freqHi = some hi → refinedFreq A p.tracker.fs p.n b ≤ hi) ∧
          p.tracker.peakThreshold ≤ refinedLevel A b) ∧
        u = fallingTrack p.reverse L N (refinedFreq A p.tracker.fs p.n b) (refinedLevel A b) (dB |c|)
          (fun l => Φ l b) := by
  subst hp hA
  obtain ⟨fr, Φ, hv, hfall, hfit⟩ := similar_falling tol sort hsort m x c h
  rw [← hL] at hfall
  set p := m.params with hp
  set A := firstSpectrum p x with hA
  have hG := h.gain
  have hsep := falling_separated hfall p.cfg.toCfg
    (fun b h1 h2 => by
      have h3 := (h.refined b h1 h2).2.2
      have h4 := h.devOffset
      have h5 := mul_nonneg h.devSlope h3.le
      show 0 < p.tracker.freqDevOffset + p.tracker.freqDevSlope * _
      linarith)
    h.room
    (fun hr b b' h1 h2 h3 h4 h5 => h.order hr b b' h1 h2 h3 h4 (by
      have e1 : 0 < A b := lt_of_le_of_lt (firstSpectrum_nonneg p x _) h1.left
      have e2 : 0 < A b' := lt_of_le_of_lt (firstSpectrum_nonneg p x _) h2.left
      exact (dB_lt e2 e1).1 h5))
  -- the shape of a run
  have hseg : ∀ b i j, Run (fallPart p.reverse L (dB |c|) p.t (PeakBin A p.n)
      (refinedFreq A p.tracker.fs p.n) (refinedLevel A) (fun b => dB (A b)) Φ) L b i j →
      Tracker.segment (fallPart p.reverse L (dB |c|) p.t (PeakBin A p.n)
        (refinedFreq A p.tracker.fs p.n) (refinedLevel A) (fun b => dB (A b)) Φ) b i j =
      fallingTrack p.reverse L (j - i) (refinedFreq A p.tracker.fs p.n b) (refinedLevel A b) (dB |c|)
        (fun l => Φ l b) := by
    intro b i j hr
    obtain ⟨_, r1, r2, r3, _⟩ := (fall_run hG b i j).1 hr
    have hi : i = if p.reverse then L - (j - i) else 0 := by
      cases hrev : p.reverse <;> simp [hrev] at r3 ⊢ <;> omega
    have hval : ∀ k ∈ List.range (j - i), fallPart p.reverse L (dB |c|) p.t (PeakBin A p.n)
        (refinedFreq A p.tracker.fs p.n) (refinedLevel A) (fun b => dB (A b)) Φ (i + k) b =
        some ⟨refinedFreq A p.tracker.fs p.n b, refinedLevel A b +
          ((if p.reverse then (j - i) - 1 - k else k : Nat) : ℝ) * dB |c|, Φ (i + k) b⟩ := by
      intro k hk
      rw [List.mem_range] at hk
      rw [fall_values hG hr (i + k) (by omega) (by omega)]
      congr 4
      cases hrev : p.reverse <;> simp [hrev] at r3 ⊢ <;> omega
    unfold Tracker.segment fallingTrack
    rw [List.range'_eq_map_range]
    simp only [List.map_map, Function.comp_def]
    rw [← hi]
    congr 1
    · rw [List.map_congr_left (g := fun _ => some (refinedFreq A p.tracker.fs p.n b))]
      · simp
      · intro k hk; rw [hval k hk]; rfl
    · apply List.map_congr_left
      intro k hk; rw [hval k hk]; rfl
    · apply List.map_congr_left
      intro k hk; rw [hval k hk]; rfl
  have hruns : ∀ b N, PeakBin A p.n b → N ≤ L → 0 < N →
      (∀ e, e < L → (e < N ↔ p.t < dB (A b) + e * dB |c|)) → ∃ i j, j - i = N ∧
      Run (fallPart p.reverse L (dB |c|) p.t (PeakBin A p.n)
      (refinedFreq A p.tracker.fs p.n) (refinedLevel A) (fun b => dB (A b)) Φ) L b i j := by
    intro b N h1 h2 h3 h4
    cases hrev : p.reverse with
    | false =>
      refine ⟨0, N, by omega, (fall_run hG b 0 N).2 ⟨h1, h3, h2, by simp, ?_⟩⟩
      simpa using h4
    | true =>
      refine ⟨L - N, L, by omega, (fall_run hG b (L - N) L).2 ⟨h1, by omega, le_refl _, by simp, ?_⟩⟩
      rw [show L - (L - N) = N by omega]
      exact h4
  have hmain : ∃ s, trackerFit p.deact p.cfg.toCfg m.state fr = .ok s ∧
      (if p.modal then modalAllTracks p.cfg s else allTracks p.cfg.toCfg s).Nodup ∧
      ∀ u, u ∈ (if p.modal then modalAllTracks p.cfg s else allTracks p.cfg.toCfg s) ↔
        ∃ b i j, Run (fallPart p.reverse L (dB |c|) p.t (PeakBin A p.n)
          (refinedFreq A p.tracker.fs p.n) (refinedLevel A) (fun b => dB (A b)) Φ) L b i j ∧
          max 2 ⌈p.tracker.minSineDur * (p.tracker.fs / p.hop)⌉ ≤ ((j - i : Nat) : ℤ) ∧
        (p.modal = true → (∀ lo, p.tracker.freqLo = some lo → lo ≤ refinedFreq A p.tracker.fs p.n b) ∧
          (∀ hi, p.tracker.freqHi = some hi → refinedFreq A p.tracker.fs p.n b ≤ hi) ∧
          p.tracker.peakThreshold ≤ refinedLevel A b) ∧
        u = Tracker.segment (fallPart p.reverse L (dB |c|) p.t (PeakBin A p.n)
          (refinedFreq A p.tracker.fs p.n) (refinedLevel A) (fun b => dB (A b)) Φ) b i j := by
    have hlen := hfall.len
    unfold Params.deact
    cases hm : p.modal with
    | false =>
      obtain ⟨s, s1, s2, s3⟩ := C122_tracks p.cfg.toCfg m.state fr hv _ hsep
      rw [hlen] at s3
      refine ⟨s, s1, s2, ?_⟩
      intro u
      have := s3 u
      simp only [Bool.false_eq_true, if_false, false_imp_iff, true_and]
      exact this
    | true =>
      have hap : Apart p.cfg (fallPart p.reverse L (dB |c|) p.t (PeakBin A p.n)
          (refinedFreq A p.tracker.fs p.n) (refinedLevel A) (fun b => dB (A b)) Φ) fr.length := by
        rw [hlen]; exact fall_apart hG p.cfg
      obtain ⟨s, s1, s2, s3⟩ := C122_modal p.cfg (h.merge hm) m.state fr hv _ hsep hap
      rw [hlen] at s3
      refine ⟨s, s1, s2, ?_⟩
      intro u
      have hrv : p.cfg.reverse = p.reverse := by simp [Params.reverse, hm, Params.cfg]
      simp only [if_true, forall_const]
      rw [s3 u]
      constructor
      · rintro ⟨b, i, j, r1, r2, r3, r4⟩
        obtain ⟨e1, e2, e3, e4⟩ := (fall_accepted hG p.cfg hrv r1).1 r2
        exact ⟨b, i, j, r1, e1, ⟨e2, e3, e4⟩, r4⟩
      · rintro ⟨b, i, j, r1, e1, ⟨e2, e3, e4⟩, r4⟩
        refine ⟨b, i, j, r1, (fall_accepted hG p.cfg hrv r1).2 ⟨e1, e2, e3, e4⟩, ?_, r4⟩
        obtain ⟨_, _, _, q, _⟩ := (fall_run hG b i j).1 r1
        intro t ht
        have h0 : 0 ≤ t := h.strip hm t ht
        have hc : 0 ≤ ⌈t * (p.cfg.fs / p.cfg.h)⌉ := by
          apply Int.ceil_nonneg
          have : (0 : ℝ) ≤ p.cfg.h := Nat.cast_nonneg _
          have := h.fs.le
          exact mul_nonneg h0 (div_nonneg this (Nat.cast_nonneg _))
        rw [hrv]
        cases hrev : p.reverse <;> simp [hrev] at q ⊢
        · omega
        · omega
  obtain ⟨s, s1, s2, s3⟩ := hmain
  obtain ⟨m', m1, m2, m3⟩ := hfit s s1
  have htr : m'.tracks = if p.modal then modalAllTracks p.cfg s else allTracks p.cfg.toCfg s := by
    unfold Model.tracks
    rw [m2, m3]
  refine ⟨m', Φ, m1, m2, by rw [htr]; exact s2,
    fun b h1 h2 => ⟨(h.refined b h1 h2).1, (h.refined b h1 h2).2.1⟩, ?_⟩
  intro u
  rw [htr, s3 u]
  constructor
  · rintro ⟨b, i, j, r1, r2, r3, rfl⟩
    obtain ⟨q1, q2, q3, q4, q5⟩ := (fall_run hG b i j).1 r1
    exact ⟨b, j - i, q1, by omega, q5, r2, r3, hseg b i j r1⟩
  · rintro ⟨b, N, q1, q2, q3, q4, q5, rfl⟩
    have hN : 0 < N := by
      have : (2 : ℤ) ≤ N := le_trans (le_max_left _ _) q4
      omega
    obtain ⟨i, j, hij, hr⟩ := hruns b N q1 q2 hN q3
    refine ⟨b, i, j, hr, by rw [hij]; exact q4, q5, ?_⟩
    rw [hseg b i j hr, hij]

/-- C125: a sum of damped sinusoids that decay at the same rate (`r` per sample), and that do a whole number
of turns per hop, decays by the factor `r ^ h` per hop. -/
theorem C125_partials (N h : Nat) (r : ℝ) (ps : List (ℝ × ℝ × ℝ))
    (hω : ∀ e ∈ ps, ∃ j : ℤ, e.2.1 * h = 2 * Real.pi * j) :
    SelfSimilar ((List.range N).map fun (i : Nat) =>
      (ps.map fun e => e.1 * r ^ i * Real.cos (e.2.1 * i + e.2.2)).sum) h (r ^ h) := by
  intro i a b ha hb
  rw [List.getElem?_map, Option.map_eq_some_iff] at ha hb
  obtain ⟨i', hi, rfl⟩ := ha
  obtain ⟨i'', hi', rfl⟩ := hb
  have e1 := (List.getElem?_eq_some_iff.1 hi).2
  have e2 := (List.getElem?_eq_some_iff.1 hi').2
  simp only [List.getElem_range] at e1 e2
  subst e1 e2
  rw [← List.sum_map_mul_left]
  congr 1
  apply List.map_congr_left
  intro e he
  obtain ⟨j, hj⟩ := hω e he
  have : e.2.1 * ((i + h : Nat) : ℝ) + e.2.2 = e.2.1 * i + e.2.2 + j * (2 * Real.pi) := by
    push_cast
    rw [mul_add, hj]; ring
  rw [this, Real.cos_add_int_mul_two_pi, pow_add]
  ring

/-! ## A concrete case -/

/-- Frames of four samples without overlap, in both directions and with both trackers. -/
noncomputable def exSimilar (rev modal : Bool) : Params ℝ :=
  ⟨[1, 1, 1, 1], 8, -60, false, modal,
    { fs := 8, h := 4, maxNSines := 10, minSineDur := 0, freqDevOffset := 5, freqDevSlope := 0,
      freqLo := some 1, freqHi := none, peakThreshold := -50, reverse := rev,
      mergeStrategy := "average", stripT := none }, 4⟩

/-- An oscillation of a quarter of the sampling frequency, halved after every period; `s` is the depth of the
troughs. -/
noncomputable def exSound (s : ℝ) : List ℝ := [1, 0, -s, 0, 1 / 2, 0, -s / 2, 0, 1 / 4, 0, -s / 4, 0]

/-- With troughs as deep as the crests are high. -/
noncomputable abbrev exSimilarSound : List ℝ := exSound 1

theorem exSound_spectrum (s : ℝ) (rev modal : Bool) (k : Nat) :
    firstSpectrum (exSimilar rev modal) (exSound s) k = ‖Complex.I ^ k - s‖ / 4 ∨
    firstSpectrum (exSimilar rev modal) (exSound s) k = ‖s * Complex.I ^ k - 1‖ / 4 := by
  have hexp : ∀ (a : ℤ), Complex.exp (-(2 * Real.pi * Complex.I) * k * a / 8) =
      Complex.exp (-(Real.pi / 4 * Complex.I)) ^ (k * a) := by
    intro a
    rw [← Complex.exp_int_mul]
    congr 1; push_cast; ring
  have hu : Complex.exp (-(Real.pi / 4 * Complex.I)) ^ (-2 : ℤ) = Complex.I := by
    rw [← Complex.exp_int_mul]
    have : ((-2 : ℤ) : ℂ) * -(Real.pi / 4 * Complex.I) = Real.pi / 2 * Complex.I := by push_cast; ring
    rw [this, Complex.exp_pi_div_two_mul_I]
  set u := Complex.exp (-(Real.pi / 4 * Complex.I)) with hu'
  have hu0 : u ≠ 0 := Complex.exp_ne_zero _
  have hnorm : ‖u‖ = 1 := by
    rw [hu', show -(Real.pi / 4 * Complex.I) = ((-(Real.pi / 4) : ℝ) : ℂ) * Complex.I by push_cast; ring]
    exact Complex.norm_exp_ofReal_mul_I _
  have hI : u ^ ((k : ℤ) * -2) = Complex.I ^ k := by
    rw [mul_comm, zpow_mul, hu, zpow_natCast]
  cases hr : (exSimilar rev modal).reverse with
  | false =>
    left
    have e : centredBin (earliestFrame (exSimilar rev modal).reverse (exSound s)
        (exSimilar rev modal).w.length (exSimilar rev modal).hop)
        ((exSimilar rev modal).w.map fun a => a / (exSimilar rev modal).w.sum) (exSimilar rev modal).n k =
        (Complex.I ^ k - s) / 4 := by
      rw [hr]
      have h0 := hexp (-2)
      rw [hI] at h0
      simp [centredBin, earliestFrame, exSimilar, exSound, Finset.sum_range_succ] at h0 ⊢
      rw [h0]
      norm_num
      ring
    unfold firstSpectrum
    rw [e, norm_div]; simp
  | true =>
    right
    have e : centredBin (earliestFrame (exSimilar rev modal).reverse (exSound s)
        (exSimilar rev modal).w.length (exSimilar rev modal).hop)
        ((exSimilar rev modal).w.map fun a => a / (exSimilar rev modal).w.sum) (exSimilar rev modal).n k =
        -(u ^ k * (s * Complex.I ^ k - 1)) / 4 := by
      rw [hr]
      have h0 := hexp (-1)
      have h1 := hexp 1
      have h2 : u ^ ((k : ℤ) * -1) = u ^ k * Complex.I ^ k := by
        rw [← hI, ← zpow_natCast, ← zpow_add₀ hu0]; congr 1; ring
      rw [h2] at h0
      simp [centredBin, earliestFrame, exSimilar, exSound, Finset.sum_range_succ] at h0 h1 ⊢
      rw [show -(2 * (Real.pi : ℂ) * Complex.I * k * (1 - 2)) / 8 = 2 * Real.pi * Complex.I * k / 8 by ring,
        show -(2 * (Real.pi : ℂ) * Complex.I * k * (3 - 2)) / 8 = -(2 * Real.pi * Complex.I * k) / 8 by ring,
        h0, h1]
      norm_num
      ring
    unfold firstSpectrum
    rw [e, norm_div, norm_neg, norm_mul, norm_pow, hnorm]; simp

theorem exSound_values (s : ℝ) (hs : 0 < s) (rev modal : Bool) :
    firstSpectrum (exSimilar rev modal) (exSound s) 1 = √(1 + s ^ 2) / 4 ∧
    firstSpectrum (exSimilar rev modal) (exSound s) 2 = (1 + s) / 4 ∧
    firstSpectrum (exSimilar rev modal) (exSound s) 3 = √(1 + s ^ 2) / 4 := by
  have n1 : ‖Complex.I - s‖ = √(1 + s ^ 2) ∧ ‖s * Complex.I - 1‖ = √(1 + s ^ 2) ∧
      ‖-Complex.I - s‖ = √(1 + s ^ 2) ∧ ‖s * -Complex.I - 1‖ = √(1 + s ^ 2) := by
    refine ⟨?_, ?_, ?_, ?_⟩ <;>
    · rw [Complex.norm_def, Complex.normSq_apply]
      congr 1
      simp
      ring
  have n2 : ‖(-1 : ℂ) - s‖ = 1 + s ∧ ‖(s : ℂ) * -1 - 1‖ = 1 + s := by
    have h1 : (-1 : ℂ) - s = ((-(1 + s) : ℝ) : ℂ) := by push_cast; ring
    have h2 : (s : ℂ) * -1 - 1 = ((-(1 + s) : ℝ) : ℂ) := by push_cast; ring
    rw [h1, h2, Complex.norm_real, norm_neg, Real.norm_of_nonneg (by linarith)]
    exact ⟨rfl, rfl⟩
  refine ⟨?_, ?_, ?_⟩
  · rcases exSound_spectrum s rev modal 1 with h | h <;> rw [h, pow_one]
    · rw [n1.1]
    · rw [n1.2.1]
  · rcases exSound_spectrum s rev modal 2 with h | h <;> rw [h, Complex.I_sq]
    · rw [n2.1]
    · rw [n2.2]
  · rcases exSound_spectrum s rev modal 3 with h | h <;> rw [h, Complex.I_pow_three]
    · rw [n1.2.2.1]
    · rw [n1.2.2.2]

theorem exSimilar_values (rev modal : Bool) :
    firstSpectrum (exSimilar rev modal) exSimilarSound 1 = √2 / 4 ∧
    firstSpectrum (exSimilar rev modal) exSimilarSound 2 = 1 / 2 ∧
    firstSpectrum (exSimilar rev modal) exSimilarSound 3 = √2 / 4 := by
  have := exSound_values 1 one_pos rev modal
  norm_num at this ⊢
  exact this

theorem exSound_peak (s : ℝ) (hs : 0 < s) (rev modal : Bool) (b : Nat) :
    PeakBin (firstSpectrum (exSimilar rev modal) (exSound s)) (exSimilar rev modal).n b ↔ b = 2 := by
  obtain ⟨v1, v2, v3⟩ := exSound_values s hs rev modal
  have hs : √(1 + s ^ 2) < 1 + s := by
    rw [Real.sqrt_lt' (by linarith)]; nlinarith
  constructor
  · intro h
    have h1 := h.pos
    have h2 := h.top
    have h3 := h.left
    have h4 := h.right
    simp only [exSimilar] at h2
    have hb : b = 1 ∨ b = 2 ∨ b = 3 := by omega
    rcases hb with rfl | rfl | rfl
    · rw [v1, v2] at h4; linarith
    · rfl
    · rw [show 3 - 1 = 2 from rfl, v2, v3] at h3; linarith
  · rintro rfl
    refine ⟨by norm_num, by simp [exSimilar], ?_, ?_⟩
    · rw [show 2 - 1 = 1 from rfl, v1, v2]; linarith
    · rw [show 2 + 1 = 3 from rfl, v3, v2]; linarith

theorem exSimilar_peak (rev modal : Bool) (b : Nat) :
    PeakBin (firstSpectrum (exSimilar rev modal) exSimilarSound) (exSimilar rev modal).n b ↔ b = 2 :=
  exSound_peak 1 one_pos rev modal b

/-- The hypotheses of `C125_tracks` are met in both directions, with both trackers. -/
theorem exSound_decaying (s : ℝ) (hs : 0 < s) (rev modal : Bool) :
    Decaying (exSimilar rev modal) (exSound s) (1 / 2) := by
  obtain ⟨v1, v2, v3⟩ := exSound_values s hs rev modal
  have hs1 : 1 ≤ √(1 + s ^ 2) := by
    rw [Real.le_sqrt (by norm_num) (by positivity)]; nlinarith
  refine ⟨⟨⟨?_, ?_, ?_, ?_, ?_, rfl, ?_, fun _ => Or.inl rfl, ?_, ?_, ?_, ?_⟩, ?_, ?_, ?_⟩, ?_, by norm_num, ?_⟩
  · norm_num [exSimilar]
  · norm_num [exSimilar]
  · norm_num [exSimilar]
  · norm_num [exSimilar]
  · norm_num [exSimilar]
  · norm_num [exSimilar, exSound]
  · intro _ s h; simp [exSimilar] at h
  · norm_num [exSimilar]
  · norm_num [exSimilar]
  · show dB floatEps ≤ -60
    unfold dB floatEps
    have : Real.logb 10 (1 / 2 ^ 52) ≤ -3 := by
      rw [Real.logb_le_iff_le_rpow (by norm_num) (by positivity)]
      norm_num [Real.rpow_neg]
    linarith
  · intro b e hb he _
    rw [exSound_peak s hs] at hb
    subst hb
    have he2 : e ≤ 2 := by simpa [exSimilar, exSound] using he
    have hp : (1 / 2 : ℝ) ^ 2 ≤ |(1 / 2 : ℝ)| ^ e := by
      rw [abs_of_pos (by norm_num)]
      exact pow_le_pow_of_le_one (by norm_num) (by norm_num) he2
    rw [show 2 - 1 = 1 from rfl, show 2 + 1 = 3 from rfl, v1, v3]
    have : floatEps ≤ (1 / 2 : ℝ) ^ 2 * (1 / 4) := by unfold floatEps; norm_num
    have h2 : (1 / 2 : ℝ) ^ 2 * (1 / 4) ≤ |(1 / 2 : ℝ)| ^ e * (√(1 + s ^ 2) / 4) :=
      mul_le_mul hp (by linarith) (by norm_num) (by positivity)
    exact ⟨by linarith, by linarith⟩
  · intro bs hbs hmem
    have hsub : ∀ b ∈ bs, b = 2 := fun b hb => (exSound_peak s hs rev modal b).1 (hmem b hb).1
    rw [List.eq_replicate_of_mem hsub] at hbs ⊢
    have : bs.length ≤ 1 := List.nodup_replicate.1 hbs
    simp only [List.length_replicate, exSimilar]
    omega
  · intro _ b b' hb hb' _ _ hlt
    rw [exSound_peak s hs] at hb hb'
    subst hb hb'
    exact absurd hlt (lt_irrefl _)
  · intro i a b ha hb
    match i with
    | 0 | 1 | 2 | 3 | 4 | 5 | 6 | 7 =>
      simp [exSound, exSimilar] at ha hb
      rw [← ha, ← hb]; ring
    | i + 8 => simp [exSound, exSimilar] at hb
  · rw [abs_lt]; norm_num

theorem exSimilar_decaying (rev modal : Bool) :
    Decaying (exSimilar rev modal) exSimilarSound (1 / 2) := exSound_decaying 1 one_pos rev modal

theorem exSound_low (s : ℝ) (hs : 0 < s) :
    ∀ e : Nat, e ≤ 2 → (-50 : ℝ) < dB ((1 + s) / 4) + e * dB |(1 / 2 : ℝ)| := by
  intro e he
  rw [← dB_pow_mul (by norm_num) (by positivity), abs_of_pos (by norm_num)]
  have hp : (1 / 2 : ℝ) ^ 2 ≤ (1 / 2 : ℝ) ^ e := pow_le_pow_of_le_one (by norm_num) (by norm_num) he
  have : dB (1 / 100) < dB ((1 / 2) ^ e * ((1 + s) / 4)) := by
    rw [dB_lt (by norm_num) (by positivity)]
    have : (1 / 2 : ℝ) ^ 2 * (1 / 4) ≤ (1 / 2 : ℝ) ^ e * ((1 + s) / 4) :=
      mul_le_mul hp (by linarith) (by norm_num) (by positivity)
    norm_num at this ⊢
    linarith
  have h10 : dB (1 / 100) = -40 := by
    unfold dB
    rw [show (1 / 100 : ℝ) = (10 ^ 2)⁻¹ by norm_num, Real.logb_inv, Real.logb_pow,
      Real.logb_self_eq_one (by norm_num)]
    norm_num
  linarith

theorem exSimilar_low : ∀ e : Nat, e ≤ 2 → (-50 : ℝ) < dB (1 / 2) + e * dB |(1 / 2 : ℝ)| := by
  have := exSound_low 1 one_pos
  norm_num at this ⊢
  exact this

/-- The track of the example, in reverse mode: three frames at 2 Hz, from -18 dB (the last frame is analysed
first) to -6 dB; with a lower limit of 1 Hz. -/
example (tol : ℝ) (sort : List (Peak ℝ) → List Nat) (hsort : ∀ peaks, IsArgsort peaks (sort peaks))
    (m : Model ℝ) (hm : m.params = exSimilar true true) :
    ∃ m' φ, m.fit (spectrum tol) sort exSimilarSound Kwargs.none = .ok m' ∧
      m'.tracks = [⟨0, [some 2, some 2, some 2],
        [some (dB (1 / 8)), some (dB (1 / 4)), some (dB (1 / 2))], φ⟩] := by
  obtain ⟨v1, v2, v3⟩ := exSimilar_values true true
  obtain ⟨m', Φ, h1, h2, h3, _, h5⟩ := C125_tracks tol sort hsort m exSimilarSound (1 / 2) _ hm.symm _ rfl 3 (by
    norm_num [exSimilar, exSound]) (exSimilar_decaying true true)
  have hf : refinedFreq (firstSpectrum (exSimilar true true) exSimilarSound) (exSimilar true true).tracker.fs
      (exSimilar true true).n 2 = 2 := by
    unfold refinedFreq vertexPlace
    rw [show 2 - 1 = 1 from rfl, show 2 + 1 = 3 from rfl, v1, v3]
    norm_num [exSimilar]
  have hl : refinedLevel (firstSpectrum (exSimilar true true) exSimilarSound) 2 = dB (1 / 2) := by
    unfold refinedLevel vertexHeight
    rw [show 2 - 1 = 1 from rfl, show 2 + 1 = 3 from rfl, v1, v3, v2]
    norm_num
  have hlow := exSimilar_low
  refine ⟨m', [some (Φ 0 2), some (Φ 1 2), some (Φ 2 2)], h1, ?_⟩
  have hmem : ∀ u, u ∈ m'.tracks ↔ u = fallingTrack true 3 3 2 (dB (1 / 2)) (dB |(1 / 2 : ℝ)|)
      (fun l => Φ l 2) := by
    intro u
    rw [h5]
    constructor
    · rintro ⟨b, N, e1, e2, e3, _, _, e6⟩
      rw [exSimilar_peak] at e1
      subst e1
      have : 2 < N := by
        rw [e3 2 (by norm_num), v2]
        have := hlow 2 (le_refl _)
        simp only [exSimilar]
        linarith
      have hN : N = 3 := by omega
      subst hN
      rw [hf, hl] at e6
      exact e6
    · rintro rfl
      refine ⟨2, 3, (exSimilar_peak _ _ _).2 rfl, le_refl _, ?_, ?_, ?_, ?_⟩
      · intro e he
        rw [v2]
        have := hlow e (by omega)
        constructor
        · intro _
          simp only [exSimilar]
          linarith
        · intro _; exact he
      · simp [exSimilar]
      · intro _
        rw [hf, hl]
        refine ⟨?_, ?_, ?_⟩
        · intro lo h; simp [exSimilar] at h; linarith
        · intro hi h; simp [exSimilar] at h
        · have := hlow 0 (by norm_num)
          simp only [exSimilar]
          norm_num at this
          linarith
      · rw [hf, hl]; rfl
  have hone : m'.tracks = [fallingTrack true 3 3 2 (dB (1 / 2)) (dB |(1 / 2 : ℝ)|) (fun l => Φ l 2)] := by
    apply List.perm_singleton.1
    rw [List.perm_ext_iff_of_nodup h3 (List.nodup_singleton _)]
    intro u
    rw [hmem]; simp
  rw [hone, List.cons.injEq]
  refine ⟨?_, rfl⟩
  have g : ∀ e : Nat, dB (1 / 2) + (e : ℝ) * dB |(1 / 2 : ℝ)| = dB ((1 / 2) ^ e * (1 / 2)) := by
    intro e
    rw [dB_pow_mul (by norm_num) (by norm_num), abs_of_pos (by norm_num)]
  have g1 := g 1
  have g2 := g 2
  norm_num at g1 g2
  simp [fallingTrack, List.range_succ, List.replicate_succ]
  rw [← one_div, ← one_div, ← one_div]
  exact ⟨g2, g1⟩

end Verif.Sms
