import Verif.Sms.LastSpec
import Verif.Sms.SimilarProps
import Verif.Tracker.LastLemmas

/-!
# Lemmas: the peaks of all frames of a sound
-/

set_option autoImplicit false
set_option linter.unusedSectionVars false
set_option linter.unusedSimpArgs false

namespace Verif.Sms

open Verif.Tracker Verif.Learn

/-- The frames that are analysed, in terms of their order in time. -/
theorem time_frames {x : List ℝ} {h w : Nat} (hh : 1 ≤ h) (hw : w ≤ x.length) (rev : Bool) :
    ∃ frames, timeFrames false w h (if rev then x.reverse else x) = .ok frames ∧
      frames.length = 1 + (x.length - w) / h ∧
      ∀ l, l < frames.length → frames[l]? = some (timeFrame rev x w h (timeIndex rev frames.length l)) := by
  have hlen : (if rev then x.reverse else x).length = x.length := by cases rev <;> simp
  obtain ⟨fr, g1, g2, g3, g4⟩ := C18_windows (if rev then x.reverse else x) w h hh (by rwa [hlen])
  rw [hlen] at g2
  refine ⟨fr, by rw [(C19_unpadded _ w h).2, g1], g2, ?_⟩
  intro l hl
  obtain ⟨hin, f, f1, f2, f3⟩ := g4 l hl
  rw [f1]
  congr 1
  rw [hlen] at hin
  apply List.ext_getElem?
  intro j
  cases rev with
  | false =>
    simp only [Bool.false_eq_true, if_false, timeFrame, timeIndex] at f3 ⊢
    by_cases hj : j < w
    · rw [f3 j hj, List.getElem?_take, if_pos hj, List.getElem?_drop]
    · rw [List.getElem?_eq_none (by omega), List.getElem?_eq_none (by simp; omega)]
  | true =>
    simp only [if_true, timeFrame, timeIndex] at f3 ⊢
    set L := fr.length with hL
    have hmod := Nat.div_add_mod (x.length - w) h
    have hL1 : L - 1 = (x.length - w) / h := by omega
    have hr0 : (x.length - w) % h + (L - 1) * h = x.length - w := by
      rw [hL1, Nat.mul_comm]; omega
    have hl1 : l * h + (L - 1 - l) * h = (L - 1) * h := by
      rw [← Nat.add_mul]; congr 1; omega
    have hE : ((x.drop ((x.length - w) % h + (L - 1 - l) * h)).take w).length = w := by
      simp; omega
    by_cases hj : j < w
    · rw [f3 j hj, List.getElem?_reverse (by omega), List.getElem?_reverse (by rw [hE]; exact hj), hE,
        List.getElem?_take, if_pos (by omega), List.getElem?_drop]
      congr 1
      omega
    · rw [List.getElem?_eq_none (by omega), List.getElem?_eq_none (by rw [List.length_reverse, hE]; omega)]

/-- The peaks that the tracker sees. -/
theorem time_peaks (tol : ℝ) (sort : List (Peak ℝ) → List Nat)
    (hsort : ∀ peaks, IsArgsort peaks (sort peaks)) (m : Model ℝ) (x : List ℝ) (h : Usable m.params x)
    (hclip : ∀ e b, e < frameCount m.params x → PeakBin (frameSpectrum m.params x e) m.params.n b →
      m.params.t < dB (frameSpectrum m.params x e b) →
      floatEps ≤ frameSpectrum m.params x e (b - 1) ∧ floatEps ≤ frameSpectrum m.params x e (b + 1)) :
    ∃ (fr : List (Frame ℝ)) (Φ : Nat → Nat → ℝ), (∀ f ∈ fr, f.Valid) ∧ fr.length = frameCount m.params x ∧
      (∀ (l : Nat) (f : Frame ℝ), fr[l]? = some f → ∃ bs : List Nat, bs.Nodup ∧
        (∀ b, b ∈ bs ↔ PeakBin (frameSpectrum m.params x (timeIndex m.params.reverse fr.length l)) m.params.n b ∧
          m.params.t < dB (frameSpectrum m.params x (timeIndex m.params.reverse fr.length l) b)) ∧
        f.peaks = bs.map fun b =>
          ⟨refinedFreq (frameSpectrum m.params x (timeIndex m.params.reverse fr.length l)) m.params.tracker.fs
              m.params.n b,
            refinedLevel (frameSpectrum m.params x (timeIndex m.params.reverse fr.length l)) b,
            Φ (timeIndex m.params.reverse fr.length l) b⟩) ∧
      ∀ s, trackerFit m.params.deact m.params.cfg.toCfg m.state fr = .ok s →
        ∃ m', m.fit (spectrum tol) sort x Kwargs.none = .ok m' ∧ m'.params = m.params ∧ m'.state = s := by
  set p := m.params with hp
  set w' := p.w.map fun a => a / p.w.sum with hw'
  have hwl : w'.length = p.w.length := by simp [hw']
  have h2 := h.two
  have hn := h.fftSize
  obtain ⟨frames, f1, f2, f4⟩ := time_frames h.hop h.long p.reverse
  obtain ⟨R, a1, a2, a3⟩ := fitLoop_run_peaks (spectrum tol) sort hsort p w'
    (fun z hz => by
      have hz0 : z ≠ [] := by rintro rfl; simp at hz; omega
      rw [(spectrum_lengths tol z hz0).1, (spectrum_lengths tol z hz0).2]) (by omega) (by omega) frames
    (fun f hf => by rw [hwl]; exact timeFrames_rows _ _ _ _ _ f1 f hf)
  have hL : frameCount p x = frames.length := by rw [f2]; rfl
  have hrec : ∀ (l : Nat) (f : Frame ℝ), (R.map Rec.frame)[l]? = some f → f.Valid ∧
      ∃ (bs : List Nat) (φ : Nat → ℝ), bs.Nodup ∧
        (∀ b, b ∈ bs ↔ PeakBin (frameSpectrum p x (timeIndex p.reverse frames.length l)) p.n b ∧
          p.t < dB (frameSpectrum p x (timeIndex p.reverse frames.length l) b)) ∧
        f.peaks = bs.map fun b =>
          ⟨refinedFreq (frameSpectrum p x (timeIndex p.reverse frames.length l)) p.tracker.fs p.n b,
            refinedLevel (frameSpectrum p x (timeIndex p.reverse frames.length l)) b, φ b⟩ := by
    intro l f hf
    rw [List.getElem?_map, Option.map_eq_some_iff] at hf
    obtain ⟨r, hr, rfl⟩ := hf
    have hl : l < frames.length := by rw [← a1]; exact (List.getElem?_eq_some_iff.1 hr).1
    have hfl := timeFrames_rows _ _ _ _ _ f1 _ (List.mem_of_getElem? (f4 l hl))
    obtain ⟨d1, d2, d3, d4, d5⟩ := a2 l _ r (f4 l hl) hr
    refine ⟨d2, ?_⟩
    set e : Nat := timeIndex p.reverse frames.length l with he
    have heL : e < frames.length := by
      rw [he, timeIndex]; split <;> omega
    set A := frameSpectrum p x e with hA
    obtain ⟨mx, px, g1, g2, g3, g4, _⟩ := C124_dft tol
      (timeFrame p.reverse x p.w.length p.hop e) w' p.n
      (by rw [hwl]; exact hfl) (by omega) (by omega)
    rw [d1] at g1
    simp only [Except.ok.injEq, Prod.mk.injEq] at g1
    obtain ⟨rfl, rfl⟩ := g1
    have hm : ∀ k, k ≤ p.n / 2 → r.mx[k]? = some (dB (max ((1 : ℝ) ^ 0 * A k) floatEps)) := by
      intro k hk
      rw [g4 k hk, pow_zero, one_mul]
      rfl
    obtain ⟨ploc, pk, ph, q1, q2, q3, q4⟩ := peaks_exact p.cfg.fs p.t p.n r.mx r.px (by rw [g3, g2])
    rw [d4] at q3
    cases q3
    rw [d5] at q4
    have hmem : ∀ b, b ∈ ploc ↔ PeakBin A p.n b ∧ p.t < dB (A b) := by
      intro b
      rw [q2, similar_peaks r.mx A p.n 0 1 p.t one_pos (fun k => norm_nonneg _) h.floor g2 hm b]
      simp
    refine ⟨ploc, ph, q1, hmem, ?_⟩
    rw [Except.ok.inj q4]
    apply List.map_congr_left
    intro b hb
    obtain ⟨hpk, htb⟩ := (hmem b).1 hb
    obtain ⟨c1, c2⟩ := hclip e b (by rw [hL]; exact heL) hpk htb
    have hb1 := hpk.pos
    have hb2 := hpk.top
    have c0 : floatEps ≤ A b := le_trans c1 hpk.left.le
    have v1 := similar_levels r.mx A p.n 0 1 one_pos hm (b - 1) (by omega) (by simpa using c1)
    have v2 := similar_levels r.mx A p.n 0 1 one_pos hm b (by omega) (by simpa using c0)
    have v3 := similar_levels r.mx A p.n 0 1 one_pos hm (b + 1) (by omega) (by simpa using c2)
    simp only [Nat.cast_zero, zero_mul, add_zero] at v1 v2 v3
    rw [v1, v2, v3]
    rfl
  choose! hv bs φ hbs using hrec
  have hRl : (R.map Rec.frame).length = frames.length := by rw [List.length_map, a1]
  have hinv : ∀ l, l < frames.length → timeIndex p.reverse frames.length (timeIndex p.reverse frames.length l) = l := by
    intro l hl
    unfold timeIndex
    split <;> omega
  refine ⟨R.map Rec.frame, fun e => φ (timeIndex p.reverse frames.length e)
    ((R.map Rec.frame).getD (timeIndex p.reverse frames.length e) ⟨[], []⟩), ?_, by rw [hL, hRl], ?_, ?_⟩
  · intro f hf
    obtain ⟨l, hl⟩ := List.getElem?_of_mem hf
    exact hv l f hl
  · intro l f hf
    obtain ⟨q1, q2, q3⟩ := hbs l f hf
    have hl : l < frames.length := by rw [← hRl]; exact (List.getElem?_eq_some_iff.1 hf).1
    rw [hRl]
    refine ⟨bs l f, q1, q2, ?_⟩
    simp only [hinv l hl, List.getD_eq_getElem?_getD, hf, Option.getD_some]
    exact q3
  · intro s hs
    refine ⟨⟨p, s, m.storage.reset.run (R.flatMap Rec.ops), some w'⟩, ?_, rfl, rfl⟩
    simp only [Model.fit, Model.setParams, Kwargs.none, id, ← hp, normalizedWindow, if_neg h.window,
      Option.getD_some, Option.getD_none, h.unpadded]
    rw [f1]
    simp only
    rw [a3, show runFrom p.deact p.cfg.toCfg (R.map Rec.frame) (Tracker.reset m.state) = .ok s from hs]
    rfl

/-- The refined frequency of a peak is less than half a bin from the bin. -/
theorem refinedFreq_near (A : Nat → ℝ) (fs : ℝ) (n b : Nat) (hfs : 0 < fs) (hn : 0 < n) (hb : PeakBin A n b)
    (h1 : 0 < A (b - 1)) (h2 : 0 < A (b + 1)) :
    |refinedFreq A fs n b - b * fs / n| < fs / (2 * n) ∧ 0 < refinedFreq A fs n b := by
  have l1 : dB (A (b - 1)) < dB (A b) := (dB_lt h1 (h1.trans hb.left)).2 hb.left
  have l2 : dB (A (b + 1)) < dB (A b) := (dB_lt h2 (h2.trans hb.right)).2 hb.right
  have hn' : (0 : ℝ) < n := by exact_mod_cast hn
  have hv := vertexPlace_bound l1 l2
  have hb1 : (1 : ℝ) ≤ b := by exact_mod_cast hb.pos
  refine ⟨?_, ?_⟩
  · unfold refinedFreq
    rw [← sub_div, ← sub_mul, add_sub_cancel_left, abs_div, abs_mul, abs_of_pos hfs, abs_of_pos hn',
      div_lt_div_iff₀ hn' (by positivity)]
    have h2 := mul_lt_mul_of_pos_right hv (mul_pos hfs hn')
    nlinarith
  · unfold refinedFreq
    have := (abs_lt.1 hv).1
    exact div_pos (mul_pos (by linarith) hfs) hn'

theorem refinedFreq_inj (A : Nat → ℝ) (fs : ℝ) (n b b' : Nat) (hfs : 0 < fs) (hn : 0 < n)
    (h : |refinedFreq A fs n b - b * fs / n| < fs / (2 * n))
    (h' : |refinedFreq A fs n b' - b' * fs / n| < fs / (2 * n))
    (he : refinedFreq A fs n b = refinedFreq A fs n b') : b = b' := by
  have hn' : (0 : ℝ) < n := by exact_mod_cast hn
  have h1 := abs_lt.1 h
  have h2 := abs_lt.1 h'
  rw [he] at h1
  have hstep : fs / (2 * n) + fs / (2 * n) = fs / n := by
    field_simp; ring
  have k1 : (b : ℝ) * fs / n - b' * fs / n < fs / n := by linarith
  have k2 : (b' : ℝ) * fs / n - b * fs / n < fs / n := by linarith
  rw [← sub_div, ← sub_mul, div_lt_div_iff_of_pos_right hn'] at k1 k2
  have j1 : (b : ℝ) - b' < 1 := by
    by_contra h0
    have : 1 * fs ≤ ((b : ℝ) - b') * fs := mul_le_mul_of_nonneg_right (not_lt.1 h0) hfs.le
    linarith
  have j2 : (b' : ℝ) - b < 1 := by
    by_contra h0
    have : 1 * fs ≤ ((b' : ℝ) - b) * fs := mul_le_mul_of_nonneg_right (not_lt.1 h0) hfs.le
    linarith
  have i1 : b < b' + 1 := by
    have : (b : ℝ) < b' + 1 := by linarith
    exact_mod_cast this
  have i2 : b' < b + 1 := by
    have : (b' : ℝ) < b + 1 := by linarith
    exact_mod_cast this
  omega

end Verif.Sms
