import Verif.Sms.DampedLemmas

/-!
# C131: the peaks of sums of damped sinusoids
-/

set_option autoImplicit false
set_option linter.unusedSectionVars false
set_option linter.unusedSimpArgs false

namespace Verif.Sms

open Verif.Tracker Verif.Learn Complex

/-- The sound is the sum of the damped sinusoids `Re (A b * z b ^ m)`, one for every bin `b` of `S`, and of
disturbances of at most `ν` per sample.  What is assumed of the spectra of the sinusoids and of the window, given by
`strength` and `rest`:
* the spectrum of the partial `b` has its maximum at the bin `b` (`sharp`);
* around the bin `b`, everything else is at most the part `ρ` of the partial, as long as it is tracked (`leak`);
* it is tracked while it is above the threshold (`loud`);
* in all other bins everything together is below the threshold, or the bin is on the flank of a partial (`others`);
* the maxima are so far from each other that they cannot be taken for each other (`steady`, `apart`, `order`). -/
structure Ringing (p : Params ℝ) (x : List ℝ) (S : List Nat) (N : Nat → Nat) (A z : Nat → ℂ) (ν ρ : ℝ) : Prop
    extends Usable p x where
  nodup : S.Nodup
  sound : ∀ m, m < x.length → |x.getD m 0 - (S.map fun b => (A b * z b ^ m).re).sum| ≤ ν
  count : ∀ b ∈ S, N b ≤ frameCount p x
  room : S.length ≤ p.tracker.maxNSines
  small : 0 ≤ ρ ∧ ρ < 1
  pole : ∀ b ∈ S, 0 < ‖z b‖ ∧ ‖z b‖ < 1
  inside : ∀ b ∈ S, 1 ≤ b ∧ b + 1 ≤ p.n / 2
  sharp : ∀ b ∈ S, ∀ k, k = b - 1 ∨ k = b + 1 → 0 < strength p x (A b) (z b) 0 k ∧
    (1 + ρ) * strength p x (A b) (z b) 0 k < (1 - ρ) * strength p x (A b) (z b) 0 b
  leak : ∀ b ∈ S, ∀ e, e < N b → ∀ k, b - 1 ≤ k → k ≤ b + 1 →
    rest p x S A z ν b e k ≤ ρ * strength p x (A b) (z b) e k
  loud : ∀ b ∈ S, ∀ e, e < N b → p.t < dB ((1 - ρ) * strength p x (A b) (z b) e b) ∧
    ∀ k, k = b - 1 ∨ k = b + 1 → floatEps ≤ (1 - ρ) * strength p x (A b) (z b) e k
  others : ∀ e, e < frameCount p x → ∀ k, 1 ≤ k → k + 1 ≤ p.n / 2 → ¬ (k ∈ S ∧ e < N k) →
    everything p x S A z ν e k ≤ 10 ^ (p.t / 20) ∨
    ∃ b ∈ S, ∃ k', (k' = k - 1 ∨ k' = k + 1) ∧ strength p x (A b) (z b) e k + rest p x S A z ν b e k ≤
      strength p x (A b) (z b) e k' - rest p x S A z ν b e k'
  steady : ∀ b ∈ S, 2 * freqSlack (strength p x (A b) (z b) 0) p.tracker.fs p.n ρ b < p.tracker.freqDevOffset
  apart : ∀ b ∈ S, ∀ b' ∈ S, b ≠ b' →
    freqSlack (strength p x (A b) (z b) 0) p.tracker.fs p.n ρ b +
      3 * freqSlack (strength p x (A b') (z b') 0) p.tracker.fs p.n ρ b' <
      |refinedFreq (strength p x (A b) (z b) 0) p.tracker.fs p.n b -
        refinedFreq (strength p x (A b') (z b') 0) p.tracker.fs p.n b'|
  order : p.reverse = true → ∀ b ∈ S, ∀ b' ∈ S, 0 < N b' → N b' < N b →
    allowed p (refinedFreq (strength p x (A b') (z b') 0) p.tracker.fs p.n b' +
        freqSlack (strength p x (A b') (z b') 0) p.tracker.fs p.n ρ b') ≤
      |refinedFreq (strength p x (A b) (z b) 0) p.tracker.fs p.n b -
          refinedFreq (strength p x (A b') (z b') 0) p.tracker.fs p.n b'| -
        freqSlack (strength p x (A b) (z b) 0) p.tracker.fs p.n ρ b -
        freqSlack (strength p x (A b') (z b') 0) p.tracker.fs p.n ρ b' ∨
    refinedLevel (strength p x (A b') (z b') 0) b' + (N b' - 1 : Nat) * dB (‖z b'‖ ^ p.hop) + 5 / 2 * wobble ρ <
      refinedLevel (strength p x (A b) (z b) 0) b + (N b' - 1 : Nat) * dB (‖z b‖ ^ p.hop)

theorem lt_dB {t a : ℝ} (ha : 0 < a) : t < dB a ↔ (10 : ℝ) ^ (t / 20) < a := by
  unfold dB
  rw [← Real.lt_logb_iff_rpow_lt (by norm_num) ha]
  constructor <;> intro h <;> linarith

/-- C131: sums of damped sinusoids are partials with disturbances (see C130). -/
theorem C131_partials (p : Params ℝ) (x : List ℝ) (S : List Nat) (N : Nat → Nat) (A z : Nat → ℂ) (ν ρ : ℝ)
    (h : Ringing p x S N A z ν ρ) (r : Nat → ℝ) (hr : ∀ b ∈ S, r b = ‖z b‖ ^ p.hop) :
    Partials p x S N r (fun b => strength p x (A b) (z b) 0) ρ := by
  have heps := floatEps_pos
  have hnear : ∀ b ∈ S, ∀ e, e < N b → ∀ k, b - 1 ≤ k → k ≤ b + 1 →
      |frameSpectrum p x e k - strength p x (A b) (z b) e k| ≤ ρ * strength p x (A b) (z b) e k := by
    intro b hb e he k hk1 hk2
    exact (frame_near p x h.toUsable S A z ν h.nodup h.sound e (lt_of_lt_of_le he (h.count b hb)) k b hb).trans
      (h.leak b hb e he k hk1 hk2)
  have hpos : ∀ b ∈ S, 0 < r b := by
    intro b hb
    rw [hr b hb]
    exact pow_pos (h.pole b hb).1 _
  have hscale : ∀ b ∈ S, ∀ e k, strength p x (A b) (z b) e k = r b ^ e * strength p x (A b) (z b) 0 k := by
    intro b hb e k
    rw [strength_frame, hr b hb]
  have hsharp : ∀ b ∈ S, ∀ k, k = b - 1 ∨ k = b + 1 → ∀ e, e < N b →
      frameSpectrum p x e k < frameSpectrum p x e b := by
    intro b hb k hk e he
    have h1 := abs_le.1 (hnear b hb e he k (by omega) (by omega))
    have h2 := abs_le.1 (hnear b hb e he b (by omega) (by omega))
    have h3 := mul_lt_mul_of_pos_left (h.sharp b hb k hk).2 (pow_pos (hpos b hb) e)
    rw [hscale b hb e k] at h1
    rw [hscale b hb e b] at h2
    linarith
  have hclip : ∀ b ∈ S, ∀ e, e < N b → ∀ k, k = b - 1 ∨ k = b + 1 → floatEps ≤ frameSpectrum p x e k := by
    intro b hb e he k hk
    have h1 := abs_le.1 (hnear b hb e he k (by omega) (by omega))
    have h2 := (h.loud b hb e he).2 k hk
    linarith
  refine ⟨h.toUsable, h.nodup, h.count, ?_, ?_, h.room, h.small, ?_, ?_, ?_, ?_, h.steady, h.apart, ?_⟩
  · intro e he k
    constructor
    · rintro ⟨h1, h2⟩
      by_contra hcon
      have hXk : 0 < frameSpectrum p x e k := lt_of_le_of_lt (norm_nonneg _) h1.left
      rcases h.others e he k h1.pos h1.top hcon with h3 | ⟨b, hb, k', hk', h3⟩
      · have h4 := frame_le p x h.toUsable S A z ν h.sound e he k
        rw [lt_dB hXk] at h2
        linarith
      · have h4 := abs_le.1 (frame_near p x h.toUsable S A z ν h.nodup h.sound e he k b hb)
        have h5 := abs_le.1 (frame_near p x h.toUsable S A z ν h.nodup h.sound e he k' b hb)
        have h6 : frameSpectrum p x e k' < frameSpectrum p x e k := by
          rcases hk' with rfl | rfl
          · exact h1.left
          · exact h1.right
        linarith
    · rintro ⟨hk, hek⟩
      obtain ⟨i1, i2⟩ := h.inside k hk
      refine ⟨⟨i1, i2, hsharp k hk _ (Or.inl rfl) e hek, hsharp k hk _ (Or.inr rfl) e hek⟩, ?_⟩
      have h1 := abs_le.1 (hnear k hk e hek k (by omega) (by omega))
      have h2 := (h.loud k hk e hek).1
      have h3 : 0 < (1 - ρ) * strength p x (A k) (z k) e k := by
        have hs := (h.sharp k hk (k + 1) (Or.inr rfl))
        have hρ := h.small
        have : 0 < (1 - ρ) * strength p x (A k) (z k) 0 k := by
          have := mul_pos (by linarith : (0 : ℝ) < 1 + ρ) hs.1
          linarith [hs.2]
        rw [hscale k hk e k]
        have h4 := mul_pos (pow_pos (hpos k hk) e) this
        linarith
      refine lt_of_lt_of_le h2 ((dB_le h3 (by linarith)).2 (by linarith))
  · intro b hb e he
    exact ⟨hclip b hb e he _ (Or.inl rfl), hclip b hb e he _ (Or.inr rfl)⟩
  · intro b hb
    refine ⟨hpos b hb, ?_⟩
    rw [hr b hb]
    have := h.hop
    exact pow_lt_one₀ (norm_nonneg _) (h.pole b hb).2 (by omega)
  · intro b hb
    obtain ⟨s1, s2⟩ := h.sharp b hb (b - 1) (Or.inl rfl)
    refine ⟨s1, ?_⟩
    have hρ := h.small
    have h1 := mul_nonneg hρ.1 (strength_nonneg p x (A b) (z b) 0 b)
    have h2 := mul_nonneg hρ.1 s1.le
    linarith
  · intro b hb
    obtain ⟨s1, s2⟩ := h.sharp b hb (b + 1) (Or.inr rfl)
    refine ⟨s1, ?_⟩
    have hρ := h.small
    have h1 := mul_nonneg hρ.1 (strength_nonneg p x (A b) (z b) 0 b)
    have h2 := mul_nonneg hρ.1 s1.le
    linarith
  · intro b hb e he k hk1 hk2
    have := hnear b hb e he k hk1 hk2
    rw [hscale b hb e k] at this
    exact this
  · intro hrev b hb b' hb' h0 hlt
    have := h.order hrev b hb b' hb' h0 hlt
    simp only [hr b hb, hr b' hb']
    exact this

/-- The response to a pole at the angle of the bin `b`, at the distance `j` from this bin: the distance alone matters,
up to a factor of modulus 1. -/
theorem response_centred (p : Params ℝ) (s : ℝ) (b k : Nat) (hn : 0 < p.n) :
    ∃ u : ℂ, ‖u‖ = 1 ∧ response p (s * exp (2 * Real.pi * I * b / p.n)) k = u *
      ∑ i ∈ Finset.range p.w.length, ((p.w.getD i 0 / p.w.sum * s ^ (if p.reverse then p.w.length - 1 - i else i) : ℝ) : ℂ) *
        exp (2 * Real.pi * I * ((b : ℂ) - k) * i / p.n) := by
  have hn' : (p.n : ℂ) ≠ 0 := by exact_mod_cast hn.ne'
  have hconj : (starRingEnd ℂ) (s * exp (2 * Real.pi * I * b / p.n)) = s * exp (-(2 * Real.pi * I * b / p.n)) := by
    rw [map_mul, Complex.conj_ofReal, ← Complex.exp_conj]
    congr 2
    have h2 : (starRingEnd ℂ) 2 = 2 := map_ofNat (starRingEnd ℂ) 2
    simp [h2]
    ring
  cases hr : p.reverse with
  | false =>
    refine ⟨exp (((2 * Real.pi * k * (p.w.length / 2 : Nat) / p.n : ℝ) : ℂ) * I), Complex.norm_exp_ofReal_mul_I _, ?_⟩
    unfold response turned
    rw [Finset.mul_sum]
    refine Finset.sum_congr rfl fun i _ => ?_
    simp only [hr, Bool.false_eq_true, if_false]
    rw [mul_pow, ← Complex.exp_nat_mul]
    push_cast
    have : exp ((i : ℂ) * (2 * Real.pi * I * b / p.n)) *
        exp (-(2 * Real.pi * I) * k * ((i : ℂ) - (p.w.length / 2 : Nat)) / p.n) =
        exp (2 * Real.pi * k * (p.w.length / 2 : Nat) / p.n * I) * exp (2 * Real.pi * I * ((b : ℂ) - k) * i / p.n) := by
      rw [← Complex.exp_add, ← Complex.exp_add]
      congr 1
      field_simp
      ring
    linear_combination ((p.w.getD i 0 : ℂ) / p.w.sum * (s : ℂ) ^ i) * this
  | true =>
    refine ⟨exp (((2 * Real.pi * (k * (p.w.length / 2 : Nat) - b * (p.w.length - 1 : Nat)) / p.n : ℝ) : ℂ) * I),
      Complex.norm_exp_ofReal_mul_I _, ?_⟩
    unfold response turned
    rw [Finset.mul_sum]
    refine Finset.sum_congr rfl fun i hi => ?_
    have hi := Finset.mem_range.1 hi
    simp only [hr, if_true]
    rw [hconj, mul_pow, ← Complex.exp_nat_mul]
    have hc : ((p.w.length - 1 - i : Nat) : ℂ) = ((p.w.length - 1 : Nat) : ℂ) - i := by
      rw [Nat.cast_sub (by omega)]
    push_cast
    have : exp (((p.w.length - 1 - i : Nat) : ℂ) * -(2 * Real.pi * I * b / p.n)) *
        exp (-(2 * Real.pi * I) * k * ((i : ℂ) - (p.w.length / 2 : Nat)) / p.n) =
        exp (2 * Real.pi * (k * (p.w.length / 2 : Nat) - b * (p.w.length - 1 : Nat)) / p.n * I) *
          exp (2 * Real.pi * I * ((b : ℂ) - k) * i / p.n) := by
      rw [← Complex.exp_add, ← Complex.exp_add, hc]
      congr 1
      field_simp
      ring
    linear_combination ((p.w.getD i 0 : ℂ) / p.w.sum * (s : ℂ) ^ (p.w.length - 1 - i)) * this

/-- Of a partial exactly at the centre of its bin, the spectra beside it are equal. -/
theorem response_symmetric (p : Params ℝ) (s : ℝ) (b : Nat) (hn : 0 < p.n) (j : Nat) (hj : j ≤ b) :
    ‖response p (s * exp (2 * Real.pi * I * b / p.n)) (b - j)‖ =
      ‖response p (s * exp (2 * Real.pi * I * b / p.n)) (b + j)‖ := by
  obtain ⟨u, hu, h1⟩ := response_centred p s b (b - j) hn
  obtain ⟨v, hv, h2⟩ := response_centred p s b (b + j) hn
  rw [h1, h2, norm_mul, norm_mul, hu, hv, one_mul, one_mul, ← Complex.norm_conj]
  congr 1
  rw [map_sum]
  refine Finset.sum_congr rfl fun i _ => ?_
  rw [map_mul, Complex.conj_ofReal, ← Complex.exp_conj]
  congr 2
  rw [Nat.cast_sub hj]
  push_cast
  have h2 : (starRingEnd ℂ) 2 = 2 := map_ofNat (starRingEnd ℂ) 2
  simp [h2]

/-- C131: a partial exactly at the centre of its bin is refined to its own frequency, and to its own level: if the
window is not negative, the level is that of `‖A‖ / 2` and of the decay, averaged over the window. -/
theorem C131_centred (p : Params ℝ) (x : List ℝ) (A : ℂ) (s : ℝ) (b : Nat) (hb : 1 ≤ b) (hn : 0 < p.n) :
    refinedFreq (strength p x A (s * exp (2 * Real.pi * I * b / p.n)) 0) p.tracker.fs p.n b =
        b * p.tracker.fs / p.n ∧
      refinedLevel (strength p x A (s * exp (2 * Real.pi * I * b / p.n)) 0) b =
        dB (strength p x A (s * exp (2 * Real.pi * I * b / p.n)) 0 b) ∧
      ((∀ a ∈ p.w, 0 ≤ a / p.w.sum) → 0 ≤ s → strength p x A (s * exp (2 * Real.pi * I * b / p.n)) 0 b =
        ‖A‖ / 2 * s ^ frameStart p x 0 * ∑ i ∈ Finset.range p.w.length,
          p.w.getD i 0 / p.w.sum * s ^ (if p.reverse then p.w.length - 1 - i else i)) := by
  have hsym : strength p x A (s * exp (2 * Real.pi * I * b / p.n)) 0 (b - 1) =
      strength p x A (s * exp (2 * Real.pi * I * b / p.n)) 0 (b + 1) := by
    unfold strength
    rw [response_symmetric p s b hn 1 hb]
  refine ⟨?_, ?_, ?_⟩
  · unfold refinedFreq vertexPlace
    rw [hsym]
    simp
  · unfold refinedLevel vertexHeight
    rw [hsym]
    simp
  · intro hw hs
    obtain ⟨u, hu, h1⟩ := response_centred p s b b hn
    unfold strength
    rw [h1, norm_mul u, hu, one_mul, norm_mul]
    have hexp : exp (2 * Real.pi * I * b / p.n) = exp (((2 * Real.pi * b / p.n : ℝ) : ℂ) * I) := by
      congr 1; push_cast; ring
    rw [hexp, Complex.norm_exp_ofReal_mul_I, mul_one, Complex.norm_real, Real.norm_of_nonneg hs]
    congr 1
    have h2 : ∀ i ∈ Finset.range p.w.length,
        ((p.w.getD i 0 / p.w.sum * s ^ (if p.reverse then p.w.length - 1 - i else i) : ℝ) : ℂ) *
          exp (2 * Real.pi * I * ((b : ℂ) - b) * i / p.n) =
        ((p.w.getD i 0 / p.w.sum * s ^ (if p.reverse then p.w.length - 1 - i else i) : ℝ) : ℂ) := by
      intro i _
      rw [sub_self, mul_zero, zero_mul, zero_div, Complex.exp_zero, mul_one]
    rw [Finset.sum_congr rfl h2, ← Complex.ofReal_sum, Complex.norm_real, Real.norm_of_nonneg]
    refine Finset.sum_nonneg fun i hi => ?_
    have hi := Finset.mem_range.1 hi
    refine mul_nonneg ?_ (pow_nonneg hs _)
    rw [List.getD_eq_getElem?_getD, List.getElem?_eq_getElem hi]
    exact hw _ (List.getElem_mem hi)

end Verif.Sms
