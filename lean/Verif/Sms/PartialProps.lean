import Verif.Sms.PartialLemmas

/-!
# C130: the peaks of partials with disturbances
-/

set_option autoImplicit false
set_option linter.unusedSectionVars false
set_option linter.unusedSimpArgs false

namespace Verif.Sms

open Verif.Tracker Verif.Learn

/-- Partials with the maxima at the bins of `S`.  Around its bin `b`, and in the first `N b` frames, the spectrum of a
partial is `P b`, multiplied by `r b` after every frame, up to the part `ρ` of itself.  The other fields say
that nothing else is above the threshold, that the disturbances are smaller than the distances between the
partials, and, for backward analysis, that a partial that begins does not take over the
track of a partial that is already there. -/
structure Partials (p : Params ℝ) (x : List ℝ) (S : List Nat) (N : Nat → Nat) (r : Nat → ℝ) (P : Nat → Nat → ℝ)
    (ρ : ℝ) : Prop extends Usable p x where
  nodup : S.Nodup
  count : ∀ b ∈ S, N b ≤ frameCount p x
  peaks : ∀ e, e < frameCount p x → ∀ b, PeakBin (frameSpectrum p x e) p.n b ∧ p.t < dB (frameSpectrum p x e b) ↔
    b ∈ S ∧ e < N b
  clip : ∀ b ∈ S, ∀ e, e < N b → floatEps ≤ frameSpectrum p x e (b - 1) ∧ floatEps ≤ frameSpectrum p x e (b + 1)
  room : S.length ≤ p.tracker.maxNSines
  small : 0 ≤ ρ ∧ ρ < 1
  rate : ∀ b ∈ S, 0 < r b ∧ r b < 1
  left : ∀ b ∈ S, 0 < P b (b - 1) ∧ P b (b - 1) < P b b
  right : ∀ b ∈ S, 0 < P b (b + 1) ∧ P b (b + 1) < P b b
  shape : ∀ b ∈ S, ∀ e, e < N b → ∀ k, b - 1 ≤ k → k ≤ b + 1 →
    |frameSpectrum p x e k - r b ^ e * P b k| ≤ ρ * (r b ^ e * P b k)
  steady : ∀ b ∈ S, 2 * freqSlack (P b) p.tracker.fs p.n ρ b < p.tracker.freqDevOffset
  apart : ∀ b ∈ S, ∀ b' ∈ S, b ≠ b' →
    freqSlack (P b) p.tracker.fs p.n ρ b + 3 * freqSlack (P b') p.tracker.fs p.n ρ b' <
      |refinedFreq (P b) p.tracker.fs p.n b - refinedFreq (P b') p.tracker.fs p.n b'|
  order : p.reverse = true → ∀ b ∈ S, ∀ b' ∈ S, 0 < N b' → N b' < N b →
    allowed p (refinedFreq (P b') p.tracker.fs p.n b' + freqSlack (P b') p.tracker.fs p.n ρ b') ≤
      |refinedFreq (P b) p.tracker.fs p.n b - refinedFreq (P b') p.tracker.fs p.n b'| -
        freqSlack (P b) p.tracker.fs p.n ρ b - freqSlack (P b') p.tracker.fs p.n ρ b' ∨
    refinedLevel (P b') b' + (N b' - 1 : Nat) * dB (r b') + 5 / 2 * wobble ρ <
      refinedLevel (P b) b + (N b' - 1 : Nat) * dB (r b)

/-- The refined values of a maximum in every frame. -/
theorem Partials.values {p : Params ℝ} {x : List ℝ} {S : List Nat} {N : Nat → Nat} {r : Nat → ℝ}
    {P : Nat → Nat → ℝ} {ρ : ℝ} (h : Partials p x S N r P ρ) (b : Nat) (hb : b ∈ S) (e : Nat) (he : e < N b) :
    |peakFreq p x e b - refinedFreq (P b) p.tracker.fs p.n b| ≤ freqSlack (P b) p.tracker.fs p.n ρ b ∧
      |peakLevel p x e b - (refinedLevel (P b) b + e * dB (r b))| ≤ 5 / 4 * wobble ρ ∧ 0 < peakFreq p x e b := by
  have hn : 0 < p.n := by have := h.two; have := h.fftSize; omega
  have hpk := ((h.peaks e (lt_of_lt_of_le he (h.count b hb)) b).2 ⟨hb, he⟩).1
  have hv := refined_disturbed (P b) (frameSpectrum p x e) p.tracker.fs ρ (r b) p.n b e h.fs hn h.small.1 h.small.2
    (h.rate b hb).1 (h.left b hb).1 (h.right b hb).1 (h.left b hb).2 (h.right b hb).2 hpk
    (h.shape b hb e he)
  have heps := floatEps_pos
  have hc := h.clip b hb e he
  exact ⟨hv.1, hv.2, (refinedFreq_near _ _ _ _ h.fs hn hpk (by linarith) (by linarith)).2⟩

/-- C130: such partials can be tracked (see C129), and are seen with their own frequencies and levels, up to the effect
of the disturbances.  For a concrete case, see `Verif.Sample.exNear_partials`. -/
theorem C130_lasting (p : Params ℝ) (x : List ℝ) (S : List Nat) (N : Nat → Nat) (r : Nat → ℝ)
    (P : Nat → Nat → ℝ) (ρ : ℝ) (h : Partials p x S N r P ρ) :
    Lasting p x S N ∧ ∀ b ∈ S, ∀ e, e < N b →
      |peakFreq p x e b - refinedFreq (P b) p.tracker.fs p.n b| ≤ freqSlack (P b) p.tracker.fs p.n ρ b ∧
      |peakLevel p x e b - (refinedLevel (P b) b + e * dB (r b))| ≤ 5 / 4 * wobble ρ := by
  refine ⟨⟨h.toUsable, h.nodup, h.count, h.peaks, h.clip, h.room, ?_, ?_⟩, fun b hb e he =>
    ⟨(h.values b hb e he).1, (h.values b hb e he).2.1⟩⟩
  · intro b hb e he
    have h1 := abs_le.1 (h.values b hb e (by omega)).1
    have h2 := abs_le.1 (h.values b hb (e + 1) he).1
    have h3 := h.steady b hb
    have h4 : 0 < peakFreq p x (if p.reverse then e else e + 1) b := by
      split
      · exact (h.values b hb e (by omega)).2.2
      · exact (h.values b hb (e + 1) he).2.2
    have h5 := mul_nonneg h.devSlope h4.le
    have h6 : |peakFreq p x e b - peakFreq p x (e + 1) b| ≤ 2 * freqSlack (P b) p.tracker.fs p.n ρ b := by
      rw [abs_le]; constructor <;> linarith
    unfold allowed
    linarith
  · intro b hb b' hb' hne e e' hee he he'
    obtain ⟨a1, a2, a3⟩ := h.values b hb e he
    obtain ⟨c1, c2, c3⟩ := h.values b' hb' e' he'
    have hap := h.apart b hb b' hb' hne
    -- distance of the two peaks
    have hdist : |refinedFreq (P b) p.tracker.fs p.n b - refinedFreq (P b') p.tracker.fs p.n b'| -
        freqSlack (P b) p.tracker.fs p.n ρ b - freqSlack (P b') p.tracker.fs p.n ρ b' ≤
        |peakFreq p x e b - peakFreq p x e' b'| := by
      have t1 : |refinedFreq (P b) p.tracker.fs p.n b - refinedFreq (P b') p.tracker.fs p.n b'| ≤
          |refinedFreq (P b) p.tracker.fs p.n b - peakFreq p x e b| +
          |peakFreq p x e b - peakFreq p x e' b'| +
          |peakFreq p x e' b' - refinedFreq (P b') p.tracker.fs p.n b'| := by
        have s1 := abs_sub_le (refinedFreq (P b) p.tracker.fs p.n b) (peakFreq p x e b)
          (refinedFreq (P b') p.tracker.fs p.n b')
        have s2 := abs_sub_le (peakFreq p x e b) (peakFreq p x e' b') (refinedFreq (P b') p.tracker.fs p.n b')
        linarith
      rw [abs_sub_comm (refinedFreq (P b) p.tracker.fs p.n b) (peakFreq p x e b)] at t1
      linarith
    by_cases heb : e < N b'
    · right; left
      refine ⟨heb, ?_⟩
      obtain ⟨d1, _⟩ := h.values b' hb' e heb
      have : |peakFreq p x e b' - peakFreq p x e' b'| ≤ 2 * freqSlack (P b') p.tracker.fs p.n ρ b' := by
        rw [abs_le] at c1 d1 ⊢
        constructor <;> linarith
      linarith
    · cases hr : p.reverse with
      | false =>
        simp only [hr, Bool.false_eq_true, if_false] at hee
        omega
      | true =>
        simp only [hr, if_true] at hee
        have hN : N b' = e := by omega
        rcases h.order hr b hb b' hb' (by omega) (by omega) with h1 | h1
        · left
          refine le_trans ?_ (h1.trans hdist)
          unfold allowed
          have := mul_le_mul_of_nonneg_left (by linarith [(abs_le.1 c1).2] : peakFreq p x e' b' ≤
            refinedFreq (P b') p.tracker.fs p.n b' + freqSlack (P b') p.tracker.fs p.n ρ b') h.devSlope
          linarith
        · right; right
          refine ⟨by omega, by omega, ?_⟩
          obtain ⟨_, f2, _⟩ := h.values b hb e' (by omega)
          rw [show N b' - 1 = e' by omega] at h1
          rw [abs_le] at c2 f2
          linarith

end Verif.Sms
