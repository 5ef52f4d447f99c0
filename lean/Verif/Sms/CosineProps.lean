import Verif.Sms.CosineLemmas

/-!
# C132: sums of slowly decaying sinusoids through a Hann or Hamming window
-/

set_option autoImplicit false
set_option linter.unusedSectionVars false
set_option linter.unusedSimpArgs false

namespace Verif.Sms

open Verif.Tracker Verif.Learn Complex

/-- The window is `a - c cos` over the whole FFT size, and the sound is a sum of damped sinusoids at the centres
of the bins of `S`, at least three bins apart, and of disturbances of at most `ν` per sample.  Each sinusoid
is multiplied by `s b` after every sample, and loses at most the part `γ` over a window. -/
structure Centred (p : Params ℝ) (x : List ℝ) (S : List Nat) (N : Nat → Nat) (A : Nat → ℂ) (s : Nat → ℝ)
    (a c ν γ ρ : ℝ) : Prop extends Usable p x where
  windowIs : p.w = cosineWindow a c p.n
  shape : 0 < c ∧ c ≤ a
  nodup : S.Nodup
  sound : ∀ m, m < x.length → |x.getD m 0 - (S.map fun b => (A b * binPole p.n b (s b) ^ m).re).sum| ≤ ν
  count : ∀ b ∈ S, N b ≤ frameCount p x
  room : S.length ≤ p.tracker.maxNSines
  small : 0 ≤ ρ ∧ ρ < 1
  decay : ∀ b ∈ S, 0 < s b ∧ s b < 1 ∧ (p.n - 1) * (1 - s b) ≤ γ
  place : ∀ b ∈ S, 2 ≤ b ∧ b + 2 ≤ p.n / 2
  distance : ∀ b ∈ S, ∀ b' ∈ S, b < b' → b + 3 ≤ b'
  slow : 0 ≤ γ ∧ γ < c / (2 * a)
  sharp : (1 + ρ) * (c / (2 * a) + γ) < (1 - ρ) * (1 - γ)
  leak : ∀ b ∈ S, ∀ e, e < N b → spill p x S A s γ ν e ≤ ρ * ((c / (2 * a) - γ) * sideGain p x (A b) (s b) e)
  loud : ∀ b ∈ S, ∀ e, e < N b → p.t < dB ((1 - ρ) * ((1 - γ) * sideGain p x (A b) (s b) e)) ∧
    floatEps ≤ (1 - ρ) * ((c / (2 * a) - γ) * sideGain p x (A b) (s b) e)
  quiet : ∀ e, e < frameCount p x → spill p x S A s γ ν e ≤ 10 ^ (p.t / 20) ∧
    ∀ b ∈ S, N b ≤ e → sideGain p x (A b) (s b) e + spill p x S A s γ ν e ≤ 10 ^ (p.t / 20)
  steady : 2 * binSlack p (c / (2 * a)) γ ρ < p.tracker.freqDevOffset
  apart : 4 * binSlack p (c / (2 * a)) γ ρ < 3 * p.tracker.fs / p.n
  order : p.reverse = true → ∀ b ∈ S, ∀ b' ∈ S, 0 < N b' → N b' < N b →
    allowed p (b' * p.tracker.fs / p.n + binSlack p (c / (2 * a)) γ ρ) ≤
      |(b : ℝ) - b'| * p.tracker.fs / p.n - 2 * binSlack p (c / (2 * a)) γ ρ ∨
    dB (sideGain p x (A b') (s b') (N b' - 1)) + 5 / 2 * wobble ρ <
      dB ((1 - γ) * sideGain p x (A b) (s b) (N b' - 1))

theorem hiss_cosine (p : Params ℝ) (a c ν : ℝ) (hw : p.w = cosineWindow a c p.n) (ha : 0 < a) (hc : 0 ≤ c)
    (hca : c ≤ a) (hn : 4 ≤ p.n) : hiss p ν = ν := by
  have hsum : p.w.sum = a * p.n := by rw [hw, cosineWindow_sum a c p.n (by omega)]
  have hlen : p.w.length = p.n := by rw [hw, cosineWindow_length]
  have hnp : (4 : ℝ) ≤ p.n := by exact_mod_cast hn
  have h1 : ∑ i ∈ Finset.range p.n, |p.w.getD i 0 / p.w.sum| = 1 := by
    have h2 : ∀ i ∈ Finset.range p.n, |p.w.getD i 0 / p.w.sum| =
        (a - c * Real.cos (2 * Real.pi * i / p.n)) / (a * p.n) := by
      intro i hi
      have hi := Finset.mem_range.1 hi
      rw [hsum, hw, cosineWindow_getD a c p.n i hi, abs_of_nonneg]
      apply div_nonneg _ (by positivity)
      have := Real.cos_le_one (2 * Real.pi * i / p.n)
      have := mul_le_mul_of_nonneg_left this hc
      linarith
    rw [Finset.sum_congr rfl h2, ← Finset.sum_div]
    have h3 : ∑ i ∈ Finset.range p.n, (a - c * Real.cos (2 * Real.pi * i / p.n)) = a * p.n := by
      rw [← cosineWindow_sum a c p.n (by omega)]
      unfold cosineWindow
      rw [Finset.sum_range, ← List.sum_ofFn, List.ofFn_eq_map, ← List.map_coe_finRange_eq_range, List.map_map]
      rfl
    rw [h3, div_self (by positivity)]
  unfold hiss
  rw [hlen, h1, mul_one]

theorem everything_split (p : Params ℝ) (x : List ℝ) (S : List Nat) (A z : Nat → ℂ) (ν : ℝ) (e k b : Nat)
    (hS : S.Nodup) (hb : b ∈ S) :
    everything p x S A z ν e k = strength p x (A b) (z b) e k + rest p x S A z ν b e k := by
  have hperm : S.Perm (b :: S.filter (· ≠ b)) := by
    rw [List.perm_ext_iff_of_nodup hS (List.nodup_cons.2 ⟨by simp, hS.filter _⟩)]
    intro c
    simp only [List.mem_cons, List.mem_filter, decide_eq_true_eq, ne_eq, decide_not, Bool.not_eq_true',
      decide_eq_false_iff_not]
    by_cases hc : c = b
    · simp [hc, hb]
    · simp [hc]
  unfold everything rest
  rw [(hperm.map fun b => bothSides p x (A b) (z b) e k).sum_eq, List.map_cons, List.sum_cons]
  unfold bothSides
  ring

section

variable {p : Params ℝ} {x : List ℝ} {S : List Nat} {N : Nat → Nat} {A : Nat → ℂ} {s : Nat → ℝ} {a c ν γ ρ : ℝ}

theorem Centred.size (h : Centred p x S N A s a c ν γ ρ) {b : Nat} (hb : b ∈ S) : 8 ≤ p.n := by
  have := h.place b hb; omega

theorem Centred.gain_nonneg (h : Centred p x S N A s a c ν γ ρ) {b : Nat} (hb : b ∈ S) (e : Nat) :
    0 ≤ sideGain p x (A b) (s b) e := by
  have := (h.decay b hb).1.le
  unfold sideGain
  positivity

theorem Centred.side (h : Centred p x S N A s a c ν γ ρ) {b : Nat} (hb : b ∈ S) (e k : Nat) :
    strength p x (A b) (binPole p.n b (s b)) e k =
      sideGain p x (A b) (s b) e * ‖response p (binPole p.n b (s b)) k‖ := by
  unfold strength sideGain
  rw [norm_binPole _ _ _ (h.decay b hb).1.le]

/-- The responses to a partial. -/
theorem Centred.own (h : Centred p x S N A s a c ν γ ρ) {b : Nat} (hb : b ∈ S) (e k : Nat) (hk : k ≤ p.n / 2) :
    (k = b → (1 - γ) * sideGain p x (A b) (s b) e ≤ strength p x (A b) (binPole p.n b (s b)) e k) ∧
    (k = b + 1 ∨ k + 1 = b →
      (c / (2 * a) - γ) * sideGain p x (A b) (s b) e ≤ strength p x (A b) (binPole p.n b (s b)) e k ∧
      strength p x (A b) (binPole p.n b (s b)) e k ≤ (c / (2 * a) + γ) * sideGain p x (A b) (s b) e) ∧
    (k + 2 ≤ b ∨ b + 2 ≤ k → strength p x (A b) (binPole p.n b (s b)) e k ≤ γ * sideGain p x (A b) (s b) e) ∧
    strength p x (A b) (binPole p.n b (s b)) e k ≤ sideGain p x (A b) (s b) e ∧
    strength p x (A b) ((starRingEnd ℂ) (binPole p.n b (s b))) e k ≤ γ * sideGain p x (A b) (s b) e := by
  have hn := h.size hb
  have hpl := h.place b hb
  have hd := h.decay b hb
  have hg := h.gain_nonneg hb e
  obtain ⟨r1, r2, r3, r4⟩ := response_cosine p a c (s b) γ b k h.windowIs (by linarith [h.shape.1, h.shape.2])
    h.shape.1.le h.shape.2 (by omega) hd.1.le hd.2.1.le hd.2.2
  obtain ⟨_, _, q3, _⟩ := response_cosine p a c (s b) γ (p.n - b) k h.windowIs (by linarith [h.shape.1, h.shape.2])
    h.shape.1.le h.shape.2 (by omega) hd.1.le hd.2.1.le hd.2.2
  rw [h.side hb]
  refine ⟨?_, ?_, ?_, ?_, ?_⟩
  · intro hkb
    have := abs_le.1 (r1 hkb)
    rw [mul_comm]
    exact mul_le_mul_of_nonneg_left (by linarith) hg
  · intro hkb
    have := abs_le.1 (r2 hkb)
    rw [mul_comm _ (sideGain p x (A b) (s b) e), mul_comm _ (sideGain p x (A b) (s b) e)]
    exact ⟨mul_le_mul_of_nonneg_left (by linarith) hg, mul_le_mul_of_nonneg_left (by linarith) hg⟩
  · intro hkb
    rw [mul_comm γ]
    exact mul_le_mul_of_nonneg_left (r3 (by omega)) hg
  · exact mul_le_of_le_one_right hg r4
  · unfold strength
    rw [binPole_conj _ _ _ (by omega) (by omega), norm_binPole _ _ _ hd.1.le, mul_comm γ]
    exact mul_le_mul_of_nonneg_left (q3 (by omega)) hg

/-- The rest beside a partial. -/
theorem Centred.rest_le (h : Centred p x S N A s a c ν γ ρ) {b : Nat} (hb : b ∈ S) (e k : Nat) (hk : k ≤ p.n / 2)
    (hfar : ∀ b' ∈ S, b' ≠ b → k + 2 ≤ b' ∨ b' + 2 ≤ k) :
    rest p x S A (fun b => binPole p.n b (s b)) ν b e k ≤ spill p x S A s γ ν e := by
  have hn := h.size hb
  have hperm : S.Perm (b :: S.filter (· ≠ b)) := by
    rw [List.perm_ext_iff_of_nodup h.nodup (List.nodup_cons.2 ⟨by simp, h.nodup.filter _⟩)]
    intro c
    simp only [List.mem_cons, List.mem_filter, decide_eq_true_eq, ne_eq, decide_not, Bool.not_eq_true',
      decide_eq_false_iff_not]
    by_cases hc : c = b
    · simp [hc, hb]
    · simp [hc]
  unfold rest spill
  rw [hiss_cosine p a c ν h.windowIs (by linarith [h.shape.1, h.shape.2]) h.shape.1.le h.shape.2 (by omega),
    (hperm.map fun b => sideGain p x (A b) (s b) e).sum_eq, List.map_cons, List.sum_cons]
  have h1 := (h.own hb e k hk).2.2.2.2
  have h2 : ((S.filter (· ≠ b)).map fun b' => bothSides p x (A b') (binPole p.n b' (s b')) e k).sum ≤
      2 * γ * ((S.filter (· ≠ b)).map fun b => sideGain p x (A b) (s b) e).sum := by
    rw [← List.sum_map_mul_left]
    apply List.sum_le_sum
    intro b' hb'
    obtain ⟨m1, m2⟩ := List.mem_filter.1 hb'
    have hne : b' ≠ b := by simpa using m2
    obtain ⟨_, _, o3, _, o5⟩ := h.own m1 e k hk
    have := o3 (hfar b' m1 hne)
    unfold bothSides
    linarith
  have h3 := mul_nonneg h.slow.1 (h.gain_nonneg hb e)
  linarith

theorem Centred.everything_far (h : Centred p x S N A s a c ν γ ρ) (e k : Nat) (hk : k ≤ p.n / 2) (hn : 4 ≤ p.n)
    (hfar : ∀ b' ∈ S, k + 2 ≤ b' ∨ b' + 2 ≤ k) :
    everything p x S A (fun b => binPole p.n b (s b)) ν e k ≤ spill p x S A s γ ν e := by
  unfold everything spill
  rw [hiss_cosine p a c ν h.windowIs (by linarith [h.shape.1, h.shape.2]) h.shape.1.le h.shape.2 hn]
  have h2 : (S.map fun b' => bothSides p x (A b') (binPole p.n b' (s b')) e k).sum ≤
      2 * γ * (S.map fun b => sideGain p x (A b) (s b) e).sum := by
    rw [← List.sum_map_mul_left]
    apply List.sum_le_sum
    intro b' hb'
    obtain ⟨_, _, o3, _, o5⟩ := h.own hb' e k hk
    have := o3 (hfar b' hb')
    unfold bothSides
    linarith
  linarith

theorem Centred.far (h : Centred p x S N A s a c ν γ ρ) {b : Nat} (hb : b ∈ S) (k : Nat) (h1 : b - 1 ≤ k)
    (h2 : k ≤ b + 1) : ∀ b' ∈ S, b' ≠ b → k + 2 ≤ b' ∨ b' + 2 ≤ k := by
  intro b' hb' hne
  have hpl := h.place b hb
  rcases Nat.lt_or_gt_of_ne hne with hlt | hlt
  · have := h.distance b' hb' b hb hlt; omega
  · have := h.distance b hb b' hb' hlt; omega

/-- Bounds of the frequency and level of a partial alone. -/
theorem Centred.values (h : Centred p x S N A s a c ν γ ρ) {b : Nat} (hb : b ∈ S) (hN : 0 < N b) :
    refinedFreq (strength p x (A b) (binPole p.n b (s b)) 0) p.tracker.fs p.n b = b * p.tracker.fs / p.n ∧
    dB ((1 - γ) * sideGain p x (A b) (s b) 0) ≤ refinedLevel (strength p x (A b) (binPole p.n b (s b)) 0) b ∧
    refinedLevel (strength p x (A b) (binPole p.n b (s b)) 0) b ≤ dB (sideGain p x (A b) (s b) 0) ∧
    freqSlack (strength p x (A b) (binPole p.n b (s b)) 0) p.tracker.fs p.n ρ b ≤ binSlack p (c / (2 * a)) γ ρ ∧
    0 < sideGain p x (A b) (s b) 0 := by
  have hn := h.size hb
  have hpl := h.place b hb
  obtain ⟨c1, c2, _⟩ := C131_centred p x (A b) (s b) b (by omega) (by omega)
  have hγ : 0 < 1 - γ := by
    have h1 := h.slow
    have h2 : c / (2 * a) ≤ 1 / 2 := by
      rw [div_le_iff₀ (by linarith [h.shape.1, h.shape.2])]
      linarith [h.shape.2]
    linarith
  have hκ : 0 < c / (2 * a) - γ := by linarith [h.slow.2]
  have hg : 0 < sideGain p x (A b) (s b) 0 := by
    have h1 := (h.loud b hb 0 hN).2
    have heps := floatEps_pos
    rcases (h.gain_nonneg hb 0).lt_or_eq with h2 | h2
    · exact h2
    · rw [← h2, mul_zero, mul_zero] at h1
      linarith
  have o1 := (h.own hb 0 b (by omega)).1 rfl
  have o2 := (h.own hb 0 b (by omega)).2.2.2.1
  have l1 := (h.own hb 0 (b - 1) (by omega)).2.1 (by omega)
  have l2 := (h.own hb 0 (b + 1) (by omega)).2.1 (by omega)
  have p1 : 0 < (1 - γ) * sideGain p x (A b) (s b) 0 := mul_pos hγ hg
  have p2 : 0 < (c / (2 * a) - γ) * sideGain p x (A b) (s b) 0 := mul_pos hκ hg
  have hκγ : 0 < c / (2 * a) + γ := by linarith [h.slow.1]
  have p3 : 0 < (c / (2 * a) + γ) * sideGain p x (A b) (s b) 0 := mul_pos hκγ hg
  have hfs := h.fs
  have hnp : (0 : ℝ) < p.n := by exact_mod_cast (by omega : 0 < p.n)
  refine ⟨c1, ?_, ?_, ?_, hg⟩
  · exact (dB_le p1 (by linarith)).2 o1 |>.trans (le_of_eq c2.symm)
  · exact (le_of_eq c2).trans ((dB_le (by unfold binPole at o1; linarith) hg).2 o2)
  · unfold freqSlack binSlack
    have hwob := wobble_nonneg h.small.1 h.small.2
    have d1 := (dB_le p1 (by linarith)).2 o1
    have d2 := (dB_le (by linarith) p3).2 l1.2
    have d3 := (dB_le (by linarith) p3).2 l2.2
    rw [dB_mul hγ hg] at d1
    rw [dB_mul hκγ hg] at d2 d3
    have d4 : dB ((1 - γ) / (c / (2 * a) + γ)) + dB (c / (2 * a) + γ) = dB (1 - γ) := by
      rw [← dB_mul (div_pos hγ hκγ) hκγ, div_mul_cancel₀ _ hκγ.ne']
    have d5 : 2 * dB ((1 - γ) / (c / (2 * a) + γ)) ≤
        curvature (strength p x (A b) (binPole p.n b (s b)) 0) b := by
      unfold curvature
      linarith
    have d6 : 0 < dB ((1 - γ) / (c / (2 * a) + γ)) := by
      have : dB 1 < dB ((1 - γ) / (c / (2 * a) + γ)) := by
        rw [dB_lt one_pos (div_pos hγ hκγ), lt_div_iff₀ hκγ, one_mul]
        have h1 := h.sharp
        have h2 := mul_nonneg h.small.1 hκγ.le
        have h3 := mul_nonneg h.small.1 hγ.le
        linarith
      simpa [dB] using this
    have d7 : 3 * wobble ρ / curvature (strength p x (A b) (binPole p.n b (s b)) 0) b ≤
        3 * wobble ρ / (2 * dB ((1 - γ) / (c / (2 * a) + γ))) :=
      div_le_div_of_nonneg_left (by linarith) (by linarith) d5
    have d8 := mul_le_mul_of_nonneg_right d7 (div_pos hfs hnp).le
    rw [← mul_div_assoc, ← mul_div_assoc] at d8
    refine le_trans (le_of_eq ?_) d8
    ring

end

/-- C132: such sums are within the reach of C131, with explicit bounds. -/
theorem C132_ringing (p : Params ℝ) (x : List ℝ) (S : List Nat) (N : Nat → Nat) (A : Nat → ℂ) (s : Nat → ℝ)
    (a c ν γ ρ : ℝ) (h : Centred p x S N A s a c ν γ ρ) (hN : ∀ b ∈ S, 0 < N b) :
    Ringing p x S N A (fun b => binPole p.n b (s b)) ν ρ := by
  have hκ : 0 < c / (2 * a) - γ := by linarith [h.slow.2]
  have hκ1 : c / (2 * a) ≤ 1 / 2 := by
    rw [div_le_iff₀ (by linarith [h.shape.1, h.shape.2])]
    linarith [h.shape.2]
  have hρ := h.small
  have hrange : ∀ b ∈ S, ∀ k, k ≤ b + 1 → k ≤ p.n / 2 := by
    intro b hb k hk
    have := h.place b hb
    omega
  have hleak : ∀ b ∈ S, ∀ e, e < N b → ∀ k, b - 1 ≤ k → k ≤ b + 1 →
      rest p x S A (fun b => binPole p.n b (s b)) ν b e k ≤
        ρ * ((c / (2 * a) - γ) * sideGain p x (A b) (s b) e) := by
    intro b hb e he k h1 h2
    exact (h.rest_le hb e k (hrange b hb k h2) (h.far hb k h1 h2)).trans (h.leak b hb e he)
  have hmid : ∀ b ∈ S, ∀ e, (c / (2 * a) - γ) * sideGain p x (A b) (s b) e ≤
      (1 - γ) * sideGain p x (A b) (s b) e := by
    intro b hb e
    exact mul_le_mul_of_nonneg_right (by linarith) (h.gain_nonneg hb e)
  have hown : ∀ b ∈ S, ∀ e k, b - 1 ≤ k → k ≤ b + 1 →
      (c / (2 * a) - γ) * sideGain p x (A b) (s b) e ≤ strength p x (A b) (binPole p.n b (s b)) e k := by
    intro b hb e k h1 h2
    have hpl := h.place b hb
    by_cases hk : k = b
    · exact (hmid b hb e).trans ((h.own hb e k (hrange b hb k h2)).1 hk)
    · exact ((h.own hb e k (hrange b hb k h2)).2.1 (by omega)).1
  refine ⟨h.toUsable, h.nodup, h.sound, h.count, h.room, h.small, ?_, ?_, ?_, ?_, ?_, ?_, ?_, ?_, ?_⟩
  · intro b hb
    rw [norm_binPole _ _ _ (h.decay b hb).1.le]
    exact ⟨(h.decay b hb).1, (h.decay b hb).2.1⟩
  · intro b hb
    have := h.place b hb
    omega
  · intro b hb k hk
    have hpl := h.place b hb
    obtain ⟨_, _, _, _, hg⟩ := h.values hb (hN b hb)
    have l1 := (h.own hb 0 k (hrange b hb k (by omega))).2.1 (by omega)
    have o1 := (h.own hb 0 b (by omega)).1 rfl
    have h1 := mul_lt_mul_of_pos_right h.sharp hg
    have h2 := mul_le_mul_of_nonneg_left l1.2 (by linarith : (0 : ℝ) ≤ 1 + ρ)
    have h3 := mul_le_mul_of_nonneg_left o1 (by linarith : (0 : ℝ) ≤ 1 - ρ)
    have h4 := mul_pos hκ hg
    exact ⟨by linarith, by linarith⟩
  · intro b hb e he k h1 h2
    exact (hleak b hb e he k h1 h2).trans (mul_le_mul_of_nonneg_left (hown b hb e k h1 h2) hρ.1)
  · intro b hb e he
    have hpl := h.place b hb
    obtain ⟨l1, l2⟩ := h.loud b hb e he
    have heps := floatEps_pos
    have o1 := (h.own hb e b (by omega)).1 rfl
    have h3 := mul_le_mul_of_nonneg_left o1 (by linarith : (0 : ℝ) ≤ 1 - ρ)
    have h4 := mul_le_mul_of_nonneg_left (hmid b hb e) (by linarith : (0 : ℝ) ≤ 1 - ρ)
    refine ⟨lt_of_lt_of_le l1 ((dB_le (by linarith) (by linarith)).2 h3), ?_⟩
    intro k hk
    exact l2.trans (mul_le_mul_of_nonneg_left (hown b hb e k (by omega) (by omega)) (by linarith))
  · intro e he k hk1 hk2 hnot
    have hn4 : 4 ≤ p.n := by omega
    by_cases hnear : ∃ b ∈ S, b - 1 ≤ k ∧ k ≤ b + 1
    · obtain ⟨b, hb, n1, n2⟩ := hnear
      have hpl := h.place b hb
      by_cases heN : e < N b
      · right
        have hkb : k ≠ b := by rintro rfl; exact hnot ⟨hb, heN⟩
        refine ⟨b, hb, b, by omega, ?_⟩
        have r1 := hleak b hb e heN k n1 n2
        have r2 := hleak b hb e heN b (by omega) (by omega)
        have l1 := ((h.own hb e k (by omega)).2.1 (by omega)).2
        have o1 := (h.own hb e b (by omega)).1 rfl
        have hg := h.gain_nonneg hb e
        have h1 := mul_le_mul_of_nonneg_right h.sharp.le hg
        have h2 := mul_le_mul_of_nonneg_left (hmid b hb e) hρ.1
        have h3 : ρ * ((c / (2 * a) - γ) * sideGain p x (A b) (s b) e) ≤
            ρ * ((c / (2 * a) + γ) * sideGain p x (A b) (s b) e) := by
          apply mul_le_mul_of_nonneg_left _ hρ.1
          exact mul_le_mul_of_nonneg_right (by linarith [h.slow.1]) hg
        linarith
      · left
        rw [everything_split p x S A _ ν e k b h.nodup hb]
        have r1 := h.rest_le hb e k (by omega) (h.far hb k n1 n2)
        have o1 := (h.own hb e k (by omega)).2.2.2.1
        have := (h.quiet e he).2 b hb (by omega)
        linarith
    · left
      refine (h.everything_far e k (by omega) hn4 ?_).trans (h.quiet e he).1
      intro b hb
      by_contra hc
      exact hnear ⟨b, hb, by omega, by omega⟩
  · intro b hb
    have := (h.values hb (hN b hb)).2.2.2.1
    linarith [h.steady]
  · intro b hb b' hb' hne
    obtain ⟨f1, _, _, s1, _⟩ := h.values hb (hN b hb)
    obtain ⟨f2, _, _, s2, _⟩ := h.values hb' (hN b' hb')
    have hn := h.size hb
    have hnp : (0 : ℝ) < p.n := by exact_mod_cast (by omega : 0 < p.n)
    rw [f1, f2]
    have hd : 3 ≤ |(b : ℝ) - b'| := by
      rcases Nat.lt_or_gt_of_ne hne with hlt | hlt
      · have h1 := h.distance b hb b' hb' hlt
        have h2 : (b : ℝ) + 3 ≤ b' := by exact_mod_cast h1
        rw [abs_sub_comm]
        exact le_trans (by linarith) (le_abs_self _)
      · have h1 := h.distance b' hb' b hb hlt
        have h2 : (b' : ℝ) + 3 ≤ b := by exact_mod_cast h1
        exact le_trans (by linarith) (le_abs_self _)
    have e1 : (b : ℝ) * p.tracker.fs / p.n - b' * p.tracker.fs / p.n = ((b : ℝ) - b') * (p.tracker.fs / p.n) := by ring
    rw [e1, abs_mul, abs_of_pos (div_pos h.fs hnp)]
    have h3 := mul_le_mul_of_nonneg_right hd (div_pos h.fs hnp).le
    have h4 := h.apart
    rw [mul_div_assoc] at h4
    linarith
  · intro hrev b hb b' hb' h0 hlt
    obtain ⟨f1, lo1, _, s1, g1⟩ := h.values hb (hN b hb)
    obtain ⟨f2, _, hi2, s2, g2⟩ := h.values hb' (hN b' hb')
    have hn := h.size hb
    have hnp : (0 : ℝ) < p.n := by exact_mod_cast (by omega : 0 < p.n)
    rw [f1, f2]
    rcases h.order hrev b hb b' hb' h0 hlt with h1 | h1
    · left
      have e1 : (b : ℝ) * p.tracker.fs / p.n - b' * p.tracker.fs / p.n = ((b : ℝ) - b') * (p.tracker.fs / p.n) := by ring
      rw [e1, abs_mul, abs_of_pos (div_pos h.fs hnp)]
      unfold allowed at h1 ⊢
      have h2 := mul_le_mul_of_nonneg_left s2 h.devSlope
      rw [mul_div_assoc |(b : ℝ) - b'|] at h1
      linarith
    · right
      have hγ : 0 < 1 - γ := by linarith [h.slow.1]
      have hgain : ∀ b ∈ S, ∀ e, sideGain p x (A b) (s b) e = (s b ^ p.hop) ^ e * sideGain p x (A b) (s b) 0 := by
        intro b _ e
        unfold sideGain frameStart
        rw [zero_mul, add_zero, pow_add, mul_comm e, pow_mul]
        ring
      rw [norm_binPole _ _ _ (h.decay b hb).1.le, norm_binPole _ _ _ (h.decay b' hb').1.le]
      have hp1 : 0 < s b ^ p.hop := pow_pos (h.decay b hb).1 _
      have hp2 : 0 < s b' ^ p.hop := pow_pos (h.decay b' hb').1 _
      rw [hgain b' hb', hgain b hb, dB_pow_mul hp2 g2, show (1 - γ) * ((s b ^ p.hop) ^ (N b' - 1) *
        sideGain p x (A b) (s b) 0) = (s b ^ p.hop) ^ (N b' - 1) * ((1 - γ) * sideGain p x (A b) (s b) 0) by ring,
        dB_pow_mul hp1 (mul_pos hγ g1)] at h1
      linarith

end Verif.Sms
