import Verif.Beat.IdentLemmas
import Verif.Beat.ResidualProps

/-!
# C156: what the modulation of a beat determines
-/

set_option autoImplicit false
set_option linter.unusedSectionVars false
set_option linter.unusedSimpArgs false

namespace Verif.Beat

open Verif.Out

/-- Equally spaced times. -/
noncomputable def frames (t0 h : ℝ) (N : Nat) : List ℝ := (List.range N).map fun (n : Nat) => t0 + n * h

/-- Two partials that beat with less than half a period per frame. -/
structure Resolved (h : ℝ) (p : Octet ℝ) : Prop where
  a0 : 0 < p.a0
  a1 : 0 < p.a1
  d0 : p.d0 ≠ 0
  d1 : p.d1 ≠ 0
  ne : p.f0 ≠ p.f1
  lt : |p.f0 - p.f1| * h < 1 / 2

/-- The same amplitudes, decay times, difference of frequencies and, up to whole turns, difference of
phases. -/
structure Alike (p q : Octet ℝ) : Prop where
  a0 : p.a0 = q.a0
  a1 : p.a1 = q.a1
  d0 : p.d0 = q.d0
  d1 : p.d1 = q.d1
  f : p.f0 - p.f1 = q.f0 - q.f1
  p : ∃ k : ℤ, p.p0 - p.p1 = q.p0 - q.p1 + k * (2 * Real.pi)

/-! ## Sequences -/

theorem exp_step (d t0 h : ℝ) (n : Nat) :
    Real.exp (-2 / d * (t0 + n * h)) = Real.exp (-2 / d * t0) * Real.exp (-2 / d * h) ^ n := by
  rw [← Real.exp_nat_mul, ← Real.exp_add]
  congr 1
  ring

/-- Parameters of the sequences. -/
noncomputable def startA (p : Octet ℝ) (t0 : ℝ) : ℝ := p.a0 * Real.exp (-2 / p.d0 * t0)
noncomputable def startB (p : Octet ℝ) (t0 : ℝ) : ℝ := p.a1 * Real.exp (-2 / p.d1 * t0)
noncomputable def stepA (p : Octet ℝ) (h : ℝ) : ℝ := Real.exp (-2 / p.d0 * h)
noncomputable def stepB (p : Octet ℝ) (h : ℝ) : ℝ := Real.exp (-2 / p.d1 * h)
noncomputable def stepP (p : Octet ℝ) (h : ℝ) : ℝ := 2 * Real.pi * (p.f0 - p.f1) * h
noncomputable def startP (p : Octet ℝ) (t0 : ℝ) : ℝ := 2 * Real.pi * (p.f0 - p.f1) * t0 + (p.p0 - p.p1)

theorem wave_pow (c ρ φ θ : ℝ) (κ : ℂ) (n : Nat) :
    ((c : ℂ) * Complex.exp (φ * Complex.I) * κ * ((ρ : ℂ) * Complex.exp (θ * Complex.I)) ^ n).re =
      c * ρ ^ n * (κ.re * Real.cos (φ + n * θ) - κ.im * Real.sin (φ + n * θ)) := by
  have e : (c : ℂ) * Complex.exp (φ * Complex.I) * κ * ((ρ : ℂ) * Complex.exp (θ * Complex.I)) ^ n =
      ((c * ρ ^ n : ℝ) : ℂ) * (κ * Complex.exp (((φ + n * θ : ℝ) : ℂ) * Complex.I)) := by
    rw [mul_pow, ← Complex.exp_nat_mul]
    have : Complex.exp (((φ + n * θ : ℝ) : ℂ) * Complex.I) =
        Complex.exp (φ * Complex.I) * Complex.exp (n * (θ * Complex.I)) := by
      rw [← Complex.exp_add]
      congr 1
      push_cast
      ring
    rw [this]
    push_cast
    ring
  rw [e, Complex.re_ofReal_mul, Complex.mul_re, Complex.exp_ofReal_mul_I_re,
    Complex.exp_ofReal_mul_I_im]

theorem phase_seq (p : Octet ℝ) (t0 h : ℝ) (n : Nat) :
    startP p t0 + n * stepP p h = 2 * vPh (octetBeat p) (t0 + n * h) := by
  simp only [startP, stepP, vPh, octetBeat, Par.at]
  ring

/-- The squared amplitudes are a sequence of energies. -/
theorem energy_seq (p : Octet ℝ) (t0 h : ℝ) (n : Nat) :
    energySeq (startA p t0) (startB p t0) (stepA p h) (stepB p h) (stepP p h) (startP p t0) n =
      4 * vAlpha2 (octetBeat p) (t0 + n * h) := by
  have hw := wave_pow (startA p t0 * startB p t0) (stepA p h * stepB p h) (startP p t0) (stepP p h) 1 n
  rw [mul_one, Complex.one_re, Complex.one_im] at hw
  rw [energySeq, hw, phase_seq, Real.cos_two_mul]
  simp only [vAlpha2, vAo, vAh, startA, startB, stepA, stepB, octetBeat, Par.at, Amp.par, expDecay,
    exp_step]
  ring

/-- The frequencies times the squared amplitudes are a sequence of turns. -/
theorem turn_seq (p : Octet ℝ) (t0 h : ℝ) (n : Nat) :
    turnSeq (startA p t0) (startB p t0) (stepA p h) (stepB p h) (stepP p h) (startP p t0)
        (2 * Real.pi * p.f0) (2 * Real.pi * p.f1)
        ⟨(2 * Real.pi * p.f0 + 2 * Real.pi * p.f1) / 2, 1 / p.d0 - 1 / p.d1⟩ n =
      4 * (vAo (octetBeat p) (t0 + n * h) * vAh (octetBeat p) (t0 + n * h) *
          (2 * Real.pi * ((p.f0 - p.f1) / 2)) + vG (octetBeat p) (t0 + n * h)) +
        2 * Real.pi * ((p.f0 + p.f1) / 2) * (4 * vAlpha2 (octetBeat p) (t0 + n * h)) := by
  rw [turnSeq, wave_pow, phase_seq, Real.cos_two_mul]
  simp only [vG, mul_comm (vPh _ _) 2]
  simp only [vAlpha2, vAo, vAh, startA, startB, stepA, stepB, octetBeat, Par.at, Amp.par, expDecay,
    exp_step]
  ring

/-- Without amplitude there is no turn. -/
theorem turn_zero (p : Octet ℝ) (t : ℝ) (h0 : 0 < p.a0) (h1 : 0 < p.a1)
    (hz : vAlpha2 (octetBeat p) t = 0) :
    vAo (octetBeat p) t * vAh (octetBeat p) t * (2 * Real.pi * ((p.f0 - p.f1) / 2)) +
      vG (octetBeat p) t = 0 := by
  have hA : 0 < (octetBeat p).a0.at t := mul_pos h0 (Real.exp_pos _)
  have hB : 0 < (octetBeat p).a1.at t := mul_pos h1 (Real.exp_pos _)
  have e : vAlpha2 (octetBeat p) t = (octetBeat p).a0.at t * (octetBeat p).a1.at t *
      Real.cos (vPh (octetBeat p) t) ^ 2 + vAh (octetBeat p) t ^ 2 := by
    simp only [vAlpha2, vAo, vAh]
    ring
  rw [e] at hz
  have hAB := mul_pos hA hB
  have n1 : 0 ≤ (octetBeat p).a0.at t * (octetBeat p).a1.at t * Real.cos (vPh (octetBeat p) t) ^ 2 :=
    mul_nonneg hAB.le (sq_nonneg _)
  have n2 := sq_nonneg (vAh (octetBeat p) t)
  have c2 : (octetBeat p).a0.at t * (octetBeat p).a1.at t * Real.cos (vPh (octetBeat p) t) ^ 2 = 0 := by
    linarith
  have hc : Real.cos (vPh (octetBeat p) t) = 0 := by
    rcases mul_eq_zero.1 c2 with h | h
    · exact absurd h hAB.ne'
    · exact pow_eq_zero_iff (two_ne_zero) |>.1 h
  have hh : vAh (octetBeat p) t = 0 := pow_eq_zero_iff (two_ne_zero) |>.1 (by linarith)
  rw [hh, vG, mul_comm (vPh _ _) 2, Real.sin_two_mul, hc]
  ring

/-! ## The order of the partials -/

theorem other_other (p : Octet ℝ) : other (other p) = p := rfl

theorem other_alpha (p : Octet ℝ) (t : ℝ) :
    vAlpha2 (octetBeat (other p)) t = vAlpha2 (octetBeat p) t := by
  have : vPh (octetBeat (other p)) t = -vPh (octetBeat p) t := by
    simp only [vPh, octetBeat, other, Par.at]
    ring
  rw [vAlpha2, vAlpha2, this, Real.cos_neg]
  simp only [vAo, vAh, octetBeat, other, Par.at, Amp.par, expDecay]
  ring

theorem vFm_unfold (p : Octet ℝ) (t : ℝ) : vFm (octetBeat p) t =
    (vAo (octetBeat p) t * vAh (octetBeat p) t * (2 * Real.pi * ((p.f0 - p.f1) / 2)) +
      vG (octetBeat p) t) / vAlpha2 (octetBeat p) t + 2 * Real.pi * ((p.f0 + p.f1) / 2) := rfl

theorem other_fm (p : Octet ℝ) (t : ℝ) : vFm (octetBeat (other p)) t = vFm (octetBeat p) t := by
  have hp : vPh (octetBeat (other p)) t = -vPh (octetBeat p) t := by
    simp only [vPh, octetBeat, other, Par.at]
    ring
  rw [vFm_unfold, vFm_unfold, other_alpha]
  congr 1
  · congr 1
    rw [vG, vG, hp, neg_mul, Real.sin_neg]
    simp only [vAo, vAh, octetBeat, other, Par.at, Amp.par, expDecay]
    ring
  · simp only [other]
    ring

theorem alike_other {p q : Octet ℝ} (h : Alike p q) : Alike (other p) (other q) := by
  obtain ⟨k, hk⟩ := h.p
  refine ⟨h.a1, h.a0, h.d1, h.d0, ?_, -k, ?_⟩
  · have := h.f
    simp only [other]
    linarith
  · simp only [other]
    push_cast
    linarith

theorem resolved_other {h : ℝ} {p : Octet ℝ} (hp : Resolved h p) : Resolved h (other p) :=
  ⟨hp.a1, hp.a0, hp.d1, hp.d0, hp.ne.symm, by
    have := hp.lt
    simp only [other]
    rwa [abs_sub_comm]⟩

/-- Alike beats have the same amplitudes. -/
theorem alike_alpha {p q : Octet ℝ} (h : Alike p q) (t : ℝ) :
    vAlpha2 (octetBeat p) t = vAlpha2 (octetBeat q) t := by
  obtain ⟨k, hk⟩ := h.p
  have hph : vPh (octetBeat p) t = vPh (octetBeat q) t + k * Real.pi := by
    have := h.f
    simp only [vPh, octetBeat, Par.at]
    rw [this, hk]
    ring
  have hc : Real.cos (vPh (octetBeat p) t) ^ 2 = Real.cos (vPh (octetBeat q) t) ^ 2 := by
    rw [hph, Real.cos_add_int_mul_pi, mul_pow, ← sq_abs ((-1 : ℝ) ^ k)]
    simp
  rw [vAlpha2, vAlpha2, hc]
  simp only [vAo, vAh, octetBeat, Par.at, Amp.par, expDecay, h.a0, h.a1, h.d0, h.d1]

/-- Alike beats have frequencies that differ by a constant. -/
theorem alike_fm {p q : Octet ℝ} (h : Alike p q) (t : ℝ) :
    vFm (octetBeat p) t = vFm (octetBeat q) t + 2 * Real.pi * (p.f0 - q.f0) := by
  obtain ⟨k, hk⟩ := h.p
  have hph : vPh (octetBeat p) t * 2 = vPh (octetBeat q) t * 2 + k * (2 * Real.pi) := by
    have := h.f
    simp only [vPh, octetBeat, Par.at]
    rw [this, hk]
    ring
  have hs : vG (octetBeat p) t = vG (octetBeat q) t := by
    rw [vG, vG, hph, Real.sin_add_int_mul_two_pi]
    simp only [octetBeat, Par.at, Amp.par, expDecay, h.a0, h.a1, h.d0, h.d1]
  rw [vFm_unfold, vFm_unfold, alike_alpha h, hs, h.f]
  have h1 : vAo (octetBeat p) t = vAo (octetBeat q) t := by
    simp only [vAo, octetBeat, Par.at, Amp.par, expDecay, h.a0, h.a1, h.d0, h.d1]
  have h2 : vAh (octetBeat p) t = vAh (octetBeat q) t := by
    simp only [vAh, octetBeat, Par.at, Amp.par, expDecay, h.a0, h.a1, h.d0, h.d1]
  rw [h1, h2]
  have := h.f
  have h3 : p.f1 = q.f1 + (p.f0 - q.f0) := by linarith
  rw [h3]
  ring

theorem exchange_alpha (p : Octet ℝ) (t : ℝ) :
    vAlpha2 (octetBeat (exchange p)) t = vAlpha2 (octetBeat p) t := by
  have : vPh (octetBeat (exchange p)) t = -vPh (octetBeat p) t := by
    simp only [vPh, octetBeat, exchange, Par.at]
    ring
  rw [vAlpha2, vAlpha2, this, Real.cos_neg]
  rfl

/-! ## From the sequences to the parameters -/

theorem rate_inj (h d d' : ℝ) (hh : 0 < h) (hd : d ≠ 0) (hd' : d' ≠ 0)
    (e : Real.exp (-2 / d * h) = Real.exp (-2 / d' * h)) : d = d' := by
  have := Real.exp_injective e
  have := mul_right_cancel₀ hh.ne' this
  field_simp at this
  linarith

theorem start_inj (t0 a d a' d' : ℝ) (hd : d = d')
    (e : a * Real.exp (-2 / d * t0) = a' * Real.exp (-2 / d' * t0)) : a = a' := by
  subst hd
  exact mul_right_cancel₀ (Real.exp_pos _).ne' e

theorem phase_inj (p q : Octet ℝ) (t0 : ℝ) (hf : p.f0 - p.f1 = q.f0 - q.f1)
    (e : Complex.exp (startP p t0 * Complex.I) = Complex.exp (startP q t0 * Complex.I)) :
    ∃ k : ℤ, p.p0 - p.p1 = q.p0 - q.p1 + k * (2 * Real.pi) := by
  obtain ⟨k, hk⟩ := Complex.exp_eq_exp_iff_exists_int.1 e
  refine ⟨k, ?_⟩
  have h1 : ((startP p t0 : ℝ) : ℂ) * Complex.I = ((startP q t0 + k * (2 * Real.pi) : ℝ) : ℂ) * Complex.I := by
    rw [hk]
    push_cast
    ring
  have h2 := mul_right_cancel₀ Complex.I_ne_zero h1
  have h3 : startP p t0 = startP q t0 + k * (2 * Real.pi) := by exact_mod_cast h2
  simp only [startP, hf] at h3
  linarith

theorem step_range {h : ℝ} {p : Octet ℝ} (hh : 0 < h) (hp : Resolved h p) (hf : p.f1 < p.f0) :
    0 < stepP p h ∧ stepP p h < Real.pi := by
  have h1 : 0 < p.f0 - p.f1 := by linarith
  have h2 := hp.lt
  rw [abs_of_pos h1] at h2
  have hπ := Real.pi_pos
  constructor
  · unfold stepP
    positivity
  · have : stepP p h = 2 * Real.pi * ((p.f0 - p.f1) * h) := by unfold stepP; ring
    rw [this]
    nlinarith

theorem starts_pos {h : ℝ} {p : Octet ℝ} (hp : Resolved h p) (t0 : ℝ) : 0 < startA p t0 ∧ 0 < startB p t0 :=
  ⟨mul_pos hp.a0 (Real.exp_pos _), mul_pos hp.a1 (Real.exp_pos _)⟩

theorem step_inj (p q : Octet ℝ) (h : ℝ) (hh : 0 < h) (e : stepP p h = stepP q h) :
    p.f0 - p.f1 = q.f0 - q.f1 := by
  have hπ := Real.pi_pos
  unfold stepP at e
  have := mul_right_cancel₀ hh.ne' e
  exact mul_left_cancel₀ (by positivity) this

/-- Amplitudes at eight frames, for partials in descending order of frequency. -/
theorem amp_ordered {h t0 : ℝ} {N : Nat} {p q : Octet ℝ} (hh : 0 < h) (hN : 8 ≤ N) (hp : Resolved h p)
    (hq : Resolved h q) (fp : p.f1 < p.f0) (fq : q.f1 < q.f0)
    (e : ∀ n < N, vAlpha2 (octetBeat p) (t0 + n * h) = vAlpha2 (octetBeat q) (t0 + n * h)) :
    Alike p q ∨ Alike p (other (exchange q)) := by
  obtain ⟨s1, s2⟩ := step_range hh hp fp
  obtain ⟨s3, s4⟩ := step_range hh hq fq
  obtain ⟨u1, u2⟩ := starts_pos hp t0
  obtain ⟨u3, u4⟩ := starts_pos hq t0
  obtain ⟨e1, e2, e3⟩ := energy_inj u1 u2 (Real.exp_pos (-2 / p.d0 * h)) (Real.exp_pos (-2 / p.d1 * h))
    s1 s2 u3 u4 (Real.exp_pos (-2 / q.d0 * h)) (Real.exp_pos (-2 / q.d1 * h)) s3 s4 N hN
    (φ := startP p t0) (φ' := startP q t0) (fun n hn => by
      have h1 := energy_seq p t0 h n
      have h2 := energy_seq q t0 h n
      rw [e n hn, ← h2] at h1
      exact h1)
  have hf := step_inj p q h hh e1
  have hφ := phase_inj p q t0 hf e2
  rcases e3 with ⟨a, b, c, d⟩ | ⟨a, b, c, d⟩
  · left
    have c' := rate_inj h _ _ hh hp.d0 hq.d0 c
    have d' := rate_inj h _ _ hh hp.d1 hq.d1 d
    exact ⟨start_inj t0 _ _ _ _ c' a, start_inj t0 _ _ _ _ d' b, c', d', hf, hφ⟩
  · right
    have c' := rate_inj h _ _ hh hp.d0 hq.d1 c
    have d' := rate_inj h _ _ hh hp.d1 hq.d0 d
    exact ⟨start_inj t0 _ _ _ _ c' a, start_inj t0 _ _ _ _ d' b, c', d', hf, hφ⟩

/-- Amplitudes and frequencies at eight frames, for partials in descending order of frequency. -/
theorem fm_ordered {h t0 : ℝ} {N : Nat} {p q : Octet ℝ} (hh : 0 < h) (hN : 8 ≤ N) (hp : Resolved h p)
    (hq : Resolved h q) (fp : p.f1 < p.f0) (fq : q.f1 < q.f0)
    (e : ∀ n < N, vAlpha2 (octetBeat p) (t0 + n * h) = vAlpha2 (octetBeat q) (t0 + n * h))
    (ef : ∀ n < N, vAlpha2 (octetBeat q) (t0 + n * h) ≠ 0 →
      vFm (octetBeat p) (t0 + n * h) = vFm (octetBeat q) (t0 + n * h)) :
    Alike p q ∧ p.f0 = q.f0 := by
  have hdf : p.f0 - p.f1 = q.f0 - q.f1 := by
    rcases amp_ordered hh hN hp hq fp fq e with h | h <;> exact h.f
  obtain ⟨s1, s2⟩ := step_range hh hp fp
  obtain ⟨s3, s4⟩ := step_range hh hq fq
  obtain ⟨u1, u2⟩ := starts_pos hp t0
  obtain ⟨u3, u4⟩ := starts_pos hq t0
  have hπ := Real.pi_pos
  obtain ⟨e1, e2, a, b, c, d, g, -⟩ := turn_inj u1 u2 (Real.exp_pos (-2 / p.d0 * h))
    (Real.exp_pos (-2 / p.d1 * h)) s1 s2 u3 u4 (Real.exp_pos (-2 / q.d0 * h))
    (Real.exp_pos (-2 / q.d1 * h)) s3 s4 (2 * Real.pi * p.f0) (2 * Real.pi * p.f1) (2 * Real.pi * q.f0)
    (2 * Real.pi * q.f1) (1 / p.d0 - 1 / p.d1) (1 / q.d0 - 1 / q.d1)
    (mul_lt_mul_of_pos_left fp (by positivity))
    (by rw [← mul_sub, ← mul_sub, hdf])
    (by
      intro c d
      rw [rate_inj h _ _ hh hp.d0 hq.d1 c, rate_inj h _ _ hh hp.d1 hq.d0 d]
      refine ⟨by ring, fun hz => ?_⟩
      have : q.d1 = q.d0 := by
        have h1 := hq.d0
        have h2 := hq.d1
        field_simp at hz
        linarith
      rw [this])
    N hN (φ := startP p t0) (φ' := startP q t0) (fun n hn => by
      have h1 := energy_seq p t0 h n
      have h2 := energy_seq q t0 h n
      rw [e n hn, ← h2] at h1
      exact h1)
    (fun n hn => by
      have h1 := turn_seq p t0 h n
      have h2 := turn_seq q t0 h n
      refine h1.trans (Eq.trans ?_ h2.symm)
      by_cases hz : vAlpha2 (octetBeat q) (t0 + n * h) = 0
      · have hz' : vAlpha2 (octetBeat p) (t0 + n * h) = 0 := (e n hn).trans hz
        rw [turn_zero p _ hp.a0 hp.a1 hz', turn_zero q _ hq.a0 hq.a1 hz, hz, hz']
        ring
      · have h3 := ef n hn hz
        have h4 := e n hn
        rw [vFm_unfold, vFm_unfold, h4] at h3
        rw [h4]
        field_simp at h3
        linarith)
  have hf := step_inj p q h hh e1
  have hφ := phase_inj p q t0 hf e2
  have c' := rate_inj h _ _ hh hp.d0 hq.d0 c
  have d' := rate_inj h _ _ hh hp.d1 hq.d1 d
  exact ⟨⟨start_inj t0 _ _ _ _ c' a, start_inj t0 _ _ _ _ d' b, c', d', hf, hφ⟩,
    mul_left_cancel₀ (by positivity) g⟩

/-! ## C156 -/

/-- The beat that a constructor call makes. -/
def Makes (p : Octet ℝ) (b : Beat) : Prop :=
  modalBeat p.a0 p.a1 p.f0 p.f1 p.d0 p.d1 p.p0 p.p1 = .ok b

theorem makes_octet {p : Octet ℝ} {b : Beat} (h : Makes p b) : b = octetBeat p := by
  have h' := h
  unfold Makes modalBeat at h'
  by_cases hd : p.d0 = 0 ∨ p.d1 = 0
  · rw [if_pos hd] at h'
    cases h'
  · rw [if_neg hd] at h'
    exact (Except.ok.inj h').symm

theorem am_eq_iff (p q : Octet ℝ) (ts : List ℝ) :
    (octetBeat p).am (axis ts) = (octetBeat q).am (axis ts) ↔
      ∀ t ∈ ts, vAlpha2 (octetBeat p) t = vAlpha2 (octetBeat q) t := by
  rw [am_ar _ ts (octetBeat_fit p), am_ar _ ts (octetBeat_fit q)]
  have hpos : ∀ (r : Octet ℝ) t, 0 ≤ vAlpha2 (octetBeat r) t := fun r t => by
    have := normSq_z (octetBeat r) t
    have := sq_nonneg ‖(octetBeat r).z t‖
    linarith
  constructor
  · intro h t ht
    injection h with h
    injection h with h
    have := (List.map_inj_left.1 h) t ht
    have := Option.some.inj this
    have := mul_right_cancel₀ two_ne_zero this
    exact (Real.sqrt_inj (hpos p t) (hpos q t)).1 this
  · intro h
    congr 2
    apply List.map_congr_left
    intro t ht
    rw [h t ht]

theorem fm_eq_iff (p q : Octet ℝ) (ts : List ℝ)
    (ha : ∀ t ∈ ts, vAlpha2 (octetBeat p) t = vAlpha2 (octetBeat q) t) :
    (octetBeat p).fm (axis ts) = (octetBeat q).fm (axis ts) ↔
      ∀ t ∈ ts, vAlpha2 (octetBeat q) t ≠ 0 → vFm (octetBeat p) t = vFm (octetBeat q) t := by
  rw [fm_ar _ ts (octetBeat_fit p), fm_ar _ ts (octetBeat_fit q)]
  constructor
  · intro h t ht hz
    injection h with h
    injection h with h
    have := (List.map_inj_left.1 h) t ht
    rw [if_neg hz, if_neg (by rw [ha t ht]; exact hz)] at this
    exact Option.some.inj this
  · intro h
    congr 2
    apply List.map_congr_left
    intro t ht
    rw [ha t ht]
    by_cases hz : vAlpha2 (octetBeat q) t = 0
    · rw [if_pos hz, if_pos hz]
    · rw [if_neg hz, if_neg hz]
      have := h t ht hz
      unfold vFm at this
      rw [ha t ht] at this
      rw [this]

theorem mem_frames (t0 h : ℝ) (N n : Nat) (hn : n < N) : t0 + n * h ∈ frames t0 h N :=
  List.mem_map.2 ⟨n, List.mem_range.2 hn, rfl⟩

/-- C156.  If the amplitude modulations of two beats agree at eight equally spaced times (with less than half
a period of the beat between them) then the beats have the same amplitudes, decay times, distance of the
frequencies and difference of the phases, up to the order of the partials and to the association of the
frequencies with the amplitudes. -/
theorem C156_amplitude (t0 h : ℝ) (N : Nat) (hh : 0 < h) (hN : 8 ≤ N) (p q : Octet ℝ)
    (hp : Resolved h p) (hq : Resolved h q) (b b' : Beat) (hb : Makes p b) (hb' : Makes q b')
    (e : b.am (axis (frames t0 h N)) = b'.am (axis (frames t0 h N))) :
    ∃ q', (q' = q ∨ q' = other q ∨ q' = exchange q ∨ q' = other (exchange q)) ∧ Alike p q' := by
  rw [makes_octet hb, makes_octet hb', am_eq_iff] at e
  have e' : ∀ n < N, vAlpha2 (octetBeat p) (t0 + n * h) = vAlpha2 (octetBeat q) (t0 + n * h) :=
    fun n hn => e _ (mem_frames t0 h N n hn)
  have oo : ∀ r : Octet ℝ, other (exchange (other r)) = exchange r := fun _ => rfl
  rcases lt_or_gt_of_ne hp.ne with fp | fp
  · have key : ∀ x, Alike (other p) x → Alike p (other x) := fun x hx => alike_other hx
    rcases lt_or_gt_of_ne hq.ne with fq | fq
    · rcases amp_ordered hh hN (resolved_other hp) (resolved_other hq) fp fq
        (fun n hn => by rw [other_alpha, other_alpha]; exact e' n hn) with h1 | h1
      · exact ⟨q, Or.inl rfl, key _ h1⟩
      · exact ⟨_, Or.inr (Or.inr (Or.inr rfl)), key _ h1⟩
    · rcases amp_ordered hh hN (resolved_other hp) hq fp fq
        (fun n hn => by rw [other_alpha]; exact e' n hn) with h1 | h1
      · exact ⟨_, Or.inr (Or.inl rfl), key _ h1⟩
      · exact ⟨_, Or.inr (Or.inr (Or.inl rfl)), key _ h1⟩
  · rcases lt_or_gt_of_ne hq.ne with fq | fq
    · rcases amp_ordered hh hN hp (resolved_other hq) fp fq
        (fun n hn => by rw [other_alpha]; exact e' n hn) with h1 | h1
      · exact ⟨_, Or.inr (Or.inl rfl), h1⟩
      · exact ⟨_, Or.inr (Or.inr (Or.inl rfl)), h1⟩
    · rcases amp_ordered hh hN hp hq fp fq e' with h1 | h1
      · exact ⟨q, Or.inl rfl, h1⟩
      · exact ⟨_, Or.inr (Or.inr (Or.inr rfl)), h1⟩

/-- C156.  Nothing more can be determined from the amplitudes: beats that are alike in this way have the same
amplitude modulation at all times. -/
theorem C156_amplitude_only (p q q' : Octet ℝ)
    (hq : q' = q ∨ q' = other q ∨ q' = exchange q ∨ q' = other (exchange q)) (hs : Alike p q')
    (b b' : Beat) (hb : Makes p b) (hb' : Makes q b') (ts : List ℝ) :
    b.am (axis ts) = b'.am (axis ts) := by
  rw [makes_octet hb, makes_octet hb', am_eq_iff]
  intro t _
  rw [alike_alpha hs]
  rcases hq with rfl | rfl | rfl | rfl
  · rfl
  · exact other_alpha q t
  · exact exchange_alpha q t
  · rw [other_alpha, exchange_alpha]

/-- C156.  The distance of the frequencies has to be below half the frame rate: adding the frame rate to one
frequency does not change the amplitudes at the frames. -/
theorem C156_aliasing (h t0 : ℝ) (hh : 0 < h) (N : Nat) (p : Octet ℝ) (b b' : Beat) (hb : Makes p b)
    (hb' : Makes { p with f0 := p.f0 + 1 / h, p0 := p.p0 - 2 * Real.pi * t0 / h } b') :
    b'.am (axis (frames t0 h N)) = b.am (axis (frames t0 h N)) := by
  rw [makes_octet hb, makes_octet hb', am_eq_iff]
  intro t ht
  obtain ⟨n, -, rfl⟩ := List.mem_map.1 ht
  have hph : vPh (octetBeat { p with f0 := p.f0 + 1 / h, p0 := p.p0 - 2 * Real.pi * t0 / h }) (t0 + n * h) =
      vPh (octetBeat p) (t0 + n * h) + (n : ℤ) * Real.pi := by
    simp only [vPh, octetBeat, Par.at]
    push_cast
    field_simp
    ring
  have hc : Real.cos (vPh (octetBeat { p with f0 := p.f0 + 1 / h, p0 := p.p0 - 2 * Real.pi * t0 / h })
      (t0 + n * h)) ^ 2 = Real.cos (vPh (octetBeat p) (t0 + n * h)) ^ 2 := by
    rw [hph, Real.cos_add_int_mul_pi, mul_pow, ← sq_abs ((-1 : ℝ) ^ _)]
    simp
  rw [vAlpha2, vAlpha2, hc]
  rfl

/-- C156.  If also the frequency modulations agree there then the partials are the same, up to their order and
to a common change of both phases. -/
theorem C156_both (t0 h : ℝ) (N : Nat) (hh : 0 < h) (hN : 8 ≤ N) (p q : Octet ℝ)
    (hp : Resolved h p) (hq : Resolved h q) (b b' : Beat) (hb : Makes p b) (hb' : Makes q b')
    (e : b.am (axis (frames t0 h N)) = b'.am (axis (frames t0 h N)))
    (ef : b.fm (axis (frames t0 h N)) = b'.fm (axis (frames t0 h N))) :
    ∃ q', (q' = q ∨ q' = other q) ∧ p.a0 = q'.a0 ∧ p.a1 = q'.a1 ∧ p.d0 = q'.d0 ∧ p.d1 = q'.d1 ∧
      p.f0 = q'.f0 ∧ p.f1 = q'.f1 ∧ ∃ k : ℤ, p.p0 - p.p1 = q'.p0 - q'.p1 + k * (2 * Real.pi) := by
  rw [makes_octet hb, makes_octet hb', am_eq_iff] at e
  rw [makes_octet hb, makes_octet hb', fm_eq_iff _ _ _ e] at ef
  have e' : ∀ n < N, vAlpha2 (octetBeat p) (t0 + n * h) = vAlpha2 (octetBeat q) (t0 + n * h) :=
    fun n hn => e _ (mem_frames t0 h N n hn)
  have ef' : ∀ n < N, vAlpha2 (octetBeat q) (t0 + n * h) ≠ 0 →
      vFm (octetBeat p) (t0 + n * h) = vFm (octetBeat q) (t0 + n * h) :=
    fun n hn => ef _ (mem_frames t0 h N n hn)
  have main : ∃ q', (q' = q ∨ q' = other q) ∧ Alike p q' ∧ p.f0 = q'.f0 := by
    have key : ∀ x, Alike (other p) x → (other p).f0 = x.f0 → Alike p (other x) ∧ p.f0 = (other x).f0 :=
      fun x hx hf => ⟨alike_other hx, by
        have h1 := hx.f
        simp only [other] at h1 hf ⊢
        linarith⟩
    rcases lt_or_gt_of_ne hp.ne with fp | fp
    · rcases lt_or_gt_of_ne hq.ne with fq | fq
      · have h1 := fm_ordered hh hN (resolved_other hp) (resolved_other hq) fp fq
          (fun n hn => by rw [other_alpha, other_alpha]; exact e' n hn)
          (fun n hn => by rw [other_alpha, other_fm, other_fm]; exact ef' n hn)
        exact ⟨q, Or.inl rfl, key _ h1.1 h1.2⟩
      · have h1 := fm_ordered hh hN (resolved_other hp) hq fp fq
          (fun n hn => by rw [other_alpha]; exact e' n hn)
          (fun n hn => by rw [other_fm]; exact ef' n hn)
        exact ⟨_, Or.inr rfl, key _ h1.1 h1.2⟩
    · rcases lt_or_gt_of_ne hq.ne with fq | fq
      · have h1 := fm_ordered hh hN hp (resolved_other hq) fp fq
          (fun n hn => by rw [other_alpha]; exact e' n hn)
          (fun n hn => by rw [other_alpha, other_fm]; exact ef' n hn)
        exact ⟨_, Or.inr rfl, h1⟩
      · exact ⟨q, Or.inl rfl, fm_ordered hh hN hp hq fp fq e' ef'⟩
  obtain ⟨q', h1, h2, h3⟩ := main
  exact ⟨q', h1, h2.a0, h2.a1, h2.d0, h2.d1, h3, by linarith [h2.f], h2.p⟩

/-- C156.  Nothing more can be determined from both: adding the same number to both phases, adding whole turns
to either and exchanging the partials changes neither modulation, at any time. -/
theorem C156_both_only (p q q' : Octet ℝ) (hq : q' = q ∨ q' = other q) (h0 : p.a0 = q'.a0)
    (h1 : p.a1 = q'.a1) (h2 : p.d0 = q'.d0) (h3 : p.d1 = q'.d1) (h4 : p.f0 = q'.f0) (h5 : p.f1 = q'.f1)
    (k : ℤ) (h6 : p.p0 - p.p1 = q'.p0 - q'.p1 + k * (2 * Real.pi)) (b b' : Beat) (hb : Makes p b)
    (hb' : Makes q b') (ts : List ℝ) :
    b.am (axis ts) = b'.am (axis ts) ∧ b.fm (axis ts) = b'.fm (axis ts) := by
  have hs : Alike p q' := ⟨h0, h1, h2, h3, by rw [h4, h5], k, h6⟩
  rw [makes_octet hb, makes_octet hb']
  have ha : ∀ t ∈ ts, vAlpha2 (octetBeat p) t = vAlpha2 (octetBeat q) t := by
    intro t _
    rw [alike_alpha hs]
    rcases hq with rfl | rfl
    · rfl
    · exact other_alpha q t
  refine ⟨(am_eq_iff p q ts).2 ha, (fm_eq_iff p q ts ha).2 fun t _ _ => ?_⟩
  rw [alike_fm hs, h4, sub_self, mul_zero, add_zero]
  rcases hq with rfl | rfl
  · rfl
  · exact other_fm q t

theorem residuals_zero (L : Loss) (ts : List ℝ) (aLin fAbs : List Cell) (p : Octet ℝ)
    (hd : p.d0 = 0 ∨ p.d1 = 0) : residuals L ts aLin fAbs p = .error .zeroDivisionError := by
  rw [residuals, modalBeat, if_pos hd]

theorem residualsAt_zero (u : List ℝ) (t : TimeAxis) (aLin : List Cell) (p : Octet ℝ)
    (hd : p.d0 = 0 ∨ p.d1 = 0) : residualsAt u t aLin p = .error .zeroDivisionError := by
  rw [residualsAt, modalBeat, if_pos hd]

/-- C156.  For every loss, clipping and track the residuals of `DualBeatRegression` are the same if both phases
are changed by the same number, or if the partials are exchanged: the least-squares problem never has exactly
one solution. -/
theorem C156_residuals (L : Loss) (ts : List ℝ) (aLin fAbs : List Cell) (p : Octet ℝ) (c : ℝ) :
    residuals L ts aLin fAbs { p with p0 := p.p0 + c, p1 := p.p1 + c } = residuals L ts aLin fAbs p ∧
      residuals L ts aLin fAbs (other p) = residuals L ts aLin fAbs p := by
  by_cases hd : p.d0 = 0 ∨ p.d1 = 0
  · rw [residuals_zero L ts aLin fAbs p hd, residuals_zero L ts aLin fAbs (other p) hd.symm]
    exact ⟨residuals_zero L ts aLin fAbs _ hd, rfl⟩
  · have d0 : p.d0 ≠ 0 := fun e => hd (Or.inl e)
    have d1 : p.d1 ≠ 0 := fun e => hd (Or.inr e)
    have hb := octetBeat_eq p d0 d1
    have key : ∀ r : Octet ℝ, r.d0 ≠ 0 → r.d1 ≠ 0 →
        ((octetBeat r).am (axis ts) = (octetBeat p).am (axis ts) ∧
          (octetBeat r).fm (axis ts) = (octetBeat p).fm (axis ts)) →
        residuals L ts aLin fAbs r = residuals L ts aLin fAbs p := by
      intro r r0 r1 ⟨e1, e2⟩
      unfold residuals
      rw [octetBeat_eq r r0 r1, hb]
      simp only
      rw [show (Val.ar (ts.map some)) = axis ts from rfl, e1, e2]
    constructor
    · refine key _ d0 d1 (C156_both_only { p with p0 := p.p0 + c, p1 := p.p1 + c } p p (Or.inl rfl) rfl rfl
        rfl rfl rfl rfl 0 ?_ _ _ (octetBeat_eq _ d0 d1) hb ts)
      push_cast
      ring
    · refine key _ d1 d0 (C156_both_only _ p (other p) (Or.inr rfl) rfl rfl rfl rfl rfl rfl 0 ?_ _ _
        (octetBeat_eq _ d1 d0) hb ts)
      push_cast
      ring

/-- C156.  The same for the residuals of `BeatRegression`, which do not depend on the association of the
frequencies either, nor on the frequencies themselves. -/
theorem C156_residuals_amplitude (u : List ℝ) (t : TimeAxis) (aLin : List Cell) (p : Octet ℝ) (c k : ℝ) :
    residualsAt u t aLin { p with p0 := p.p0 + c, p1 := p.p1 + c, f0 := p.f0 + k, f1 := p.f1 + k } =
        residualsAt u t aLin p ∧
      residualsAt u t aLin (other p) = residualsAt u t aLin p ∧
      residualsAt u t aLin (exchange p) = residualsAt u t aLin p := by
  by_cases hd : p.d0 = 0 ∨ p.d1 = 0
  · rw [residualsAt_zero u t aLin p hd, residualsAt_zero u t aLin (other p) hd.symm,
      residualsAt_zero u t aLin (exchange p) hd]
    exact ⟨residualsAt_zero u t aLin _ hd, rfl, rfl⟩
  · have d0 : p.d0 ≠ 0 := fun e => hd (Or.inl e)
    have d1 : p.d1 ≠ 0 := fun e => hd (Or.inr e)
    have hb := octetBeat_eq p d0 d1
    have key : ∀ r : Octet ℝ, r.d0 ≠ 0 → r.d1 ≠ 0 →
        (octetBeat r).am (axis u) = (octetBeat p).am (axis u) →
        residualsAt u t aLin r = residualsAt u t aLin p := by
      intro r r0 r1 e1
      unfold residualsAt
      rw [octetBeat_eq r r0 r1, hb]
      simp only
      rw [show (Val.ar (u.map some)) = axis u from rfl, e1]
    refine ⟨key _ d0 d1 ((am_eq_iff _ _ u).2 fun s _ => alike_alpha
        (p := { p with p0 := p.p0 + c, p1 := p.p1 + c, f0 := p.f0 + k, f1 := p.f1 + k }) (q := p)
        ⟨rfl, rfl, rfl, rfl, ?_, 0, ?_⟩ s),
      key _ d1 d0 ((am_eq_iff _ _ u).2 fun s _ => other_alpha p s),
      key _ d0 d1 ((am_eq_iff _ _ u).2 fun s _ => exchange_alpha p s)⟩
    · simp only
      ring
    · push_cast
      ring

/-- Two beats at a frame rate of 100 Hz: the premises of `C156_both`. -/
example : Resolved (1 / 100) ⟨1, 1 / 2, 443, 440, 1, 2, 0, 1⟩ ∧
    Resolved (1 / 100) ⟨1 / 2, 1, 440, 443, 2, 1, 3, 2⟩ ∧
    ∃ b b', Makes ⟨1, 1 / 2, 443, 440, 1, 2, 0, 1⟩ b ∧ Makes ⟨1 / 2, 1, 440, 443, 2, 1, 3, 2⟩ b' ∧
      b.am (axis (frames 0 (1 / 100) 8)) = b'.am (axis (frames 0 (1 / 100) 8)) ∧
      b.fm (axis (frames 0 (1 / 100) 8)) = b'.fm (axis (frames 0 (1 / 100) 8)) := by
  refine ⟨⟨by norm_num, by norm_num, by norm_num, by norm_num, by norm_num, by norm_num⟩,
    ⟨by norm_num, by norm_num, by norm_num, by norm_num, by norm_num, by norm_num⟩, _, _,
    octetBeat_eq _ (by norm_num) (by norm_num), octetBeat_eq _ (by norm_num) (by norm_num), ?_⟩
  exact C156_both_only ⟨1, 1 / 2, 443, 440, 1, 2, 0, 1⟩ ⟨1 / 2, 1, 440, 443, 2, 1, 3, 2⟩ (other ⟨1 / 2, 1, 440, 443, 2, 1, 3, 2⟩)
    (Or.inr rfl) rfl rfl rfl rfl rfl rfl 0 (by norm_num [other]) _ _
    (octetBeat_eq _ (by norm_num) (by norm_num)) (octetBeat_eq _ (by norm_num) (by norm_num)) _

/-! ## Recovery of the parameters -/

theorem mel_inj (x y u v : ℝ) (hx : 0 ≤ x) (hy : 0 ≤ y) (h1 : mel x = some u) (h2 : mel y = some v)
    (e : u = v) : x = y := by
  unfold mel at h1 h2
  rw [if_neg (by linarith)] at h1 h2
  have e1 := Option.some.inj h1
  have e2 := Option.some.inj h2
  rw [e, ← e2] at e1
  have h3 : Real.logb 10 (1 + x / 700) = Real.logb 10 (1 + y / 700) :=
    mul_left_cancel₀ (by norm_num) e1
  have h4 := Real.logb_injOn_pos (by norm_num : (1 : ℝ) < 10) (Set.mem_Ioi.2 (by positivity))
    (Set.mem_Ioi.2 (by positivity)) h3
  linarith

/-- C156.  Parameters for which all residuals of `DualBeatRegression` are zero (default losses, any weight but
zero, no clipping) for the track of a beat at eight or more equally spaced frames are those of the beat, up to
the order of the partials and a common change of both phases, if no instantaneous frequency is negative. -/
theorem C156_recover (w t0 h : ℝ) (hw : w ≠ 0) (N : Nat) (hh : 0 < h) (hN : 8 ≤ N) (p q : Octet ℝ)
    (hp : Resolved h p) (hq : Resolved h q)
    (np : ∀ t ∈ frames t0 h N, 0 ≤ (deriv (octetSum p) t / octetSum p t).im)
    (nq : ∀ t ∈ frames t0 h N, 0 ≤ (deriv (octetSum q) t / octetSum q t).im) (A F : List Cell)
    (hr : residuals ⟨defaultAmpLoss, defaultFreqLoss, w, id⟩ (frames t0 h N)
      ((ampTrack q (frames t0 h N)).map some) (freqTrack q (frames t0 h N)) p = .ok (A, F))
    (hA : ∀ c ∈ A, c = some 0) (hF : ∀ c ∈ F, c = some 0) :
    ∃ q', (q' = q ∨ q' = other q) ∧ p.a0 = q'.a0 ∧ p.a1 = q'.a1 ∧ p.d0 = q'.d0 ∧ p.d1 = q'.d1 ∧
      p.f0 = q'.f0 ∧ p.f1 = q'.f1 ∧ ∃ k : ℤ, p.p0 - p.p1 = q'.p0 - q'.p1 + k * (2 * Real.pi) := by
  classical
  rw [residuals_eq _ _ _ _ _ hp.d0 hp.d1] at hr
  split at hr
  swap
  · cases hr
  injection hr with hr
  obtain ⟨rfl, rfl⟩ := Prod.mk.inj hr
  have ea : ∀ t ∈ frames t0 h N, vAlpha2 (octetBeat p) t = vAlpha2 (octetBeat q) t := by
    intro t ht
    have := hA (lift2 (fun u v => some (u - v)) (some ‖octetSum q t‖) (some ‖octetSum p t‖)) (by
      simp only [defaultAmpLoss, ampTrack, List.map_map, List.zipWith_map, List.zipWith_self]
      exact List.mem_map.2 ⟨t, ht, rfl⟩)
    simp only [lift2, Option.bind_some, Option.some.injEq] at this
    have e1 := normSq_z (octetBeat p) t
    have e2 := normSq_z (octetBeat q) t
    rw [octetBeat_z] at e1 e2
    have : ‖octetSum q t‖ = ‖octetSum p t‖ := by linarith
    rw [← this] at e1
    linarith
  have ef : ∀ t ∈ frames t0 h N, vAlpha2 (octetBeat q) t ≠ 0 →
      vFm (octetBeat p) t = vFm (octetBeat q) t := by
    intro t ht hz
    have hz' : vAlpha2 (octetBeat p) t ≠ 0 := by rw [ea t ht]; exact hz
    have z1 : octetSum q t ≠ 0 := fun e => hz ((vAlpha2_zero (octetBeat q) t).2 e)
    have z2 : octetSum p t ≠ 0 := fun e => hz' ((vAlpha2_zero (octetBeat p) t).2 e)
    have v1 := vFm_eq (octet_modal p t) hz' _ (modal_deriv (octet_modal p t)).differentiableAt.hasDerivAt
    have v2 := vFm_eq (octet_modal q t) hz _ (modal_deriv (octet_modal q t)).differentiableAt.hasDerivAt
    have v1' : vFm (octetBeat p) t = (deriv (octetSum p) t / octetSum p t).im := v1
    have v2' : vFm (octetBeat q) t = (deriv (octetSum q) t / octetSum q t).im := v2
    rw [v1', v2']
    set x := (deriv (octetSum p) t / octetSum p t).im with hx
    set y := (deriv (octetSum q) t / octetSum q t).im with hy
    have x0 : 0 ≤ x := np t ht
    have y0 : 0 ≤ y := nq t ht
    have hπ := Real.pi_pos
    have := hF ((lift2 (fun u v => some (u - v)) (mel |y / (2 * Real.pi)|) (mel |x / (2 * Real.pi)|)).map
        fun v => w * v) (by
      simp only [defaultFreqLoss, freqTrack, List.map_map, List.zipWith_map, List.zipWith_self, id]
      refine List.mem_map.2 ⟨t, ht, ?_⟩
      simp only [Function.comp_apply, if_neg z1, if_neg z2, Option.bind_some]
      rw [← hx, ← hy])
    rw [abs_of_nonneg (by positivity), abs_of_nonneg (by positivity)] at this
    cases h1 : mel (y / (2 * Real.pi)) with
    | none => rw [h1] at this; cases this
    | some u =>
      cases h2 : mel (x / (2 * Real.pi)) with
      | none => rw [h1, h2] at this; cases this
      | some v =>
        rw [h1, h2] at this
        simp only [lift2, Option.bind_some, Option.map_some, Option.some.injEq] at this
        have : u - v = 0 := by
          rcases mul_eq_zero.1 this with h3 | h3
          · exact absurd h3 hw
          · exact h3
        have h3 := mel_inj _ _ u v (by positivity) (by positivity) h1 h2 (by linarith)
        have h4 : y = x := by
          field_simp at h3
          exact h3
        exact h4.symm
  exact C156_both t0 h N hh hN p q hp hq _ _ (octetBeat_eq p hp.d0 hp.d1) (octetBeat_eq q hq.d0 hq.d1)
    ((am_eq_iff p q _).2 ea) ((fm_eq_iff p q _ ea).2 ef)

theorem not_silent (p : Octet ℝ) (hd : p.d0 = p.d1) (h1 : 0 < p.a1) (ha : p.a1 < p.a0) (t : ℝ) :
    0 < vAlpha2 (octetBeat p) t ∧ 0 < vAh (octetBeat p) t := by
  have hE := Real.exp_pos (-2 / p.d1 * t)
  have hA : (octetBeat p).a0.at t = p.a0 * Real.exp (-2 / p.d1 * t) := by rw [← hd]; rfl
  have hB : (octetBeat p).a1.at t = p.a1 * Real.exp (-2 / p.d1 * t) := rfl
  have hh : 0 < vAh (octetBeat p) t := by
    rw [vAh, hA, hB]
    nlinarith
  have e : vAlpha2 (octetBeat p) t = (octetBeat p).a0.at t * (octetBeat p).a1.at t *
      Real.cos (vPh (octetBeat p) t) ^ 2 + vAh (octetBeat p) t ^ 2 := by
    simp only [vAlpha2, vAo, vAh]
    ring
  refine ⟨?_, hh⟩
  rw [e, hA, hB]
  have h0 : 0 < p.a0 := h1.trans ha
  positivity

/-- A case without negative frequencies: the same decay times, and the higher partial is the louder one. -/
theorem forward (p : Octet ℝ) (hd : p.d0 = p.d1) (h1 : 0 < p.a1) (ha : p.a1 < p.a0) (hf1 : 0 ≤ p.f1)
    (hf : p.f1 ≤ p.f0) (t : ℝ) : 0 ≤ (deriv (octetSum p) t / octetSum p t).im := by
  obtain ⟨hα, hh⟩ := not_silent p hd h1 ha t
  have v := vFm_eq (octet_modal p t) hα.ne' _ (modal_deriv (octet_modal p t)).differentiableAt.hasDerivAt
  have v' : vFm (octetBeat p) t = (deriv (octetSum p) t / octetSum p t).im := v
  rw [← v', vFm_unfold]
  have hE := Real.exp_pos (-2 / p.d1 * t)
  have hG : vG (octetBeat p) t = 0 := by
    simp only [vG, octetBeat, Par.at, Amp.par, expDecay, hd]
    ring
  have ho : 0 < vAo (octetBeat p) t := by
    have hA : (octetBeat p).a0.at t = p.a0 * Real.exp (-2 / p.d1 * t) := by rw [← hd]; rfl
    have hB : (octetBeat p).a1.at t = p.a1 * Real.exp (-2 / p.d1 * t) := rfl
    have h0 : 0 < p.a0 := h1.trans ha
    rw [vAo, hA, hB]
    positivity
  have hπ := Real.pi_pos
  rw [hG, add_zero]
  have n1 : 0 ≤ (p.f0 - p.f1) / 2 := by linarith
  have n2 : 0 ≤ (p.f0 + p.f1) / 2 := by linarith
  positivity

/-- The premises of `C156_recover` for a beat and the same beat with other phases. -/
example : ∃ A F, residuals ⟨defaultAmpLoss, defaultFreqLoss, 3, id⟩ (frames 0 (1 / 100) 8)
      ((ampTrack ⟨1, 1 / 2, 443, 440, 1, 1, 0, 1⟩ (frames 0 (1 / 100) 8)).map some)
      (freqTrack ⟨1, 1 / 2, 443, 440, 1, 1, 0, 1⟩ (frames 0 (1 / 100) 8))
      ⟨1, 1 / 2, 443, 440, 1, 1, 0 + 5, 1 + 5⟩ = .ok (A, F) ∧
    (∀ c ∈ A, c = some 0) ∧ (∀ c ∈ F, c = some 0) ∧
    Resolved (1 / 100) ⟨1, 1 / 2, 443, 440, 1, 1, 0, 1⟩ ∧
    (∀ t, 0 ≤ (deriv (octetSum ⟨1, 1 / 2, 443, 440, 1, 1, 0, 1⟩) t /
      octetSum ⟨1, 1 / 2, 443, 440, 1, 1, 0, 1⟩ t).im) ∧
    ∀ t, 0 ≤ (deriv (octetSum ⟨1, 1 / 2, 443, 440, 1, 1, 0 + 5, 1 + 5⟩) t /
      octetSum ⟨1, 1 / 2, 443, 440, 1, 1, 0 + 5, 1 + 5⟩ t).im := by
  classical
  set q : Octet ℝ := ⟨1, 1 / 2, 443, 440, 1, 1, 0, 1⟩ with hq
  have e := (C156_residuals ⟨defaultAmpLoss, defaultFreqLoss, 3, id⟩ (frames 0 (1 / 100) 8)
    ((ampTrack q (frames 0 (1 / 100) 8)).map some) (freqTrack q (frames 0 (1 / 100) 8)) q 5).1
  have hz : ∀ t, octetSum q t ≠ 0 := fun t h0 =>
    (not_silent q rfl (by norm_num [hq]) (by norm_num [hq]) t).1.ne' ((vAlpha2_zero (octetBeat q) t).2 h0)
  refine ⟨_, _, (e.trans (residuals_eq _ _ _ _ q (by norm_num [hq]) (by norm_num [hq]))).trans
    (if_pos ?_), ?_, ?_, ⟨by norm_num, by norm_num, by norm_num, by norm_num, by norm_num, by norm_num⟩,
    fun t => forward _ rfl (by norm_num) (by norm_num) (by norm_num) (by norm_num) t,
    fun t => forward _ rfl (by norm_num) (by norm_num) (by norm_num) (by norm_num) t⟩
  · simp [defaultAmpLoss, defaultFreqLoss, ampTrack, freqTrack]
  · simp only [defaultAmpLoss, ampTrack, List.map_map, List.zipWith_map, List.zipWith_self]
    intro c hc
    obtain ⟨t, -, rfl⟩ := List.mem_map.1 hc
    simp [lift2]
  · simp only [defaultFreqLoss, freqTrack, List.map_map, List.zipWith_map, List.zipWith_self, id]
    intro c hc
    obtain ⟨t, -, rfl⟩ := List.mem_map.1 hc
    simp only [Function.comp_apply, if_neg (hz t), Option.bind_some]
    have hm : ∀ x : ℝ, 0 ≤ x → mel x = some (2595 * Real.logb 10 (1 + x / 700)) := fun x hx => by
      rw [mel, if_neg (by linarith)]
    rw [hm _ (abs_nonneg _)]
    simp [lift2]

end Verif.Beat
