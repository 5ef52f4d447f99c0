import Verif.Eval.RandomModel
import Verif.Psycho.ScaleProps
import Verif.Sample.SynthProps

/-!
# Random audio with beats (C55, C83)
-/

set_option autoImplicit false
set_option linter.unusedSectionVars false
set_option linter.unusedSimpArgs false

namespace Verif.Eval

open Verif.Out Verif.Psycho Verif.Sample

/-! ## Specification -/

/-- What is assumed of a random generator: the ranges of the draws and the refused parameters. -/
structure Rng.Lawful {σ : Type} (r : Rng σ) : Prop where
  beta : ∀ a b, 0 < a → 0 < b → ∀ s, ∃ x s', r.beta a b s = .ok (x, s') ∧ 0 ≤ x ∧ x ≤ 1
  betaBad : ∀ a b, a ≤ 0 ∨ b ≤ 0 → ∀ s, r.beta a b s = .error .valueError
  uniform : ∀ lo hi, lo ≤ hi → ∀ s, ∃ x s', r.uniform lo hi s = .ok (x, s') ∧ lo ≤ x ∧ x ≤ hi
  uniformN : ∀ lo hi n, lo ≤ hi → ∀ s, ∃ l s', r.uniformN lo hi n s = .ok (l, s') ∧ l.length = n ∧
    ∀ x ∈ l, lo ≤ x ∧ x ≤ hi
  exponentialN : ∀ c n, 0 ≤ c → ∀ s, ∃ l s', r.exponentialN c n s = .ok (l, s') ∧ l.length = n ∧
    ∀ x ∈ l, 0 ≤ x
  exponentialBad : ∀ c n, c < 0 → ∀ s, r.exponentialN c n s = .error .valueError
  normalN : ∀ c (n : ℤ), 0 ≤ c → 0 ≤ n → ∀ s, ∃ l s', r.normalN c n s = .ok (l, s') ∧
    (l.length : ℤ) = n
  normalBad : ∀ c (n : ℤ), n < 0 → ∀ s, r.normalN c n s = .error .valueError

/-- Traunmüller's Bark scale. -/
noncomputable def bk (f : ℝ) : ℝ := 26.81 * f / (1960 + f) - 0.53

/-- Parameters that leave room for the three frequencies. -/
structure BeatsGen.Consistent (g : BeatsGen) : Prop where
  beat_pos : 0 < g.beatMin
  beat_le : g.beatMin ≤ g.beatMax
  delta_nonneg : 0 ≤ g.deltaMin
  delta_le : g.deltaMin ≤ g.deltaMax
  beatAB : 0 < g.beatA ∧ 0 < g.beatB
  deltaAB : 0 < g.deltaA ∧ 0 < g.deltaB
  fAB : 0 < g.fA ∧ 0 < g.fB
  low : g.beatMax - 1960 < g.fMin
  f_le : g.fMin ≤ g.fMax
  room1 : bk (g.fMin + g.beatMax) + g.deltaMax ≤ bk g.fMax
  room2 : bk g.fMin + g.deltaMax ≤ bk (g.fMax - g.beatMax)

/-- The default parameters are consistent. -/
theorem default_consistent : ({} : BeatsGen).Consistent := by
  constructor <;> norm_num [bk]

/-! ## The Bark scale -/

theorem bk_eq (f : ℝ) (h : -1960 < f) : bk f = 26.28 - 26.81 * 1960 / (1960 + f) := by
  have : 1960 + f ≠ 0 := by linarith
  rw [bk, eq_sub_iff_add_eq]
  field_simp
  ring

theorem bk_lt (f : ℝ) (h : -1960 < f) : bk f < 26.28 := by
  rw [bk_eq f h]
  have : 0 < 26.81 * 1960 / (1960 + f) := by
    apply div_pos (by norm_num)
    linarith
  linarith

theorem bk_mono {f f' : ℝ} (h : -1960 < f) (h' : f ≤ f') : bk f ≤ bk f' := by
  rw [bk_eq f h, bk_eq f' (by linarith)]
  have : 26.81 * 1960 / (1960 + f') ≤ 26.81 * 1960 / (1960 + f) := by
    apply div_le_div_of_nonneg_left (by norm_num) (by linarith) (by linarith)
  linarith

theorem bk_le_iff {f f' : ℝ} (h : -1960 < f) (h' : -1960 < f') : bk f ≤ bk f' ↔ f ≤ f' := by
  refine ⟨fun hb => ?_, bk_mono h⟩
  by_contra hlt
  push Not at hlt
  rw [bk_eq f h, bk_eq f' h'] at hb
  have : 26.81 * 1960 / (1960 + f) < 26.81 * 1960 / (1960 + f') := by
    apply div_lt_div_of_pos_left (by norm_num) (by linarith) (by linarith)
  linarith

theorem hz_exists (b : ℝ) (h : b < 26.28) : ∃ f, hzT b = some f ∧ -1960 < f ∧ bk f = b := by
  obtain ⟨f, h1, h2⟩ := barkT_hzT b (ne_of_lt h)
  have hd : (0 : ℝ) < 26.28 - b := by linarith
  have hf : f = (0.53 + b) / (26.28 - b) * 1960 := by
    simp only [hzT, ne_of_lt h, if_false, Option.some.injEq] at h1
    exact h1.symm
  have hlow : -1960 < f := by
    rw [hf]
    have : -1 < (0.53 + b) / (26.28 - b) := by
      rw [lt_div_iff₀ hd]
      linarith
    linarith
  refine ⟨f, h1, hlow, ?_⟩
  have hne : f ≠ -1960 := by linarith
  simpa [barkT, hne, bk] using h2

theorem bark1_ok (f : ℝ) (h : -1960 < f) : bark1 (some f) = .ok (some (bk f)) := by
  have h1 : callV hz2barkV (kwOpt "mode" none) [some f] = .ok [barkT f] := by
    refine (callV_eq hz2barkV none (hz2barkTraunmuller, 1) rfl _).trans ?_
    rw [ret_of_computes C34_hz2bark_traunmuller _ rfl]
    simp [pw1]
  have hne : f ≠ -1960 := by linarith
  rw [bark1, h1]
  simp [barkT, hne, bk]

theorem triple_ok (b delta beat : ℝ) (hb : b < 26.28) (hbd : b + delta < 26.28) :
    ∃ f1 f3, triple (some b) (some delta) (some beat) = .ok [some f1, some (f1 + beat), some f3] ∧
      -1960 < f1 ∧ -1960 < f3 ∧ bk f1 = b ∧ bk f3 = b + delta := by
  obtain ⟨f1, h1, h2, h3⟩ := hz_exists b hb
  obtain ⟨f3, g1, g2, g3⟩ := hz_exists (b + delta) hbd
  have e : callV bark2hzV (kwOpt "mode" none) [some b, some b, some (b + delta)] =
      .ok [some f1, some f1, some f3] := by
    refine (callV_eq bark2hzV none (bark2hzTraunmuller, 1) rfl _).trans ?_
    rw [ret_of_computes C34_bark2hz_traunmuller _ rfl]
    simp [pw1, h1, g1]
  refine ⟨f1, f3, ?_, h2, g2, h3, g3⟩
  simp only [triple, Option.bind_some, Option.map_some, e]

theorem triple_diff (b delta : Cell) (beat f1 f2 f3 : ℝ)
    (h : triple b delta (some beat) = .ok [some f1, some f2, some f3]) : f2 = f1 + beat := by
  have e : ∀ c : Cell, callV bark2hzV (kwOpt "mode" none) [b, b, c] =
      .ok [b.bind hzT, b.bind hzT, c.bind hzT] := by
    intro c
    refine (callV_eq bark2hzV none (bark2hzTraunmuller, 1) rfl _).trans ?_
    rw [ret_of_computes C34_bark2hz_traunmuller _ rfl]
    simp [pw1]
  simp only [triple, e, Except.ok.injEq, List.cons.injEq, and_true] at h
  obtain ⟨h1, h2, -⟩ := h
  rw [h1] at h2
  simpa using h2.symm

theorem barkBound_ok (pick : ℝ → ℝ → ℝ) (f beat delta : ℝ) (h : -1960 < f) (h' : -1960 < f - beat) :
    barkBound pick f (some beat) (some delta) =
      .ok (some (bk f - pick (pick (bk f - bk (f - beat)) delta) 0)) := by
  simp [barkBound, bark1_ok f h, cellSub, bark1_ok (f - beat) h']

/-! ## Draws -/

section draw
variable {σ : Type} (rng : Rng σ)

theorem betaTwosides_ok (hr : rng.Lawful) (a b l r positive : ℝ) (ha : 0 < a) (hb : 0 < b)
    (hlr : l ≤ r) (s : σ) :
    ∃ v s', betaTwosides rng a b (some l) (some r) positive s = .ok (some v, s') ∧
      (0 ≤ l → l ≤ |v| ∧ |v| ≤ r) ∧ (1 ≤ positive → l ≤ v ∧ v ≤ r) := by
  obtain ⟨x, s1, h1, h2, h3⟩ := hr.beta a b ha hb s
  obtain ⟨u, s2, g1, g2, g3⟩ := hr.uniform 0 1 zero_le_one s1
  have e1 : l ≤ x * (r - l) + l := by nlinarith
  have e2 : x * (r - l) + l ≤ r := by nlinarith
  refine ⟨_, s2, by simp only [betaTwosides, h1, g1]; rfl, ?_, ?_⟩
  · intro hl
    rw [abs_mul]
    have : |(2 * (if u ≤ positive then 1 else 0) - 1 : ℝ)| = 1 := by
      split_ifs <;> norm_num
    rw [this, mul_one, abs_of_nonneg (hl.trans e1)]
    exact ⟨e1, e2⟩
  · intro hp
    have : (2 * 1 - 1 : ℝ) = 1 := by norm_num
    rw [if_pos (g3.trans hp), this]
    show l ≤ (x * (r - l) + l) * 1 ∧ (x * (r - l) + l) * 1 ≤ r
    rw [mul_one]
    exact ⟨e1, e2⟩

/-! ## C55 -/

/-- **C55 (frequencies).** With consistent parameters, for every state of the random generator, three
frequencies are drawn.  All are within the limits.  The first two differ by a beat frequency within its
limits; the third differs from the first by a number of Bark within its limits. -/
theorem C55_freqs (hr : rng.Lawful) (g : BeatsGen) (hg : g.Consistent) (s : σ) :
    ∃ f1 f2 f3 s', g.freqs rng s = .ok ([some f1, some f2, some f3], s') ∧
      (∀ f ∈ [f1, f2, f3], g.fMin ≤ f ∧ f ≤ g.fMax) ∧
      g.beatMin ≤ |f2 - f1| ∧ |f2 - f1| ≤ g.beatMax ∧
      g.deltaMin ≤ |bk f3 - bk f1| ∧ |bk f3 - bk f1| ≤ g.deltaMax := by
  have hbM : 0 < g.beatMax := lt_of_lt_of_le hg.beat_pos hg.beat_le
  obtain ⟨x, s1, x1, x2, -⟩ := betaTwosides_ok rng hr g.beatA g.beatB (1 / g.beatMax) (1 / g.beatMin)
    (1 / 2) hg.beatAB.1 hg.beatAB.2 (one_div_le_one_div_of_le hg.beat_pos hg.beat_le) s
  obtain ⟨x2, x3⟩ := x2 (by positivity)
  have hx0 : 0 < |x| := lt_of_lt_of_le (by positivity) x2
  have hxne : x ≠ 0 := abs_pos.1 hx0
  obtain ⟨delta, s2, d1, d2, -⟩ := betaTwosides_ok rng hr g.deltaA g.deltaB g.deltaMin g.deltaMax
    (1 / 2) hg.deltaAB.1 hg.deltaAB.2 hg.delta_le s1
  obtain ⟨d2, d3⟩ := d2 hg.delta_nonneg
  obtain ⟨beat, hbeat⟩ : ∃ beat, beat = 1 / x := ⟨_, rfl⟩
  have b1 : g.beatMin ≤ |beat| := by
    rw [hbeat, abs_div, abs_one, le_div_iff₀ hx0]
    have := mul_le_mul_of_nonneg_left x3 hg.beat_pos.le
    rwa [mul_one_div_cancel hg.beat_pos.ne'] at this
  have b2 : |beat| ≤ g.beatMax := by
    rw [hbeat, abs_div, abs_one, div_le_iff₀ hx0]
    have := mul_le_mul_of_nonneg_left x2 hbM.le
    rwa [mul_one_div_cancel hbM.ne'] at this
  have b3 := abs_le.1 b2
  have d4 := abs_le.1 d3
  have low := hg.low
  have fle := hg.f_le
  have hinv : cellInv (some x) = .ok (some beat) := by simp [cellInv, hxne, hbeat]
  have hL := barkBound_ok min g.fMin beat delta (by linarith) (by linarith)
  have hR := barkBound_ok max g.fMax beat delta (by linarith) (by linarith)
  -- the comparisons
  have m1 : bk g.fMin ≤ bk g.fMax := bk_mono (by linarith) fle
  have m2 : bk (g.fMin - beat) ≤ bk (g.fMin + g.beatMax) := bk_mono (by linarith) (by linarith)
  have m3 : bk (g.fMax - g.beatMax) ≤ bk (g.fMax - beat) := bk_mono (by linarith) (by linarith)
  have m4 : bk (g.fMin - beat) ≤ bk (g.fMax - beat) := bk_mono (by linarith) (by linarith)
  have r1 := hg.room1
  have r2 := hg.room2
  obtain ⟨L, hLd⟩ : ∃ L, L = bk g.fMin - min (min (bk g.fMin - bk (g.fMin - beat)) delta) 0 := ⟨_, rfl⟩
  obtain ⟨R, hRd⟩ : ∃ R, R = bk g.fMax - max (max (bk g.fMax - bk (g.fMax - beat)) delta) 0 := ⟨_, rfl⟩
  rw [← hLd] at hL
  rw [← hRd] at hR
  have l1 : bk g.fMin ≤ L := by
    have := min_le_right (min (bk g.fMin - bk (g.fMin - beat)) delta) 0
    linarith
  have l2 : bk (g.fMin - beat) ≤ L := by
    have := (min_le_left (min (bk g.fMin - bk (g.fMin - beat)) delta) 0).trans (min_le_left _ _)
    linarith
  have l3 : bk g.fMin - delta ≤ L := by
    have := (min_le_left (min (bk g.fMin - bk (g.fMin - beat)) delta) 0).trans (min_le_right _ _)
    linarith
  have u1 : R ≤ bk g.fMax := by
    have := le_max_right (max (bk g.fMax - bk (g.fMax - beat)) delta) 0
    linarith
  have u2 : R ≤ bk (g.fMax - beat) := by
    have := (le_max_left _ _).trans (le_max_left (max (bk g.fMax - bk (g.fMax - beat)) delta) 0)
    linarith
  have u3 : R ≤ bk g.fMax - delta := by
    have := (le_max_right _ _).trans (le_max_left (max (bk g.fMax - bk (g.fMax - beat)) delta) 0)
    linarith
  have hLR : L ≤ R := by
    have c1 : L = bk g.fMin ∨ L = bk (g.fMin - beat) ∨ L = bk g.fMin - delta := by
      rw [hLd]
      rcases min_choice (min (bk g.fMin - bk (g.fMin - beat)) delta) 0 with h | h
      · rw [h]
        rcases min_choice (bk g.fMin - bk (g.fMin - beat)) delta with h | h <;> rw [h]
        · right; left; ring
        · right; right; rfl
      · rw [h]; left; ring
    have c2 : R = bk g.fMax ∨ R = bk (g.fMax - beat) ∨ R = bk g.fMax - delta := by
      rw [hRd]
      rcases max_choice (max (bk g.fMax - bk (g.fMax - beat)) delta) 0 with h | h
      · rw [h]
        rcases max_choice (bk g.fMax - bk (g.fMax - beat)) delta with h | h <;> rw [h]
        · right; left; ring
        · right; right; rfl
      · rw [h]; left; ring
    have hd0 : 0 ≤ g.deltaMax := hg.delta_nonneg.trans hg.delta_le
    have m5 : bk (g.fMax - g.beatMax) ≤ bk g.fMax := bk_mono (by linarith) (by linarith)
    clear hLd hRd
    rcases c1 with c | c | c <;> rcases c2 with c' | c' | c' <;> rw [c, c'] <;> linarith
  obtain ⟨b, s3, v1, -, v2⟩ := betaTwosides_ok rng hr g.fA g.fB L R 1 hg.fAB.1 hg.fAB.2 hLR s2
  obtain ⟨v2, v3⟩ := v2 le_rfl
  have top := bk_lt g.fMax (by linarith)
  obtain ⟨f1, f3, t1, t2, t3, t4, t5⟩ := triple_ok b delta beat (by linarith) (by linarith)
  refine ⟨f1, f1 + beat, f3, s3, ?_, ?_, ?_, ?_, ?_, ?_⟩
  · have hne : ¬ (g.beatMax = 0 ∨ g.beatMin = 0) := by
      rintro (h | h)
      · exact hbM.ne' h
      · exact hg.beat_pos.ne' h
    simp only [BeatsGen.freqs, if_neg hne, x1, hinv, d1, hL, hR, v1, t1]
  · have k1 : g.fMin ≤ f1 := (bk_le_iff (by linarith) t2).1 (by linarith)
    have k2 : f1 ≤ g.fMax := (bk_le_iff t2 (by linarith)).1 (by linarith)
    have k3 : g.fMin - beat ≤ f1 := (bk_le_iff (by linarith) t2).1 (by linarith)
    have k4 : f1 ≤ g.fMax - beat := (bk_le_iff t2 (by linarith)).1 (by linarith)
    have k5 : g.fMin ≤ f3 := (bk_le_iff (by linarith) t3).1 (by linarith)
    have k6 : f3 ≤ g.fMax := (bk_le_iff t3 (by linarith)).1 (by linarith)
    simp only [List.mem_cons, List.not_mem_nil, or_false, forall_eq_or_imp, forall_eq]
    exact ⟨⟨k1, k2⟩, ⟨by linarith, by linarith⟩, k5, k6⟩
  · rwa [add_sub_cancel_left]
  · rwa [add_sub_cancel_left]
  · rwa [t4, t5, add_sub_cancel_left]
  · rwa [t4, t5, add_sub_cancel_left]

/-- **C55 (decays).** Three decays are drawn, none shorter than the minimum, if the mean is not below the
minimum; otherwise a `ValueError` is raised. -/
theorem C55_decays (hr : rng.Lawful) (g : BeatsGen) (s : σ) :
    (g.decayMin ≤ g.decay → ∃ d s', g.decays rng s = .ok (d, s') ∧ d.length = 3 ∧
      ∀ x ∈ d, g.decayMin ≤ x) ∧
    (g.decay < g.decayMin → g.decays rng s = .error .valueError) := by
  constructor
  · intro h
    obtain ⟨l, s', h1, h2, h3⟩ := hr.exponentialN (g.decay - g.decayMin) 3 (by linarith) s
    refine ⟨_, s', by rw [BeatsGen.decays, h1], by simpa using h2, ?_⟩
    intro x hx
    obtain ⟨y, hy, rfl⟩ := List.mem_map.1 hx
    have := h3 y hy
    linarith
  · intro h
    rw [BeatsGen.decays, hr.exponentialBad _ _ (by linarith)]

/-- **C55 (levels).** The amplitudes of sinusoids and noise are positive, sum to one, and their ratio is
the signal-to-noise ratio. -/
theorem C55_levels (g : BeatsGen) : 0 < g.sineAmp ∧ 0 < g.noiseAmp ∧ g.sineAmp + g.noiseAmp = 1 ∧
    g.sineAmp / g.noiseAmp = (10 : ℝ) ^ (g.snr / 20) := by
  have h : 0 < g.snrAmp := by
    unfold BeatsGen.snrAmp Dsp.db2a
    positivity
  have h1 : (1 : ℝ) + g.snrAmp ≠ 0 := by linarith
  have e : g.snrAmp = (10 : ℝ) ^ (g.snr / 20) := rfl
  refine ⟨div_pos h (by linarith), div_pos one_pos (by linarith), ?_, ?_⟩
  · unfold BeatsGen.sineAmp BeatsGen.noiseAmp
    field_simp
    ring
  · rw [← e]
    unfold BeatsGen.sineAmp BeatsGen.noiseAmp
    field_simp

theorem db2a_pos (x : ℝ) : 0 < Dsp.db2a x := by
  unfold Dsp.db2a
  positivity

/-- **C55 (amplitudes).** With a minimum level of at most zero decibel, three amplitudes are drawn; they
are not negative and sum to the amplitude of the sinusoids.  The two beating partials, and the third one
unless it is switched off, are positive, and differ by at most the minimum level. -/
theorem C55_amps (hr : rng.Lawful) (g : BeatsGen) (h0 : g.ampMin ≤ 0) (s : σ) :
    ∃ a1 a2 a3 s', g.amps rng s = .ok ([a1, a2, a3], s') ∧ a1 + a2 + a3 = g.sineAmp ∧
      0 < a1 ∧ 0 < a2 ∧ (g.onlybeat = true → a3 = 0) ∧ (g.onlybeat = false → 0 < a3) ∧
      ∀ a ∈ [a1, a2] ++ (if g.onlybeat then [] else [a3]),
        ∀ a' ∈ [a1, a2] ++ (if g.onlybeat then [] else [a3]), a * (10 : ℝ) ^ (g.ampMin / 20) ≤ a' := by
  obtain ⟨l, s', h1, h2, h3⟩ := hr.uniformN g.ampMin 0 3 h0 s
  match l, h2, h3 with
  | [p, q, r], _, h3 =>
    simp only [List.mem_cons, List.not_mem_nil, or_false, forall_eq_or_imp, forall_eq] at h3
    obtain ⟨hp, hq, hr'⟩ := h3
    have key : ∀ u v : ℝ, u ≤ 0 → g.ampMin ≤ v →
        Dsp.db2a u * (10 : ℝ) ^ (g.ampMin / 20) ≤ Dsp.db2a v := by
      intro u v hu hv
      unfold Dsp.db2a
      rw [← Real.rpow_add (by norm_num)]
      apply Real.rpow_le_rpow_of_exponent_le (by norm_num)
      have : u / 20 ≤ 0 := by linarith
      linarith
    have pp := db2a_pos p
    have qq := db2a_pos q
    have rr := db2a_pos r
    have sa := (C55_levels g).1
    have scale : ∀ c u v : ℝ, 0 < c → u * (10 : ℝ) ^ (g.ampMin / 20) ≤ v →
        u * c * (10 : ℝ) ^ (g.ampMin / 20) ≤ v * c := by
      intro c u v hc huv
      have := mul_le_mul_of_nonneg_right huv hc.le
      linarith
    cases ho : g.onlybeat with
    | true =>
      have hc : 0 < g.sineAmp / (Dsp.db2a p + Dsp.db2a q) := div_pos sa (by linarith)
      refine ⟨Dsp.db2a p * (g.sineAmp / (Dsp.db2a p + Dsp.db2a q)),
        Dsp.db2a q * (g.sineAmp / (Dsp.db2a p + Dsp.db2a q)), 0, s', ?_, ?_, by positivity,
        by positivity, fun _ => rfl, fun h => by simp at h, ?_⟩
      · simp [BeatsGen.amps, h1, BeatsGen.ampsOf, ho]
      · field_simp
        ring
      · simp only [if_true, List.append_nil, List.mem_cons, List.not_mem_nil, or_false,
          forall_eq_or_imp, forall_eq]
        exact ⟨⟨scale _ _ _ hc (key _ _ hp.2 hp.1), scale _ _ _ hc (key _ _ hp.2 hq.1)⟩,
          scale _ _ _ hc (key _ _ hq.2 hp.1), scale _ _ _ hc (key _ _ hq.2 hq.1)⟩
    | false =>
      have hc : 0 < g.sineAmp / (Dsp.db2a p + (Dsp.db2a q + Dsp.db2a r)) := div_pos sa (by linarith)
      refine ⟨Dsp.db2a p * (g.sineAmp / (Dsp.db2a p + (Dsp.db2a q + Dsp.db2a r))),
        Dsp.db2a q * (g.sineAmp / (Dsp.db2a p + (Dsp.db2a q + Dsp.db2a r))),
        Dsp.db2a r * (g.sineAmp / (Dsp.db2a p + (Dsp.db2a q + Dsp.db2a r))), s', ?_, ?_,
        by positivity, by positivity, fun h => by simp at h, fun _ => by positivity, ?_⟩
      · simp [BeatsGen.amps, h1, BeatsGen.ampsOf, ho]
      · field_simp
        ring
      · simp only [Bool.false_eq_true, if_false, List.cons_append, List.nil_append, List.mem_cons,
          List.not_mem_nil, or_false, forall_eq_or_imp, forall_eq]
        refine ⟨⟨?_, ?_, ?_⟩, ⟨?_, ?_, ?_⟩, ?_, ?_, ?_⟩ <;>
          exact scale _ _ _ hc (key _ _ (by tauto) (by tauto))

/-- **C55 (sizes).** What holds for one sample holds for every sample of a list, which has the requested
size. -/
theorem C55_size {α : Type} (func : Draw σ α) (P : α → Prop)
    (h : ∀ s, ∃ a s', func s = .ok (a, s') ∧ P a) (s : σ) :
    (∃ a s', repeated func none s = .ok (.one a, s') ∧ P a) ∧
    ∀ n : ℤ, ∃ l s', repeated func (some n) s = .ok (.many l, s') ∧ l.length = n.toNat ∧
      ∀ a ∈ l, P a := by
  have key : ∀ (n : Nat) (s : σ), ∃ l s', draws func n s = .ok (l, s') ∧ l.length = n ∧ ∀ a ∈ l, P a := by
    intro n
    induction n with
    | zero => exact fun s => ⟨[], s, rfl, rfl, by simp⟩
    | succ n ih =>
      intro s
      obtain ⟨a, s1, h1, h2⟩ := h s
      obtain ⟨l, s2, g1, g2, g3⟩ := ih s1
      refine ⟨a :: l, s2, by simp only [draws, h1, g1], by simp [g2], ?_⟩
      intro b hb
      rcases List.mem_cons.1 hb with rfl | hb
      · exact h2
      · exact g3 b hb
  constructor
  · obtain ⟨l, s', h1, h2, h3⟩ := key 1 s
    match l, h2 with
    | [a], _ => exact ⟨a, s', by simp only [repeated, h1], h3 a (by simp)⟩
  · intro n
    obtain ⟨l, s', h1, h2, h3⟩ := key n.toNat s
    exact ⟨l, s', by simp only [repeated, h1], h2, h3⟩

/-- C55: refused parameters.  A minimum or maximum beat of zero, and coefficients of the beta
distributions that are not positive; and a beat whose inverse is drawn as zero (as may be with limits of different
signs). -/
theorem C55_refused (hr : rng.Lawful) (g : BeatsGen) (s : σ) :
    (g.beatMin = 0 ∨ g.beatMax = 0 → g.freqs rng s = .error .zeroDivisionError) ∧
    (g.beatMin ≠ 0 → g.beatMax ≠ 0 → g.beatA ≤ 0 ∨ g.beatB ≤ 0 →
      g.freqs rng s = .error .valueError) ∧
    (∀ x s1 u s2, rng.beta g.beatA g.beatB s = .ok (x, s1) → rng.uniform 0 1 s1 = .ok (u, s2) →
      x * (1 / g.beatMin - 1 / g.beatMax) + 1 / g.beatMax = 0 →
      g.freqs rng s = .error .zeroDivisionError) := by
  refine ⟨?_, ?_, ?_⟩
  · intro h
    rw [BeatsGen.freqs, if_pos h.symm]
  · intro h1 h2 h
    rw [BeatsGen.freqs, if_neg (by tauto)]
    simp only [betaTwosides, hr.betaBad _ _ h]
  · intro x s1 u s2 h1 h2 h
    rw [BeatsGen.freqs]
    split
    · rfl
    · have hb : betaTwosides rng g.beatA g.beatB (some (1 / g.beatMax)) (some (1 / g.beatMin)) (1 / 2) s =
          .ok (some 0, s2) := by
        simp only [betaTwosides, h1, h2, twosides, Option.bind_some, Option.map_some, h, zero_mul]
      simp only [hb, cellInv, if_true]

/-- C55: the limits cannot hold if they are closer than the least beat frequency; the parameters are not
checked. -/
theorem C55_narrow (hr : rng.Lawful) (g : BeatsGen) (h1 : 0 < g.beatMin) (h2 : g.beatMin ≤ g.beatMax)
    (hAB : 0 < g.beatA ∧ 0 < g.beatB) (hn : g.fMax - g.fMin < g.beatMin) (s s' : σ) (f1 f2 f3 : ℝ)
    (h : g.freqs rng s = .ok ([some f1, some f2, some f3], s')) :
    ∃ f ∈ [f1, f2], f < g.fMin ∨ g.fMax < f := by
  have hbM : 0 < g.beatMax := lt_of_lt_of_le h1 h2
  obtain ⟨x, s1, x1, x2, -⟩ := betaTwosides_ok rng hr g.beatA g.beatB (1 / g.beatMax) (1 / g.beatMin)
    (1 / 2) hAB.1 hAB.2 (one_div_le_one_div_of_le h1 h2) s
  obtain ⟨x2, x3⟩ := x2 (by positivity)
  have hx0 : 0 < |x| := lt_of_lt_of_le (by positivity) x2
  have hxne : x ≠ 0 := abs_pos.1 hx0
  have hne : ¬ (g.beatMax = 0 ∨ g.beatMin = 0) := by
    rintro (h | h)
    · exact hbM.ne' h
    · exact h1.ne' h
  have b1 : g.beatMin ≤ |1 / x| := by
    rw [abs_div, abs_one, le_div_iff₀ hx0]
    have := mul_le_mul_of_nonneg_left x3 h1.le
    rwa [mul_one_div_cancel h1.ne'] at this
  have hinv : cellInv (some x) = .ok (some (1 / x)) := by simp [cellInv, hxne]
  simp only [BeatsGen.freqs, if_neg hne, x1, hinv] at h
  split at h
  · simp at h
  · split at h
    · simp at h
    · split at h
      · simp at h
      · split at h
        · simp at h
        · split at h
          · simp at h
          · rename_i l hl
            simp only [Except.ok.injEq, Prod.mk.injEq] at h
            rw [h.1] at hl
            have e := triple_diff _ _ _ _ _ _ hl
            by_contra hcon
            push Not at hcon
            have k1 := hcon f1 (by simp)
            have k2 := hcon f2 (by simp)
            have : |1 / x| ≤ g.fMax - g.fMin := by
              rw [abs_le]
              constructor <;> linarith [k1.1, k1.2, k2.1, k2.2]
            linarith

/-- A generator that always draws the middle of the range (and no noise). -/
noncomputable def middle : Rng Unit where
  beta a b s := if 0 < a ∧ 0 < b then .ok (1 / 2, s) else .error .valueError
  uniform lo hi s := .ok ((lo + hi) / 2, s)
  uniformN lo hi n s := .ok (List.replicate n ((lo + hi) / 2), s)
  exponentialN c n s := if c < 0 then .error .valueError else .ok (List.replicate n c, s)
  normalN _ n s := if n < 0 then .error .valueError else .ok (List.replicate n.toNat 0, s)

theorem middle_lawful : middle.Lawful where
  beta a b ha hb s := ⟨1 / 2, s, by simp [middle, ha, hb], by norm_num, by norm_num⟩
  betaBad a b h s := by
    have : ¬ (0 < a ∧ 0 < b) := by
      rintro ⟨h1, h2⟩
      rcases h with h | h <;> linarith
    simp only [middle, if_neg this]
  uniform lo hi h s := ⟨(lo + hi) / 2, s, rfl, by linarith, by linarith⟩
  uniformN lo hi n h s := ⟨_, s, rfl, by simp, by
    intro x hx
    rw [List.eq_of_mem_replicate hx]
    constructor <;> linarith⟩
  exponentialN c n h s := ⟨List.replicate n c, s, by simp [middle, not_lt.2 h], by simp, by
    intro x hx
    rwa [List.eq_of_mem_replicate hx]⟩
  exponentialBad c n h s := by simp [middle, h]
  normalN c n _ h s := ⟨List.replicate n.toNat 0, s, by simp [middle, not_lt.2 h], by simp [h]⟩
  normalBad c n h s := by simp [middle, h]

/-- The hypotheses hold for the default parameters; two triples. -/
example : ∃ l s', repeated (({} : BeatsGen).freqs middle) (some 2) () = .ok (.many l, s') ∧
    l.length = 2 ∧ ∀ t ∈ l, ∃ f1 f2 f3, t = [some f1, some f2, some f3] ∧ 200 ≤ f1 ∧ f1 ≤ 2000 := by
  obtain ⟨l, s', h1, h2, h3⟩ := (C55_size (({} : BeatsGen).freqs middle)
    (fun t => ∃ f1 f2 f3, t = [some f1, some f2, some f3] ∧ 200 ≤ f1 ∧ f1 ≤ 2000) (fun s => by
      obtain ⟨f1, f2, f3, s', h, h', -⟩ := C55_freqs middle middle_lawful {} default_consistent s
      exact ⟨_, s', h, f1, f2, f3, rfl, h' f1 (by simp)⟩) ()).2 2
  exact ⟨l, s', h1, h2, h3⟩

/-- The hypotheses of `C55_amps` and `C55_decays` hold for the default parameters. -/
example : (∃ a s', ({} : BeatsGen).amps middle () = .ok (a, s')) ∧
    ∃ d s', ({} : BeatsGen).decays middle () = .ok (d, s') := by
  obtain ⟨a1, a2, a3, s', h, -⟩ := C55_amps middle middle_lawful {} (by norm_num) ()
  obtain ⟨d, s'', h', -⟩ := (C55_decays middle middle_lawful {} ()).1 (by norm_num)
  exact ⟨⟨_, _, h⟩, _, _, h'⟩

/-- The hypotheses of `C55_narrow` hold for limits that coincide. -/
example : ∃ f1 f2 f3, ({ fMax := 200 } : BeatsGen).freqs middle () =
    .ok ([some f1, some f2, some f3], ()) ∧ (f1 < 200 ∨ 200 < f1 ∨ f2 < 200 ∨ 200 < f2) := by
  have h1 : betaTwosides middle 2 2 (some (1 / 18)) (some (1 / 1.8)) (1 / 2) () =
      .ok (some (11 / 36), ()) := by
    simp only [betaTwosides, middle, twosides]
    norm_num
  have h2 : betaTwosides middle 2 4 (some 1.5) (some 4) (1 / 2) () = .ok (some (11 / 4), ()) := by
    simp only [betaTwosides, middle, twosides]
    norm_num
  have h3 : cellInv (some (11 / 36)) = .ok (some (36 / 11)) := by
    norm_num [cellInv]
  have h4 := barkBound_ok min 200 (36 / 11) (11 / 4) (by norm_num) (by norm_num)
  have h5 := barkBound_ok max 200 (36 / 11) (11 / 4) (by norm_num) (by norm_num)
  have e1 : min (min (bk 200 - bk (200 - 36 / 11)) (11 / 4)) 0 = 0 := by
    rw [min_eq_right]
    apply le_min _ (by norm_num)
    norm_num [bk]
  have e2 : max (max (bk 200 - bk (200 - 36 / 11)) (11 / 4)) 0 = 11 / 4 := by
    rw [max_eq_left, max_eq_right]
    · norm_num [bk]
    · exact le_max_of_le_right (by norm_num)
  rw [e1] at h4
  rw [e2] at h5
  have h6 : betaTwosides middle 2 2 (some (bk 200 - 0)) (some (bk 200 - 11 / 4)) 1 () =
      .ok (some (bk 200 - 11 / 8), ()) := by
    simp only [betaTwosides, middle, twosides, Option.bind_some, Option.map_some]
    norm_num
    ring
  obtain ⟨f1, f3, h7, -⟩ := triple_ok (bk 200 - 11 / 8) (11 / 4) (36 / 11) (by norm_num [bk])
    (by norm_num [bk])
  have hall : ({ fMax := 200 } : BeatsGen).freqs middle () =
      .ok ([some f1, some (f1 + 36 / 11), some f3], ()) := by
    have h0 : ¬ ((18 : ℝ) = 0 ∨ (1.8 : ℝ) = 0) := by norm_num
    simp only [BeatsGen.freqs, if_neg h0, h1, h2, h3, h4, h5, h6, h7]
  refine ⟨f1, _, f3, hall, ?_⟩
  obtain ⟨f, hf, h⟩ := C55_narrow middle middle_lawful { fMax := 200 } (by norm_num) (by norm_num)
    (by norm_num) (by norm_num) () () _ _ _ hall
  simp only [List.mem_cons, List.not_mem_nil, or_false] at hf
  rcases hf with rfl | rfl <;> tauto

/-! ## C83 -/

/-- **C83 (audio).** With consistent parameters, decays of positive least size, a sample rate that is
positive and a duration of at least two samples (or of none), the audio has as many samples as fit into the
duration (three times the mean decay, if it is not given).  It is the sum of the noise that was drawn and
of three damped sinusoids whose parameters are returned and meet the limits; at every sample, it differs
from the noise by at most the amplitude of the sinusoids. -/
theorem C83_audio (hr : rng.Lawful) (g : BeatsGen) (hg : g.Consistent) (ha : g.ampMin ≤ 0)
    (hd : 0 < g.decayMin) (hm : g.decayMin ≤ g.decay) (dur : Option ℝ) (fs : ℝ) (hfs : 0 < fs)
    (hn : 0 ≤ dur.getD (g.decay * 3)) (h1 : ⌊dur.getD (g.decay * 3) * fs⌋ ≠ 1) (s : σ) :
    ∃ (out : BeatAudio) (noise : List ℝ) (s' s'' : σ),
      g.audio rng dur fs s = .ok (some out, s') ∧ out.fs = fs ∧
      rng.normalN (1 / (1 + (10 : ℝ) ^ (g.snr / 20))) ⌊dur.getD (g.decay * 3) * fs⌋ s'' =
        .ok (noise, s') ∧
      (out.x.length : ℤ) = ⌊dur.getD (g.decay * 3) * fs⌋ ∧ noise.length = out.x.length ∧
      out.freqs.length = 3 ∧ out.decays.length = 3 ∧ out.amps.length = 3 ∧ out.phases.length = 3 ∧
      (∀ f ∈ out.freqs, g.fMin ≤ f ∧ f ≤ g.fMax) ∧ (∀ d ∈ out.decays, g.decayMin ≤ d) ∧
      out.amps.sum = g.sineAmp ∧ (∀ p ∈ out.phases, 0 ≤ p ∧ p ≤ 2 * Real.pi) ∧
      ∀ i : Nat, i < out.x.length →
        out.x.getD i 0 = ∑ k ∈ Finset.range 3, Mode.wave ⟨out.freqs.getD k 0, out.decays.getD k 0,
          out.amps.getD k 0, out.phases.getD k 0⟩ (i / fs) + noise.getD i 0 ∧
        |out.x.getD i 0 - noise.getD i 0| ≤ g.sineAmp := by
  obtain ⟨f1, f2, f3, s1, e1, e2, -⟩ := C55_freqs rng hr g hg s
  obtain ⟨d, s2, e3, e4, e5⟩ := (C55_decays rng hr g s1).1 hm
  obtain ⟨a1, a2, a3, s3, e6, e7, e8, e9, e10, e11, -⟩ := C55_amps rng hr g ha s2
  obtain ⟨ph, s4, e12, e13, e14⟩ := hr.uniformN 0 (2 * Real.pi) 3 (by positivity) s3
  have ha3 : 0 ≤ a3 := by
    cases h : g.onlybeat with
    | true => rw [e10 h]
    | false => exact (e11 h).le
  match d, e4, ph, e13 with
  | [d1, d2, d3], _, [p1, p2, p3], _ =>
    obtain ⟨n, hnd⟩ : ∃ n, n = ⌊dur.getD (g.decay * 3) * fs⌋ := ⟨_, rfl⟩
    have hn0 : 0 ≤ n := by
      rw [hnd]
      exact Int.floor_nonneg.2 (mul_nonneg hn hfs.le)
    have hpy : pyInt (dur.getD (g.decay * 3) * fs) = n := by
      rw [pyInt, if_pos (mul_nonneg hn hfs.le), hnd]
    obtain ⟨w, s5, e15, e16⟩ := hr.normalN g.noiseAmp n (C55_levels g).2.1.le hn0 s4
    have hpos : ∀ x ∈ [d1, d2, d3], 0 < x := fun x hx => lt_of_lt_of_le hd (e5 x hx)
    have hsyn := (C25_sum (fun _ => []) ((List.range n.toNat).map fun (i : Nat) => (i : ℝ) / fs)
      [⟨f1, d1, a1, p1⟩, ⟨f2, d2, a2, p2⟩, ⟨f3, d3, a3, p3⟩] (by
        intro m hm
        simp only [List.mem_cons, List.not_mem_nil, or_false] at hm
        rcases hm with rfl | rfl | rfl
        · exact (hpos d1 (by simp)).ne'
        · exact (hpos d2 (by simp)).ne'
        · exact (hpos d3 (by simp)).ne') (.arr [p1, p2, p3]) (.inl rfl)).1
    simp only [List.map_cons, List.map_nil, List.map_map] at hsyn
    have hwl : w.length = n.toNat := by omega
    have hadd : ∀ x : List ℝ, x.length = n.toNat → addNoise x w = .ok (List.zipWith (· + ·) x w) := by
      intro x hx
      rw [addNoise, if_neg (by omega), if_pos (by omega)]
    obtain ⟨X, hX⟩ : ∃ X : List ℝ, X = (List.range n.toNat).map ((fun t =>
        ([Mode.wave ⟨f1, d1, a1, p1⟩ t, Mode.wave ⟨f2, d2, a2, p2⟩ t,
          Mode.wave ⟨f3, d3, a3, p3⟩ t]).sum) ∘ fun (i : Nat) => (i : ℝ) / fs) := ⟨_, rfl⟩
    have hXl : X.length = n.toNat := by simp [hX]
    rw [← hX] at hsyn
    refine ⟨⟨List.zipWith (· + ·) X w, fs, [f1, f2, f3], [d1, d2, d3], [a1, a2, a3], [p1, p2, p3]⟩, w,
      s5, s4, ?_, rfl, hnd ▸ e15, ?_, ?_, rfl, rfl, rfl, rfl, e2, e5, ?_, e14, ?_⟩
    · simp only [BeatsGen.audio, e1, e3, e6, e12, hpy, List.mapM_cons, List.mapM_nil, id, bind,
        Option.bind_some, pure, hsyn, BeatsGen.noise, e15, hadd X hXl]
    · rw [List.length_zipWith, hwl, hXl, min_self, ← hnd]
      omega
    · rw [List.length_zipWith, hwl, hXl, min_self]
    · simp only [List.sum_cons, List.sum_nil]
      linarith
    · intro i hi
      have hi' : i < n.toNat := by simpa [hwl, hXl] using hi
      have hx : (List.zipWith (· + ·) X w).getD i 0 =
          ([Mode.wave ⟨f1, d1, a1, p1⟩ (i / fs), Mode.wave ⟨f2, d2, a2, p2⟩ (i / fs),
            Mode.wave ⟨f3, d3, a3, p3⟩ (i / fs)]).sum + w.getD i 0 := by
        have hiw : i < w.length := by omega
        simp [List.getD_eq_getElem?_getD, List.getElem?_zipWith, hi', hiw, hX]
      have ht : 0 ≤ (i : ℝ) / fs := by positivity
      have hb : ∀ f d a p : ℝ, 0 < d → 0 ≤ a → |Mode.wave ⟨f, d, a, p⟩ (i / fs)| ≤ a := by
        intro f d a p hd ha
        have h1 : Real.exp (-2 * (i / fs) / d) ≤ 1 := by
          rw [Real.exp_le_one_iff]
          exact div_nonpos_of_nonpos_of_nonneg (by linarith) hd.le
        rw [Mode.wave, abs_mul, abs_mul, abs_of_pos (Real.exp_pos _), abs_of_nonneg ha]
        calc a * Real.exp (-2 * (i / fs) / d) * |Real.cos (2 * Real.pi * f * (i / fs) + p)|
            ≤ a * 1 * 1 := by
              apply mul_le_mul (mul_le_mul_of_nonneg_left h1 ha) (Real.abs_cos_le_one _)
                (abs_nonneg _) (by linarith)
          _ = a := by ring
      refine ⟨?_, ?_⟩
      · rw [hx]
        simp [Finset.sum_range_succ]
        ring
      · rw [hx, add_sub_cancel_right]
        simp only [List.sum_cons, List.sum_nil, add_zero]
        refine (abs_add_le _ _).trans ?_
        have k1 := hb f1 d1 a1 p1 (hpos d1 (by simp)) e8.le
        have k2 := abs_add_le (Mode.wave ⟨f2, d2, a2, p2⟩ (i / fs)) (Mode.wave ⟨f3, d3, a3, p3⟩ (i / fs))
        have k3 := hb f2 d2 a2 p2 (hpos d2 (by simp)) e9.le
        have k4 := hb f3 d3 a3 p3 (hpos d3 (by simp)) ha3
        linarith

/-- C83: audio of exactly one sample, and of negative size, cannot be made: a `ValueError` is raised
(for one sample, the array of the sinusoids has no dimensions, and the noise cannot be added to it). -/
theorem C83_refused (hr : rng.Lawful) (g : BeatsGen) (hg : g.Consistent) (ha : g.ampMin ≤ 0)
    (hd : 0 < g.decayMin) (hm : g.decayMin ≤ g.decay) (dur fs : ℝ)
    (h : (1 ≤ dur * fs ∧ dur * fs < 2) ∨ dur * fs ≤ -1) (s : σ) :
    g.audio rng (some dur) fs s = .error .valueError := by
  obtain ⟨f1, f2, f3, s1, e1, e2, -⟩ := C55_freqs rng hr g hg s
  obtain ⟨d, s2, e3, e4, e5⟩ := (C55_decays rng hr g s1).1 hm
  obtain ⟨a1, a2, a3, s3, e6, -⟩ := C55_amps rng hr g ha s2
  obtain ⟨ph, s4, e12, e13, e14⟩ := hr.uniformN 0 (2 * Real.pi) 3 (by positivity) s3
  match d, e4, ph, e13 with
  | [d1, d2, d3], _, [p1, p2, p3], _ =>
    have hpos : ∀ x ∈ [d1, d2, d3], 0 < x := fun x hx => lt_of_lt_of_le hd (e5 x hx)
    have hsyn := fun x => (C25_sum (fun _ => []) x
      [⟨f1, d1, a1, p1⟩, ⟨f2, d2, a2, p2⟩, ⟨f3, d3, a3, p3⟩] (by
        intro m hm
        simp only [List.mem_cons, List.not_mem_nil, or_false] at hm
        rcases hm with rfl | rfl | rfl
        · exact (hpos d1 (by simp)).ne'
        · exact (hpos d2 (by simp)).ne'
        · exact (hpos d3 (by simp)).ne') (.arr [p1, p2, p3]) (.inl rfl)).1
    simp only [List.map_cons, List.map_nil] at hsyn
    rcases h with ⟨h1, h2⟩ | h1
    · have hpy : pyInt (dur * fs) = 1 := by
        rw [pyInt, if_pos (by linarith), Int.floor_eq_iff]
        push_cast
        exact ⟨h1, by linarith⟩
      obtain ⟨w, s5, e15, -⟩ := hr.normalN g.noiseAmp 1 (C55_levels g).2.1.le (by norm_num) s4
      simp only [BeatsGen.audio, e1, e3, e6, e12, Option.getD_some, hpy, List.mapM_cons, List.mapM_nil,
        id, bind, Option.bind_some, pure, hsyn, BeatsGen.noise, e15]
      simp [addNoise]
    · have hpy : pyInt (dur * fs) < 0 := by
        rw [pyInt, if_neg (by linarith)]
        have : ⌈dur * fs⌉ ≤ -1 := by
          rw [Int.ceil_le]
          push_cast
          exact h1
        omega
      simp only [BeatsGen.audio, e1, e3, e6, e12, Option.getD_some, List.mapM_cons, List.mapM_nil,
        id, bind, Option.bind_some, pure, hsyn, BeatsGen.noise, hr.normalBad _ _ hpy]

/-- The hypotheses hold for the default parameters: three seconds at 44.1 kHz. -/
example : ∃ out s', ({} : BeatsGen).audio middle none 44100 () = .ok (some out, s') ∧
    out.x.length = 132300 := by
  have e : ((none : Option ℝ).getD (({} : BeatsGen).decay * 3)) * 44100 = 132300 := by norm_num
  have e' : ⌊((none : Option ℝ).getD (({} : BeatsGen).decay * 3)) * 44100⌋ = 132300 := by
    rw [e]
    norm_num
  obtain ⟨out, -, s', -, h1, -, -, h2, -⟩ := C83_audio middle middle_lawful {} default_consistent
    (by norm_num) (by norm_num) (by norm_num) none 44100 (by norm_num) (by norm_num)
    (by rw [e']; norm_num) ()
  rw [e'] at h2
  exact ⟨out, s', h1, by exact_mod_cast h2⟩

/-- A duration of one sample is refused. -/
example : ({} : BeatsGen).audio middle (some 1) 1 () = .error .valueError :=
  C83_refused middle middle_lawful {} default_consistent (by norm_num) (by norm_num) (by norm_num) 1 1
    (by norm_num) ()

end draw
end Verif.Eval
