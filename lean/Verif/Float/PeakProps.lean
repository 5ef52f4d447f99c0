import Verif.Float.PeakLemmas

/-!
# Peak refinement in floating point (C137)
-/

set_option autoImplicit false
set_option linter.unusedSectionVars false
set_option linter.unusedSimpArgs false

namespace Verif.Float

open Arith

variable {K : Type} [Field K] [LinearOrder K] [IsStrictOrderedRing K] (A : Arith K)

/-- C137: `peak_detect_interp` in floating point.  The spectrum has floating-point values, a number of
bins far below `1 / u`, and neighbours that differ do so by at least `eta / u` (for doubles: by the
smallest normal number).  Then the peaks are those of the exact computation; no entry is NaN; location
and magnitude of each are floating-point numbers, the location about half a bin or less from the bin
and inside the spectrum, the magnitude not lower than the bin; locations are strictly increasing.
Distances to the exact result are bounded. -/
theorem C137_refine (mx px : List K) (t : Option K) (hl : px.length = mx.length)
    (hrep : ∀ x ∈ mx, A.Rep x) (hN : (mx.length : K) * A.u ≤ 1 / 16)
    (hη : ∀ (i : Nat) (a b : K), mx[i]? = some a → mx[i + 1]? = some b → a ≠ b →
      A.eta ≤ A.u * |b - a|) :
    ∃ ploc res exact, Sms.peakDetect mx t = .ok ploc ∧ peakDetectInterpF A mx t = .ok res ∧
      Sms.peakDetectInterp mx px t = .ok exact ∧
      res.length = ploc.length ∧ exact.length = ploc.length ∧
      (∀ (i p : Nat), ploc[i]? = some p → ∃ loc m loc₀ m₀ ph a b c : K,
        res[i]? = some (some (loc, m)) ∧ exact[i]? = some (some (loc₀, m₀, ph)) ∧
        mx[p - 1]? = some a ∧ mx[p]? = some b ∧ mx[p + 1]? = some c ∧ a < b ∧ c < b ∧
        A.rnd loc = loc ∧ A.rnd m = m ∧
        |loc - (p : K)| ≤ 1 / 2 + A.u * (p + 7) ∧ 0 < loc ∧ loc < (mx.length : K) - 1 ∧ b ≤ m ∧
        |loc - loc₀| ≤ A.u * (p + 10 + 2 * |b| / ((b - a) + (b - c))) ∧
        |m - m₀| ≤ A.u * (8 * max (b - a) (b - c) + 2 * |b|)) ∧
      (∀ (i j : Nat) (x y : K × K), i < j → res[i]? = some (some x) → res[j]? = some (some y) →
        x.1 < y.1) := by
  obtain ⟨ploc, h1, h2, h3⟩ := Sms.peakDetect_spec mx t
  choose! floc fm fa fb fc floc₀ fm₀ fph hf using
    fun p (hp : Sms.IsPeak mx t p) => refineOneF_spec A mx px t hl hrep hN hη p hp
  have hres : peakDetectInterpF A mx t = .ok (ploc.map fun p => some (floc p, fm p)) := by
    unfold peakDetectInterpF
    rw [h1]
    exact peakRefineF_spec A mx _ ploc (fun p hp => (hf p ((h3 p).1 hp)).1)
  have hex : Sms.peakDetectInterp mx px t =
      .ok (ploc.map fun p => some (floc₀ p, fm₀ p, fph p)) := by
    unfold Sms.peakDetectInterp
    rw [h1]
    refine Sms.peakRefine_spec mx px _ ploc (fun p hp => ?_)
    obtain ⟨-, -, -, -, -, -, -, -, -, -, h, -⟩ := hf p ((h3 p).1 hp)
    exact h
  have u0 := A.u_pos
  refine ⟨ploc, _, _, h1, hres, hex, by simp, by simp, ?_, ?_⟩
  · intro i p hi
    have hp := (h3 p).1 (List.mem_of_getElem? hi)
    obtain ⟨-, g2, g3, g4, g5, g6, g7, g8, g9, g10, -, g12, g13⟩ := hf p hp
    have hlen := Sms.getElem?_lt' g4
    have hp1 : (1 : K) ≤ p := by
      obtain ⟨_, _, _, h, _⟩ := hp
      exact_mod_cast h
    have hpN : (p : K) + 2 ≤ mx.length := by exact_mod_cast (by omega : p + 2 ≤ mx.length)
    have hpu : ((p : K) + 2) * A.u ≤ 1 / 16 := (mul_le_mul_of_nonneg_right hpN u0.le).trans hN
    have h3u : (3 : K) * A.u ≤ ((p : K) + 2) * A.u := mul_le_mul_of_nonneg_right (by linarith) u0.le
    have hab := abs_le.1 g9
    exact ⟨floc p, fm p, floc₀ p, fm₀ p, fph p, fa p, fb p, fc p, by simp [hi], by simp [hi], g2, g3,
      g4, g5, g6, g7, g8, g9, by linarith [hab.1], by linarith [hab.2], g10, g12, g13⟩
  · intro i j x y hij hx hy
    simp only [List.getElem?_map, Option.map_eq_some_iff, Option.some.injEq] at hx hy
    obtain ⟨p, hp, rfl⟩ := hx
    obtain ⟨q, hq, rfl⟩ := hy
    have hpq : p < q := by
      obtain ⟨i1, i2⟩ := List.getElem?_eq_some_iff.1 hp
      obtain ⟨j1, j2⟩ := List.getElem?_eq_some_iff.1 hq
      have := List.pairwise_iff_getElem.1 h2 i j i1 j1 hij
      rw [i2, j2] at this
      exact this
    have hp' := (h3 p).1 (List.mem_of_getElem? hp)
    have hq' := (h3 q).1 (List.mem_of_getElem? hq)
    have h2q : (p : K) + 2 ≤ q := by exact_mod_cast peaks_apart hp' hq' hpq
    obtain ⟨-, -, -, -, -, -, -, -, e1, -⟩ := hf p hp'
    obtain ⟨-, -, -, g4, -, -, -, -, e2, -⟩ := hf q hq'
    have hlen := Sms.getElem?_lt' g4
    have hp1 : (1 : K) ≤ p := by
      obtain ⟨_, _, _, h, _⟩ := hp'
      exact_mod_cast h
    have hqN : (q : K) + 2 ≤ mx.length := by exact_mod_cast (by omega : q + 2 ≤ mx.length)
    have hqu : ((q : K) + 2) * A.u ≤ 1 / 16 := (mul_le_mul_of_nonneg_right hqN u0.le).trans hN
    have hpu : ((p : K) + 2) * A.u ≤ (q : K) * A.u := mul_le_mul_of_nonneg_right h2q u0.le
    have h5u : (5 : K) * A.u ≤ ((q : K) + 2) * A.u := mul_le_mul_of_nonneg_right (by linarith) u0.le
    simp only
    linarith [(abs_le.1 e1).2, (abs_le.1 e2).1]

/-- C137: the frequencies of refined peaks keep the order of the locations; with an FFT of `2 ^ (k + 1)`
points they do not exceed half the sampling frequency, not even by rounding. -/
theorem C137_freq (fs : K) (hfs : 0 < fs) (n : Nat) (hn : 0 < n) :
    (∀ x y, x ≤ y → peakFreqF A fs n x ≤ peakFreqF A fs n y) ∧
    (∀ x, 0 ≤ x → 0 ≤ peakFreqF A fs n x) ∧
    (∀ (k : Nat) (x : K), n = 2 ^ (k + 1) → A.rnd fs = fs → A.rnd (fs / 2) = fs / 2 → x ≤ 2 ^ k →
      peakFreqF A fs n x ≤ fs / 2) := by
  have hn1 : 0 < A.rnd (n : K) := by
    have h : (1 : K) ≤ n := by exact_mod_cast hn
    exact lt_of_lt_of_le one_pos (le_rnd h rep_one)
  refine ⟨?_, ?_, ?_⟩
  · intro x y h
    exact rnd_mono (div_le_div_of_nonneg_right (rnd_mono (mul_le_mul_of_nonneg_right h hfs.le)) hn1.le)
  · intro x h
    exact rnd_nonneg (div_nonneg (rnd_nonneg (mul_nonneg h hfs.le)) hn1.le)
  · rintro k x rfl hr hr2 hx
    have h1 : A.rnd (x * fs) ≤ 2 ^ k * fs :=
      rnd_le (mul_le_mul_of_nonneg_right hx hfs.le) (rep_pow_two A hr k)
    have h2 : A.rnd ((2 ^ (k + 1) : ℕ) : K) = 2 ^ (k + 1) := by
      have := rep_pow_two A (x := (1 : K)) rep_one (k + 1)
      rw [mul_one] at this
      push_cast
      exact this
    refine rnd_le ?_ hr2
    rw [h2] at hn1 ⊢
    rw [div_le_iff₀ hn1]
    refine h1.trans (le_of_eq ?_)
    rw [pow_succ]
    ring

/-- Doubles: a spectrum in dB with two peaks; the rounded locations differ from the exact ones. -/
example : let mx : List ℚ := [-90, -40, -43, -60, -20, -31, -80]
    (peakDetectInterpF (double ℚ) mx (some (-50))).toOption.map (·.length) = some 2 ∧
      (∀ x ∈ mx, (double ℚ).rnd x = x) ∧
      ((peakDetectInterpF (double ℚ) mx (some (-50))).toOption ≠
        (Sms.peakDetectInterp mx mx (some (-50))).toOption.map fun l =>
          l.map fun e => e.map fun e => (e.1, e.2.1)) := by
  decide +kernel

/-- Half the sampling frequency is kept: 1024 bins at 44100 Hz. -/
example : peakFreqF (double ℚ) 44100 2048 1024 = 22050 ∧ (double ℚ).rnd 44100 = 44100 ∧
    (double ℚ).rnd (44100 / 2) = 44100 / 2 := by
  decide +kernel

end Verif.Float
