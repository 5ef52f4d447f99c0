import Verif.Sms.SimilarSpec
import Verif.Sms.SpectrumProps
import Verif.Sms.FitProps
import Verif.Tracker.DecayLemmas

/-!
# Lemmas: analysis of sounds that decay by a constant factor per hop
-/

set_option autoImplicit false
set_option linter.unusedSectionVars false
set_option linter.unusedSimpArgs false

namespace Verif.Sms

open Verif.Tracker

/-! ## Frames -/

theorem similar_pow {x : List ℝ} {h : Nat} {c : ℝ} (hx : SelfSimilar x h c) (j : Nat) (a : ℝ)
    (ha : x[j]? = some a) : ∀ (l : Nat) (b : ℝ), x[l * h + j]? = some b → b = c ^ l * a := by
  intro l
  induction l with
  | zero => intro b hb; simp at hb; rw [ha] at hb; simp at hb; simp [hb]
  | succ l ih =>
    intro b hb
    have hlt := (List.getElem?_eq_some_iff.1 hb).1
    have he : (l + 1) * h + j = l * h + j + h := by ring
    rw [he] at hb hlt
    have hm : x[l * h + j]? = some (x[l * h + j]'(by omega)) := List.getElem?_eq_getElem (by omega)
    rw [hx _ _ _ hm hb, ih _ hm]
    ring

/-- All frames are multiples of the earliest one. -/
theorem similar_frames {x : List ℝ} {h w : Nat} {c : ℝ} (hx : SelfSimilar x h c) (hh : 1 ≤ h)
    (hw : w ≤ x.length) (rev : Bool) :
    ∃ frames, timeFrames false w h (if rev then x.reverse else x) = .ok frames ∧
      frames.length = 1 + (x.length - w) / h ∧ (earliestFrame rev x w h).length = w ∧
      ∀ l, l < frames.length → frames[l]? = some ((earliestFrame rev x w h).map
        (c ^ (if rev then frames.length - 1 - l else l) * ·)) := by
  have hlen : (if rev then x.reverse else x).length = x.length := by cases rev <;> simp
  obtain ⟨fr, g1, g2, g3, g4⟩ := C18_windows (if rev then x.reverse else x) w h hh (by rwa [hlen])
  rw [hlen] at g2
  have hE : (earliestFrame rev x w h).length = w := by
    unfold earliestFrame
    have := Nat.mod_le (x.length - w) h
    cases rev <;> simp <;> omega
  refine ⟨fr, by rw [(C19_unpadded _ w h).2, g1], g2, hE, ?_⟩
  intro l hl
  obtain ⟨hin, f, f1, f2, f3⟩ := g4 l hl
  rw [f1]
  congr 1
  apply List.ext_getElem?
  intro j
  by_cases hj : j < w
  · rw [f3 j hj, List.getElem?_map]
    rw [hlen] at hin
    cases rev with
    | false =>
      simp only [Bool.false_eq_true, if_false, earliestFrame]
      rw [List.getElem?_take, if_pos hj, List.getElem?_eq_getElem (by omega : j < x.length),
        List.getElem?_eq_getElem (by omega : l * h + j < x.length)]
      simp only [Option.map_some, Option.some.injEq]
      exact similar_pow hx j _ (List.getElem?_eq_getElem (by omega)) l _ (List.getElem?_eq_getElem (by omega))
    | true =>
      simp only [if_true, earliestFrame] at hE ⊢
      set L := fr.length with hL
      have hmod := Nat.div_add_mod (x.length - w) h
      have hL1 : L - 1 = (x.length - w) / h := by omega
      have hr0 : (x.length - w) % h + (L - 1) * h = x.length - w := by
        rw [hL1, Nat.mul_comm]; omega
      have hl1 : l * h + (L - 1 - l) * h = (L - 1) * h := by
        rw [← Nat.add_mul]; congr 1; omega
      simp only [List.length_reverse] at hE
      have hlt : (x.drop ((x.length - w) % h)).length = w + (L - 1) * h := by simp; omega
      rw [List.getElem?_reverse (by omega), List.getElem?_reverse (by rw [hE]; exact hj), hE,
        List.getElem?_take, if_pos (by omega), List.getElem?_drop]
      have e1 : x.length - 1 - (l * h + j) = (L - 1 - l) * h + ((x.length - w) % h + (w - 1 - j)) := by
        omega
      rw [e1]
      have b1 : (x.length - w) % h + (w - 1 - j) < x.length := by omega
      have b2 : (L - 1 - l) * h + ((x.length - w) % h + (w - 1 - j)) < x.length := by omega
      rw [List.getElem?_eq_getElem b1, List.getElem?_eq_getElem b2]
      simp only [Option.map_some, Option.some.injEq]
      exact similar_pow hx _ _ (List.getElem?_eq_getElem b1) _ _ (List.getElem?_eq_getElem b2)
  · rw [List.getElem?_eq_none (by omega), List.getElem?_eq_none (by simp [hE]; omega)]

/-! ## Peaks of one spectrum -/

/-- The refined peaks, with the refined values as formulas. -/
theorem peaks_exact (fs t : ℝ) (n : Nat) (mx px : List ℝ) (hl : px.length = mx.length) :
    ∃ (ploc : List Nat) (pk : List (Option (ℝ × ℝ × ℝ))) (ph : Nat → ℝ), ploc.Nodup ∧
      (∀ b, b ∈ ploc ↔ IsPeak mx (some t) b) ∧ peakDetectInterp mx px (some t) = .ok pk ∧
      toPeaks fs n pk = .ok (ploc.map fun (b : Nat) =>
        ⟨(b + vertexPlace (mx.getD (b - 1) 0) (mx.getD b 0) (mx.getD (b + 1) 0)) * fs / n,
          vertexHeight (mx.getD (b - 1) 0) (mx.getD b 0) (mx.getD (b + 1) 0), ph b⟩) := by
  obtain ⟨ploc, h1, h2, h3⟩ := peakDetect_spec mx (some t)
  have hone : ∀ b, IsPeak mx (some t) b → ∃ φ : ℝ, refineOne mx px b = .ok (some
      (b + vertexPlace (mx.getD (b - 1) 0) (mx.getD b 0) (mx.getD (b + 1) 0),
        vertexHeight (mx.getD (b - 1) 0) (mx.getD b 0) (mx.getD (b + 1) 0), φ)) := by
    intro b hb
    obtain ⟨loc, m, φ, c', e1, _⟩ := refineOne_spec mx px (some t) hl b hb
    obtain ⟨l, c, r, p1, p2, p3, p4, p5, p6, _⟩ := hb
    refine ⟨φ, ?_⟩
    rw [e1]
    unfold refineOne at e1
    rw [show Int.ofNat b - 1 = Int.ofNat (b - 1) by simp; omega, Np.index_ofNat _ _ _ p2,
      Np.index_ofNat _ _ _ p3, show Int.ofNat b + 1 = Int.ofNat (b + 1) by simp,
      Np.index_ofNat _ _ _ p4] at e1
    simp only [vertex] at e1
    have hden : l - 2 * c + r ≠ 0 := by linarith
    rw [if_neg hden] at e1
    simp only at e1
    split at e1
    · simp at e1
    · simp only [Except.ok.injEq, Option.some.injEq, Prod.mk.injEq] at e1
      obtain ⟨q1, q2, q3⟩ := e1
      simp only [List.getD_eq_getElem?_getD, p2, p3, p4, Option.getD_some, vertexPlace, vertexHeight]
      rw [← q1, ← q2]
      refine congrArg Except.ok (congrArg some (Prod.ext ?_ (Prod.ext ?_ rfl)))
      · simp only
        congr 1
        field_simp
      · simp only
        congr 1
        field_simp
        ring
  choose! ph hph using hone
  refine ⟨ploc, ploc.map fun b => some
      (b + vertexPlace (mx.getD (b - 1) 0) (mx.getD b 0) (mx.getD (b + 1) 0),
        vertexHeight (mx.getD (b - 1) 0) (mx.getD b 0) (mx.getD (b + 1) 0), ph b),
    ph, h2.imp (fun h => Nat.ne_of_lt h), h3, ?_, ?_⟩
  · unfold peakDetectInterp
    rw [h1]
    exact peakRefine_spec mx px _ ploc (fun b hb => hph b ((h3 b).1 hb))
  · have := toPeaks_map fs n (ploc.map fun (b : Nat) =>
      ((b : ℝ) + vertexPlace (mx.getD (b - 1) 0) (mx.getD b 0) (mx.getD (b + 1) 0),
        vertexHeight (mx.getD (b - 1) 0) (mx.getD b 0) (mx.getD (b + 1) 0), ph b))
    rw [List.map_map, List.map_map] at this
    exact this

theorem vertexPlace_shift (l c r g : ℝ) : vertexPlace (l + g) (c + g) (r + g) = vertexPlace l c r := by
  unfold vertexPlace; congr 1 <;> ring

theorem vertexHeight_shift (l c r g : ℝ) :
    vertexHeight (l + g) (c + g) (r + g) = vertexHeight l c r + g := by
  unfold vertexHeight
  rw [show l + g - (r + g) = l - r by ring, show l + g - 2 * (c + g) + (r + g) = l - 2 * c + r by ring]
  ring

theorem vertexPlace_bound {l c r : ℝ} (hl : l < c) (hr : r < c) : |vertexPlace l c r| < 1 / 2 := by
  have hden : 2 * (l - 2 * c + r) < 0 := by linarith
  unfold vertexPlace
  rw [abs_lt]
  constructor
  · rw [lt_div_iff_of_neg hden]; linarith
  · rw [div_lt_iff_of_neg hden]; linarith

/-! ## Levels -/

theorem dB_lt {a b : ℝ} (ha : 0 < a) (hb : 0 < b) : dB a < dB b ↔ a < b := by
  unfold dB
  rw [mul_lt_mul_iff_right₀ (by norm_num), Real.logb_lt_logb_iff (by norm_num) ha hb]

theorem dB_pow_mul {r a : ℝ} (hr : 0 < r) (ha : 0 < a) (e : Nat) : dB (r ^ e * a) = dB a + e * dB r := by
  unfold dB
  rw [Real.logb_mul (pow_ne_zero _ hr.ne') ha.ne', Real.logb_pow]
  ring

/-- The peaks of a spectrum with the magnitudes `r ^ e * A`. -/
theorem similar_peaks (mx : List ℝ) (A : Nat → ℝ) (n e : Nat) (r t : ℝ) (hr : 0 < r) (hA : ∀ k, 0 ≤ A k)
    (ht : dB floatEps ≤ t) (hlen : mx.length = n / 2 + 1)
    (hm : ∀ k, k ≤ n / 2 → mx[k]? = some (dB (max (r ^ e * A k) floatEps))) (b : Nat) :
    IsPeak mx (some t) b ↔ PeakBin A n b ∧ t < dB (A b) + e * dB r := by
  have hre : 0 < r ^ e := pow_pos hr e
  have heps := floatEps_pos
  have hmax : ∀ k, 0 < max (r ^ e * A k) floatEps := fun k => lt_max_of_lt_right heps
  constructor
  · rintro ⟨l, c, d, h1, h2, h3, h4, h5, h6, h7⟩
    have hb := (List.getElem?_eq_some_iff.1 h4).1
    rw [hlen] at hb
    rw [hm (b - 1) (by omega)] at h2
    rw [hm b (by omega)] at h3
    rw [hm (b + 1) (by omega)] at h4
    simp only [Option.some.injEq] at h2 h3 h4
    subst h2 h3 h4
    have h8 := h7 t rfl
    have hover : floatEps < r ^ e * A b := by
      have := lt_of_le_of_lt ht h8
      rw [dB_lt heps (hmax b)] at this
      rcases lt_max_iff.1 this with h | h
      · exact h
      · exact absurd h (lt_irrefl _)
    have hAb : 0 < A b := by
      by_contra h0
      have : A b = 0 := le_antisymm (not_lt.1 h0) (hA b)
      rw [this, mul_zero] at hover
      linarith
    rw [max_eq_left hover.le] at h5 h6 h8
    rw [dB_lt (hmax _) (mul_pos hre hAb)] at h5 h6
    rw [dB_pow_mul hr hAb] at h8
    refine ⟨⟨h1, by omega, ?_, ?_⟩, h8⟩
    · exact lt_of_mul_lt_mul_left (lt_of_le_of_lt (le_max_left _ _) h5) hre.le
    · exact lt_of_mul_lt_mul_left (lt_of_le_of_lt (le_max_left _ _) h6) hre.le
  · rintro ⟨⟨h1, h2, h3, h4⟩, h5⟩
    have hAb : 0 < A b := lt_of_le_of_lt (hA _) h3
    rw [← dB_pow_mul hr hAb] at h5
    have hover : floatEps < r ^ e * A b := (dB_lt heps (mul_pos hre hAb)).1 (lt_of_le_of_lt ht h5)
    refine ⟨_, _, _, h1, hm (b - 1) (by omega), hm b (by omega), hm (b + 1) (by omega), ?_, ?_, ?_⟩
    · rw [max_eq_left hover.le, dB_lt (hmax _) (mul_pos hre hAb)]
      exact max_lt (mul_lt_mul_of_pos_left h3 hre) hover
    · rw [max_eq_left hover.le, dB_lt (hmax _) (mul_pos hre hAb)]
      exact max_lt (mul_lt_mul_of_pos_left h4 hre) hover
    · intro th hth
      cases hth
      rw [max_eq_left hover.le]
      exact h5

/-- The levels around a peak of a spectrum with the magnitudes `r ^ e * A`. -/
theorem similar_levels (mx : List ℝ) (A : Nat → ℝ) (n e : Nat) (r : ℝ) (hr : 0 < r) 
    (hm : ∀ k, k ≤ n / 2 → mx[k]? = some (dB (max (r ^ e * A k) floatEps))) (k : Nat) (hk : k ≤ n / 2)
    (hover : floatEps ≤ r ^ e * A k) : mx.getD k 0 = dB (A k) + e * dB r := by
  have hp : 0 < A k := by
    have h1 := floatEps_pos
    have h2 := pow_pos hr e
    by_contra h0
    nlinarith
  rw [List.getD_eq_getElem?_getD, hm k hk, max_eq_left hover, Option.getD_some, dB_pow_mul hr hp]

end Verif.Sms
