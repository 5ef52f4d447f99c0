import Verif.Sms.DspLemmas
import Verif.Sms.WindowLemmas

/-!
# Properties of spectra, peaks and framing (C14-C19)
-/

set_option autoImplicit false
set_option linter.unusedSectionVars false

namespace Verif.Sms

variable {K : Type*} [Field K] [LinearOrder K] [IsStrictOrderedRing K]

/-! ## C14 -/

/-- C14: `peak_detect` returns, in increasing order, exactly the interior indices with a value
strictly greater than both neighbours and than the threshold (if any). -/
theorem C14_peak_detect (x : List K) (t : Option K) :
    ∃ l, peakDetect x t = .ok l ∧ l.Pairwise (· < ·) ∧
      ∀ p, p ∈ l ↔ ∃ a b c : K, 1 ≤ p ∧ x[p - 1]? = some a ∧ x[p]? = some b ∧ x[p + 1]? = some c ∧
        a < b ∧ c < b ∧ ∀ th, t = some th → th < b :=
  peakDetect_spec x t

/-- Plateaus, borders and the threshold. -/
example : (peakDetect ([9, 1, 2, 2, 1, 5, 0, 3, 9] : List ℚ) none).toOption = some [5] ∧
    (peakDetect ([0, 1, 0, 5, 0] : List ℚ) (some 1)).toOption = some [3] ∧
    (peakDetect ([1, 2] : List ℚ) none).toOption = some [] := by
  decide +kernel

/-! ## C15 and C16 -/

/-- C15: refinement of detected peaks.  Entry `i` of the result is for the `i`-th detected index
`p`: less than half a bin away, not lower than the bin, and the vertex of any parabola through the
three bins around `p`; locations are strictly increasing. -/
theorem C15_refine (mx px : List K) (t : Option K) (hl : px.length = mx.length) :
    ∃ ploc res, peakDetect mx t = .ok ploc ∧ peakDetectInterp mx px t = .ok res ∧
      res.length = ploc.length ∧
      (∀ (i p : Nat), ploc[i]? = some p → ∃ loc m ph b : K, res[i]? = some (some (loc, m, ph)) ∧
        mx[p]? = some b ∧ |loc - (p : K)| < 1 / 2 ∧ b ≤ m ∧
        ∀ α v h : K, (∀ (j : Nat) (z : K), p ≤ j + 1 → j ≤ p + 1 → mx[j]? = some z →
          z = α * ((j : K) - v) ^ 2 + h) → loc = v ∧ m = h) ∧
      (∀ (i j : Nat) (a b : K × K × K), i < j → res[i]? = some (some a) →
        res[j]? = some (some b) → a.1 < b.1) := by
  obtain ⟨ploc, h1, h2, h3⟩ := peakDetect_spec mx t
  choose! floc fm fph fb hf using fun p (hp : IsPeak mx t p) => refineOne_spec mx px t hl p hp
  have hres : peakDetectInterp mx px t = .ok (ploc.map fun p => some (floc p, fm p, fph p)) := by
    unfold peakDetectInterp
    rw [h1]
    exact peakRefine_spec mx px _ ploc (fun p hp => (hf p ((h3 p).1 hp)).1)
  refine ⟨ploc, _, h1, hres, by simp, ?_, ?_⟩
  · intro i p hi
    obtain ⟨g1, g2, g3, g4, g5, _⟩ := hf p ((h3 p).1 (List.mem_of_getElem? hi))
    exact ⟨floc p, fm p, fph p, fb p, by simp [hi], g2, g3, g4, g5⟩
  · intro i j a b hij ha hb
    simp only [List.getElem?_map, Option.map_eq_some_iff, Option.some.injEq] at ha hb
    obtain ⟨p, hp, rfl⟩ := ha
    obtain ⟨q, hq, rfl⟩ := hb
    have hpq : p < q := by
      obtain ⟨i1, i2⟩ := List.getElem?_eq_some_iff.1 hp
      obtain ⟨j1, j2⟩ := List.getElem?_eq_some_iff.1 hq
      have := List.pairwise_iff_getElem.1 h2 i j i1 j1 hij
      rw [i2, j2] at this
      exact this
    have e1 := abs_lt.1 (hf p ((h3 p).1 (List.mem_of_getElem? hp))).2.2.1
    have e2 := abs_lt.1 (hf q ((h3 q).1 (List.mem_of_getElem? hq))).2.2.1
    have e3 : (p : K) + 1 ≤ q := by exact_mod_cast hpq
    simp only
    linarith [e1.2, e2.1]

/-- C16: the phase of a refined peak is the linear interpolation between the two bins around the
refined location, both of them inside the spectrum. -/
theorem C16_phase (mx px : List K) (t : Option K) (hl : px.length = mx.length) :
    ∃ res, peakDetectInterp mx px t = .ok res ∧
      ∀ (i : Nat) (e : Option (K × K × K)), res[i]? = some e →
        ∃ (loc m ph a b : K) (j : Nat), e = some (loc, m, ph) ∧ px[j]? = some a ∧
          px[j + 1]? = some b ∧ (j : K) ≤ loc ∧ loc ≤ (j : K) + 1 ∧
          ph = a + (b - a) * (loc - (j : K)) ∧ min a b ≤ ph ∧ ph ≤ max a b := by
  obtain ⟨ploc, h1, h2, h3⟩ := peakDetect_spec mx t
  choose! floc fm fph fb hf using fun p (hp : IsPeak mx t p) => refineOne_spec mx px t hl p hp
  have hres : peakDetectInterp mx px t = .ok (ploc.map fun p => some (floc p, fm p, fph p)) := by
    unfold peakDetectInterp
    rw [h1]
    exact peakRefine_spec mx px _ ploc (fun p hp => (hf p ((h3 p).1 hp)).1)
  refine ⟨_, hres, ?_⟩
  intro i e he
  simp only [List.getElem?_map, Option.map_eq_some_iff] at he
  obtain ⟨p, hp, rfl⟩ := he
  obtain ⟨_, _, _, _, _, j, a, b, g1, g2, g3, g4, g5⟩ := hf p ((h3 p).1 (List.mem_of_getElem? hp))
  have g4' : floc p ≤ (j : K) + 1 := by exact_mod_cast g4
  refine ⟨floc p, fm p, fph p, a, b, j, rfl, g1, g2, g3, g4', g5, ?_, ?_⟩
  · rw [g5]
    have s1 : 0 ≤ floc p - (j : K) := by linarith
    have s2 : floc p - (j : K) ≤ 1 := by linarith
    rcases le_total a b with hab | hab
    · rw [min_eq_left hab]
      have := mul_nonneg (sub_nonneg.2 hab) s1
      linarith
    · rw [min_eq_right hab]
      nlinarith [mul_nonneg (sub_nonneg.2 hab) (sub_nonneg.2 s2)]
  · rw [g5]
    have s1 : 0 ≤ floc p - (j : K) := by linarith
    have s2 : floc p - (j : K) ≤ 1 := by linarith
    rcases le_total a b with hab | hab
    · rw [max_eq_right hab]
      nlinarith [mul_nonneg (sub_nonneg.2 hab) (sub_nonneg.2 s2)]
    · rw [max_eq_left hab]
      have := mul_nonneg (sub_nonneg.2 hab) s1
      linarith

/-- Samples of `-(x - 9/4)^2 + 1`: the vertex is found exactly, and the phase is interpolated. -/
example : (peakDetectInterp ([-65/16, -9/16, 15/16, 7/16, -33/16] : List ℚ) [0, 1, 2, 4, 5]
    none).toOption = some [some (9/4, 1, 5/2)] := by
  decide +kernel

/-! ## C17 -/

/-- C17: the FFT buffer holds the windowed sample with offset `k` from the centre at index
`k mod n`, and zeros elsewhere. -/
theorem C17_buffer (x w : List K) (n : Nat) (hx : x.length = w.length) (h2 : 2 ≤ w.length)
    (hn : w.length ≤ n) :
    ∃ z, dftBuffer x w n = .ok z ∧ z.length = n ∧
      (∀ (i : Nat) (a b : K), x[i]? = some a → w[i]? = some b →
        z[(((i : ℤ) - (w.length / 2 : Nat)) % (n : ℤ)).toNat]? = some (a * b)) ∧
      (∀ m : Nat, m < n → (∀ i : Nat, i < w.length →
        (m : ℤ) ≠ ((i : ℤ) - (w.length / 2 : Nat)) % (n : ℤ)) → z[m]? = some 0) := by
  refine ⟨_, dftBuffer_eq x w n hx h2 hn, ?_, ?_, ?_⟩
  · simp [hx]; omega
  · intro i a b ha hb
    have hi := getElem?_lt' hb
    have hget : (List.zipWith (· * ·) x w)[i]? = some (a * b) := by
      simp [List.getElem?_zipWith, ha, hb]
    by_cases hc : w.length / 2 ≤ i
    · have e : ((i : ℤ) - (w.length / 2 : Nat)) % (n : ℤ) = ((i - w.length / 2 : Nat) : ℤ) := by
        rw [Nat.cast_sub hc]
        apply Int.emod_eq_of_lt <;> omega
      rw [e, Int.toNat_natCast, List.getElem?_append_left (by simp [hx]; omega),
        List.getElem?_append_left (by simp [hx]; omega), List.getElem?_drop,
        show w.length / 2 + (i - w.length / 2) = i by omega]
      exact hget
    · have e : ((i : ℤ) - (w.length / 2 : Nat)) % (n : ℤ) = ((n + i - w.length / 2 : Nat) : ℤ) := by
        have : ((i : ℤ) - (w.length / 2 : Nat)) = ((n + i - w.length / 2 : Nat) : ℤ) - n := by omega
        rw [this, Int.sub_emod_right]
        apply Int.emod_eq_of_lt <;> omega
      rw [e, Int.toNat_natCast, List.getElem?_append_right (by simp [hx]; omega),
        List.getElem?_take, if_pos (by simp [hx]; omega)]
      rw [← hget]
      congr 1
      simp [hx]; omega
  · intro m hm hno
    have hc1 : w.length - w.length / 2 ≤ m := by
      by_contra hlt
      apply hno (m + w.length / 2) (by omega)
      rw [show (((m + w.length / 2 : Nat) : ℤ) - (w.length / 2 : Nat)) = (m : ℤ) by push_cast; ring]
      exact (Int.emod_eq_of_lt (by omega) (by omega)).symm
    have hc2 : m < n - w.length / 2 := by
      by_contra hlt
      apply hno (m + w.length / 2 - n) (by omega)
      have : (((m + w.length / 2 - n : Nat) : ℤ) - (w.length / 2 : Nat)) = (m : ℤ) - n := by omega
      rw [this, Int.sub_emod_right]
      exact (Int.emod_eq_of_lt (by omega) (by omega)).symm
    rw [List.getElem?_append_left (by simp [hx]; omega),
      List.getElem?_append_right (by simp [hx]; omega), List.getElem?_replicate,
      if_pos (by simp [hx]; omega)]

/-- C17, limits of the claim: a window of one sample is rejected for every `n >= 1`. -/
theorem C17_window_of_one (x0 w0 : K) (n : Nat) (hn : 1 ≤ n) :
    dftBuffer [x0] [w0] n = .error .valueError := by
  simp [dftBuffer, Np.binop, Np.slice, Np.assign, Np.lower, Np.upper, Np.bound]
  rw [show min 1 n = 1 by omega]
  simp

/-- C17, limits of the claim: a window longer than the FFT is not always rejected; here the centre
half is overwritten and the sample with offset `+2` is lost without an error. -/
theorem C17_long_window_loses_samples :
    ∃ (x w : List ℚ) (n : Nat) (z : List ℚ), n < w.length ∧ x.length = w.length ∧
      dftBuffer x w n = .ok z ∧ ∃ a ∈ List.zipWith (· * ·) x w, a ∉ z :=
  ⟨[1, 2, 3, 4, 5], [1, 1, 1, 1, 1], 4, [3, 4, 1, 2], by decide, rfl, by
    have h : (dftBuffer ([1, 2, 3, 4, 5] : List ℚ) [1, 1, 1, 1, 1] 4).toOption = some [3, 4, 1, 2] := by
      decide +kernel
    revert h
    cases dftBuffer ([1, 2, 3, 4, 5] : List ℚ) [1, 1, 1, 1, 1] 4 <;> simp [Except.toOption], 5, by decide +kernel⟩

/-- A window of 5 in a buffer of 8. -/
example : (dftBuffer ([1, 2, 3, 4, 5] : List ℚ) [1, 1, 2, 1, 1] 8).toOption =
    some [6, 4, 5, 0, 0, 0, 1, 2] := by
  decide +kernel

/-! ## C18 -/

/-- C18: frame `i` is `x[i*hop : i*hop+w]`, wholly inside the signal; the number of frames is
`1 + (len - w) // hop` and one more would not fit. -/
theorem C18_windows {α : Type*} (x : List α) (w hop : Nat) (hh : 1 ≤ hop) (hw : w ≤ x.length) :
    ∃ frames, overlappingWindows x w (some hop) = .ok frames ∧
      frames.length = 1 + (x.length - w) / hop ∧
      x.length < frames.length * hop + w ∧
      ∀ i, i < frames.length → i * hop + w ≤ x.length ∧
        ∃ f, frames[i]? = some f ∧ f.length = w ∧ ∀ j : Nat, j < w → f[j]? = x[i * hop + j]? := by
  refine ⟨_, overlappingWindows_eq x w hop hh hw, by simp, ?_, ?_⟩
  · simp only [List.length_map, List.length_range]
    have := Nat.lt_div_mul_add hh (a := x.length - w)
    have e : (1 + (x.length - w) / hop) * hop = (x.length - w) / hop * hop + hop := by ring
    omega
  · intro i hi
    simp only [List.length_map, List.length_range] at hi
    have h1 : i ≤ (x.length - w) / hop := by omega
    have h2 : i * hop ≤ x.length - w :=
      le_trans (Nat.mul_le_mul_right _ h1) (Nat.div_mul_le_self _ _)
    refine ⟨by omega, (x.drop (i * hop)).take w, ?_, by simp; omega, ?_⟩
    · rw [List.getElem?_map, List.getElem?_range hi]; rfl
    · intro j hj
      rw [List.getElem?_take, if_pos hj, List.getElem?_drop]

/-- C18, error cases: no frames if the signal is shorter than the window by at most one hop,
`ValueError` if it is shorter, `ZeroDivisionError` for a zero hop; never a read outside of the
signal. -/
theorem C18_short {α : Type*} (x : List α) (w hop : Nat) :
    (1 ≤ hop → x.length < w → w ≤ x.length + hop →
      overlappingWindows x w (some hop) = .ok []) ∧
    (1 ≤ hop → x.length + hop < w → overlappingWindows x w (some hop) = .error .valueError) ∧
    overlappingWindows x w (some 0) = .error .zeroDivisionError := by
  refine ⟨?_, ?_, ?_⟩
  · intro hh h1 h2
    obtain ⟨n, h3, h4, _⟩ := nWindows_short x.length w hop hh h1
    simp [overlappingWindows, h3, h4 h2, sequence]
  · intro hh h1
    obtain ⟨n, h3, _, h4⟩ := nWindows_short x.length w hop hh (by omega)
    simp [overlappingWindows, h3, h4 h1]
  · simp [overlappingWindows, nWindows]

/-- C18: `hop=None` means non-overlapping windows. -/
theorem C18_default_hop {α : Type*} (x : List α) (w : Nat) :
    overlappingWindows x w none = overlappingWindows x w (some w) := by
  simp [overlappingWindows, nWindows]

example : (overlappingWindows [0, 1, 2, 3, 4, 5, 6, 7] 4 (some 3)).toOption =
    some [[0, 1, 2, 3], [3, 4, 5, 6]] := by decide

/-! ## C19 -/

/-- C19: with padding the signal is zeros, input, zeros; all frames are inside; every sample is in
some frame if the hop is at most half of the window plus one. -/
theorem C19_padding (x : List K) (w hop : Nat) (hw : 1 ≤ w) (hh : 1 ≤ hop)
    (hhop : hop ≤ w / 2 + 1) :
    ∃ y a frames, padInput true w x = .ok (y, a) ∧ timeFrames true w hop x = .ok frames ∧
      y = List.replicate a 0 ++ x ++ List.replicate (w - a) 0 ∧ a ≤ w ∧
      frames.length = 1 + x.length / hop ∧
      (∀ j, j < x.length → ∃ i f, frames[i]? = some f ∧ f.length = w ∧ i * hop ≤ a + j ∧
        a + j < i * hop + w ∧ f[a + j - i * hop]? = x[j]?) := by
  set a := (w + 1) / 2 with ha
  have hb : w - a = w / 2 := by omega
  have hlen : (List.replicate a (0 : K) ++ x ++ List.replicate (w / 2) 0).length = x.length + w := by
    simp; omega
  have hfr := overlappingWindows_eq (List.replicate a (0 : K) ++ x ++ List.replicate (w / 2) 0) w hop hh
    (by omega)
  refine ⟨_, a, (List.range (1 + x.length / hop)).map fun i =>
      ((List.replicate a (0 : K) ++ x ++ List.replicate (w / 2) 0).drop (i * hop)).take w,
    padInput_true w x, ?_, by rw [hb], by omega, ?_, ?_⟩
  · unfold timeFrames
    rw [padInput_true]
    simp only [← ha]
    rw [hfr, hlen, Nat.add_sub_cancel]
  · simp
  · intro j hj
    -- the frame that covers `a + j`
    set q := min ((a + j) / hop) (x.length / hop) with hq
    have hqle : q ≤ x.length / hop := min_le_right _ _
    have hq2 : q * hop ≤ x.length := le_trans (Nat.mul_le_mul_right _ hqle) (Nat.div_mul_le_self _ _)
    have h1 : q * hop ≤ a + j :=
      le_trans (Nat.mul_le_mul_right _ (min_le_left _ _)) (Nat.div_mul_le_self _ _)
    have h2 : a + j < q * hop + w := by
      rcases le_total ((a + j) / hop) (x.length / hop) with hc | hc
      · rw [hq, min_eq_left hc]
        have := Nat.lt_div_mul_add hh (a := a + j)
        omega
      · rw [hq, min_eq_right hc]
        have := Nat.lt_div_mul_add hh (a := x.length)
        omega
    refine ⟨q, ((List.replicate a (0 : K) ++ x ++ List.replicate (w / 2) 0).drop (q * hop)).take w,
      ?_, ?_, h1, h2, ?_⟩
    · rw [List.getElem?_map, List.getElem?_range (by omega)]; rfl
    · simp only [List.length_take, List.length_drop, hlen]; omega
    · rw [List.getElem?_take, if_pos (by omega), List.getElem?_drop,
        show q * hop + (a + j - q * hop) = a + j by omega, List.append_assoc,
        List.getElem?_append_right (by simp)]
      simp only [List.length_replicate, Nat.add_sub_cancel_left]
      rw [List.getElem?_append_left hj]

/-- C19: without padding the input is analysed as it is. -/
theorem C19_unpadded (x : List K) (w hop : Nat) :
    padInput false w x = .ok (x, 0) ∧
      timeFrames false w hop x = overlappingWindows x w (some hop) := by
  simp [padInput, timeFrames]

/-- C19: the first frame is centred at the first input sample (the sample that the zero-phase buffer
puts at index 0, see `C17_buffer`) when the window has an even size; with an odd size, as the
default window has, its centre is the zero before the first sample. -/
theorem C19_centre (x : List K) (w : Nat) :
    ∃ y a, padInput true w x = .ok (y, a) ∧ (w % 2 = 0 → a = w / 2) ∧
      (w % 2 = 1 → a = w / 2 + 1) := by
  refine ⟨_, _, padInput_true w x, ?_, ?_⟩ <;> omega

/-- C19: the bound on the hop is sharp: for every larger hop (even below the window size) some
input has trailing samples in no frame, although padding is meant "to analyze all samples". -/
theorem C19_large_hop_misses_samples (w hop : Nat) (hhop : w / 2 + 2 ≤ hop) :
    ∃ (x : List ℚ) (j : Nat) (frames : List (List ℚ)), j < x.length ∧
      timeFrames true w hop x = .ok frames ∧
      ∀ i, i < frames.length → ¬ (i * hop ≤ (w + 1) / 2 + j ∧ (w + 1) / 2 + j < i * hop + w) := by
  have hlen : (List.replicate ((w + 1) / 2) (0 : ℚ) ++ List.replicate (hop - 1) (1 : ℚ) ++
      List.replicate (w / 2) 0).length = hop - 1 + w := by simp; omega
  refine ⟨List.replicate (hop - 1) 1, hop - 2, (List.range 1).map fun i =>
    ((List.replicate ((w + 1) / 2) (0 : ℚ) ++ List.replicate (hop - 1) (1 : ℚ) ++
      List.replicate (w / 2) 0).drop (i * hop)).take w, by simp; omega, ?_, ?_⟩
  · unfold timeFrames
    rw [padInput_true]
    simp only
    rw [overlappingWindows_eq _ _ _ (by omega) (by omega), hlen, Nat.add_sub_cancel,
      Nat.div_eq_of_lt (show hop - 1 < hop by omega)]
  · intro i hi
    simp only [List.length_map, List.length_range] at hi
    have : i = 0 := by omega
    subst this
    omega

example : (timeFrames true 4 2 ([1, 2, 3] : List ℚ)).toOption =
    some [[0, 0, 1, 2], [1, 2, 3, 0]] := by
  decide +kernel

end Verif.Sms
