import Mathlib.Tactic.IntervalCases
import Verif.Sms.GainLemmas
import Verif.Sms.FitProps

/-!
# C134: an analysis in other units, and of a louder sound
-/

set_option autoImplicit false
set_option linter.unusedSectionVars false
set_option linter.unusedSimpArgs false

namespace Verif.Sms

open Verif.Tracker Verif.Learn

variable {K : Type*} [Field K] [LinearOrder K] [IsStrictOrderedRing K] [FloorRing K]

/-! ## C134: the sampling frequency -/

/-- The same samples at `c` times the sampling frequency, with all frequencies of the parameters multiplied by
`c` and all times divided by `c`: the fit fails in the same cases, and with the same error; the storage is the
same; the tracks start at the same frames and have the same levels, phases and gaps, at `c` times the
frequencies. -/
theorem C134_rate (spec : List K → List K × List K) (sort : List (Peak K) → List Nat) (hs : LevelsOnly sort)
    (c : K) (hc : 0 < c) (m : Model K) (x : List K) :
    (m.rate c).fit spec sort x Kwargs.none = (m.fit spec sort x Kwargs.none).map (Model.rate c) ∧
    ∀ m', m.fit spec sort x Kwargs.none = .ok m' →
      (m'.rate c).tracks = m'.tracks.map (fun t =>
        ⟨t.start, t.freq.map (Option.map (c * ·)), t.mag, t.phase⟩) := by
  obtain ⟨h1, h2⟩ := fit_rate spec sort hs c hc m x
  refine ⟨h1, fun m' hm => ?_⟩
  obtain ⟨e1, _⟩ := h2 m' hm
  rw [tracks_rescale c 0 id hc m' (m'.rate c) rfl rfl rfl e1]
  apply List.map_congr_left
  intro t _
  simp [Track.rescale, Option.map_id']

theorem exSort_levels : LevelsOnly exSort := by
  intro l l' h
  have hl : l'.length = l.length := by simpa using congrArg List.length h
  have hr : exLe l' = exLe l := by
    funext i j
    have e : ∀ k : Nat, (l'.map Peak.mag)[k]? = (l.map Peak.mag)[k]? := fun k => by rw [h]
    have e' : ∀ k : Nat, (l'[k]?.map Peak.mag) = (l[k]?.map Peak.mag) := fun k => by
      simpa [List.getElem?_map] using e k
    have hi := e' i
    have hj := e' j
    simp only [exLe, List.getD_eq_getElem?_getD]
    cases a : l'[i]? <;> cases b : l[i]? <;> cases a' : l'[j]? <;> cases b' : l[j]? <;>
      simp_all
  unfold exSort
  rw [hl]
  congr 1

/-- At twice the sampling frequency the track of the example in `Sms/FitProps.lean` is an octave higher. -/
example : LevelsOnly exSort ∧
    (((exModel true).rate 2).fit exSpec exSort [1, 8, 1, 8, 1, 8, 1] Kwargs.none).toOption.map
      (fun m => m.tracks.map (·.freq)) = some [[some (29/12), some (29/12), some (29/12)]] :=
  ⟨exSort_levels, by decide +kernel⟩

/-! ## C134: the gain -/

/-- A sound times `g`, analysed with both thresholds for levels raised by the gain in dB: the fit fails in the
same cases, and with the same error; the tracks start at the same frames and have the same frequencies and
gaps, and all levels are raised by the gain. -/
theorem C134_gain (tol g : ℝ) (hg : g ≠ 0) (sort : List (Peak ℝ) → List Nat)
    (hs : LevelsShift (20 * Real.logb 10 |g|) sort) (m : Model ℝ) (x : List ℝ)
    (h2 : 2 ≤ m.params.w.length) (hn : m.params.w.length ≤ m.params.n)
    (ht : 20 * Real.logb 10 floatEps ≤ m.params.t)
    (ht' : 20 * Real.logb 10 floatEps ≤ m.params.t + 20 * Real.logb 10 |g|)
    (hh : ∀ frames, timeFrames m.params.padded m.params.w.length m.params.hop
        (if m.params.reverse then x.reverse else x) = .ok frames →
      ∀ f ∈ frames, NeighboursHeard g m.params.t f (m.params.w.map fun a => a / m.params.w.sum) m.params.n) :
    (({ m with params := m.params.louder (20 * Real.logb 10 |g|) } : Model ℝ).fit (spectrum tol) sort
        (x.map (g * ·)) Kwargs.none).map (fun m => m.tracks.map fun t => (t.start, t.freq, t.mag)) =
      (m.fit (spectrum tol) sort x Kwargs.none).map (fun m => m.tracks.map fun t =>
        (t.start, t.freq, t.mag.map (Option.map (· + 20 * Real.logb 10 |g|)))) := by
  have h := fit_gain tol g hg sort hs m x h2 hn ht ht' hh
  have h' := congrArg (Except.map fun (z : Params ℝ × List (Track ℝ)) =>
    z.2.map fun t : Track ℝ => (t.start, t.freq, t.mag)) h
  simp only [exceptMap_map, List.map_map] at h'
  rw [show ((fun t : Track ℝ => (t.start, t.freq, t.mag)) ∘ Track.rescale 1 0 fun _ => 0) =
      fun t => (t.start, t.freq, t.mag) by
    funext t; simp only [Function.comp, Track.rescale, map_one_mul, map_add_zero]] at h'
  rw [show ((fun t : Track ℝ => (t.start, t.freq, t.mag)) ∘ Track.rescale 1 (20 * Real.logb 10 |g|) fun _ => 0) =
      fun t => (t.start, t.freq, t.mag.map (Option.map (· + 20 * Real.logb 10 |g|))) by
    funext t; simp only [Function.comp, Track.rescale, map_one_mul]] at h'
  exact h'

/-! ### A case -/

/-- Sorting by level, loudest first. -/
noncomputable def exLoudest (l : List (Peak ℝ)) : List Nat :=
  haveI := Classical.decRel (fun i j : Nat => ∀ a b : ℝ, (l.map Peak.mag)[i]? = some a →
    (l.map Peak.mag)[j]? = some b → b ≤ a)
  (List.range l.length).insertionSort (fun i j : Nat => ∀ a b : ℝ, (l.map Peak.mag)[i]? = some a →
    (l.map Peak.mag)[j]? = some b → b ≤ a)

theorem exLoudest_shift_zero (h : LevelsShift 0 exLoudest) : LevelsOnly exLoudest := by
  intro l l' hl
  exact h l l' (by rw [hl]; simp)

theorem exLoudest_shift (G : ℝ) : LevelsShift G exLoudest := by
  intro l l' h
  have hl : l'.length = l.length := by simpa using congrArg List.length h
  unfold exLoudest
  have hr : (fun i j : Nat => ∀ a b : ℝ, (l'.map Peak.mag)[i]? = some a → (l'.map Peak.mag)[j]? = some b → b ≤ a) =
      (fun i j : Nat => ∀ a b : ℝ, (l.map Peak.mag)[i]? = some a → (l.map Peak.mag)[j]? = some b → b ≤ a) := by
    funext i j
    rw [h]
    apply propext
    constructor
    · intro H a b ha hb
      have := H (a + G) (b + G) (by rw [List.getElem?_map, ha]; rfl) (by rw [List.getElem?_map, hb]; rfl)
      linarith
    · intro H a b ha hb
      rw [List.getElem?_map] at ha hb
      obtain ⟨a', ha', rfl⟩ := Option.map_eq_some_iff.1 ha
      obtain ⟨b', hb', rfl⟩ := Option.map_eq_some_iff.1 hb
      have := H a' b' ha' hb'
      linarith
  rw [hl]
  congr 1

/-- Window of 4, FFT of 4, hop 4. -/
noncomputable def exGainParams : Params ℝ :=
  ⟨[1, 1, 1, 1], 4, -90, false, false,
    { fs := 4, h := 4, maxNSines := 10, minSineDur := 0, freqDevOffset := 1, freqDevSlope := 0, freqLo := none,
      freqHi := none, peakThreshold := -90, reverse := false, mergeStrategy := "average", stripT := none }, 4⟩

theorem exGain_frames : timeFrames false 4 4 ([2, 1, -1, -1, 2, 1, -1, -1] : List ℝ) =
    .ok [[2, 1, -1, -1], [2, 1, -1, -1]] := rfl

/-- The frame has one peak, in bin 1: neighbours at 1/4, the peak above 1/2. -/
theorem exGain_bins :
    ‖centredBin [2, 1, -1, -1] [1 / 4, 1 / 4, 1 / 4, 1 / 4] 4 0‖ = 1 / 4 ∧
    ‖centredBin [2, 1, -1, -1] [1 / 4, 1 / 4, 1 / 4, 1 / 4] 4 2‖ = 1 / 4 ∧
    1 / 2 < ‖centredBin [2, 1, -1, -1] [1 / 4, 1 / 4, 1 / 4, 1 / 4] 4 1‖ := by
  have hpi : Complex.exp (Real.pi * Complex.I) = -1 := Complex.exp_pi_mul_I
  have hmi : Complex.exp (-(Real.pi * Complex.I)) = -1 := by rw [Complex.exp_neg, hpi]; norm_num
  have hh : Complex.exp (Real.pi / 2 * Complex.I) = Complex.I := Complex.exp_pi_div_two_mul_I
  have hmh : Complex.exp (-(Real.pi / 2 * Complex.I)) = -Complex.I := by rw [Complex.exp_neg, hh, Complex.inv_I]
  have b0 : centredBin [2, 1, -1, -1] [1 / 4, 1 / 4, 1 / 4, 1 / 4] 4 0 = ((1 / 4 : ℝ) : ℂ) := by
    simp [centredBin, Finset.sum_range_succ]
    norm_num
  have b2 : centredBin [2, 1, -1, -1] [1 / 4, 1 / 4, 1 / 4, 1 / 4] 4 2 = ((1 / 4 : ℝ) : ℂ) := by
    unfold centredBin
    simp only [List.length_cons, List.length_nil, Finset.sum_range_succ, Finset.sum_range_zero]
    rw [show -(2 * Real.pi * Complex.I) * ((2 : ℕ) : ℂ) * (((0 : ℕ) : ℂ) - (((0 + 1 + 1 + 1 + 1) / 2 : ℕ) : ℂ)) / ((4 : ℕ) : ℂ) =
        2 * Real.pi * Complex.I by push_cast; ring,
      show -(2 * Real.pi * Complex.I) * ((2 : ℕ) : ℂ) * (((1 : ℕ) : ℂ) - (((0 + 1 + 1 + 1 + 1) / 2 : ℕ) : ℂ)) / ((4 : ℕ) : ℂ) =
        Real.pi * Complex.I by push_cast; ring,
      show -(2 * Real.pi * Complex.I) * ((2 : ℕ) : ℂ) * (((2 : ℕ) : ℂ) - (((0 + 1 + 1 + 1 + 1) / 2 : ℕ) : ℂ)) / ((4 : ℕ) : ℂ) =
        0 by push_cast; ring,
      show -(2 * Real.pi * Complex.I) * ((2 : ℕ) : ℂ) * (((3 : ℕ) : ℂ) - (((0 + 1 + 1 + 1 + 1) / 2 : ℕ) : ℂ)) / ((4 : ℕ) : ℂ) =
        -(Real.pi * Complex.I) by push_cast; ring, Complex.exp_two_pi_mul_I, hpi, hmi, Complex.exp_zero]
    simp
    norm_num
  have b1 : centredBin [2, 1, -1, -1] [1 / 4, 1 / 4, 1 / 4, 1 / 4] 4 1 = -(3 / 4) + (1 / 2) * Complex.I := by
    unfold centredBin
    simp only [List.length_cons, List.length_nil, Finset.sum_range_succ, Finset.sum_range_zero]
    rw [show -(2 * Real.pi * Complex.I) * ((1 : ℕ) : ℂ) * (((0 : ℕ) : ℂ) - (((0 + 1 + 1 + 1 + 1) / 2 : ℕ) : ℂ)) / ((4 : ℕ) : ℂ) =
        Real.pi * Complex.I by push_cast; ring,
      show -(2 * Real.pi * Complex.I) * ((1 : ℕ) : ℂ) * (((1 : ℕ) : ℂ) - (((0 + 1 + 1 + 1 + 1) / 2 : ℕ) : ℂ)) / ((4 : ℕ) : ℂ) =
        Real.pi / 2 * Complex.I by push_cast; ring,
      show -(2 * Real.pi * Complex.I) * ((1 : ℕ) : ℂ) * (((2 : ℕ) : ℂ) - (((0 + 1 + 1 + 1 + 1) / 2 : ℕ) : ℂ)) / ((4 : ℕ) : ℂ) =
        0 by push_cast; ring,
      show -(2 * Real.pi * Complex.I) * ((1 : ℕ) : ℂ) * (((3 : ℕ) : ℂ) - (((0 + 1 + 1 + 1 + 1) / 2 : ℕ) : ℂ)) / ((4 : ℕ) : ℂ) =
        -(Real.pi / 2 * Complex.I) by push_cast; ring, hpi, hh, hmh, Complex.exp_zero]
    simp
    ring
  refine ⟨?_, ?_, ?_⟩
  · rw [b0, Complex.norm_real]; norm_num
  · rw [b2, Complex.norm_real]; norm_num
  · rw [b1]
    have h := Complex.abs_re_le_norm (-(3 / 4) + (1 / 2) * Complex.I)
    have hr : (-(3 / 4) + (1 / 2) * Complex.I : ℂ).re = -(3 / 4) := by simp
    rw [hr, abs_neg, abs_of_pos (by norm_num)] at h
    linarith

theorem floatEps_db : 20 * Real.logb 10 floatEps ≤ -90 := by
  have h10 : Real.logb 10 (1 / 10 ^ 5) = -5 := by
    rw [one_div, Real.logb_inv, Real.logb_pow, Real.logb_self_eq_one (by norm_num)]
    norm_num
  have h : Real.logb 10 floatEps ≤ Real.logb 10 (1 / 10 ^ 5) :=
    Real.logb_le_logb_of_le (by norm_num) floatEps_pos (by unfold floatEps; norm_num)
  rw [h10] at h
  linarith

/-- The neighbours of all peaks are heard. -/
theorem exGain_heard : ∀ frames, timeFrames exGainParams.padded exGainParams.w.length exGainParams.hop
      (if exGainParams.reverse then ([2, 1, -1, -1, 2, 1, -1, -1] : List ℝ).reverse else
        [2, 1, -1, -1, 2, 1, -1, -1]) = .ok frames →
    ∀ f ∈ frames, NeighboursHeard (-2) exGainParams.t f (exGainParams.w.map fun a => a / exGainParams.w.sum)
      exGainParams.n := by
  obtain ⟨b0, b2, b1⟩ := exGain_bins
  have hw : exGainParams.w.map (fun a => a / exGainParams.w.sum) = [1 / 4, 1 / 4, 1 / 4, 1 / 4] := by
    simp [exGainParams]; norm_num
  intro frames hf f hff
  have hf' : timeFrames false 4 4 ([2, 1, -1, -1, 2, 1, -1, -1] : List ℝ) = .ok frames := hf
  rw [exGain_frames] at hf'
  cases hf'
  have : f = [2, 1, -1, -1] := by simpa using hff
  subst this
  show NeighboursHeard (-2) (-90) _ (exGainParams.w.map fun a => a / exGainParams.w.sum) 4
  rw [hw]
  intro k k1 k2 _ _ _ j hj
  have hk : k = 1 := by omega
  subst hk
  have he : floatEps ≤ 1 / 4 := by unfold floatEps; norm_num
  rcases hj with rfl | rfl
  · rw [show 1 - 1 = 0 from rfl, b0]
    exact ⟨he, by rw [abs_neg, abs_of_pos (by norm_num)]; linarith⟩
  · rw [show 1 + 1 = 2 from rfl, b2]
    exact ⟨he, by rw [abs_neg, abs_of_pos (by norm_num)]; linarith⟩

/-- Twice the sound, with the opposite sign: the tracks of two equal frames are some 6 dB louder. -/
example (tol : ℝ) (st : Storage (Saved ℝ)) :
    (∃ k, 1 ≤ k ∧ k + 1 ≤ 4 / 2 ∧
      ‖centredBin [2, 1, -1, -1] [1 / 4, 1 / 4, 1 / 4, 1 / 4] 4 (k - 1)‖ <
        ‖centredBin [2, 1, -1, -1] [1 / 4, 1 / 4, 1 / 4, 1 / 4] 4 k‖ ∧
      ‖centredBin [2, 1, -1, -1] [1 / 4, 1 / 4, 1 / 4, 1 / 4] 4 (k + 1)‖ <
        ‖centredBin [2, 1, -1, -1] [1 / 4, 1 / 4, 1 / 4, 1 / 4] 4 k‖) ∧
    ((⟨exGainParams.louder (20 * Real.logb 10 |-2|), ⟨[], [], 0⟩, st, none⟩ : Model ℝ).fit (spectrum tol) exLoudest
        [-4, -2, 2, 2, -4, -2, 2, 2] Kwargs.none).map (fun m => m.tracks.map fun t => (t.start, t.freq, t.mag)) =
      ((⟨exGainParams, ⟨[], [], 0⟩, st, none⟩ : Model ℝ).fit (spectrum tol) exLoudest
        [2, 1, -1, -1, 2, 1, -1, -1] Kwargs.none).map (fun m => m.tracks.map fun t =>
        (t.start, t.freq, t.mag.map (Option.map (· + 20 * Real.logb 10 |-2|)))) := by
  obtain ⟨b0, b2, b1⟩ := exGain_bins
  refine ⟨⟨1, le_refl _, by norm_num, ?_, ?_⟩, ?_⟩
  · rw [show 1 - 1 = 0 from rfl, b0]; linarith
  · rw [show 1 + 1 = 2 from rfl, b2]; linarith
  · have hx : ([-4, -2, 2, 2, -4, -2, 2, 2] : List ℝ) = [2, 1, -1, -1, 2, 1, -1, -1].map ((-2) * ·) := by norm_num
    have hG : 0 ≤ Real.logb 10 |(-2 : ℝ)| := Real.logb_nonneg (by norm_num) (by norm_num)
    have h0 := floatEps_db
    rw [hx]
    refine C134_gain tol (-2) (by norm_num) exLoudest (exLoudest_shift _) ⟨exGainParams, ⟨[], [], 0⟩, st, none⟩ _
      (by simp [exGainParams]) (by simp [exGainParams]) h0 (by show _ ≤ (-90 : ℝ) + _; linarith) exGain_heard

end Verif.Sms
