import Verif.Sample.DecayLemmas

/-!
# C126: the modes of an exponentially decaying sound
-/

set_option autoImplicit false
set_option linter.unusedSectionVars false
set_option linter.unusedSimpArgs false

namespace Verif.Sample

open Verif.Tracker Verif.Sms

/-- The maximum at the bin `b` of the spectrum `A` of the earliest frame is above the threshold in exactly the
first `N` of `L` frames, if it falls by `-g` per frame; these are enough frames, and its refined frequency
and level are accepted by the tracker. -/
def Sounding (p : Params ℝ) (A : Nat → ℝ) (L : Nat) (g : ℝ) (b N : Nat) : Prop :=
  PeakBin A p.n b ∧ N ≤ L ∧ (∀ e, e < L → (e < N ↔ p.t < dB (A b) + e * g)) ∧
    max 2 ⌈p.tracker.minSineDur * (p.tracker.fs / p.hop)⌉ ≤ (N : ℤ) ∧
    (p.modal = true → (∀ lo, p.tracker.freqLo = some lo → lo ≤ refinedFreq A p.tracker.fs p.n b) ∧
      (∀ hi, p.tracker.freqHi = some hi → refinedFreq A p.tracker.fs p.n b ≤ hi) ∧
      p.tracker.peakThreshold ≤ refinedLevel A b)

/-- C126: the modes of a sound that decays by the factor `e^(-2 h / (d fs))` per hop.  There is one mode for
every maximum of the spectrum of the earliest frame that sounds long enough; its frequency is the refined
one.  If it sounds for at least three frames and the regressor finds the minimum of its cost, the
decay time is exactly `d`, and the amplitude is twice the refined one, followed back from the centre of the
earliest frame to time zero along the decay; for two frames the decay time is between `d / 8` and `d`. -/
theorem C126_modes (tol : ℝ) (sort : List (Peak ℝ) → List Nat)
    (hsort : ∀ peaks, IsArgsort peaks (sort peaks))
    (solve : (Hinge.Coeffs ℝ → List ℝ) → Hinge.Coeffs ℝ → Hinge.Coeffs ℝ → Hinge.Coeffs ℝ →
      Except PyErr (Hinge.Coeffs ℝ)) (hmin : SolverMin solve)
    (m : Sms.Model ℝ) (x : List ℝ) (c d : ℝ) (p : Sms.Params ℝ) (hp : p = m.params)
    (A : Nat → ℝ) (hA : A = firstSpectrum p x) (L : Nat) (hL : L = 1 + (x.length - p.w.length) / p.hop)
    (h : Decaying p x c) (hd : 0 < d) (hc : |c| = Real.exp (-(2 * p.hop) / (d * p.tracker.fs))) :
    ∃ (m' : Sms.Model ℝ) (B : List (Nat × Nat)) (D a : Nat × Nat → ℝ), B.Nodup ∧
      (∀ e, e ∈ B ↔ Sounding p A L (dB |c|) e.1 e.2) ∧
      fit (spectrum tol) sort (hingeRegressor solve) npMean false (some 0) [] m x = some (.ok (m',
        [B.map fun e => some (refinedFreq A p.tracker.fs p.n e.1), B.map fun e => some (D e),
          B.map fun e => some (a e)])) ∧
      (∀ poolGiven nJobs evs res, Training.poolOk poolGiven nJobs = true →
        fit (spectrum tol) sort (hingeRegressor solve) npMean poolGiven nJobs evs m x = some res →
        some res = fit (spectrum tol) sort (hingeRegressor solve) npMean false (some 0) [] m x) ∧
      ∀ e ∈ B, d / 8 ≤ D e ∧ D e ≤ d ∧ (3 ≤ e.2 → D e = d ∧
        a e = 2 * 10 ^ (refinedLevel A e.1 / 20) * Real.exp (2 * earliestTime p x.length / d)) := by
  obtain ⟨m', Φ, h1, h2, h3, _, h5⟩ := C125_tracks tol sort hsort m x c p hp A hA L hL h
  have hhop : (0 : ℝ) < p.hop := by exact_mod_cast h.hop
  have hfs := h.fs
  have hlog : 0 < Real.logb 10 (Real.exp 1) :=
    Real.logb_pos (by norm_num) (Real.one_lt_exp_iff.2 one_pos)
  -- the slope of the level
  have hk : dB |c| * p.tracker.fs / p.hop = -(40 * Real.logb 10 (Real.exp 1)) / d := by
    unfold dB
    rw [hc, ← Real.exp_one_rpow (-(2 * (p.hop : ℝ)) / (d * p.tracker.fs)), Real.logb_rpow_eq_mul_logb_of_pos
      (Real.exp_pos 1)]
    field_simp
    ring
  have hdc : d2kConst = -(40 * Real.logb 10 (Real.exp 1)) := by rw [d2kConst]; ring
  have hpar : ∀ u ∈ m'.tracks, ∃ (e : Nat × Nat) (D a : ℝ), Sounding p A L (dB |c|) e.1 e.2 ∧
      u = fallingTrack p.reverse L e.2 (refinedFreq A p.tracker.fs p.n e.1) (refinedLevel A e.1) (dB |c|)
        (fun l => Φ l e.1) ∧
      trackParams (hingeRegressor solve) npMean m'.params x.length u =
        .ok [[some (refinedFreq A p.tracker.fs p.n e.1), some D, some a]] ∧
      d / 8 ≤ D ∧ D ≤ d ∧ (3 ≤ e.2 → D = d ∧
        a = 2 * 10 ^ (refinedLevel A e.1 / 20) * Real.exp (2 * earliestTime p x.length / d)) := by
    intro u hu
    obtain ⟨b, N, q1, q2, q3, q4, q5, q6⟩ := (h5 u).1 hu
    have hN : 2 ≤ N := by
      have : (2 : ℤ) ≤ N := le_trans (le_max_left _ _) q4
      omega
    obtain ⟨k, q, r1, r2, r3, r4⟩ := falling_params solve hmin p h.hop h.fs h.unpadded x.length N h.long
      (refinedFreq A p.tracker.fs p.n b) (refinedLevel A b) (dB |c|) (fun l => Φ l b) h.gain hN (by omega)
    rw [← hL, ← q6] at r1
    rw [hk] at r2 r3 r4
    set C := 40 * Real.logb 10 (Real.exp 1) with hC
    have hCpos : 0 < C := by positivity
    have hkneg : k < 0 := lt_of_le_of_lt r3 (div_neg_of_neg_of_pos (by linarith) hd)
    have hkd : k * d ≤ -C := by
      have := mul_le_mul_of_nonneg_right r3 hd.le
      rwa [div_mul_cancel₀ _ hd.ne'] at this
    have hkd' : 8 * -C ≤ k * d := by
      have := mul_le_mul_of_nonneg_right r2 hd.le
      rwa [mul_assoc, div_mul_cancel₀ _ hd.ne'] at this
    refine ⟨(b, N), d2kConst / k, Dsp.db2a q, ⟨q1, q2, q3, q4, q5⟩, q6, by rw [h2]; exact r1, ?_, ?_, ?_⟩
    · rw [hdc, le_div_iff_of_neg hkneg]; linarith
    · rw [hdc, div_le_iff_of_neg hkneg]; linarith
    · intro hN3
      obtain ⟨s1, s2⟩ := r4 hN3
      refine ⟨?_, ?_⟩
      · rw [s1, hdc]
        field_simp
      · rw [s2, Dsp.db2a]
        have e1 : (refinedLevel A b + 20 * Real.logb 10 2 - -C / d * earliestTime p x.length) / 20 =
            refinedLevel A b / 20 + Real.logb 10 2 +
              Real.logb 10 (Real.exp (2 * earliestTime p x.length / d)) := by
          rw [← Real.exp_one_rpow (2 * earliestTime p x.length / d), Real.logb_rpow_eq_mul_logb_of_pos
            (Real.exp_pos 1), hC]
          field_simp
          ring
        rw [e1, Real.rpow_add (by norm_num), Real.rpow_add (by norm_num),
          Real.rpow_logb (by norm_num) (by norm_num) (by norm_num),
          Real.rpow_logb (by norm_num) (by norm_num) (Real.exp_pos _)]
        ring
  choose! E D a hE using hpar
  obtain ⟨fr, hfr, _⟩ := Sms.timeFrames_ok m.params.padded m.params.w.length m.params.hop x
    (by rw [← hp]; exact h.hop) (Or.inr (by rw [← hp]; exact h.long))
  have hfit := fit_of_params (spectrum tol) sort (hingeRegressor solve) m m' x fr hfr h1
    (fun u => refinedFreq A p.tracker.fs p.n (E u).1) D a (fun u hu => (hE u hu).2.2.1)
  -- a track is determined by its bin and its number of frames
  have hinj : ∀ u ∈ m'.tracks, ∀ v ∈ m'.tracks, E u = E v → u = v := by
    intro u hu v hv he
    rw [(hE u hu).2.1, (hE v hv).2.1, he]
  have hval : ∀ e, Sounding p A L (dB |c|) e.1 e.2 → ∃ u ∈ m'.tracks, E u = e := by
    intro e he
    obtain ⟨q1, q2, q3, q4, q5⟩ := he
    set u := fallingTrack p.reverse L e.2 (refinedFreq A p.tracker.fs p.n e.1) (refinedLevel A e.1) (dB |c|)
        (fun l => Φ l e.1) with hu
    have hmem : u ∈ m'.tracks := (h5 u).2 ⟨e.1, e.2, q1, q2, q3, q4, q5, rfl⟩
    refine ⟨u, hmem, ?_⟩
    obtain ⟨⟨s1, s2, s3, s4, _⟩, hu', _⟩ := hE u hmem
    have e2pos : 0 < e.2 := by
      have : (2 : ℤ) ≤ e.2 := le_trans (le_max_left _ _) q4
      omega
    have hfreq : List.replicate e.2 (some (refinedFreq A p.tracker.fs p.n e.1)) =
        List.replicate (E u).2 (some (refinedFreq A p.tracker.fs p.n (E u).1)) := by
      have := congrArg Track.freq hu'
      rw [hu] at this
      exact this
    have hlen : e.2 = (E u).2 := by simpa using congrArg List.length hfreq
    have hEpos : 0 < (E u).2 := by omega
    have hb : refinedFreq A p.tracker.fs p.n e.1 = refinedFreq A p.tracker.fs p.n (E u).1 := by
      have h0 := congrArg (fun l => l[0]?) hfreq
      simpa [List.getElem?_replicate, e2pos, hEpos] using h0
    have hL1 : 0 < L := by omega
    have t1 := (q3 0 hL1).1 e2pos
    have t2 := (s3 0 hL1).1 hEpos
    simp only [Nat.cast_zero, zero_mul, add_zero] at t1 t2
    subst hA
    have := refined_inj h e.1 (E u).1 q1 s1 t1 t2 hb
    exact (Prod.ext this hlen).symm
  -- parameters as functions of bin and number of frames
  have hback : ∃ g : Nat × Nat → Track ℝ, ∀ u ∈ m'.tracks, g (E u) = u := by
    classical
    refine ⟨fun e => if he : ∃ u ∈ m'.tracks, E u = e then he.choose else ⟨0, [], [], []⟩, ?_⟩
    intro u hu
    have he : ∃ v ∈ m'.tracks, E v = E u := ⟨u, hu, rfl⟩
    simp only [dif_pos he]
    exact hinj _ he.choose_spec.1 _ hu he.choose_spec.2
  obtain ⟨g, hg⟩ := hback
  refine ⟨m', m'.tracks.map E, fun e => D (g e), fun e => a (g e), ?_, ?_, ?_, hfit.2, ?_⟩
  · exact List.Nodup.map_on hinj h3
  · intro e
    rw [List.mem_map]
    constructor
    · rintro ⟨u, hu, rfl⟩
      exact (hE u hu).1
    · exact hval e
  · rw [hfit.1, List.map_map, List.map_map, List.map_map]
    congr 3
    · rw [List.cons.injEq]
      refine ⟨rfl, ?_⟩
      rw [List.cons.injEq, List.cons.injEq]
      refine ⟨?_, ?_, rfl⟩
      · apply List.map_congr_left
        intro u hu
        simp only [Function.comp, hg u hu]
      · apply List.map_congr_left
        intro u hu
        simp only [Function.comp, hg u hu]
  · intro e he
    obtain ⟨u, hu, rfl⟩ := List.mem_map.1 he
    simp only [hg u hu]
    exact (hE u hu).2.2.2

/-! ## A concrete case -/

/-- There is a search that finds a minimum whenever there is one. -/
theorem solverMin_exists : ∃ solve, SolverMin solve ∧ SolverOk solve := by
  classical
  refine ⟨fun f x0 lo hi => .ok (if h : InBox lo hi x0 ∧ ∃ r, Minimal f lo hi r then h.2.choose else x0),
    ?_, ?_⟩
  · intro f x0 lo hi h1 h2
    refine ⟨_, rfl, ?_⟩
    rw [dif_pos ⟨h1, h2⟩]
    exact h2.choose_spec
  · intro f x0 lo hi h1 h2
    refine ⟨_, rfl, ?_⟩
    split
    · rename_i h
      exact h.2.choose_spec.1.2.1
    · exact ⟨h1, h2⟩

/-- A sinusoid of 2 Hz that is halved every half second (`exSimilarSound`), analysed from the end by the
modal tracker or forwards by the plain one: one mode at 2 Hz, with the decay time `1 / ln 2` seconds. -/
example (tol : ℝ) (sort : List (Peak ℝ) → List Nat) (hsort : ∀ peaks, IsArgsort peaks (sort peaks))
    (solve : (Hinge.Coeffs ℝ → List ℝ) → Hinge.Coeffs ℝ → Hinge.Coeffs ℝ → Hinge.Coeffs ℝ →
      Except PyErr (Hinge.Coeffs ℝ)) (hmin : SolverMin solve)
    (m : Sms.Model ℝ) (rev modal : Bool) (hm : m.params = exSimilar rev modal) :
    ∃ m', fit (spectrum tol) sort (hingeRegressor solve) npMean false (some 0) [] m exSimilarSound =
      some (.ok (m', [[some 2], [some (1 / Real.log 2)], [some √2]])) := by
  obtain ⟨v1, v2, v3⟩ := exSimilar_values rev modal
  have hl2 : 0 < Real.log 2 := Real.log_pos (by norm_num)
  obtain ⟨m', B, D, a, h1, h2, h3, _, h5⟩ := C126_modes tol sort hsort solve hmin m exSimilarSound (1 / 2)
    (1 / Real.log 2) _ hm.symm _ rfl 3 (by norm_num [exSimilar, exSound])
    (exSimilar_decaying rev modal) (by positivity) (by
      rw [abs_of_pos (by norm_num)]
      have : -(2 * (((exSimilar rev modal).hop : Nat) : ℝ)) / (1 / Real.log 2 * (exSimilar rev modal).tracker.fs) =
          -Real.log 2 := by
        simp only [exSimilar]
        push_cast
        field_simp
        norm_num
      rw [this, Real.exp_neg, Real.exp_log (by norm_num)]
      norm_num)
  have hf : refinedFreq (firstSpectrum (exSimilar rev modal) exSimilarSound) (exSimilar rev modal).tracker.fs
      (exSimilar rev modal).n 2 = 2 := by
    unfold refinedFreq vertexPlace
    rw [show 2 - 1 = 1 from rfl, show 2 + 1 = 3 from rfl, v1, v3]
    norm_num [exSimilar]
  have hl : refinedLevel (firstSpectrum (exSimilar rev modal) exSimilarSound) 2 = dB (1 / 2) := by
    unfold refinedLevel vertexHeight
    rw [show 2 - 1 = 1 from rfl, show 2 + 1 = 3 from rfl, v1, v3, v2]
    norm_num
  have hlow := exSimilar_low
  have hB : B = [(2, 3)] := by
    apply List.perm_singleton.1
    rw [List.perm_ext_iff_of_nodup h1 (List.nodup_singleton _)]
    intro e
    rw [h2, List.mem_singleton]
    constructor
    · rintro ⟨e1, e2, e3, _, _⟩
      rw [exSimilar_peak] at e1
      have : 2 < e.2 := by
        rw [e3 2 (by norm_num), e1, v2]
        have := hlow 2 (le_refl _)
        simp only [exSimilar]
        linarith
      exact Prod.ext e1 (by omega)
    · rintro rfl
      refine ⟨(exSimilar_peak _ _ _).2 rfl, le_refl _, ?_, ?_, ?_⟩
      · intro e he
        rw [v2]
        have := hlow e (by omega)
        constructor
        · intro _
          simp only [exSimilar]
          linarith
        · intro _; exact he
      · simp [exSimilar]
      · intro _
        rw [hf, hl]
        refine ⟨?_, ?_, ?_⟩
        · intro lo h; simp [exSimilar] at h; linarith
        · intro hi h; simp [exSimilar] at h
        · have := hlow 0 (by norm_num)
          simp only [exSimilar]
          norm_num at this
          linarith
  obtain ⟨_, _, h6⟩ := h5 (2, 3) (by rw [hB]; simp)
  obtain ⟨h7, h8⟩ := h6 (le_refl _)
  refine ⟨m', ?_⟩
  rw [h3, hB]
  simp only [List.map_cons, List.map_nil, h7, h8, hf, hl]
  have ht : earliestTime (exSimilar rev modal) exSimilarSound.length = 1 / 4 := by
    unfold earliestTime
    have : ((if (exSimilar rev modal).reverse then (exSimilarSound.length - (exSimilar rev modal).w.length) %
        (exSimilar rev modal).hop else 0 : Nat)) = 0 := by
      split <;> simp [exSimilar, exSound]
    rw [this]
    norm_num [exSimilar]
  have he : 2 * (10 : ℝ) ^ (dB (1 / 2) / 20) * Real.exp (2 * earliestTime (exSimilar rev modal)
      exSimilarSound.length / (1 / Real.log 2)) = √2 := by
    rw [ht]
    have h10 : (10 : ℝ) ^ (dB (1 / 2) / 20) = 1 / 2 := by
      unfold dB
      rw [mul_div_cancel_left₀ _ (by norm_num), Real.rpow_logb (by norm_num) (by norm_num) (by norm_num)]
    have hexp : Real.exp (2 * (1 / 4) / (1 / Real.log 2)) = √2 := by
      rw [Real.sqrt_eq_rpow, Real.rpow_def_of_pos (by norm_num)]
      congr 1
      field_simp
      norm_num
    rw [h10, hexp]
    ring
  rw [he]

end Verif.Sample
