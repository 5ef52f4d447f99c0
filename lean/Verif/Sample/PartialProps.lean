import Verif.Sample.PartialLemmas

/-!
# C130: the modes of decaying partials with disturbances
-/

set_option autoImplicit false
set_option linter.unusedSectionVars false
set_option linter.unusedSimpArgs false

namespace Verif.Sample

open Verif.Tracker Verif.Sms

/-- Factor per hop of a partial with the decay time `d`. -/
noncomputable def decayRatio (p : Sms.Params ℝ) (d : ℝ) : ℝ := Real.exp (-(2 * p.hop) / (d * p.tracker.fs))

/-- Fall of the level of a partial with the decay time `d` over `N` frames. -/
noncomputable def fall (p : Sms.Params ℝ) (d : ℝ) (N : Nat) : ℝ := -((N - 1 : ℝ) * dB (decayRatio p d))

/-- C130: the modes of decaying partials.  Around its bin `b`, the partial is `P b` in the earliest frame, falls with
the decay time `d b`, and is disturbed by at most the part `ρ` of itself; `ε` bounds the effect on the level.
Partials that sound long enough to be tracked fall by more than `24 ε` over at least three frames.  Then
every mode belongs to a different partial, every partial that sounds long enough and is accepted
by the modal tracker with some margin has a mode, and frequency, decay time and amplitude of the mode are those
of the partial up to the stated bounds. -/
theorem C130_modes (tol : ℝ) (sort : List (Peak ℝ) → List Nat)
    (hsort : ∀ peaks, IsArgsort peaks (sort peaks)) (η : ℝ)
    (solve : (Hinge.Coeffs ℝ → List ℝ) → Hinge.Coeffs ℝ → Hinge.Coeffs ℝ → Hinge.Coeffs ℝ →
      Except PyErr (Hinge.Coeffs ℝ)) (hsolve : SolverNear η solve)
    (m : Sms.Model ℝ) (x : List ℝ) (p : Sms.Params ℝ) (hp : p = m.params) (S : List Nat) (N : Nat → Nat)
    (d : Nat → ℝ) (P : Nat → Nat → ℝ) (ρ ε : ℝ) (h : Partials p x S N (fun b => decayRatio p (d b)) P ρ)
    (hd : ∀ b ∈ S, 0 < d b) (hε : 5 / 4 * wobble ρ ≤ ε) (minLen : ℤ)
    (hmin : minLen = max 2 ⌈p.tracker.minSineDur * (p.tracker.fs / p.hop)⌉)
    (hlong : ∀ b ∈ S, minLen ≤ N b → 3 ≤ N b ∧ η ≤ N b * ε ^ 2 ∧ 24 * ε < fall p (d b) (N b)) :
    ∃ (m' : Sms.Model ℝ) (B : List Nat) (F D a : Nat → ℝ), B.Nodup ∧ (∀ b ∈ B, b ∈ S ∧ minLen ≤ N b) ∧
      (∀ b ∈ S, minLen ≤ N b → (p.modal = true →
        (∀ lo, p.tracker.freqLo = some lo →
          lo ≤ refinedFreq (P b) p.tracker.fs p.n b - freqSlack (P b) p.tracker.fs p.n ρ b) ∧
        (∀ hi, p.tracker.freqHi = some hi →
          refinedFreq (P b) p.tracker.fs p.n b + freqSlack (P b) p.tracker.fs p.n ρ b ≤ hi) ∧
        p.tracker.peakThreshold + 6 * ε ≤ refinedLevel (P b) b) → b ∈ B) ∧
      fit (spectrum tol) sort (hingeRegressor solve) npMean false (some 0) [] m x = some (.ok (m',
        [B.map fun b => some (F b), B.map fun b => some (D b), B.map fun b => some (a b)])) ∧
      (∀ poolGiven nJobs evs res, Training.poolOk poolGiven nJobs = true →
        fit (spectrum tol) sort (hingeRegressor solve) npMean poolGiven nJobs evs m x = some res →
        some res = fit (spectrum tol) sort (hingeRegressor solve) npMean false (some 0) [] m x) ∧
      ∀ b ∈ B, |F b - refinedFreq (P b) p.tracker.fs p.n b| ≤ freqSlack (P b) p.tracker.fs p.n ρ b ∧
        0 < D b ∧ 0 < a b ∧ |d b / D b - 1| ≤ 24 * ε / fall p (d b) (N b) ∧
        |dB (a b * Real.exp (-2 * earliestTime p x.length / D b)) - (refinedLevel (P b) b + dB 2)| ≤ 16 * ε := by
  obtain ⟨hlast, hval⟩ := C130_lasting p x S N _ P ρ h
  obtain ⟨m', Φ, h1, h2, h3, h4⟩ := C129_tracks tol sort hsort m x p hp S N hlast
  rw [← hmin] at h4
  have hε0 : 0 ≤ ε := le_trans (mul_nonneg (by norm_num) (wobble_nonneg h.small.1 h.small.2)) hε
  have hlevel : ∀ b ∈ S, ∀ e, e < N b →
      |peakLevel p x e b - (refinedLevel (P b) b + e * dB (decayRatio p (d b)))| ≤ ε :=
    fun b hb e he => (hval b hb e he).2.trans hε
  have hpar : ∀ u ∈ m'.tracks, ∃ (b : Nat) (F D a : ℝ), b ∈ S ∧ minLen ≤ N b ∧
      u = lastTrack p.reverse (frameCount p x) (N b) (fun e => ⟨peakFreq p x e b, peakLevel p x e b, Φ e b⟩) ∧
      trackParams (hingeRegressor solve) npMean m'.params x.length u = .ok [[some F, some D, some a]] ∧
      |F - refinedFreq (P b) p.tracker.fs p.n b| ≤ freqSlack (P b) p.tracker.fs p.n ρ b ∧
      0 < D ∧ 0 < a ∧ |d b / D - 1| ≤ 24 * ε / fall p (d b) (N b) ∧
      |dB (a * Real.exp (-2 * earliestTime p x.length / D)) - (refinedLevel (P b) b + dB 2)| ≤ 16 * ε := by
    intro u hu
    obtain ⟨b, hb, hl, _, hub⟩ := (h4 u).1 hu
    obtain ⟨hN3, hη, hfall⟩ := hlong b hb hl
    have hNL := h.count b hb
    have hti : ∀ i, i < N b → timeIndex p.reverse (N b) i < N b := by
      intro i hi
      unfold timeIndex
      split <;> omega
    obtain ⟨D, a, r1, r2, r3, r4, r5⟩ := C128_decay η solve hsolve p h.hop h.fs x.length
      (if p.reverse then frameCount p x - N b else 0) (N b)
      (fun i => peakFreq p x (timeIndex p.reverse (N b) i) b)
      (fun i => peakLevel p x (timeIndex p.reverse (N b) i) b)
      (fun i => Φ (timeIndex p.reverse (N b) i) b) (d b) ε (refinedLevel (P b) b) _ (fall p (d b) (N b)) hN3
      (hd b hb) hε0 hη rfl (by
        intro i hi
        rw [centre_step p _ _ _ _ hi, ← dB_decay _ _ _ h.fs (hd b hb)]
        exact hlevel b hb _ (hti i hi)) (by
        unfold fall decayRatio
        rw [dB_decay _ _ _ h.fs (hd b hb)]
        ring) hfall
    rw [centre_earliest p x (N b) h.toUsable (by omega) hNL] at r5
    refine ⟨b, ((List.range (N b)).map fun i => peakFreq p x (timeIndex p.reverse (N b) i) b).sum / N b, D, a, hb, hl, hub, ?_, ?_, r2, r3, r4, r5⟩
    · rw [h2, hub]
      exact r1
    · apply mean_near _ _ _ _ (by omega)
      intro e he
      exact (hval b hb _ (hti e he)).1
  choose! E F D a hE using hpar
  obtain ⟨fr, hfr, _⟩ := Sms.timeFrames_ok m.params.padded m.params.w.length m.params.hop x
    (by rw [← hp]; exact h.hop) (Or.inr (by rw [← hp]; exact h.long))
  have hfit := fit_of_params (spectrum tol) sort (hingeRegressor solve) m m' x fr hfr h1
    F D a (fun u hu => (hE u hu).2.2.2.1)
  have hinj : ∀ u ∈ m'.tracks, ∀ v ∈ m'.tracks, E u = E v → u = v := by
    intro u hu v hv he
    rw [(hE u hu).2.2.1, (hE v hv).2.2.1, he]
  have hback : ∃ g : Nat → Track ℝ, ∀ u ∈ m'.tracks, g (E u) = u := by
    classical
    refine ⟨fun e => if he : ∃ u ∈ m'.tracks, E u = e then he.choose else ⟨0, [], [], []⟩, ?_⟩
    intro u hu
    have he : ∃ v ∈ m'.tracks, E v = E u := ⟨u, hu, rfl⟩
    simp only [dif_pos he]
    exact hinj _ he.choose_spec.1 _ hu he.choose_spec.2
  obtain ⟨g, hg⟩ := hback
  refine ⟨m', m'.tracks.map E, fun b => F (g b), fun b => D (g b), fun b => a (g b), ?_, ?_, ?_, ?_, hfit.2, ?_⟩
  · exact List.Nodup.map_on hinj h3
  · intro b hb
    obtain ⟨u, hu, rfl⟩ := List.mem_map.1 hb
    exact ⟨(hE u hu).1, (hE u hu).2.1⟩
  · intro b hb hl hacc
    obtain ⟨hN3, hη, hfall⟩ := hlong b hb hl
    have hmem : lastTrack p.reverse (frameCount p x) (N b)
        (fun e => ⟨peakFreq p x e b, peakLevel p x e b, Φ e b⟩) ∈ m'.tracks := by
      refine (h4 _).2 ⟨b, hb, hl, ?_, rfl⟩
      intro hm
      obtain ⟨a1, a2, a3⟩ := hacc hm
      have hmean := abs_le.1 (mean_near (fun e => peakFreq p x e b) _ _ (N b) (by omega)
        fun e he => (hval b hb e he).1)
      refine ⟨?_, ?_, ?_⟩
      · intro lo hlo
        have := a1 lo hlo
        linarith
      · intro hi hhi
        have := a2 hi hhi
        linarith
      · obtain ⟨k, q, l1, l2, l3⟩ := line_near (fun e => peakLevel p x e b) (dB (decayRatio p (d b)))
          (refinedLevel (P b) b) ε (N b) (by omega) hε0 (hlevel b hb)
        refine ⟨k, q, l1, ?_, ?_⟩
        · unfold fall at hfall
          have hNp : (3 : ℝ) ≤ N b := by exact_mod_cast hN3
          by_contra hk
          have hk := not_le.1 hk
          have t1 := mul_le_mul_of_nonneg_right (le_abs_self (k - dB (decayRatio p (d b))))
            (by linarith : (0 : ℝ) ≤ (N b : ℝ) - 1)
          have t2 := mul_nonneg hk.le (by linarith : (0 : ℝ) ≤ (N b : ℝ) - 1)
          linarith
        · have := abs_le.1 l3
          linarith
    rw [List.mem_map]
    refine ⟨_, hmem, ?_⟩
    have hu := hE _ hmem
    set u := lastTrack p.reverse (frameCount p x) (N b)
        (fun e => ⟨peakFreq p x e b, peakLevel p x e b, Φ e b⟩) with hudef
    obtain ⟨q1, q2, q3, _⟩ := hu
    generalize E u = c at q1 q2 q3 ⊢
    have hlen : N b = N c := by
      have := congrArg (fun t => t.freq.length) q3
      rw [hudef] at this
      simpa [lastTrack] using this
    have hfr0 : ((List.range (N b)).map fun i => some (peakFreq p x (timeIndex p.reverse (N b) i) b)) =
        (List.range (N c)).map fun i => some (peakFreq p x (timeIndex p.reverse (N c) i) c) := by
      have := congrArg Track.freq q3
      rw [hudef] at this
      exact this
    rw [← hlen] at hfr0
    have h0 := congrArg (fun l => l[0]?) hfr0
    simp only [List.getElem?_map, List.getElem?_range (show 0 < N b by omega), Option.map_some, Option.some.injEq]
      at h0
    have hlt : timeIndex p.reverse (N b) 0 < N b := by unfold timeIndex; split <;> omega
    have hn : 0 < p.n := by have := h.two; have := h.fftSize; omega
    have heps := floatEps_pos
    have hnear : ∀ b' ∈ S, N b' = N b →
        |peakFreq p x (timeIndex p.reverse (N b) 0) b' - b' * p.tracker.fs / p.n| < p.tracker.fs / (2 * p.n) := by
      intro b' hb' hNb
      have hlt' : timeIndex p.reverse (N b) 0 < N b' := by rw [hNb]; exact hlt
      have hc := h.clip b' hb' _ hlt'
      exact (refinedFreq_near _ _ _ _ h.fs hn
        ((h.peaks _ (lt_of_lt_of_le hlt' (h.count b' hb')) b').2 ⟨hb', hlt'⟩).1 (by linarith) (by linarith)).1
    exact (refinedFreq_inj _ _ _ _ _ h.fs hn (hnear b hb rfl) (hnear c q1 hlen.symm) h0).symm
  · rw [hfit.1, List.map_map, List.map_map, List.map_map]
    have hc : ∀ G : Track ℝ → ℝ, m'.tracks.map ((fun b => some (G (g b))) ∘ E) = m'.tracks.map fun u => some (G u) := by
      intro G
      apply List.map_congr_left
      intro u hu
      simp only [Function.comp, hg u hu]
    rw [hc, hc, hc]
  · intro b hb
    obtain ⟨u, hu, rfl⟩ := List.mem_map.1 hb
    simp only [hg u hu]
    exact (hE u hu).2.2.2.2

/-! ## A concrete case -/

theorem exNear_wobble : wobble (1 / 100) ≤ 1 / 5 := by
  unfold wobble dB
  have h : -(1 / 100 : ℝ) ≤ Real.logb 10 (1 - 1 / 100) := by
    rw [Real.le_logb_iff_rpow_le (by norm_num) (by norm_num)]
    have h1 : (10 : ℝ)⁻¹ ≤ (1 - 1 / 100) ^ 100 := by norm_num
    have h2 := Real.rpow_le_rpow (by norm_num) h1 (by norm_num : (0 : ℝ) ≤ 1 / 100)
    rw [← Real.rpow_natCast, ← Real.rpow_mul (by norm_num), ← Real.rpow_neg_one, ← Real.rpow_mul (by norm_num)] at h2
    norm_num at h2 ⊢
    exact h2
  linarith

theorem exNear_two : 6 ≤ dB 2 := by
  unfold dB
  have h : (3 / 10 : ℝ) ≤ Real.logb 10 2 := by
    rw [Real.le_logb_iff_rpow_le (by norm_num) (by norm_num)]
    have h1 : (10 : ℝ) ^ 3 ≤ 2 ^ 10 := by norm_num
    have h2 := Real.rpow_le_rpow (by norm_num) h1 (by norm_num : (0 : ℝ) ≤ 1 / 10)
    rw [← Real.rpow_natCast, ← Real.rpow_natCast, ← Real.rpow_mul (by norm_num), ← Real.rpow_mul (by norm_num)] at h2
    norm_num at h2 ⊢
    exact h2
  linarith

theorem exNear_ratio (rev modal : Bool) : decayRatio (exSimilar rev modal) (1 / Real.log 2) = 1 / 2 := by
  have hl2 : 0 < Real.log 2 := Real.log_pos (by norm_num)
  have : -(2 * (((exSimilar rev modal).hop : Nat) : ℝ)) / (1 / Real.log 2 * (exSimilar rev modal).tracker.fs) =
      -Real.log 2 := by
    simp only [exSimilar]
    push_cast
    field_simp
    norm_num
  rw [decayRatio, this, Real.exp_neg, Real.exp_log (by norm_num)]
  norm_num

theorem exNear_curvature (rev modal : Bool) :
    6 ≤ curvature (firstSpectrum (exSimilar rev modal) exSimilarSound) 2 := by
  obtain ⟨v1, v2, v3⟩ := exSimilar_values rev modal
  have h2 : 0 < √2 := by positivity
  have e : curvature (firstSpectrum (exSimilar rev modal) exSimilarSound) 2 = dB 2 := by
    unfold curvature
    rw [show 2 - 1 = 1 from rfl, show 2 + 1 = 3 from rfl, v1, v2, v3]
    have h4 : dB (1 / 2) = dB (√2 / 4) + dB √2 := by
      rw [← dB_mul (by positivity) h2]
      congr 1
      have := Real.mul_self_sqrt (show (0 : ℝ) ≤ 2 by norm_num)
      linarith
    have h5 : dB 2 = dB √2 + dB √2 := by
      rw [← dB_mul h2 h2, Real.mul_self_sqrt (by norm_num)]
    linarith
  rw [e]
  exact exNear_two

/-- An oscillation whose frames have the levels 1, 0.505 and 0.25 meets the hypotheses of `C130_modes`, with one
partial that is halved after every frame, up to one percent. -/
theorem exNear_partials (rev modal : Bool) :
    Partials (exSimilar rev modal) (exUneven (101 / 200) (1 / 4)) [2] (fun _ => 3)
      (fun _ => decayRatio (exSimilar rev modal) (1 / Real.log 2))
      (fun _ => firstSpectrum (exSimilar rev modal) exSimilarSound) (1 / 100) := by
  obtain ⟨v1, v2, v3⟩ := exSimilar_values rev modal
  have hlast := exUneven_lasting (101 / 200) (1 / 4) (by norm_num) (by norm_num) rev modal
  have hpk := (exSimilar_peak rev modal 2).2 rfl
  have hs2 : 0 < √2 := by positivity
  refine ⟨hlast.toUsable, hlast.nodup, hlast.count, hlast.peaks, hlast.clip, hlast.room, by norm_num, ?_, ?_, ?_, ?_, ?_,
    ?_, ?_⟩
  · intro b _
    simp only [exNear_ratio]
    norm_num
  · intro b hb
    rw [List.mem_singleton] at hb
    subst hb
    exact ⟨by rw [show 2 - 1 = 1 from rfl, v1]; positivity, hpk.left⟩
  · intro b hb
    rw [List.mem_singleton] at hb
    subst hb
    exact ⟨by rw [show 2 + 1 = 3 from rfl, v3]; positivity, hpk.right⟩
  · intro b hb e he k hk1 hk2
    rw [List.mem_singleton] at hb
    subst hb
    have hA : 0 ≤ firstSpectrum (exSimilar rev modal) exSimilarSound k := norm_nonneg _
    rw [exUneven_spectrum (101 / 200) (1 / 4) (by norm_num) (by norm_num) rev modal e he, exNear_ratio]
    generalize firstSpectrum (exSimilar rev modal) exSimilarSound k = A at hA ⊢
    rw [abs_le]
    interval_cases e <;> norm_num [exGain] <;> (try constructor) <;> linarith
  · intro b hb
    rw [List.mem_singleton] at hb
    subst hb
    have h1 := exNear_wobble
    have h2 := exNear_curvature rev modal
    unfold freqSlack
    have h3 : 3 * wobble (1 / 100) / curvature (firstSpectrum (exSimilar rev modal) exSimilarSound) 2 ≤ 1 / 10 := by
      rw [div_le_iff₀ (by linarith)]
      linarith
    simp only [exSimilar] at h3 ⊢
    norm_num at h3 ⊢
    linarith
  · intro b hb b' hb' hne
    rw [List.mem_singleton] at hb hb'
    exact absurd (hb.trans hb'.symm) hne
  · intro _ b _ b' _ _ h
    exact absurd h (lt_irrefl _)

/-- The mode of the example is within 0.1 Hz of 2 Hz, and its decay time is less than twice and more than half of
`1 / ln 2` seconds. -/
example (tol : ℝ) (sort : List (Peak ℝ) → List Nat) (hsort : ∀ peaks, IsArgsort peaks (sort peaks))
    (solve : (Hinge.Coeffs ℝ → List ℝ) → Hinge.Coeffs ℝ → Hinge.Coeffs ℝ → Hinge.Coeffs ℝ →
      Except PyErr (Hinge.Coeffs ℝ)) (hsolve : SolverNear (1 / 10) solve)
    (m : Sms.Model ℝ) (rev modal : Bool) (hm : m.params = exSimilar rev modal) :
    ∃ m' F D a, fit (spectrum tol) sort (hingeRegressor solve) npMean false (some 0) [] m
        (exUneven (101 / 200) (1 / 4)) = some (.ok (m', [[some F], [some D], [some a]])) ∧
      |F - 2| ≤ 1 / 10 ∧ |1 / Real.log 2 / D - 1| ≤ 1 / 2 := by
  obtain ⟨v1, v2, v3⟩ := exSimilar_values rev modal
  have hl2 : 0 < Real.log 2 := Real.log_pos (by norm_num)
  have hw := exNear_wobble
  have hfall : 12 ≤ fall (exSimilar rev modal) (1 / Real.log 2) 3 := by
    unfold fall
    rw [exNear_ratio]
    have h := exNear_two
    have : dB (1 / 2) = -dB 2 := by
      unfold dB
      rw [one_div, Real.logb_inv]
      ring
    rw [this]
    norm_num
    linarith
  obtain ⟨m', B, F, D, a, h1, h2, h3, h4, _, h6⟩ := C130_modes tol sort hsort (1 / 10) solve hsolve m
    (exUneven (101 / 200) (1 / 4)) _ hm.symm [2] (fun _ => 3) (fun _ => 1 / Real.log 2)
    (fun _ => firstSpectrum (exSimilar rev modal) exSimilarSound) (1 / 100) (1 / 4) (exNear_partials rev modal)
    (fun _ _ => by positivity) (by linarith) _ rfl (by
      intro b _ _
      refine ⟨le_refl _, by norm_num, by linarith⟩)
  have hf : refinedFreq (firstSpectrum (exSimilar rev modal) exSimilarSound) (exSimilar rev modal).tracker.fs
      (exSimilar rev modal).n 2 = 2 := by
    unfold refinedFreq vertexPlace
    rw [show 2 - 1 = 1 from rfl, show 2 + 1 = 3 from rfl, v1, v3]
    norm_num [exSimilar]
  have hl : refinedLevel (firstSpectrum (exSimilar rev modal) exSimilarSound) 2 = dB (1 / 2) := by
    unfold refinedLevel vertexHeight
    rw [show 2 - 1 = 1 from rfl, show 2 + 1 = 3 from rfl, v1, v3, v2]
    norm_num
  have hslack : freqSlack (firstSpectrum (exSimilar rev modal) exSimilarSound) (exSimilar rev modal).tracker.fs
      (exSimilar rev modal).n (1 / 100) 2 ≤ 1 / 10 := by
    have h2 := exNear_curvature rev modal
    unfold freqSlack
    have h3 : 3 * wobble (1 / 100) / curvature (firstSpectrum (exSimilar rev modal) exSimilarSound) 2 ≤ 1 / 10 := by
      rw [div_le_iff₀ (by linarith)]
      linarith
    simp only [exSimilar] at h3 ⊢
    norm_num at h3 ⊢
    linarith
  have hmem : 2 ∈ B := by
    apply h3 2 (by simp)
    · simp [exSimilar]
    · intro _
      rw [hf, hl]
      refine ⟨?_, ?_, ?_⟩
      · intro lo hlo
        simp [exSimilar] at hlo
        linarith
      · intro hi hhi
        simp [exSimilar] at hhi
      · have := exSimilar_low 2 (le_refl _)
        rw [abs_of_pos (by norm_num)] at this
        have h5 : dB (1 / 2) ≤ -6 := by
          have : dB (1 / 2) = -dB 2 := by
            unfold dB
            rw [one_div, Real.logb_inv]
            ring
          linarith [exNear_two]
        simp only [exSimilar]
        norm_num at this h5 ⊢
        linarith
  have hB : B = [2] := by
    apply List.perm_singleton.1
    rw [List.perm_ext_iff_of_nodup h1 (List.nodup_singleton _)]
    intro b
    constructor
    · intro hb; exact (h2 b hb).1
    · intro hb; rw [List.mem_singleton] at hb; rw [hb]; exact hmem
  obtain ⟨g1, g2, _, g4, _⟩ := h6 2 hmem
  refine ⟨m', F 2, D 2, a 2, ?_, ?_, ?_⟩
  · rw [h4, hB]
    rfl
  · rw [hf] at g1
    exact g1.trans hslack
  · refine g4.trans ?_
    rw [div_le_iff₀ (by linarith)]
    linarith

end Verif.Sample
