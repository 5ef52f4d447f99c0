import Verif.Sample.DecayProps
import Verif.Sample.SynthProps

/-!
# C127: analysis of resynthesised modes
-/

set_option autoImplicit false
set_option linter.unusedSectionVars false
set_option linter.unusedSimpArgs false

namespace Verif.Sample

open Verif.Tracker Verif.Sms

/-- Modes with a common decay time, and with frequencies that do a whole number of periods per hop: after every
hop the sound is the same, with a lower amplitude. -/
theorem wave_similar (fs d : ℝ) (hfs : 0 < fs) (h N : Nat) (ms : List (Mode ℝ)) (hd : ∀ m ∈ ms, m.d = d)
    (hf : ∀ m ∈ ms, ∃ j : ℤ, m.f * h = j * fs) :
    SelfSimilar (((List.range N).map fun (i : Nat) => (i : ℝ) / fs).map fun t =>
      (ms.map fun m => m.wave t).sum) h (Real.exp (-(2 * h) / (d * fs))) := by
  intro i a b ha hb
  rw [List.map_map, List.getElem?_map, Option.map_eq_some_iff] at ha hb
  obtain ⟨i', hi, rfl⟩ := ha
  obtain ⟨i'', hi', rfl⟩ := hb
  have e1 := (List.getElem?_eq_some_iff.1 hi).2
  have e2 := (List.getElem?_eq_some_iff.1 hi').2
  simp only [List.getElem_range] at e1 e2
  subst e1 e2
  simp only [Function.comp]
  rw [← List.sum_map_mul_left]
  congr 1
  apply List.map_congr_left
  intro m hm
  obtain ⟨j, hj⟩ := hf m hm
  unfold Mode.wave
  rw [hd m hm]
  have h1 : 2 * Real.pi * m.f * (((i + h : Nat) : ℝ) / fs) + m.φ =
      2 * Real.pi * m.f * ((i : ℝ) / fs) + m.φ + j * (2 * Real.pi) := by
    have : 2 * Real.pi * m.f * ((h : ℝ) / fs) = j * (2 * Real.pi) := by
      rw [show 2 * Real.pi * m.f * ((h : ℝ) / fs) = 2 * Real.pi * (m.f * h) / fs by ring, hj]
      field_simp
    push_cast
    rw [add_div, mul_add, this]
    ring
  have h2 : -2 * (((i + h : Nat) : ℝ) / fs) / d = -(2 * h) / (d * fs) + -2 * ((i : ℝ) / fs) / d := by
    push_cast
    rw [mul_comm d fs, ← div_div, add_div]
    ring
  rw [h1, Real.cos_add_int_mul_two_pi, h2, Real.exp_add]
  ring

/-- C127: a model whose modes have the decay time `d`, and frequencies that do a whole number of periods per hop,
is resynthesised with `predict` (any number and order of modes, any starting phases) and the sound is
analysed.  Every mode that is found and sounds for at least three frames has exactly the decay time `d` again; its
frequency is less than half a bin from the bin of its maximum. -/
theorem C127_roundtrip (tol : ℝ) (sort : List (Peak ℝ) → List Nat)
    (hsort : ∀ peaks, IsArgsort peaks (sort peaks))
    (solve : (Hinge.Coeffs ℝ → List ℝ) → Hinge.Coeffs ℝ → Hinge.Coeffs ℝ → Hinge.Coeffs ℝ →
      Except PyErr (Hinge.Coeffs ℝ)) (hmin : SolverMin solve)
    (argsort : List ℝ → List Nat) (hasort : ∀ keys, IsArgsortAsc keys (argsort keys)) (draw : Nat → List ℝ)
    (ms : List (Mode ℝ)) (mx nModes : Option Int) (key : Feature) (rev : Bool) (n N : Nat)
    (hn : nModes = some (n : Int) ∨ nModes = none ∧ mx = some (n : Int) ∨
      nModes = none ∧ mx = none ∧ n = ms.length)
    (m : Sms.Model ℝ) (d : ℝ) (p : Sms.Params ℝ) (hp : p = m.params) (hd : 0 < d)
    (hms : ∀ e ∈ ms, e.d = d ∧ ∃ j : ℤ, e.f * p.hop = j * p.tracker.fs) :
    ∃ x, (Fitted.mk (ms.map (·.f)) (ms.map (·.d)) (ms.map (·.a)) mx).predict argsort draw
        ((List.range N).map fun (i : Nat) => (i : ℝ) / p.tracker.fs) nModes key.name rev
        (.arr (ms.map (·.φ))) false = .ok (.real x) ∧ x.length = N ∧
      ∀ (c : ℝ), c = Real.exp (-(2 * p.hop) / (d * p.tracker.fs)) → Clear p x c →
      ∀ (A : Nat → ℝ), A = firstSpectrum p x → ∀ (L : Nat), L = 1 + (N - p.w.length) / p.hop →
      ∃ (m' : Sms.Model ℝ) (B : List (Nat × Nat)) (D a : Nat × Nat → ℝ), B.Nodup ∧
        (∀ e, e ∈ B ↔ Sounding p A L (dB |c|) e.1 e.2) ∧
        fit (spectrum tol) sort (hingeRegressor solve) npMean false (some 0) [] m x = some (.ok (m',
          [B.map fun e => some (refinedFreq A p.tracker.fs p.n e.1), B.map fun e => some (D e),
            B.map fun e => some (a e)])) ∧
        (∀ poolGiven nJobs evs res, Training.poolOk poolGiven nJobs = true →
          fit (spectrum tol) sort (hingeRegressor solve) npMean poolGiven nJobs evs m x = some res →
          some res = fit (spectrum tol) sort (hingeRegressor solve) npMean false (some 0) [] m x) ∧
        ∀ e ∈ B, |refinedFreq A p.tracker.fs p.n e.1 - e.1 * p.tracker.fs / p.n| < p.tracker.fs / (2 * p.n) ∧
          (3 ≤ e.2 → D e = d ∧ a e = 2 * 10 ^ (refinedLevel A e.1 / 20) *
            Real.exp (2 * earliestTime p x.length / d)) := by
  obtain ⟨best, rest, h1, _, _, h4, _⟩ := C24_predict_audio argsort draw hasort key rev ms
    (fun e he => by rw [(hms e he).1]; exact hd.ne') mx nModes n hn
    ((List.range N).map fun (i : Nat) => (i : ℝ) / p.tracker.fs)
  refine ⟨_, h4, by simp, ?_⟩
  intro c hc hclear A hA L hL
  have hmem : ∀ e ∈ best, e ∈ ms := fun e he => h1.mem_iff.1 (by simp [he])
  have hsim := wave_similar p.tracker.fs d hclear.fs p.hop N best (fun e he => (hms e (hmem e he)).1)
    (fun e he => (hms e (hmem e he)).2)
  have hcpos : 0 < c := by rw [hc]; exact Real.exp_pos _
  have hhop : (0 : ℝ) < p.hop := by exact_mod_cast hclear.hop
  have hdec : Decaying p _ c := ⟨hclear, by rw [hc]; exact hsim, hcpos.ne', by
    rw [abs_of_pos hcpos, hc, Real.exp_lt_one_iff]
    exact div_neg_of_neg_of_pos (by linarith) (mul_pos hd hclear.fs)⟩
  obtain ⟨m', B, D, a, g1, g2, g3, g4, g5⟩ := C126_modes tol sort hsort solve hmin m _ c d p hp A hA L
    (by simpa using hL) hdec hd (by rw [abs_of_pos hcpos, hc])
  refine ⟨m', B, D, a, g1, g2, g3, g4, ?_⟩
  intro e he
  refine ⟨?_, (g5 e he).2.2⟩
  obtain ⟨s1, s2, s3, s4, _⟩ := (g2 e).1 he
  have hN : 0 < e.2 := by
    have : (2 : ℤ) ≤ e.2 := le_trans (le_max_left _ _) s4
    omega
  have ht := (s3 0 (by omega)).1 hN
  simp only [Nat.cast_zero, zero_mul, add_zero] at ht
  rw [hA] at s1 ht ⊢
  exact (hdec.refined e.1 s1 ht).1

/-! ## A concrete case -/

/-- A mode at 2 Hz with the decay time `1 / ln 2`: halved every half second. -/
noncomputable def exMode : Mode ℝ := ⟨2, 1 / Real.log 2, 1, 0⟩

/-- Its resynthesis at 8 samples per second. -/
theorem exMode_sound : (((List.range 12).map fun (i : Nat) => (i : ℝ) / 8).map fun t =>
    ([exMode].map fun m => m.wave t).sum) = exSound (√2 / 2) := by
  have hl2 : 0 < Real.log 2 := Real.log_pos (by norm_num)
  have hw : ∀ i : Nat, exMode.wave ((i : ℝ) / 8) =
      (√2 / 2) ^ (i / 2) * (2 : ℝ) ^ (-(((i % 2 : Nat) : ℝ) / 4)) * Real.cos (i * (Real.pi / 2)) := by
    intro i
    have h1 : Real.exp (-2 * ((i : ℝ) / 8) / (1 / Real.log 2)) =
        (√2 / 2) ^ (i / 2) * (2 : ℝ) ^ (-(((i % 2 : Nat) : ℝ) / 4)) := by
      have h2 : (√2 / 2 : ℝ) = 2 ^ (-(1 / 2) : ℝ) := by
        rw [Real.rpow_neg (by norm_num), ← Real.sqrt_eq_rpow, ← one_div, ← Real.sqrt_div_self']
      rw [h2, ← Real.rpow_natCast, ← Real.rpow_mul (by norm_num), ← Real.rpow_add (by norm_num),
        Real.rpow_def_of_pos (by norm_num)]
      congr 1
      have : (i : ℝ) = 2 * ((i / 2 : Nat) : ℝ) + ((i % 2 : Nat) : ℝ) := by
        exact_mod_cast (Nat.div_add_mod i 2).symm
      rw [this]
      field_simp
      ring
    unfold Mode.wave exMode
    simp only
    rw [h1, one_mul, add_zero, show 2 * Real.pi * 2 * ((i : ℝ) / 8) = i * (Real.pi / 2) by ring]
  have hs : (√2 : ℝ) ^ 2 = 2 := Real.sq_sqrt (by norm_num)
  have c2 : Real.cos (2 * (Real.pi / 2)) = -1 := by rw [mul_div_cancel₀ _ (by norm_num), Real.cos_pi]
  have c1 : ∀ j : Nat, Real.cos ((4 * j + 1 : ℝ) * (Real.pi / 2)) = 0 := by
    intro j
    rw [show (4 * j + 1 : ℝ) * (Real.pi / 2) = Real.pi / 2 + j * (2 * Real.pi) by ring,
      Real.cos_add_nat_mul_two_pi, Real.cos_pi_div_two]
  have c0 : ∀ j : Nat, Real.cos ((4 * j : ℝ) * (Real.pi / 2)) = 1 := by
    intro j
    rw [show (4 * j : ℝ) * (Real.pi / 2) = 0 + j * (2 * Real.pi) by ring,
      Real.cos_add_nat_mul_two_pi, Real.cos_zero]
  have c2 : ∀ j : Nat, Real.cos ((4 * j + 2 : ℝ) * (Real.pi / 2)) = -1 := by
    intro j
    rw [show (4 * j + 2 : ℝ) * (Real.pi / 2) = Real.pi + j * (2 * Real.pi) by ring,
      Real.cos_add_nat_mul_two_pi, Real.cos_pi]
  have c3 : ∀ j : Nat, Real.cos ((4 * j + 3 : ℝ) * (Real.pi / 2)) = 0 := by
    intro j
    rw [show (4 * j + 3 : ℝ) * (Real.pi / 2) = Real.pi / 2 + Real.pi + j * (2 * Real.pi) by ring,
      Real.cos_add_nat_mul_two_pi, Real.cos_add_pi, Real.cos_pi_div_two, neg_zero]
  have d0 := c0 0
  have d1 := c1 0
  have d2 := c2 0
  have d3 := c3 0
  have d4 := c0 1
  have d5 := c1 1
  have d6 := c2 1
  have d7 := c3 1
  have d8 := c0 2
  have d9 := c1 2
  have d10 := c2 2
  have d11 := c3 2
  norm_num at d0 d1 d2 d3 d4 d5 d6 d7 d8 d9 d10 d11
  simp only [List.map_map, List.range_succ, List.range_zero, List.nil_append, List.cons_append, List.map_cons,
    List.map_nil, Function.comp, List.sum_cons, List.sum_nil, add_zero, hw, exSound]
  norm_num [d1, d2, d3, d4, d5, d6, d7, d8, d9, d10, d11, hs, div_pow]
  have e4 : (√2 : ℝ) ^ 4 = 4 := by
    rw [show (√2 : ℝ) ^ 4 = (√2 ^ 2) ^ 2 by ring, hs]; norm_num
  have e3 : (√2 : ℝ) ^ 3 = 2 * √2 := by
    rw [show (√2 : ℝ) ^ 3 = √2 ^ 2 * √2 by ring, hs]
  have e5 : (√2 : ℝ) ^ 5 = 4 * √2 := by
    rw [show (√2 : ℝ) ^ 5 = √2 ^ 4 * √2 by ring, e4]
  rw [e3, e4, e5]
  norm_num
  constructor <;> ring

/-- The mode is resynthesised (12 samples, 8 per second) and analysed, in both directions and with both
trackers: one mode at 2 Hz is found, with the decay time `1 / ln 2`. -/
example (tol : ℝ) (sort : List (Peak ℝ) → List Nat) (hsort : ∀ peaks, IsArgsort peaks (sort peaks))
    (solve : (Hinge.Coeffs ℝ → List ℝ) → Hinge.Coeffs ℝ → Hinge.Coeffs ℝ → Hinge.Coeffs ℝ →
      Except PyErr (Hinge.Coeffs ℝ)) (hmin : SolverMin solve)
    (argsort : List ℝ → List Nat) (hasort : ∀ keys, IsArgsortAsc keys (argsort keys)) (draw : Nat → List ℝ)
    (m : Sms.Model ℝ) (rev modal : Bool) (hm : m.params = exSimilar rev modal) :
    ∃ x m' a, (Fitted.mk [2] [1 / Real.log 2] [1] none).predict argsort draw
        ((List.range 12).map fun (i : Nat) => (i : ℝ) / 8) none "energies" true (.arr [0]) false = .ok (.real x) ∧
      fit (spectrum tol) sort (hingeRegressor solve) npMean false (some 0) [] m x =
        some (.ok (m', [[some 2], [some (1 / Real.log 2)], [some a]])) := by
  have hl2 : 0 < Real.log 2 := Real.log_pos (by norm_num)
  have hs : 0 < √2 / 2 := by positivity
  obtain ⟨x, hx, hxl, h⟩ := C127_roundtrip tol sort hsort solve hmin argsort hasort draw [exMode] none none .energies
    true 1 12 (by simp) m (1 / Real.log 2) _ hm.symm (by positivity) (by
      intro e he
      rw [List.mem_singleton] at he
      subst he
      exact ⟨rfl, 1, by norm_num [exMode, exSimilar]⟩)
  obtain ⟨best, rest, b1, b2, _, b4, _⟩ := C24_predict_audio argsort draw hasort .energies true [exMode]
    (by simp [exMode]; norm_num) none none 1 (by simp) ((List.range 12).map fun (i : Nat) => (i : ℝ) / 8)
  have hbest : best = [exMode] := by
    have hl : rest = [] := by
      have := b1.length_eq
      simp at this b2
      exact List.length_eq_zero_iff.1 (by omega)
    subst hl
    rw [List.append_nil] at b1
    exact List.perm_singleton.1 b1
  have hfs : (exSimilar rev modal).tracker.fs = 8 := rfl
  rw [hfs] at hx
  have hxe : x = exSound (√2 / 2) := by
    rw [b4, hbest, exMode_sound] at hx
    simp only [Except.ok.injEq, Audio.real.injEq] at hx
    exact hx.symm
  subst hxe
  obtain ⟨v1, v2, v3⟩ := exSound_values _ hs rev modal
  have hlow := exSound_low _ hs
  have hc : (1 / 2 : ℝ) = Real.exp (-(2 * (((exSimilar rev modal).hop : Nat) : ℝ)) /
      (1 / Real.log 2 * (exSimilar rev modal).tracker.fs)) := by
    have : -(2 * (((exSimilar rev modal).hop : Nat) : ℝ)) / (1 / Real.log 2 * (exSimilar rev modal).tracker.fs) =
        -Real.log 2 := by
      simp only [exSimilar]
      push_cast
      field_simp
      norm_num
    rw [this, Real.exp_neg, Real.exp_log (by norm_num)]
    norm_num
  obtain ⟨m', B, D, a, h1, h2, h3, _, h5⟩ := h (1 / 2) hc (exSound_decaying _ hs rev modal).toClear _ rfl 3
    (by norm_num [exSimilar])
  have hf : refinedFreq (firstSpectrum (exSimilar rev modal) (exSound (√2 / 2))) (exSimilar rev modal).tracker.fs
      (exSimilar rev modal).n 2 = 2 := by
    unfold refinedFreq vertexPlace
    rw [show 2 - 1 = 1 from rfl, show 2 + 1 = 3 from rfl, v1, v3]
    norm_num [exSimilar]
  have hl : refinedLevel (firstSpectrum (exSimilar rev modal) (exSound (√2 / 2))) 2 = dB ((1 + √2 / 2) / 4) := by
    unfold refinedLevel vertexHeight
    rw [show 2 - 1 = 1 from rfl, show 2 + 1 = 3 from rfl, v1, v3, v2]
    norm_num
  have hB : B = [(2, 3)] := by
    apply List.perm_singleton.1
    rw [List.perm_ext_iff_of_nodup h1 (List.nodup_singleton _)]
    intro e
    rw [h2, List.mem_singleton]
    constructor
    · rintro ⟨e1, e2, e3, _, _⟩
      rw [exSound_peak _ hs] at e1
      have : 2 < e.2 := by
        rw [e3 2 (by norm_num), e1, v2]
        have := hlow 2 (le_refl _)
        simp only [exSimilar]
        linarith
      exact Prod.ext e1 (by omega)
    · rintro rfl
      refine ⟨(exSound_peak _ hs _ _ _).2 rfl, le_refl _, ?_, ?_, ?_⟩
      · intro e he
        rw [v2]
        have := hlow e (by omega)
        constructor
        · intro _
          simp only [exSimilar]
          linarith
        · intro _; exact he
      · simp [exSimilar]
      · intro _
        rw [hf, hl]
        refine ⟨?_, ?_, ?_⟩
        · intro lo h; simp [exSimilar] at h; linarith
        · intro hi h; simp [exSimilar] at h
        · have := hlow 0 (by norm_num)
          simp only [exSimilar]
          rw [Nat.cast_zero, zero_mul, add_zero] at this
          linarith
  obtain ⟨_, h6⟩ := h5 (2, 3) (by rw [hB]; simp)
  refine ⟨_, m', a (2, 3), hx, ?_⟩
  rw [h3, hB]
  simp only [List.map_cons, List.map_nil, (h6 (le_refl _)).1, hf]

end Verif.Sample
