import Mathlib.Analysis.SpecialFunctions.ImproperIntegrals
import Mathlib.Tactic.Positivity
import Verif.Sample.Props
import Verif.Sample.SynthModel

/-!
# Properties of `SAMPLE` over the real numbers (C21, C23, C24, C25)
-/

set_option autoImplicit false
set_option linter.unusedSectionVars false
set_option linter.unusedSimpArgs false

namespace Verif.Sample

open Verif.Dsp MeasureTheory

/-! ## C21 -/

theorem d2kConst_eq : d2kConst = -40 / Real.log 10 := by
  simp [d2kConst, Real.logb]; ring

/-- C21: the reported decay and amplitude describe the fitted line of the magnitudes. -/
theorem C21_line (reg : List ℝ → List (Option ℝ) → Except PyErr (ℝ × ℝ))
    (freqReduce : List (Option ℝ) → Option ℝ) (tr : PreTrack ℝ) (k q : ℝ)
    (hreg : reg tr.time tr.mag = .ok (k, q)) (hk : k ≠ 0) :
    ∃ d a : ℝ, fitTrack reg freqReduce tr = .ok [[freqReduce tr.freq, some d, some a]] ∧
      0 < a ∧ d ≠ 0 ∧ (0 < d ↔ k < 0) ∧
      ∀ t : ℝ, 20 * Real.logb 10 (a * Real.exp (-2 * t / d)) = k * t + q := by
  have hlog : 0 < Real.log 10 := Real.log_pos (by norm_num)
  have hd : d2kConst / k ≠ 0 := by
    rw [d2kConst_eq]
    exact div_ne_zero (div_ne_zero (by norm_num) hlog.ne') hk
  refine ⟨d2kConst / k, db2a q, by simp [fitTrack, hreg, slopeToDecay, hk],
    Real.rpow_pos_of_pos (by norm_num) _, hd, ?_, ?_⟩
  · have : d2kConst < 0 := by
      rw [d2kConst_eq]; exact div_neg_of_neg_of_pos (by norm_num) hlog
    constructor
    · intro h
      rcases div_pos_iff.1 h with ⟨h1, _⟩ | ⟨_, h2⟩
      · linarith
      · exact h2
    · intro h; exact div_pos_of_neg_of_neg this h
  · intro t
    rw [db2a, Real.logb_mul (Real.rpow_pos_of_pos (by norm_num) _).ne' (Real.exp_pos _).ne',
      Real.logb_rpow (by norm_num) (by norm_num), Real.logb, Real.log_exp, d2kConst_eq]
    field_simp
    ring

/-- C21: a flat track gives no decay (and its column is dropped, `C22_finite_columns`). -/
theorem C21_flat (reg : List ℝ → List (Option ℝ) → Except PyErr (ℝ × ℝ))
    (freqReduce : List (Option ℝ) → Option ℝ) (tr : PreTrack ℝ) (q : ℝ)
    (hreg : reg tr.time tr.mag = .ok (0, q)) :
    ∃ f a, fitTrack reg freqReduce tr = .ok [[f, none, a]] := by
  exact ⟨freqReduce tr.freq, some (db2a q), by simp only [fitTrack, hreg, slopeToDecay, if_true]⟩

example : ∃ d a : ℝ, fitTrack (fun _ _ => .ok (-60, -6)) (fun _ => some 440)
      ⟨[0, 1], [some 440, some 440], [some (-6), some (-66)], [some 0, some 0]⟩ =
        .ok [[some 440, some d, some a]] ∧
    20 * Real.logb 10 (a * Real.exp (-2 * (1 / 2) / d)) = -36 := by
  obtain ⟨d, a, h1, _, _, _, h2⟩ := C21_line (fun _ _ => .ok (-60, -6)) (fun _ => some 440)
    ⟨[0, 1], [some 440, some 440], [some (-6), some (-66)], [some 0, some 0]⟩ (-60) (-6) rfl
    (by norm_num)
  exact ⟨d, a, h1, by rw [h2]; norm_num⟩

/-! ## C23 -/

/-- C23: the energy of every mode is the integral of its squared envelope. -/
theorem C23_energy (s : Fitted ℝ) (i : Nat) (a d : ℝ) (ha : s.amps[i]? = some a)
    (hd : s.decays[i]? = some d) (hpos : 0 < d) :
    IntegrableOn (fun t : ℝ => (a * Real.exp (-2 * t / d)) ^ 2) (Set.Ioi 0) ∧
      ∃ e, s.energies[i]? = some e ∧ e = ∫ t in Set.Ioi (0 : ℝ), (a * Real.exp (-2 * t / d)) ^ 2 ∧
        0 ≤ e := by
  have hneg : -4 / d < 0 := div_neg_of_neg_of_pos (by norm_num) hpos
  have e : (fun t : ℝ => (a * Real.exp (-2 * t / d)) ^ 2) =
      fun t => a ^ 2 * Real.exp (-4 / d * t) := by
    funext t
    rw [mul_pow, ← Real.exp_nat_mul]
    congr 2
    push_cast; ring
  refine ⟨?_, modalEnergy a d, ?_, ?_, ?_⟩
  · rw [e]; exact (integrableOn_exp_mul_Ioi hneg 0).const_mul _
  · simp [Fitted.energies, List.getElem?_zipWith, ha, hd]
  · rw [e, integral_const_mul, integral_exp_mul_Ioi hneg 0, modalEnergy]
    field_simp
    simp
  · rw [modalEnergy]; positivity

/-- There is one energy per mode. -/
theorem C23_length (s : Fitted ℝ) (h : s.decays.length = s.amps.length) :
    s.energies.length = s.amps.length := by
  simp [Fitted.energies, h]

example : (∫ t in Set.Ioi (0 : ℝ), (3 * Real.exp (-2 * t / 2)) ^ 2) = 9 / 2 := by
  obtain ⟨_, e, h1, h2, _⟩ := C23_energy ⟨[440], [2], [3], none⟩ 0 3 2 rfl rfl (by norm_num)
  rw [← h2]
  simp [Fitted.energies, modalEnergy] at h1
  rw [← h1]; norm_num

/-! ## C25 -/

theorem broadcastTo_self {α : Type*} (l : List α) : broadcastTo l.length l = .ok l := by
  simp [broadcastTo]

/-- The general form: any oscillator, phases given by an array (or zero). -/
theorem synth_sum {R : Type*} [CommSemiring R] (emb osc : ℝ → R) (draw : Nat → List ℝ)
    (x : List ℝ) (ms : List (Mode ℝ)) (hd : ∀ m ∈ ms, m.d ≠ 0) (ph : Phases)
    (hph : ph = .arr (ms.map (·.φ)) ∨ (ph = .none ∧ ∀ m ∈ ms, m.φ = 0) ∨
      (ph = .str "random" ∧ draw ms.length = ms.map (·.φ))) :
    synth emb osc draw x (ms.map (·.f)) (ms.map (·.d)) (ms.map (·.a)) ph =
      .ok (x.map fun t => (ms.map fun m => emb m.a * emb (Real.exp (-2 * t / m.d)) *
        osc (2 * Real.pi * m.f * t + m.φ)).sum) := by
  have hrow : ∃ p, resolvePhases draw ms.length ph = .ok p ∧ ∀ t,
      phaseRow (ms.map (·.f)) p t = ms.map fun m => 2 * Real.pi * m.f * t + m.φ := by
    rcases hph with rfl | ⟨rfl, h0⟩ | ⟨rfl, h0⟩
    · refine ⟨some (ms.map (·.φ)), by simp [resolvePhases, broadcastTo], fun t => ?_⟩
      simp only [phaseRow, List.map_map, List.zipWith_map]
      rw [List.zipWith_self]
      apply List.map_congr_left
      intro m _
      simp only [Function.comp_apply]
      ring
    · refine ⟨none, rfl, fun t => ?_⟩
      simp only [phaseRow, List.map_map]
      apply List.map_congr_left
      intro m hm
      simp only [Function.comp_apply, h0 m hm]
      ring
    · refine ⟨some (ms.map (·.φ)), by simp [resolvePhases, broadcastTo, h0], fun t => ?_⟩
      simp only [phaseRow, List.map_map, List.zipWith_map]
      rw [List.zipWith_self]
      apply List.map_congr_left
      intro m _
      simp only [Function.comp_apply]
      ring
  obtain ⟨p, hp, hr⟩ := hrow
  have h0 : (0 : ℝ) ∉ ms.map (·.d) := by
    intro h
    obtain ⟨m, h1, h2⟩ := List.mem_map.1 h
    exact hd m h1 h2
  simp only [synth, List.length_map, hp, broadcastSize, if_true, ne_eq, not_true, if_false, h0]
  congr 1
  apply List.map_congr_left
  intro t _
  simp only [synthSample, hr, List.map_map, spread, List.length_map, if_true, List.zipWith_map]
  rw [List.zipWith_self, List.zipWith_map, List.zipWith_self]
  congr 1
  apply List.map_congr_left
  intro m _
  simp only [Function.comp_apply]
  rw [show t * (-2 / m.d) = -2 * t / m.d by ring]
  ring

/-- C25: the output is the sum of the damped sinusoids of the modes, at every time; the analytic
output is the sum of the complex exponentials.  Without phases the phases are zero, random phases
are the drawn ones. -/
theorem C25_sum (draw : Nat → List ℝ) (x : List ℝ) (ms : List (Mode ℝ))
    (hd : ∀ m ∈ ms, m.d ≠ 0) (ph : Phases)
    (hph : ph = .arr (ms.map (·.φ)) ∨ (ph = .none ∧ ∀ m ∈ ms, m.φ = 0) ∨
      (ph = .str "random" ∧ draw ms.length = ms.map (·.φ))) :
    additiveSynth draw x (ms.map (·.f)) (ms.map (·.d)) (ms.map (·.a)) ph false =
        .ok (.real (x.map fun t => (ms.map fun m => m.wave t).sum)) ∧
      additiveSynth draw x (ms.map (·.f)) (ms.map (·.d)) (ms.map (·.a)) ph true =
        .ok (.complex (x.map fun t => (ms.map fun m => m.cwave t).sum)) := by
  constructor
  · simp only [additiveSynth, Bool.false_eq_true, if_false,
      synth_sum id Real.cos draw x ms hd ph hph]
    simp only [id, Mode.wave]
  · simp only [additiveSynth, if_true,
      synth_sum (fun r => (r : ℂ)) expi draw x ms hd ph hph]
    congr 2
    apply List.map_congr_left
    intro t _
    congr 1
    apply List.map_congr_left
    intro m _
    simp only [Mode.cwave, expi]
    rw [Complex.ofReal_mul, mul_comm Complex.I]

/-- C25: additive in the list of modes, homogeneous in the amplitudes, invariant under reordering,
bounded; the analytic output has the plain output as real part. -/
theorem C25_laws (draw : Nat → List ℝ) (x : List ℝ) (ms : List (Mode ℝ))
    (hd : ∀ m ∈ ms, m.d ≠ 0) :
    ∃ out, additiveSynth draw x (ms.map (·.f)) (ms.map (·.d)) (ms.map (·.a)) (.arr (ms.map (·.φ)))
        false = .ok (.real out) ∧ out.length = x.length ∧
      (∀ ms' : List (Mode ℝ), (∀ m ∈ ms', m.d ≠ 0) → ∃ out' out'',
        additiveSynth draw x (ms'.map (·.f)) (ms'.map (·.d)) (ms'.map (·.a))
          (.arr (ms'.map (·.φ))) false = .ok (.real out') ∧
        additiveSynth draw x ((ms ++ ms').map (·.f)) ((ms ++ ms').map (·.d))
          ((ms ++ ms').map (·.a)) (.arr ((ms ++ ms').map (·.φ))) false = .ok (.real out'') ∧
        out'' = List.zipWith (· + ·) out out') ∧
      (∀ c : ℝ, additiveSynth draw x (ms.map (·.f)) (ms.map (·.d)) (ms.map fun m => c * m.a)
        (.arr (ms.map (·.φ))) false = .ok (.real (out.map (c * ·)))) ∧
      (∀ ms' : List (Mode ℝ), ms'.Perm ms → additiveSynth draw x (ms'.map (·.f)) (ms'.map (·.d))
        (ms'.map (·.a)) (.arr (ms'.map (·.φ))) false = .ok (.real out)) ∧
      ((∀ t ∈ x, 0 ≤ t) → (∀ m ∈ ms, 0 < m.d) →
        ∀ y ∈ out, |y| ≤ (ms.map fun m => |m.a|).sum) ∧
      ∃ z, additiveSynth draw x (ms.map (·.f)) (ms.map (·.d)) (ms.map (·.a)) (.arr (ms.map (·.φ)))
        true = .ok (.complex z) ∧ z.map Complex.re = out := by
  have hS := C25_sum draw x ms hd (.arr (ms.map (·.φ))) (.inl rfl)
  refine ⟨_, hS.1, by simp, ?_, ?_, ?_, ?_, _, hS.2, ?_⟩
  · intro ms' hd'
    refine ⟨_, _, (C25_sum draw x ms' hd' _ (.inl rfl)).1, (C25_sum draw x (ms ++ ms') (by
      intro m hm
      rcases List.mem_append.1 hm with h | h
      · exact hd m h
      · exact hd' m h) _ (.inl rfl)).1, ?_⟩
    rw [List.zipWith_map, List.zipWith_self]
    simp
  · intro c
    have h := (C25_sum draw x (ms.map fun m => { m with a := c * m.a }) (by
      intro m hm
      obtain ⟨m', h1, rfl⟩ := List.mem_map.1 hm
      exact hd m' h1) _ (.inl rfl)).1
    simp only [List.map_map, Function.comp_def] at h
    rw [h]
    congr 2
    rw [List.map_map]
    apply List.map_congr_left
    intro t _
    simp only [Function.comp_apply]
    rw [← List.sum_map_mul_left]
    congr 1
    apply List.map_congr_left
    intro m _
    simp only [Mode.wave]
    ring
  · intro ms' hp
    rw [(C25_sum draw x ms' (fun m hm => hd m (hp.mem_iff.1 hm)) _ (.inl rfl)).1]
    congr 2
    apply List.map_congr_left
    intro t _
    exact (hp.map _).sum_eq
  · intro ht hpos y hy
    obtain ⟨t, h1, rfl⟩ := List.mem_map.1 hy
    have h0 := ht t h1
    clear hS hd hy
    induction ms with
    | nil => simp
    | cons m ms ih =>
      simp only [List.map_cons, List.sum_cons]
      refine (abs_add_le _ _).trans (add_le_add ?_ (ih (fun m' hm' => hpos m' (by simp [hm']))))
      have hm := hpos m (by simp)
      have e1 : Real.exp (-2 * t / m.d) ≤ 1 := by
        rw [Real.exp_le_one_iff]
        exact div_nonpos_of_nonpos_of_nonneg (by linarith) hm.le
      rw [Mode.wave, abs_mul, abs_mul, abs_of_pos (Real.exp_pos _)]
      calc |m.a| * Real.exp (-2 * t / m.d) * |Real.cos (2 * Real.pi * m.f * t + m.φ)|
          ≤ |m.a| * 1 * 1 := by
            apply mul_le_mul (mul_le_mul_of_nonneg_left e1 (abs_nonneg _)) (Real.abs_cos_le_one _)
              (abs_nonneg _) (by simp)
        _ = |m.a| := by ring
  · rw [List.map_map]
    apply List.map_congr_left
    intro t _
    simp only [Function.comp_apply]
    clear hS hd
    induction ms with
    | nil => simp
    | cons m ms ih =>
      simp only [List.map_cons, List.sum_cons, Complex.add_re, ih]
      congr 1
      rw [Mode.cwave, Mode.wave, Complex.re_ofReal_mul, Complex.exp_ofReal_mul_I_re]

/-- C25, error cases: an unsupported phase option; arrays of incompatible sizes. -/
theorem C25_errors (draw : Nat → List ℝ) (x freqs decays amps : List ℝ) (analytic : Bool) :
    (∀ s, s ≠ "random" →
      additiveSynth draw x freqs decays amps (.str s) analytic = .error .valueError) ∧
    (∀ p : List ℝ, p.length ≠ freqs.length → p.length ≠ 1 →
      additiveSynth draw x freqs decays amps (.arr p) analytic = .error .valueError) ∧
    (freqs.length = decays.length → amps.length ≠ freqs.length →
      additiveSynth draw x freqs decays amps .none analytic = .error .valueError) := by
  refine ⟨?_, ?_, ?_⟩
  · intro s hs
    cases analytic <;> simp [additiveSynth, synth, resolvePhases, hs]
  · intro p h1 h2
    have : broadcastTo freqs.length p = .error .valueError := by
      unfold broadcastTo
      rw [if_neg h1]
      match p, h2 with
      | [], _ => rfl
      | [_], h => exact absurd rfl h
      | _ :: _ :: _, _ => rfl
    cases analytic <;> simp [additiveSynth, synth, resolvePhases, this]
  · intro h1 h2
    cases analytic <;> simp [additiveSynth, synth, resolvePhases, broadcastSize, ← h1, h2]

/-- C24 and C25: the resynthesis is the sum of the sinusoids of the best modes. -/
theorem C24_predict_audio (argsort : List ℝ → List Nat) (draw : Nat → List ℝ)
    (hsort : ∀ keys, IsArgsortAsc keys (argsort keys)) (key : Feature) (reverse : Bool)
    (ms : List (Mode ℝ)) (hd : ∀ m ∈ ms, m.d ≠ 0) (mx nModes : Option Int) (n : Nat)
    (hn : nModes = some (n : Int) ∨ nModes = none ∧ mx = some (n : Int) ∨
      nModes = none ∧ mx = none ∧ n = ms.length) (x : List ℝ) :
    ∃ best rest : List (Mode ℝ), (best ++ rest).Perm ms ∧ best.length = min n ms.length ∧
      Best key reverse best rest ∧
      (Fitted.mk (ms.map (·.f)) (ms.map (·.d)) (ms.map (·.a)) mx).predict argsort draw x nModes
          key.name reverse (.arr (ms.map (·.φ))) false =
        .ok (.real (x.map fun t => (best.map fun m => m.wave t).sum)) ∧
      ((∀ m ∈ ms, m.φ = 0) →
        (Fitted.mk (ms.map (·.f)) (ms.map (·.d)) (ms.map (·.a)) mx).predict argsort draw x nModes
            key.name reverse .none false =
          .ok (.real (x.map fun t => (best.map fun m => m.wave t).sum))) := by
  obtain ⟨best, rest, h1, h2, h3, h4⟩ := C24_best_modes argsort hsort key reverse ms mx nModes n hn
  have hmem : ∀ m ∈ best, m ∈ ms := fun m hm => h1.mem_iff.1 (by simp [hm])
  have hd' : ∀ m ∈ best, m.d ≠ 0 := fun m hm => hd m (hmem m hm)
  refine ⟨best, rest, h1, h2, h3, ?_, ?_⟩
  · have := h4 (some (ms.map (·.φ))) (.inl rfl)
    simp only [Fitted.predict, this, reduceCtorEq, if_false, Option.getD_some]
    exact (C25_sum draw x best hd' _ (.inl rfl)).1
  · intro h0
    have := h4 none (.inr rfl)
    simp only [Fitted.predict, this, if_true]
    exact (C25_sum draw x best hd' _ (.inr (.inl ⟨rfl, fun m hm => h0 m (hmem m hm)⟩))).1

/-- Two modes at time zero: the sum of the amplitudes. -/
example : additiveSynth (fun _ => []) [0] [440, 220] [1, 2] [3, 4] .none false =
    .ok (.real [7]) := by
  have := (C25_sum (fun _ => []) [0] [⟨440, 1, 3, 0⟩, ⟨220, 2, 4, 0⟩] (by simp) .none
    (.inr (.inl ⟨rfl, by simp⟩))).1
  simp only [List.map_cons, List.map_nil] at this
  rw [this]
  simp [Mode.wave]
  norm_num

end Verif.Sample
