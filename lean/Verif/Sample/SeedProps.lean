import Verif.Sample.SeedModel
import Verif.Sample.SynthProps
import Verif.Optimize.Model

/-!
# Random phases: seeds and generators (C153)
-/

set_option autoImplicit false
set_option linter.unusedSectionVars false
set_option linter.unusedSimpArgs false

namespace Verif.Sample

/-! ## Specification -/

/-- The `j`-th number that a generator in state `s` gives. -/
def RngLib.stream {σ : Type} (L : RngLib σ) (s : σ) (j : Nat) : ℝ := L.unit (L.next^[j] s)

/-- The sum of the damped sinusoids of modes, the `j`-th one with the phase `2 π u j`. -/
noncomputable def waves (ms : List (Mode ℝ)) (u : Nat → ℝ) (t : ℝ) : ℝ :=
  (ms.mapIdx fun j m =>
    m.a * Real.exp (-2 * t / m.d) * Real.cos (2 * Real.pi * m.f * t + 2 * Real.pi * u j)).sum

/-! ## Lemmas -/

variable {σ : Type} (L : RngLib σ)

theorem uniform_eq (lo hi : ℝ) (n : Nat) (s : σ) :
    L.uniform lo hi n s =
      ((List.range n).map fun j => lo + (hi - lo) * L.stream s j, L.next^[n] s) := by
  induction n generalizing s with
  | zero => rfl
  | succ n ih =>
    simp only [RngLib.uniform, ih]
    rw [List.range_succ_eq_map]
    simp [RngLib.stream, Function.comp_def]

/-- Modes with the drawn phases. -/
noncomputable def phased (ms : List (Mode ℝ)) (u : Nat → ℝ) : List (Mode ℝ) :=
  ms.mapIdx fun j m => { m with φ := 2 * Real.pi * u j }

theorem phased_map (g : Mode ℝ → ℝ) (hg : ∀ m p, g { m with φ := p } = g m)
    (ms : List (Mode ℝ)) (u : Nat → ℝ) : (phased ms u).map g = ms.map g := by
  apply List.ext_getElem
  · simp [phased]
  · intro i h1 h2
    simp [phased, hg]

theorem phased_phi (ms : List (Mode ℝ)) (u : Nat → ℝ) :
    (phased ms u).map (·.φ) = (List.range ms.length).map fun j => 2 * Real.pi * u j := by
  apply List.ext_getElem
  · simp [phased]
  · intro i h1 h2
    simp [phased]

theorem phased_ne (ms : List (Mode ℝ)) (u : Nat → ℝ) (hd : ∀ m ∈ ms, m.d ≠ 0) :
    ∀ m ∈ phased ms u, m.d ≠ 0 := by
  intro m hm
  obtain ⟨i, h, rfl⟩ := List.mem_mapIdx.1 hm
  exact hd ms[i] (List.getElem_mem h)

theorem waves_eq (ms : List (Mode ℝ)) (u : Nat → ℝ) (t : ℝ) :
    ((phased ms u).map fun m => m.wave t).sum = waves ms u t := by
  congr 1
  apply List.ext_getElem
  · simp [phased]
  · intro i h1 h2
    simp [phased, Mode.wave]

/-- Synthesis with random phases drawn in state `s`. -/
theorem synth_random (s : σ) (x : List ℝ) (ms : List (Mode ℝ)) (hd : ∀ m ∈ ms, m.d ≠ 0) :
    additiveSynth (fun _ => (L.uniform 0 (2 * Real.pi) ms.length s).1) x (ms.map (·.f))
        (ms.map (·.d)) (ms.map (·.a)) (.str "random") false =
      .ok (.real (x.map fun t => waves ms (L.stream s) t)) := by
  have h := (C25_sum (fun _ => (L.uniform 0 (2 * Real.pi) ms.length s).1) x
    (phased ms (L.stream s)) (phased_ne ms _ hd) (.str "random") (.inr (.inr ⟨rfl, by
      rw [phased_phi, uniform_eq]; simp⟩))).1
  rw [phased_map (·.f) (fun _ _ => rfl), phased_map (·.d) (fun _ _ => rfl),
    phased_map (·.a) (fun _ _ => rfl)] at h
  rw [h]
  simp only [waves_eq]

/-! ## C153 -/

/-- C153: whenever phases are drawn, they are as many as asked for, at least 0 and less than
`2 π`. -/
theorem C153_phases (h01 : ∀ s, 0 ≤ L.unit s ∧ L.unit s < 1) (entropy : σ) (n : Nat)
    (kw : PhaseKw σ) (p : List ℝ) (s' : Option σ)
    (h : randomPhases L entropy n kw = .ok (p, s')) :
    p.length = n ∧ ∀ v ∈ p, 0 ≤ v ∧ v < 2 * Real.pi := by
  have key : ∃ s, p = (L.uniform 0 (2 * Real.pi) n s).1 := by
    unfold randomPhases at h
    by_cases h1 : kw.other = []
    · simp only [h1, ne_eq, not_true_eq_false, if_false] at h
      cases h2 : kw.rng with
      | some s =>
        simp only [h2, Except.ok.injEq, Prod.mk.injEq] at h
        exact ⟨s, h.1.symm⟩
      | none =>
        simp only [h2] at h
        cases h3 : kw.seed with
        | none =>
          simp only [h3, Except.ok.injEq, Prod.mk.injEq] at h
          exact ⟨_, h.1.symm⟩
        | some k =>
          simp only [h3] at h
          by_cases h4 : k < 0
          · simp [h4] at h
          · simp only [h4, if_false, Except.ok.injEq, Prod.mk.injEq] at h
            exact ⟨_, h.1.symm⟩
    · simp [h1] at h
  obtain ⟨s, rfl⟩ := key
  rw [uniform_eq]
  refine ⟨by simp, ?_⟩
  intro v hv
  obtain ⟨j, _, rfl⟩ := List.mem_map.1 hv
  obtain ⟨h1, h2⟩ := h01 (L.next^[j] s)
  have hpi := Real.pi_pos
  simp only [RngLib.stream]
  constructor
  · nlinarith [mul_nonneg hpi.le h1]
  · nlinarith [mul_lt_mul_of_pos_left h2 hpi]

/-- C153.  There is one ranking of the modes by the feature, such that, whatever the number of modes
and the time axis: with a seed the output is the sum of the first modes of the ranking, the `j`-th
one with `2 π` times the `j`-th number of the seed's generator as phase, whatever the entropy of the
system; with a generator it is the same with the numbers that the generator gives next, the seed is
ignored, and the generator moves on by as many numbers as there are modes; with neither the phases
are those of the entropy. -/
theorem C153_predict (argsort : List ℝ → List Nat)
    (hsort : ∀ keys, IsArgsortAsc keys (argsort keys)) (key : Feature) (reverse : Bool)
    (ms : List (Mode ℝ)) (hd : ∀ m ∈ ms, m.d ≠ 0) (mx : Option Int) :
    ∃ ranked : List (Mode ℝ), ranked.Perm ms ∧
      (ranked.Pairwise fun m m' =>
        if reverse then key.val m' ≤ key.val m else key.val m ≤ key.val m') ∧
      ∀ (nModes : Option Int) (n : Nat),
        (nModes = some (n : Int) ∨ nModes = none ∧ mx = some (n : Int) ∨
          nModes = none ∧ mx = none ∧ n = ms.length) →
        ∀ (entropy : σ) (x : List ℝ),
          (∀ k : Nat, (Fitted.mk (ms.map (·.f)) (ms.map (·.d)) (ms.map (·.a)) mx).predictKw L entropy
              argsort x nModes key.name reverse (.str "random") false ⟨some k, none, []⟩ =
            (.ok (.real (x.map fun t => waves (ranked.take n) (L.stream (L.seeded k)) t)), none)) ∧
          (∀ (seed : Option Int) (s : σ),
            (Fitted.mk (ms.map (·.f)) (ms.map (·.d)) (ms.map (·.a)) mx).predictKw L entropy
              argsort x nModes key.name reverse (.str "random") false ⟨seed, some s, []⟩ =
            (.ok (.real (x.map fun t => waves (ranked.take n) (L.stream s) t)),
              some (L.next^[min n ms.length] s))) ∧
          (Fitted.mk (ms.map (·.f)) (ms.map (·.d)) (ms.map (·.a)) mx).predictKw L entropy
              argsort x nModes key.name reverse (.str "random") false ⟨none, none, []⟩ =
            (.ok (.real (x.map fun t => waves (ranked.take n) (L.stream entropy) t)), none) := by
  obtain ⟨os, h1, h2, h3⟩ := predictArgs_ofModes argsort hsort key reverse ms mx
  refine ⟨os, h1, h2, ?_⟩
  intro nModes n hn entropy x
  obtain ⟨_, h5⟩ := h3 nModes (n : Int)
    (by rcases hn with h | ⟨h, h'⟩ | ⟨h, h', h''⟩ <;> simp [*])
  simp only [Int.natCast_nonneg, if_true, Int.toNat_natCast] at h5
  have hd' : ∀ m ∈ os.take n, m.d ≠ 0 := fun m hm => hd m (h1.mem_iff.1 (List.mem_of_mem_take hm))
  have hl : (os.take n).length = min n ms.length := by rw [List.length_take, h1.length_eq]
  have hs := fun s => synth_random L s x (os.take n) hd'
  have hl' : ((os.take n).map (·.f)).length = (os.take n).length := List.length_map ..
  refine ⟨fun k => ?_, fun seed s => ?_, ?_⟩
  · simp only [Fitted.predictKw, h5, additiveSynthKw, if_true, randomPhases, ne_eq,
      not_true_eq_false, if_false, hl', not_lt.2 (Int.natCast_nonneg k), Int.toNat_natCast, hs]
  · simp only [Fitted.predictKw, h5, additiveSynthKw, if_true, randomPhases, ne_eq,
      not_true_eq_false, if_false, hl', hs]
    rw [uniform_eq, hl]
  · simp only [Fitted.predictKw, h5, additiveSynthKw, if_true, randomPhases, ne_eq,
      not_true_eq_false, if_false, hl', hs]

/-- C153: the first modes keep their phases when modes are added, hence the added modes only add their
own sinusoids. -/
theorem C153_waves (ms ms' : List (Mode ℝ)) (u : Nat → ℝ) (t : ℝ) :
    waves (ms ++ ms') u t = waves ms u t + waves ms' (fun j => u (ms.length + j)) t := by
  simp only [waves, List.mapIdx_append, List.sum_append, Nat.add_comm]

/-- C153: the output never exceeds the sum of the amplitudes, whatever is drawn. -/
theorem C153_bound (ms : List (Mode ℝ)) (hd : ∀ m ∈ ms, 0 < m.d) (u : Nat → ℝ) (t : ℝ)
    (ht : 0 ≤ t) : |waves ms u t| ≤ (ms.map fun m => |m.a|).sum := by
  induction ms generalizing u with
  | nil => simp [waves]
  | cons m ms ih =>
    rw [← List.singleton_append, C153_waves]
    have h := ih (fun m' hm' => hd m' (by simp [hm'])) (fun j => u ([m].length + j))
    refine (abs_add_le _ _).trans ?_
    simp only [List.map_append, List.sum_append, List.map_cons, List.map_nil, List.sum_cons,
      List.sum_nil, add_zero]
    refine add_le_add ?_ h
    have hm := hd m (by simp)
    have e1 : Real.exp (-2 * t / m.d) ≤ 1 := by
      rw [Real.exp_le_one_iff]
      exact div_nonpos_of_nonpos_of_nonneg (by linarith) hm.le
    simp only [waves, List.mapIdx_cons, List.mapIdx_nil, List.sum_cons, List.sum_nil, add_zero]
    rw [abs_mul, abs_mul, abs_of_pos (Real.exp_pos _)]
    calc |m.a| * Real.exp (-2 * t / m.d) * |Real.cos (2 * Real.pi * m.f * t + 2 * Real.pi * u 0)|
        ≤ |m.a| * 1 * 1 := by
          apply mul_le_mul (mul_le_mul_of_nonneg_left e1 (abs_nonneg _)) (Real.abs_cos_le_one _)
            (abs_nonneg _) (by simp)
      _ = |m.a| := by ring

/-- C153, the other cases, with the generator of the caller left as it was: an unknown option is a
`ValueError`, whatever the other arguments; with random phases an unknown keyword argument is a
`TypeError` and a negative seed (without a generator) a `ValueError`; without random phases all those
keyword arguments are ignored. -/
theorem C153_errors (entropy : σ) (x freqs decays amps : List ℝ) (analytic : Bool)
    (kw : PhaseKw σ) :
    (∀ s, s ≠ "random" → additiveSynthKw L entropy x freqs decays amps (.str s) analytic kw =
      (.error .valueError, kw.rng)) ∧
    (kw.other ≠ [] → additiveSynthKw L entropy x freqs decays amps (.str "random") analytic kw =
      (.error .typeError, kw.rng)) ∧
    (∀ k, kw.other = [] → kw.rng = none → kw.seed = some k → k < 0 →
      additiveSynthKw L entropy x freqs decays amps (.str "random") analytic kw =
        (.error .valueError, kw.rng)) ∧
    (∀ p, (∀ s, p ≠ .str s) → ∀ draw,
      additiveSynthKw L entropy x freqs decays amps p analytic kw =
        (additiveSynth draw x freqs decays amps p analytic, kw.rng)) := by
  refine ⟨?_, ?_, ?_, ?_⟩
  · intro s hs
    simp [additiveSynthKw, hs]
  · intro h
    simp [additiveSynthKw, randomPhases, h]
  · intro k h1 h2 h3 h4
    simp [additiveSynthKw, randomPhases, h1, h2, h3, h4]
  · intro p hp draw
    match p with
    | .none => cases analytic <;> simp [additiveSynthKw, additiveSynth, synth, resolvePhases]
    | .str s => exact absurd rfl (hp s)
    | .arr l => cases analytic <;> simp [additiveSynthKw, additiveSynth, synth, resolvePhases]

/-- A generator that gives 0 and 1/2 in turn; seed `k` starts with the parity of `k`. -/
noncomputable def exRng : RngLib Bool := ⟨fun k => k % 2 = 1, fun b => if b then 1 / 2 else 0, not⟩

/-- A mode that stays at its amplitude at time zero. -/
def exFitted : List (Mode ℝ) := [⟨0, 1, 1, 0⟩]

theorem exPredict (argsort : List ℝ → List Nat) (hsort : ∀ keys, IsArgsortAsc keys (argsort keys))
    (e : Bool) (x : List ℝ) :
    ((Fitted.mk [0] [1] [1] none).predictKw exRng e argsort x none "energies" true (.str "random")
      false ⟨none, none, []⟩).1 =
      .ok (.real (x.map fun t => Real.exp (-2 * t) * (if e then -1 else 1))) := by
  obtain ⟨r, h1, _, h3⟩ := C153_predict exRng argsort hsort .energies true exFitted
    (by simp [exFitted]) none
  have hr : r = exFitted := List.perm_singleton.1 h1
  subst hr
  have h := (h3 none 1 (.inr (.inr ⟨rfl, rfl, rfl⟩)) e x).2.2
  simp only [exFitted, List.map_cons, List.map_nil, Feature.name] at h
  rw [h]
  change Except.ok (Audio.real _) = _
  congr 2
  apply List.map_congr_left
  intro t _
  cases e
  · simp [waves, RngLib.stream, exRng]
  · simp [waves, RngLib.stream, exRng]
    rw [show 2 * Real.pi * 2⁻¹ = Real.pi by ring, Real.cos_pi]
    ring

/-- C153: without a seed the blocks of a sound do not fit together: two blocks, both at time zero,
of a mode with one constant amplitude, are 1 and -1, which is no output of one call, whatever
the entropy.  (With a seed they do, by `C153_predict`.) -/
theorem C153_unseeded (argsort : List ℝ → List Nat)
    (hsort : ∀ keys, IsArgsortAsc keys (argsort keys)) :
    let call := fun (e : Bool) (x : List ℝ) =>
      ((Fitted.mk [0] [1] [1] none).predictKw exRng e argsort x none "energies" true
        (.str "random") false ⟨none, none, []⟩).1
    ∃ e e' : Bool, call e [0] = .ok (.real [1]) ∧ call e' [0] = .ok (.real [-1]) ∧
      ∀ e'', call e'' [0, 0] ≠ .ok (.real ([1] ++ [-1])) := by
  refine ⟨false, true, ?_, ?_, ?_⟩
  · simp [exPredict argsort hsort]
  · simp [exPredict argsort hsort]
  · intro e''
    simp only [exPredict argsort hsort]
    cases e'' <;> simp <;> norm_num

/-- C153: blocks of a sound synthesised with the same seed are those of the whole sound. -/
theorem C153_blocks (argsort : List ℝ → List Nat)
    (hsort : ∀ keys, IsArgsortAsc keys (argsort keys)) (key : Feature) (reverse : Bool)
    (ms : List (Mode ℝ)) (hd : ∀ m ∈ ms, m.d ≠ 0) (mx : Option Int) (n k : Nat) (e e' e'' : σ)
    (x x' : List ℝ) :
    let call := fun (e : σ) (x : List ℝ) =>
      ((Fitted.mk (ms.map (·.f)) (ms.map (·.d)) (ms.map (·.a)) mx).predictKw L e argsort x
        (some (n : Int)) key.name reverse (.str "random") false ⟨some k, none, []⟩).1
    ∃ y y', call e x = .ok (.real y) ∧ call e' x' = .ok (.real y') ∧
      call e'' (x ++ x') = .ok (.real (y ++ y')) := by
  obtain ⟨r, _, _, h3⟩ := C153_predict L argsort hsort key reverse ms hd mx
  have h := fun e x => (h3 (some (n : Int)) n (.inl rfl) e x).1 k
  refine ⟨_, _, congrArg Prod.fst (h e x), congrArg Prod.fst (h e' x'), ?_⟩
  rw [← List.map_append]
  exact congrArg Prod.fst (h e'' (x ++ x'))

/-- Two seeds, two different outputs; the ranking, the bound and the phases on a concrete model. -/
example (argsort : List ℝ → List Nat) (hsort : ∀ keys, IsArgsortAsc keys (argsort keys)) (e : Bool) :
    (Fitted.mk [0] [1] [1] none).predictKw exRng e argsort [0] none "energies" true
      (.str "random") false ⟨some 4, none, []⟩ = (.ok (.real [1]), none) ∧
    (Fitted.mk [0] [1] [1] none).predictKw exRng e argsort [0] none "energies" true
      (.str "random") false ⟨some 3, none, []⟩ = (.ok (.real [-1]), none) ∧
    (Fitted.mk [0] [1] [1] none).predictKw exRng e argsort [0] none "energies" true
      (.str "random") false ⟨some 4, some true, []⟩ = (.ok (.real [-1]), some false) := by
  obtain ⟨r, h1, _, h3⟩ := C153_predict exRng argsort hsort .energies true exFitted
    (by simp [exFitted]) none
  have hr : r = exFitted := List.perm_singleton.1 h1
  subst hr
  obtain ⟨h4, h5, _⟩ := h3 none 1 (.inr (.inr ⟨rfl, rfl, rfl⟩)) e [0]
  have e4 := h4 4
  have e3 := h4 3
  have e5 := h5 (some 4) true
  simp only [exFitted, List.map_cons, List.map_nil, Feature.name, Nat.cast_ofNat] at e3 e4 e5
  rw [e3, e4, e5]
  have hc : Real.cos (2 * Real.pi * 2⁻¹) = -1 := by
    rw [show 2 * Real.pi * 2⁻¹ = Real.pi by ring, Real.cos_pi]
  refine ⟨?_, ?_, ?_⟩ <;> simp [waves, RngLib.stream, exRng, hc]

/-- The operations of the optimiser on a fixed fitted model; the loss is the distance of the first
samples. -/
noncomputable def exOps (argsort : List ℝ → List Nat) :
    Optimize.Ops ℝ Unit (Fitted ℝ) Bool where
  clone := id
  setParams := fun m _ => .ok m
  fit := fun m _ _ => .ok m
  predict := fun m t e =>
    match (m.predictKw exRng e argsort t none "energies" true (.str "random") false
        ⟨none, none, []⟩).1 with
    | .ok (.real y) => .ok y
    | .ok (.complex _) => .error .typeError
    | .error e => .error e
  lossFn := fun x y => .ok |x.headD 0 - y.headD 0|

/-- C153: the loss of the optimiser draws its phases without a seed
(`sample/optimize.py:165-166`), hence two evaluations at the same point may differ, whatever the
seed of the minimiser. -/
theorem C153_loss (argsort : List ℝ → List Nat)
    (hsort : ∀ keys, IsArgsortAsc keys (argsort keys)) :
    ∃ (o : Optimize.Optimizer Unit (Fitted ℝ)) (e e' : Bool),
      o.loss (exOps argsort) [1] 1 () [] [] e = .ok 0 ∧
      o.loss (exOps argsort) [1] 1 () [] [] e' = .ok 2 := by
  refine ⟨⟨⟨[0], [1], [1], none⟩, [], none, false⟩, false, true, ?_, ?_⟩
  all_goals
    simp [Optimize.Optimizer.loss, Optimize.Optimizer.configured, Optimize.Optimizer.kwargs,
      Optimize.Optimizer.compare, Optimize.mergeKw, Optimize.times, exOps, exPredict argsort hsort,
      bind, Except.bind, List.range_succ]
  norm_num

end Verif.Sample
