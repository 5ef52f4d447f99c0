import Verif.Out.Lemmas
import Verif.Out.FormulaSpec

/-!
# In-place output (C34)
-/

set_option autoImplicit false
set_option linter.unusedSectionVars false
set_option linter.unusedSimpArgs false

namespace Verif.Out

section zip
variable {A B : Type}

theorem zip_map_map (f : B → B → B) (g h : A → B) (x : List A) :
    List.zipWith f (x.map g) (x.map h) = x.map fun c => f (g c) (h c) := by
  induction x with
  | nil => rfl
  | cons a x ih => simp [ih]

end zip

/-- The body of a function with one array argument. -/
theorem computes1 {p : Prog Cell} {nt : Nat} {g : ℝ → Cell}
    (hok : ok [0] [] p = true) (har : arity 1 p = true)
    (hout : Var.out ∈ p.map Stmt.dst)
    (hdst : ∀ v ∈ p.map Stmt.dst, v = .out ∨ ∃ i, i < nt ∧ v = .tmp i)
    (hf : ∀ x : List Cell, semOut [x] p = .ok (x.map fun c => c.bind g)) :
    Computes p nt 1 [0] (pw1 g) := by
  apply computes_of_ok hok har hout hdst
  intro xs hx
  obtain ⟨x, rfl⟩ := List.length_eq_one_iff.1 hx
  exact hf x

set_option hygiene false in
macro "outfn" defs:Lean.Parser.Tactic.simpLemma,* : tactic => `(tactic| (
  refine computes1 (by simp [$defs,*, ok, un, bin]) (by simp [$defs,*, arity, un, bin])
    (by simp [$defs,*, un, bin]) (by simp [$defs,*, un, bin]) ?_
  intro x
  simp only [$defs,*, semOut, sem, un, bin, init, List.map_cons, List.map_nil, List.getD_cons_zero,
    List.map_map, zip_map_map, List.length_map, if_true, reduceCtorEq, if_false, Var.tmp.injEq,
    Function.comp_def, List.cons_append, List.nil_append]
  congr 1
  apply List.map_congr_left
  intro c _
  rcases c with _ | v
  · rfl
  simp only [Option.map_some, Option.bind_some, op2]))

theorem C34_db2a : Computes db2a 0 1 [0] (pw1 fun d => some ((10 : ℝ) ^ (d / 20))) := by
  outfn db2a

theorem C34_hz2bark_zwicker : Computes hz2barkZwicker 1 1 [0] (pw1 fun f => some (barkZ f)) := by
  outfn hz2barkZwicker
  simp [barkZ]

theorem C34_hz2bark_traunmuller : Computes hz2barkTraunmuller 1 1 [0] (pw1 barkT) := by
  outfn hz2barkTraunmuller
  unfold barkT div
  by_cases h : v = -1960
  · simp [h]
  · have : 1960 + v ≠ 0 := fun h' => h (by linarith)
    simp [h, this]

theorem C34_hz2bark_wang : Computes hz2barkWang 0 1 [0] (pw1 fun f => some (barkW f)) := by
  outfn hz2barkWang
  rfl

theorem C34_bark2hz_traunmuller : Computes bark2hzTraunmuller 1 1 [0] (pw1 hzT) := by
  outfn bark2hzTraunmuller
  unfold hzT div
  by_cases h : v = 26.28
  · simp [h]
  · have : (26.28 : ℝ) - v ≠ 0 := fun h' => h (by linarith)
    simp [h, this]

theorem C34_bark2hz_wang : Computes bark2hzWang 0 1 [0] (pw1 fun b => some (hzW b)) := by
  outfn bark2hzWang
  rfl

theorem C34_hz2mel : Computes hz2mel 0 1 [0] (pw1 mel) := by
  outfn hz2mel
  unfold mel log10 Dsp.npLog10
  by_cases h : v ≤ -700
  · have : ¬ 0 < 1 + v / 700 := by rw [not_lt]; linarith
    simp [h, this]
  · have : 0 < 1 + v / 700 := by rw [not_le] at h; linarith
    simp [h, this]

theorem C34_mel2hz : Computes mel2hz 0 1 [0] (pw1 fun m => some (hzMel m)) := by
  outfn mel2hz
  rfl

theorem C34_hz2mel_fant : Computes hz2melFant 0 1 [0] (pw1 melFant) := by
  outfn hz2melFant
  unfold melFant log2
  by_cases h : v ≤ -1000
  · have : ¬ 0 < 1 + v / 1000 := by rw [not_lt]; linarith
    simp [h, this]
  · have : 0 < 1 + v / 1000 := by rw [not_le] at h; linarith
    simp [h, this]

theorem C34_mel2hz_fant : Computes mel2hzFant 0 1 [0] (pw1 fun m => some (hzFant m)) := by
  outfn mel2hzFant
  rfl

theorem C34_erb : Computes erb 1 1 [0] (pw1 fun f => some (erbQ f)) := by
  outfn erb
  unfold erbQ
  norm_num

theorem C34_erb_linear : Computes erbLinear 0 1 [0] (pw1 fun f => some (erbL f)) := by
  outfn erbLinear
  rfl

theorem C34_hz2cams : Computes hz2cams 1 1 [0] (pw1 camsQ) := by
  outfn hz2cams
  unfold camsQ div ln
  by_cases h : v + 14675 = 0
  · simp [h]
  · by_cases h' : 0 < (v + 312) / (v + 14675) <;> simp [h, h']

theorem C34_hz2cams_linear : Computes hz2camsLinear 0 1 [0] (pw1 camsL) := by
  outfn hz2camsLinear
  unfold camsL log10 Dsp.npLog10
  by_cases h : 0 < 1 + 0.00437 * v <;> simp [h]

theorem C34_cams2hz : Computes cams2hz 1 1 [0] (pw1 hzQ) := by
  outfn cams2hz
  unfold hzQ div
  by_cases h : v = 43
  · simp [h]
  · have : Real.exp ((v - 43) / 11.17) - 1 ≠ 0 := by
      intro h'
      have h1 : Real.exp ((v - 43) / 11.17) = 1 := by linarith
      rw [Real.exp_eq_one_iff, div_eq_zero_iff] at h1
      rcases h1 with h1 | h1
      · exact h (by linarith)
      · norm_num at h1
    simp [h, this]

theorem C34_cams2hz_linear : Computes cams2hzLinear 0 1 [0] (pw1 fun c => some (hzL c)) := by
  outfn cams2hzLinear
  rfl

theorem C34_a_weighting : Computes aWeighting 2 1 [0] (pw1 fun f => some (aWeight f)) := by
  outfn aWeighting
  have h1 : 0 ≤ (v ^ 2 + 11599.29) * (v ^ 2 + 544496.41) := by positivity
  simp only [sqrt, Option.bind_some, h1, if_true, div]
  have h2 : Real.sqrt ((v ^ 2 + 11599.29) * (v ^ 2 + 544496.41)) * (v ^ 2 + 424.36) *
      (v ^ 2 + 148693636) ≠ 0 := by positivity
  simp only [h2, if_false, aWeight]
  congr 1
  have e1 : (20.6 : ℝ) ^ 2 = 424.36 := by norm_num
  have e2 : (107.7 : ℝ) ^ 2 = 11599.29 := by norm_num
  have e3 : (737.9 : ℝ) ^ 2 = 544496.41 := by norm_num
  have e4 : (12194 : ℝ) ^ 2 = 148693636 := by norm_num
  rw [e1, e2, e3, e4]
  congr 1
  · ring
  · ring

theorem C34_envelope (n : ℕ) (tc b : ℝ) (hn : 1 ≤ n) :
    Computes (envelope n tc b) 2 1 [0] (pw1 fun t => some (gammatone n tc b t)) := by
  outfn envelope
  have h1 : ¬ (v + tc = 0 ∧ (n : ℤ) - 1 < 0) := by omega
  simp only [ge0, power, Option.bind_some, h1, if_false, gammatone]
  have h2 : (v + tc) ^ ((n : ℤ) - 1) = (v + tc) ^ (n - 1) := by
    rw [← zpow_natCast]
    congr 1
    omega
  rw [h2]
  by_cases h3 : 0 ≤ v + tc
  · simp only [h3, if_true]
    congr 1
    rw [mul_comm]
    congr 1
    · ring
    · congr 1; ring
  · simp [h3]

theorem C34_hwr (th : ℝ) : Computes (hwr th) 0 1 [0] (pw1 fun v => some (max v th)) := by
  outfn hwr

theorem C34_hinge (a k q : ℝ) :
    Computes (hingeFunction a k q) 0 1 [0] (pw1 fun x => some (k * min x a + q)) := by
  outfn hingeFunction
  rw [add_comm]

theorem C34_bin2f (nfft fs : ℝ) :
    Computes (bin2f nfft fs) 0 1 [0] (pw1 fun b => some (b * (fs / nfft))) := by
  outfn bin2f

theorem C34_a2db : Computes a2dbFloorless 0 1 [0] (pw1 Dsp.a2dbFloorless) := by
  outfn a2dbFloorless
  rfl

theorem C34_exponential_decay (a d : ℝ) :
    Computes (exponentialDecay a d) 0 1 [0]
      (pw1 fun t => some (a * Real.exp (-(2 / d) * t))) := by
  outfn exponentialDecay
  congr 3
  ring

theorem C34_exponential_decay_dt (a d : ℝ) :
    Computes (exponentialDecayDt a d) 0 1 [0]
      (pw1 fun t => some (-(2 / d) * (a * Real.exp (-(2 / d) * t)))) := by
  outfn exponentialDecayDt, exponentialDecay
  congr 1
  rw [mul_comm]
  congr 2
  · ring
  · congr 1
    ring

/-! ## Two array arguments -/

/-- The body of a function with two array arguments. -/
theorem computes2 {p : Prog Cell} {nt : Nat} {sh : List Nat} {g : ℝ → ℝ → Cell}
    (hok : ok sh [] p = true) (har : arity 2 p = true)
    (hout : Var.out ∈ p.map Stmt.dst)
    (hdst : ∀ v ∈ p.map Stmt.dst, v = .out ∨ ∃ i, i < nt ∧ v = .tmp i)
    (hf : ∀ x y : List Cell, semOut [x, y] p = if x.length = y.length then
      .ok (List.zipWith (fun a b => a.bind fun a => b.bind fun b => g a b) x y)
      else .error .valueError) :
    Computes p nt 2 sh (pw2 g) := by
  apply computes_of_ok hok har hout hdst
  intro xs hx
  obtain ⟨x, y, rfl⟩ := List.length_eq_two.1 hx
  exact hf x y

theorem zipWith_congr {A B D : Type} {f g : A → B → D} (h : ∀ a b, f a b = g a b) (x : List A)
    (y : List B) : List.zipWith f x y = List.zipWith g x y := by
  have : f = g := by funext a b; exact h a b
  rw [this]

set_option hygiene false in
macro "outfn2" defs:Lean.Parser.Tactic.simpLemma,* : tactic => `(tactic| (
  refine computes2 (by simp [$defs,*, ok, un, bin]) (by simp [$defs,*, arity, un, bin])
    (by simp [$defs,*, un, bin]) (by simp [$defs,*, un, bin]) ?_
  intro x y
  simp only [$defs,*, semOut, sem, un, bin, init, List.map_cons, List.map_nil, List.getD_cons_zero,
    List.getD_cons_succ, List.map_map, List.length_map, if_true, reduceCtorEq, if_false,
    Var.tmp.injEq, Var.arg.injEq, Function.comp_def, List.cons_append, List.nil_append]
  by_cases hlen : x.length = y.length <;>
    simp only [hlen, if_true, if_false, reduceCtorEq, Var.tmp.injEq, Var.arg.injEq]
  congr 1
  simp only [List.map_zipWith, List.zipWith_map_left, List.zipWith_map_right]
  apply zipWith_congr
  intro a b
  rcases a with _ | a <;> rcases b with _ | b <;> try rfl))

theorem C34_modal_energy :
    Computes modalEnergy 0 2 [0] (pw2 fun a d => some (a ^ 2 * d / 4)) := by
  outfn2 modalEnergy

theorem C34_semisum : Computes semisum 0 2 [0, 1] (pw2 fun a b => some ((a + b) / 2)) := by
  outfn2 semisum

theorem C34_semidiff : Computes semidiff 0 2 [0, 1] (pw2 fun a b => some ((a - b) / 2)) := by
  outfn2 semidiff

theorem C34_a2db_floor : Computes a2dbFloored 0 2 [0, 1] (pw2 Dsp.a2dbFloored) := by
  outfn2 a2dbFloored, a2dbFloorless, Prog.rename

theorem C34_a2db_floor_db :
    Computes a2dbFloorDb 1 2 [0, 1] (pw2 fun a f => Dsp.a2dbFloored a ((10 : ℝ) ^ (f / 20))) := by
  outfn2 a2dbFloorDb, a2dbFloored, a2dbFloorless, db2a, Prog.rename

/-! ## Functions that read an argument after writing `out` -/

theorem C34_wavefun (n : ℕ) (f tc b phi : ℝ) (hn : 1 ≤ n) :
    Computes (wavefun n f tc b phi) 3 1 []
      (pw1 fun t => some (gammatone n tc b t * Real.cos (2 * Real.pi * f * t + phi))) := by
  refine computes_of_ok (by simp [wavefun, envelope, ok, un, bin])
    (by simp [wavefun, envelope, arity, un, bin]) (by simp [wavefun, envelope, un, bin])
    (by simp [wavefun, envelope, un, bin]) ?_
  intro xs hx
  obtain ⟨x, rfl⟩ := List.length_eq_one_iff.1 hx
  simp only [wavefun, envelope, semOut, sem, un, bin, init, List.map_cons, List.map_nil,
    List.getD_cons_zero,
    List.map_map, zip_map_map, List.length_map, if_true, reduceCtorEq, if_false, Var.tmp.injEq,
    Function.comp_def, List.cons_append, List.nil_append, OfNat.ofNat_ne_zero,
    OfNat.ofNat_ne_one, OfNat.zero_ne_ofNat, OfNat.one_ne_ofNat, zero_ne_one, one_ne_zero]
  simp only [pw1]
  congr 1
  apply List.map_congr_left
  intro c _
  rcases c with _ | v
  · rfl
  simp only [Option.map_some, Option.bind_some, op2]
  have h1 : ¬ (v + tc = 0 ∧ (n : ℤ) - 1 < 0) := by omega
  simp only [ge0, power, Option.bind_some, h1, if_false, gammatone]
  have h2 : (v + tc) ^ ((n : ℤ) - 1) = (v + tc) ^ (n - 1) := by
    rw [← zpow_natCast]
    congr 1
    omega
  rw [h2]
  by_cases h3 : 0 ≤ v + tc
  · simp only [h3, if_true]
    congr 2
    rw [mul_comm]
    congr 1
    · ring
    · congr 1; ring
  · simp [h3]

/-- `wavefun(t, out=t)` is wrong: the oscillator is computed from the envelope that has replaced
the time axis.  Order 1, bandwidth 1, frequency 1/2, at time 0: -1 instead of 1. -/
theorem C34_wavefun_in_place_fails :
    ¬ Computes (wavefun 1 (1 / 2) 0 1 0) 3 1 [0]
      (pw1 fun t => some (gammatone 1 0 1 t * Real.cos (2 * Real.pi * (1 / 2) * t + 0))) := by
  intro hc
  have := hc ⟨fun _ => [some 0], 1⟩ [0] (some 0) rfl (by simp) (by simp)
    (by intro r hr i hi; simp only [List.mem_singleton]
        have := (List.getElem?_eq_some_iff.1 hi).1
        simp at this; exact this) (by simp)
  simp only [pw1, List.map_cons, List.map_nil, Option.bind_some] at this
  obtain ⟨h', r, h1, h2, h3, _⟩ := this
  have hr := h3 0 rfl
  subst hr
  simp [numpyOut, shapes, wavefun, envelope, run, exec, un, bin, bindOf, outRef, baseRef,
    Mem.write, op2, ge0, power] at h1
  rw [← h1] at h2
  simp [gammatone, Mem.write] at h2
  have e : 2 * Real.pi * (2⁻¹ : ℝ) = Real.pi := by ring
  rw [e, Real.cos_pi] at h2
  norm_num at h2

/-- `modal_energy(a, d, out=d)` is wrong: the decays are overwritten before they are read.
For amplitude 2 and decay 3 the energy is 3, in place it is 4. -/
theorem C34_modal_energy_out_d_fails :
    ¬ Computes modalEnergy 0 2 [0, 1] (pw2 fun a d => some (a ^ 2 * d / 4)) := by
  intro hc
  have := hc ⟨fun i => if i = 0 then [some 2] else [some 3], 2⟩ [0, 1] (some 1) rfl (by simp)
    (by simp)
    (by intro r hr i hi
        have := (List.getElem?_eq_some_iff.1 hi).1
        simp at this ⊢; omega) (by simp)
  simp only [pw2, List.map_cons, List.map_nil, if_true, List.length_cons, List.length_nil,
    one_ne_zero, if_false, List.zipWith_cons_cons, List.zipWith_nil_left, Option.bind_some] at this
  obtain ⟨h', r, h1, h2, h3, _⟩ := this
  have hr := h3 1 rfl
  subst hr
  simp [numpyOut, shapes, modalEnergy, run, exec, un, bin, bindOf, outRef, baseRef,
    Mem.write, op2] at h1
  rw [← h1] at h2
  simp [Mem.write] at h2
  norm_num at h2

/-! ## A-weighting in decibel -/

/-- `a_weighting(1000)` is the reference: 0 dB. -/
theorem aWeight1kHzDb_eq :
    aWeight1kHzDb = some (20 * Real.logb 10 (aWeight 1000)) := by
  unfold aWeight1kHzDb
  rw [ret_of_computes C34_a_weighting _ rfl]
  simp only [pw1, List.map_cons, List.map_nil, Option.bind_some]
  rw [ret_of_computes C34_a2db _ rfl]
  have : 0 < aWeight 1000 := by unfold aWeight; positivity
  simp [pw1, Dsp.a2dbFloorless, Dsp.npLog10, this]

/-- `a_weighting(f, out=out)` with `db=True`: the returned array is new and holds the weights in
decibel relative to 1 kHz; the array given as `out` holds the *linear* weights instead. -/
theorem C34_a_weighting_db (h : Heap Cell) (a : Nat) (o : Option Nat) (ha : a < h.next)
    (ho : ∀ r, o = some r → r < h.next ∧ (h.mem r).length = (h.mem a).length) :
    ∃ h' r, aWeightingDb h a o = .ok (h', r) ∧
      h'.mem r = (h.mem a).map (fun c => c.bind fun f =>
        if f = 0 then none
        else some (20 * Real.logb 10 (aWeight f) - 20 * Real.logb 10 (aWeight 1000))) ∧
      h.next ≤ r ∧
      (∀ x, o = some x →
        h'.mem x = (h.mem a).map fun c => c.bind fun f => some (aWeight f)) ∧
      (o ≠ some a → h'.mem a = h.mem a) := by
  have h1 := C34_a_weighting h [a] o rfl (by simpa using ha) (fun r hr => (ho r hr).1)
    (by intro r _ i hi
        have := (List.getElem?_eq_some_iff.1 hi).1
        simp at this ⊢; omega)
    (by intro r b hr hb
        simp at hb
        subst hb
        exact (ho r hr).2)
  simp only [pw1, List.map_cons, List.map_nil] at h1
  obtain ⟨h₁, r₁, e1, e2, e3, e4, e5, e6, e7⟩ := h1
  have h2 := C34_a2db h₁ [r₁] none rfl (by simpa using e5) (by simp) (by simp) (by simp)
  simp only [pw1, List.map_cons, List.map_nil] at h2
  obtain ⟨h₂, r₂, f1, f2, _, f4, f5, f6, f7⟩ := h2
  refine ⟨_, _, by unfold aWeightingDb; simp only [e1, f1]; rfl, ?_, ?_, ?_, ?_⟩
  · simp only [Mem.write, if_true, f2, e2, List.map_map]
    apply List.map_congr_left
    intro c _
    rcases c with _ | f
    · simp [op2]
    · simp only [Function.comp_apply, Option.bind_some, Dsp.a2dbFloorless, Dsp.npLog10,
        aWeight1kHzDb_eq]
      by_cases hf : f = 0
      · subst hf
        simp [aWeight, op2]
      · have : 0 < aWeight f := by unfold aWeight; positivity
        simp [hf, this, op2]
  · omega
  · intro x hx
    have hr := e3 x hx
    subst hr
    have : r₁ ≠ h₂.next := by omega
    simp only [Mem.write, this, if_false]
    rw [f7 r₁ e5 (by simp), e2]
  · intro hoa
    have : a ≠ h₂.next := by omega
    simp only [Mem.write, this, if_false]
    rw [f7 a (by omega) (by simp), e7 a ha hoa]

/-! ## Normalisation -/

theorem computes_congr {C : Type} {p : Prog C} {nt n : Nat} {sh : List Nat}
    {f g : List (List C) → Except PyErr (List C)} (hf : Computes p nt n sh f)
    (hfg : ∀ xs : List (List C), xs.length = n → f xs = g xs) : Computes p nt n sh g := by
  intro h args out h1 h2 h3 h4 h5
  rw [← hfg (args.map h.mem) (by simpa using h1)]
  exact hf h args out h1 h2 h3 h4 h5

/-- A body that passes the check computes in place what it computes without `out`. -/
theorem computes_ret {C : Type} {p : Prog C} {nt n : Nat} {sh : List Nat}
    (hok : ok sh [] p = true) (har : arity n p = true)
    (hout : Var.out ∈ p.map Stmt.dst)
    (hdst : ∀ v ∈ p.map Stmt.dst, v = .out ∨ ∃ i, i < nt ∧ v = .tmp i) :
    Computes p nt n sh (ret p nt) ∧ ∀ xs : List (List C), xs.length = n → ret p nt xs = semOut xs p := by
  have h1 : Computes p nt n sh (fun xs => semOut xs p) :=
    computes_of_ok hok har hout hdst (fun _ _ => rfl)
  have h2 : ∀ xs : List (List C), xs.length = n → ret p nt xs = semOut xs p :=
    fun xs hx => ret_of_computes h1 xs hx
  exact ⟨computes_congr h1 fun xs hx => (h2 xs hx).symm, h2⟩

theorem C34_normalize_peak : Computes normalizePeak 0 1 [0] (ret normalizePeak 0) :=
  (computes_ret (by simp [normalizePeak, ok, red]) (by simp [normalizePeak, arity, red])
    (by simp [normalizePeak, red]) (by simp [normalizePeak, red])).1

theorem C34_normalize_range : Computes normalizeRange 0 1 [0] (ret normalizeRange 0) :=
  (computes_ret (by simp [normalizeRange, ok, red]) (by simp [normalizeRange, arity, red])
    (by simp [normalizeRange, red]) (by simp [normalizeRange, red])).1

theorem finite_eq_some {x : List Cell} {l : List ℝ} (h : finite x = some l) : x = l.map some := by
  unfold finite at h
  induction x generalizing l with
  | nil => simp at h; subst h; rfl
  | cons c x ih =>
    rw [List.mapM_cons] at h
    simp only [id, bind, Option.bind, pure] at h
    rcases c with _ | v
    · simp at h
    · simp only at h
      cases hx : List.mapM id x with
      | none => rw [hx] at h; simp at h
      | some l' =>
        rw [hx] at h
        simp at h
        subst h
        simp [ih hx]

theorem finite_map_some (l : List ℝ) : finite (l.map some) = some l := by
  unfold finite
  induction l with
  | nil => rfl
  | cons v l ih => simp [List.mapM_cons, ih]

theorem meanOf_sub (l : List ℝ) (c : ℝ) (hl : l ≠ []) :
    meanOf (l.map (· - c)) = meanOf l - c := by
  have hn : (l.length : ℝ) ≠ 0 := by
    simpa using hl
  have hs : (l.map (· - c)).sum = l.sum - l.length * c := by
    clear hn hl
    induction l with
    | nil => simp
    | cons a l ih => simp only [List.map_cons, List.sum_cons, ih, List.length_cons]; push_cast; ring
  simp only [meanOf, hs, List.length_map]
  field_simp

theorem varOf_sub (l : List ℝ) (c : ℝ) (hl : l ≠ []) : varOf (l.map (· - c)) = varOf l := by
  unfold varOf
  rw [meanOf_sub l c hl, List.map_map]
  congr 1
  apply List.map_congr_left
  intro v _
  simp only [Function.comp_apply]
  ring

/-- Although `_normalize_rms` reads its input after writing `out`, in place it computes the same
(up to rounding): the standard deviation does not change when the mean is subtracted. -/
theorem C34_normalize_rms : Computes normalizeRms 0 1 [0] (ret normalizeRms 0) := by
  obtain ⟨h0, h0'⟩ := computes_ret (p := normalizeRms) (nt := 0) (n := 1) (sh := [])
    (by simp [normalizeRms, ok, red]) (by simp [normalizeRms, arity, red])
    (by simp [normalizeRms, red]) (by simp [normalizeRms, red])
  intro h args o h1 h2 h3 h4 h5
  by_cases hal : ∃ r, o = some r ∧ r ∈ args
  · obtain ⟨r, rfl, hr⟩ := hal
    obtain ⟨a, rfl⟩ := List.length_eq_one_iff.1 h1
    simp at hr
    subst hr
    simp only [List.map_cons, List.map_nil]
    rw [h0' _ rfl]
    have ha : r < h.next := by simpa using h2
    generalize hx : h.mem r = x at *
    simp only [semOut, sem, normalizeRms, red, init, List.map_cons, List.map_nil,
      List.getD_cons_zero, if_true, reduceCtorEq, if_false, npMean, npStdOr1, List.map_map,
      Function.comp_def]
    refine ⟨⟨(h.mem.write r (x.map fun v => op2 (· - ·) v
        ((finite x).bind fun l => if l.isEmpty then none else some (meanOf l)))).write r
        ((x.map fun v => op2 (· - ·) v
          ((finite x).bind fun l => if l.isEmpty then none else some (meanOf l))).map fun v =>
          div v ((finite (x.map fun v => op2 (· - ·) v
          ((finite x).bind fun l => if l.isEmpty then none else some (meanOf l)))).bind fun l =>
            if l.isEmpty then none else if Real.sqrt (varOf l) = 0 then some 1
            else some (Real.sqrt (varOf l)))), h.next⟩, r, ?_, ?_, by simp, by simp, ha, by simp, ?_⟩
    · simp [numpyOut, shapes, run, exec, bindOf, outRef, baseRef, hx, npMean, npStdOr1, Mem.write]
    · simp only [Mem.write, if_true, List.map_map]
      apply List.map_congr_left
      intro c hc
      simp only [Function.comp_apply]
      cases hf : finite x with
      | none =>
        simp only [Option.bind_none]
        have : op2 (fun x1 x2 => x1 - x2) c none = none := by cases c <;> rfl
        rw [this]
        rfl
      | some l =>
        have hxl := finite_eq_some hf
        have hl : l ≠ [] := by
          rintro rfl
          rw [hxl] at hc
          simp at hc
        have hl' : l.isEmpty = false := by simpa using hl
        have e1 : (x.map fun v => op2 (fun x1 x2 => x1 - x2) v (some (meanOf l))) =
            (l.map (· - meanOf l)).map some := by
          rw [hxl, List.map_map, List.map_map]
          rfl
        simp only [Option.bind_some, hl', Bool.false_eq_true, if_false, e1, finite_map_some,
          varOf_sub l _ hl]
        simp [hl']
    · intro i hi hne
      have : i ≠ r := fun h => hne (by rw [h])
      simp [Mem.write, this]
  · refine h0 h args o h1 h2 h3 ?_ h5
    intro r hr i hi
    exact absurd ⟨r, hr, List.mem_of_getElem? hi⟩ hal

/-! ## Summary -/

/-- What C34 says for every function that satisfies `Computes`: the contents of the returned array
do not depend on whether `out` is absent, another array, or one of the shared arguments. -/
theorem C34_in_place {p : Prog Cell} {nt n : Nat} {sh : List Nat}
    {f : List (List Cell) → Except PyErr (List Cell)} (hc : Computes p nt n sh f)
    (h : Heap Cell) (args : List Nat) (o : Nat) (hn : args.length = n)
    (ha : ∀ a ∈ args, a < h.next) (ho : o < h.next)
    (hsh : ∀ (i : Nat), args[i]? = some o → i ∈ sh)
    (hlen : ∀ a, args[0]? = some a → (h.mem o).length = (h.mem a).length) :
    (numpyOut p nt h args (some o)).map (fun x => x.1.mem x.2) =
      (numpyOut p nt h args none).map (fun x => x.1.mem x.2) ∧
    (numpyOut p nt h args none).map (fun x => x.1.mem x.2) = ret p nt (args.map h.mem) := by
  have h1 := hc h args (some o) hn ha (by simpa using ho) (by simpa using hsh)
    (by rintro r a h' ha'; cases h'; exact hlen a ha')
  have h2 := hc h args none hn ha (by simp) (by simp) (by simp)
  rw [ret_of_computes hc _ (by simpa using hn)]
  cases hf : f (args.map h.mem) with
  | error e =>
    rw [hf] at h1 h2
    simp only at h1 h2
    rw [h1, h2]
    exact ⟨rfl, rfl⟩
  | ok a =>
    rw [hf] at h1 h2
    obtain ⟨_, _, e1, e2, _⟩ := h1
    obtain ⟨_, _, g1, g2, _⟩ := h2
    rw [e1, g1]
    simp only [Except.map, e2, g2]
    exact ⟨trivial, trivial⟩

/-- `erb` in place on the frequencies 0 and 1000 Hz. -/
example : ∃ h', numpyOut erb 1 ⟨fun _ => [some 0, some 1000], 1⟩ [0] (some 0) = .ok (h', 0) ∧
    h'.mem 0 = [some 28.52, some 44.089] := by
  have := C34_erb ⟨fun _ => [some 0, some 1000], 1⟩ [0] (some 0) rfl (by simp) (by simp)
    (by intro r hr i hi
        have := (List.getElem?_eq_some_iff.1 hi).1
        simp at this ⊢; omega) (by simp)
  simp only [pw1, List.map_cons, List.map_nil, Option.bind_some] at this
  obtain ⟨h', r, h1, h2, h3, _⟩ := this
  have hr := h3 0 rfl
  subst hr
  refine ⟨h', h1, ?_⟩
  rw [h2]
  norm_num [erbQ]

end Verif.Out
