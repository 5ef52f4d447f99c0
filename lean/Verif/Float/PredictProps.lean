import Verif.Float.EnergyProps
import Verif.Float.PredictModel
import Verif.Float.SynthProps

/-!
# Resynthesis in floating point (C152)
-/

set_option autoImplicit false
set_option linter.unusedSectionVars false
set_option linter.unusedSimpArgs false

namespace Verif.Float

open Arith
open Verif.Sample (Fitted fancy fancyOpt IsArgsortAsc)

variable (A : Arith ℝ)

/-- The damped sinusoid of a mode. -/
noncomputable def ModeF.wave (m : ModeF) (t : ℝ) : ℝ :=
  m.a * Real.exp (-2 * t / m.d) * Real.cos (2 * Real.pi * m.f * t + m.phi.getD 0)

/-- The energy of a mode. -/
noncomputable def ModeF.energy (m : ModeF) : ℝ := m.a ^ 2 * m.d / 4

/-- The error of a sample for some modes (C143). -/
noncomputable def synthBound (κ t : ℝ) (ms : List ModeF) : ℝ :=
  A.u * (ms.map fun m => |m.a| * Real.exp (-2 * t / m.d) * (2 * ms.length + 2 + 14 * κ +
    20 * Real.pi * |m.f * t| + 48 * |t / m.d| + 2 * |m.phi.getD 0|)).sum +
  A.eta * (2 * ms.length + (ms.map fun m => |m.a| * (6 + Real.exp (-2 * t / m.d) *
    (12 + 16 * |t| + 8 * |m.f|))).sum)

theorem fancy_of {α β : Type} (g : β → α) (ms os : List β) (o : List Nat)
    (h : o.map (fun i => ms[i]?) = os.map some) : fancy (ms.map g) o = .ok (os.map g) := by
  unfold fancy
  induction o generalizing os with
  | nil =>
    cases os with
    | nil => rfl
    | cons a b => simp at h
  | cons i o ih =>
    cases os with
    | nil => simp at h
    | cons m os =>
      simp only [List.map_cons, List.cons.injEq] at h
      have := ih os h.2
      simp only [List.map_cons, Np.take, this]
      have hi : (ms.map g)[i]? = some (g m) := by simp [h.1]
      have : Np.index (ms.map g) (Int.ofNat i) = .ok (g m) := by
        simp only [Np.index, getE]
        rw [if_neg (by simp)]
        simp only [Int.ofNat_eq_natCast, Int.toNat_natCast, hi]
      rw [this]

theorem pick_some {β : Type} (ms : List β) (l : List Nat) (hl : ∀ i ∈ l, i < ms.length) :
    l.map (fun i => ms[i]?) = (l.filterMap fun i => ms[i]?).map some := by
  induction l with
  | nil => rfl
  | cons i l ih =>
    have hi : i < ms.length := hl i (by simp)
    simp only [List.map_cons, List.filterMap_cons, List.getElem?_eq_getElem hi, List.map_cons]
    rw [ih (fun j hj => hl j (by simp [hj]))]

theorem pick_range {β : Type} (ms : List β) : (List.range ms.length).filterMap (fun i => ms[i]?) = ms := by
  have h := pick_some ms (List.range ms.length) fun i hi => List.mem_range.1 hi
  have e : (List.range ms.length).map (fun i => ms[i]?) = ms.map some := by
    apply List.ext_getElem (by simp)
    intro i h1 h2
    simp only [List.length_map] at h2
    simp [h2]
  rw [e] at h
  exact (List.map_injective_iff.2 (Option.some_injective _) h).symm

/-- Distinct indices and the others, in any order. -/
theorem split_perm (N : Nat) (o : List Nat) (hn : o.Nodup) (hl : ∀ i ∈ o, i < N) :
    (o ++ (List.range N).filter (· ∉ o)).Perm (List.range N) := by
  rw [List.perm_ext_iff_of_nodup]
  · intro i
    simp only [List.mem_append, List.mem_filter, List.mem_range, decide_not, Bool.not_eq_eq_eq_not,
      Bool.not_true, decide_eq_false_iff_not]
    constructor
    · rintro (h | h)
      · exact hl i h
      · exact h.1
    · intro h
      by_cases hi : i ∈ o
      · exact Or.inl hi
      · exact Or.inr ⟨h, hi⟩
  · rw [List.nodup_append]
    refine ⟨hn, List.nodup_range.filter _, ?_⟩
    intro a ha b hb e
    subst e
    simp [ha] at hb
  · exact List.nodup_range

theorem zipModes_none (ms : List ModeF) (h : ∀ m ∈ ms, m.phi = none) :
    zipModes (ms.map (·.f)) (ms.map (·.d)) (ms.map (·.a)) none = ms := by
  induction ms with
  | nil => rfl
  | cons m ms ih =>
    have h1 := ih fun m hm => h m (List.mem_cons_of_mem _ hm)
    have h2 := h m List.mem_cons_self
    simp only [zipModes, List.map_cons, List.zip_cons_cons, List.zipWith_cons_cons] at h1 ⊢
    rw [h1]
    cases m
    simp_all

theorem zipModes_some (ms : List ModeF) (h : ∀ m ∈ ms, ∃ p, m.phi = some p) :
    zipModes (ms.map (·.f)) (ms.map (·.d)) (ms.map (·.a)) (some (ms.map fun m => m.phi.getD 0)) = ms := by
  induction ms with
  | nil => rfl
  | cons m ms ih =>
    have h1 := ih fun m hm => h m (List.mem_cons_of_mem _ hm)
    obtain ⟨p, h2⟩ := h m List.mem_cons_self
    simp only [zipModes, List.map_cons, List.zip_cons_cons, List.zipWith_cons_cons] at h1 ⊢
    rw [h1]
    cases m
    simp_all

theorem dotF_exists (l : List (ℝ × ℝ)) : ∃ y, DotF A l y := by
  induction l with
  | nil => exact ⟨0, .nil⟩
  | cons a l ih =>
    obtain ⟨y, hy⟩ := ih
    exact ⟨_, .fma a.1 a.2 hy⟩

/-- C152: `predict` in floating point uses `min n N` modes (none of the others has noticeably more
energy), succeeds, and each sample is close to the sum of their damped sinusoids; the distance to the
sum of all modes is not more than the amplitudes left out in addition. -/
theorem C152_predict (cosF expF : ℝ → ℝ) (κ twoPi : ℝ) (hκ : 0 ≤ κ)
    (hcl : ∀ x, |cosF x| ≤ 1) (hc : ∀ x, |cosF x - Real.cos x| ≤ κ * A.u)
    (he : ∀ x, |expF x - Real.exp x| ≤ κ * A.u * Real.exp x + A.eta)
    (hpi : |twoPi - 2 * Real.pi| ≤ A.u * (2 * Real.pi))
    (argsort : List ℝ → List Nat) (hsort : ∀ keys, IsArgsortAsc keys (argsort keys))
    (ms : List ModeF) (mx nModes : Option Int) (n : Nat)
    (hn : nModes = some (n : Int) ∨ nModes = none ∧ mx = some (n : Int) ∨
      nModes = none ∧ mx = none ∧ n = ms.length)
    (phases : Option (List ℝ)) (hphi : phases = none ∧ (∀ m ∈ ms, m.phi = none) ∨
      phases = some (ms.map fun m => m.phi.getD 0) ∧ ∀ m ∈ ms, ∃ p, m.phi = some p ∧ A.rnd p = p)
    (hd : ∀ m ∈ ms, 0 < m.d)
    (hη : ∀ m ∈ ms, m.a = 0 ∨ A.eta ≤ A.u * m.a ^ 2 ∧ A.eta ≤ A.u * m.energy)
    (hN : (ms.length : ℝ) * A.u ≤ 1 / 2) (x : List ℝ)
    (hx : ∀ t ∈ x, ∀ m ∈ ms, 3 * A.u * (2 * |t / m.d|) + A.eta * (1 + 2 * |t|) ≤ 1) :
    ∃ best rest : List ModeF, (best ++ rest).Perm ms ∧ best.length = min n ms.length ∧
      (∀ b ∈ best, ∀ r ∈ rest, (1 - 8 * A.u) * r.energy ≤ (1 + 8 * A.u) * b.energy) ∧
      (∃ ys, PredictF A cosF expF twoPi argsort
        ⟨ms.map (·.f), ms.map (·.d), ms.map (·.a), mx⟩ x nModes phases ys) ∧
      ∀ ys, PredictF A cosF expF twoPi argsort
          ⟨ms.map (·.f), ms.map (·.d), ms.map (·.a), mx⟩ x nModes phases ys →
        ys.length = x.length ∧ ∀ (i : Nat) (t y : ℝ), x[i]? = some t → ys[i]? = some y →
          |y - (best.map (·.wave t)).sum| ≤ synthBound A κ t best ∧
          |y - (ms.map (·.wave t)).sum| ≤ synthBound A κ t best +
            (rest.map fun m => |m.a| * Real.exp (-2 * t / m.d)).sum := by
  set s : Fitted ℝ := ⟨ms.map (·.f), ms.map (·.d), ms.map (·.a), mx⟩ with hs
  have hnm : s.nModes nModes = n := by
    rcases hn with rfl | ⟨rfl, rfl⟩ | ⟨rfl, rfl, rfl⟩ <;> simp [Fitted.nModes, hs]
  have hE : ∀ i (h : i < ms.length), exactEnergy s i = ms[i].energy := by
    intro i h
    simp [exactEnergy, hs, ModeF.energy, h]
  obtain ⟨o1, o2, o3, o4, -⟩ := C144_select A argsort hsort s nModes n (by simp [hs]) hnm
    (by
      intro d hd'
      obtain ⟨m, hm, rfl⟩ := List.mem_map.1 hd'
      exact (hd m hm).le)
    (by
      intro i a d ha hd'
      simp only [hs, List.getElem?_map, Option.map_eq_some_iff] at ha hd'
      obtain ⟨m, hm, rfl⟩ := ha
      obtain ⟨m', hm', rfl⟩ := hd'
      rw [hm, Option.some.injEq] at hm'
      subst hm'
      rcases hη m (List.mem_of_getElem? hm) with h | h
      · exact Or.inl h
      · exact Or.inr (Or.inr h))
  set o := selectModesF A argsort s nModes with ho
  have hlen : s.amps.length = ms.length := by simp [hs]
  rw [hlen] at o2 o3 o4
  have hpick := pick_some ms o o3
  set best := o.filterMap fun i => ms[i]? with hbest
  set rest := ((List.range ms.length).filter (· ∉ o)).filterMap fun i => ms[i]? with hrest
  have hperm : (best ++ rest).Perm ms := by
    have h := (split_perm ms.length o o1 o3).filterMap fun i => ms[i]?
    rwa [List.filterMap_append, pick_range] at h
  have hbm : ∀ m ∈ best, m ∈ ms := fun m hm => hperm.mem_iff.1 (List.mem_append_left _ hm)
  have hbl : best.length = min n ms.length := by
    have := congrArg List.length hpick
    simp only [List.length_map] at this
    rw [← this, o2]
  have hmodes : predictModesF A argsort s nModes phases = .ok best := by
    have f1 := fancy_of (·.f) ms best o hpick
    have f2 := fancy_of (·.d) ms best o hpick
    have f3 := fancy_of (·.a) ms best o hpick
    unfold predictModesF
    simp only [← ho]
    rcases hphi with ⟨rfl, hp⟩ | ⟨rfl, hp⟩
    · simp only [fancyOpt, hs, f1, f2, f3]
      rw [zipModes_none best fun m hm => hp m (hbm m hm)]
    · have f4 := fancy_of (fun m => m.phi.getD 0) ms best o hpick
      simp only [fancyOpt, hs, f1, f2, f3, f4]
      rw [zipModes_some best fun m hm => (hp m (hbm m hm)).imp fun _ h => h.1]
  refine ⟨best, rest, hperm, hbl, ?_, ?_, ?_⟩
  · intro b hb r hr
    obtain ⟨i, hi, hib⟩ := List.mem_filterMap.1 hb
    obtain ⟨j, hj, hjr⟩ := List.mem_filterMap.1 hr
    simp only [List.mem_filter, List.mem_range, decide_not, Bool.not_eq_eq_eq_not,
      Bool.not_true, decide_eq_false_iff_not] at hj
    have h := o4 i hi j hj.1 hj.2
    rw [hE i (o3 i hi), hE j hj.1] at h
    rw [List.getElem?_eq_getElem (o3 i hi), Option.some.injEq] at hib
    rw [List.getElem?_eq_getElem hj.1, Option.some.injEq] at hjr
    rwa [hib, hjr] at h
  · choose y hy using fun t => dotF_exists A (best.map fun m => (modeF A cosF expF twoPi t m, m.a))
    refine ⟨x.map y, best, hmodes, ?_⟩
    rw [List.forall₂_map_right_iff, List.forall₂_same]
    exact fun t _ => hy t
  · rintro ys ⟨ms', hm, hf⟩
    rw [hmodes, Except.ok.injEq] at hm
    subst hm
    refine ⟨hf.length_eq.symm, ?_⟩
    intro i t y ht hy
    have hxt := List.mem_of_getElem? ht
    have hsy : SynthF A cosF expF twoPi t best y := by
      obtain ⟨hi, e1⟩ := List.getElem?_eq_some_iff.1 ht
      obtain ⟨hi', e2⟩ := List.getElem?_eq_some_iff.1 hy
      have := List.forall₂_iff_get.1 hf
      have h2 := this.2 i hi hi'
      simp only [List.get_eq_getElem, e1, e2] at h2
      exact h2
    have hb := C143_synth A cosF expF κ twoPi t y best hκ hcl hc he hpi
      (by
        intro m hm p hp
        rcases hphi with ⟨-, h⟩ | ⟨-, h⟩
        · rw [h m (hbm m hm)] at hp
          cases hp
        · obtain ⟨p', h1, h2⟩ := h m (hbm m hm)
          rw [h1, Option.some.injEq] at hp
          rwa [← hp])
      (fun m hm => hx t hxt m (hbm m hm))
      (by
        refine le_trans (mul_le_mul_of_nonneg_right ?_ A.u_pos.le) hN
        rw [hbl]
        exact_mod_cast min_le_right _ _)
      hsy
    refine ⟨hb, ?_⟩
    have hsum : (ms.map (·.wave t)).sum = (best.map (·.wave t)).sum + (rest.map (·.wave t)).sum := by
      rw [← (hperm.map (·.wave t)).sum_eq, List.map_append, List.sum_append]
    have hr : |(rest.map (·.wave t)).sum| ≤ (rest.map fun m => |m.a| * Real.exp (-2 * t / m.d)).sum := by
      have := sum_err rest (·.wave t) (fun _ => 0) (fun m => |m.a| * Real.exp (-2 * t / m.d)) (by
        intro m _
        rw [sub_zero, ModeF.wave, abs_mul, abs_mul, abs_of_pos (Real.exp_pos _)]
        exact mul_le_of_le_one_right (by positivity) (Real.abs_cos_le_one _))
      simpa using this
    rw [hsum, show y - ((best.map (·.wave t)).sum + (rest.map (·.wave t)).sum) =
      (y - (best.map (·.wave t)).sum) + -(rest.map (·.wave t)).sum by ring]
    refine (abs_add_le _ _).trans (add_le_add hb ?_)
    rwa [abs_neg]

/-- C152: audio rendered in blocks is a possible output for the whole time axis, and the other way
round. -/
theorem C152_blocks (cosF expF : ℝ → ℝ) (twoPi : ℝ) (argsort : List ℝ → List Nat) (s : Fitted ℝ)
    (nModes : Option Int) (phases : Option (List ℝ)) (x x' ys ys' : List ℝ) (hl : ys.length = x.length) :
    PredictF A cosF expF twoPi argsort s (x ++ x') nModes phases (ys ++ ys') ↔
      PredictF A cosF expF twoPi argsort s x nModes phases ys ∧
      PredictF A cosF expF twoPi argsort s x' nModes phases ys' := by
  constructor
  · rintro ⟨ms, h1, h2⟩
    have ha := List.forall₂_take_append _ _ _ h2
    have hb := List.forall₂_drop_append _ _ _ h2
    rw [hl, List.take_left] at ha
    rw [hl, List.drop_left] at hb
    exact ⟨⟨ms, h1, ha⟩, ⟨ms, h1, hb⟩⟩
  · rintro ⟨⟨ms, h1, h2⟩, ⟨ms', h3, h4⟩⟩
    rw [h1, Except.ok.injEq] at h3
    subst h3
    exact ⟨ms, h1, List.rel_append h2 h4⟩

/-- Two modes in doubles at one second meet the hypotheses on modes and times; one of them is used. -/
example : (∀ m ∈ ([⟨440, 1 / 2, 1, none⟩, ⟨441, 1 / 4, 1 / 2, none⟩] : List ModeF), 0 < m.d ∧
      (m.a = 0 ∨ (double ℝ).eta ≤ (double ℝ).u * m.a ^ 2 ∧ (double ℝ).eta ≤ (double ℝ).u * m.energy) ∧
      3 * (double ℝ).u * (2 * |1 / m.d|) + (double ℝ).eta * (1 + 2 * |1|) ≤ 1) ∧
    (2 : ℝ) * (double ℝ).u ≤ 1 / 2 ∧
    predictModesF (double ℝ) (fun _ => [1, 0]) ⟨[440, 441], [1 / 2, 1 / 4], [1, 1 / 2], none⟩ (some 1) none =
      .ok [⟨440, 1 / 2, 1, none⟩] := by
  have hu : (double ℝ).u = (2 ^ 53)⁻¹ := rfl
  have hη : (double ℝ).eta ≤ (2 ^ 100)⁻¹ := by
    have h0 : (double ℝ).eta = 2 ^ (-1074 : ℤ) / 2 := rfl
    have h1 : (2 : ℝ) ^ (-1074 : ℤ) ≤ 2 ^ (-100 : ℤ) := zpow_le_zpow_right₀ (by norm_num) (by norm_num)
    have h2 : (0 : ℝ) < 2 ^ (-1074 : ℤ) := by positivity
    rw [h0]
    norm_num at h1 h2 ⊢
    linarith
  refine ⟨?_, ?_, ?_⟩
  · intro m hm
    simp only [List.mem_cons, List.not_mem_nil, or_false] at hm
    rw [hu]
    generalize (double ℝ).eta = η at *
    norm_num at hη
    rcases hm with rfl | rfl <;> norm_num [ModeF.energy] <;> refine ⟨⟨?_, ?_⟩, ?_⟩ <;> linarith
  · rw [hu]
    norm_num
  · simp [predictModesF, selectModesF, Fitted.nModes, Np.slice, Np.lower, Np.upper, Np.bound, fancyOpt, fancy, Np.take,
      Np.index, getE, zipModes]

end Verif.Float
