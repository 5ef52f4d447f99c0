import Verif.Sms.RescaleLemmas
import Verif.Sms.SpectrumProps

/-!
# Lemmas for C134: the analysis of a louder sound
-/

set_option autoImplicit false
set_option linter.unusedSectionVars false
set_option linter.unusedSimpArgs false

namespace Verif.Sms

open Verif.Tracker Verif.Learn

/-! ## Frames -/

theorem sequence_natural {α β : Type*} (f : α → β) : ∀ l : List (Except PyErr α),
    sequence (l.map (Except.map f)) = (sequence l).map (List.map f) := by
  intro l
  induction l with
  | nil => rfl
  | cons a l ih =>
    rw [List.map_cons]
    cases a with
    | error e => rfl
    | ok a =>
      simp only [sequence, Except.map]
      have ih' : sequence (l.map (Except.map f)) = (sequence l).map (List.map f) := ih
      rw [ih']
      cases sequence l <;> rfl

theorem overlappingWindows_natural {α β : Type*} (f : α → β) (a : List α) (w : Nat) (hop : Option Nat) :
    overlappingWindows (a.map f) w hop = (overlappingWindows a w hop).map (List.map (List.map f)) := by
  unfold overlappingWindows
  rw [List.length_map]
  cases nWindows a.length w hop with
  | error e => rfl
  | ok n =>
    simp only
    split
    · rfl
    · rw [← sequence_natural, List.map_map]
      congr 1
      apply List.map_congr_left
      intro i _
      simp only [Function.comp]
      rw [← sequence_natural, List.map_map]
      congr 1
      apply List.map_congr_left
      intro j _
      simp only [Function.comp, getE_map]

theorem assign_natural {α β : Type*} (f : α → β) (l : List α) (a b : Option Int) (src : List α) :
    Np.assign (l.map f) a b (src.map f) = (Np.assign l a b src).map (List.map f) := by
  unfold Np.assign
  simp only [List.length_map]
  split
  · simp [Except.map]
  · match src with
    | [] => rfl
    | [x] => simp [Except.map]
    | _ :: _ :: _ => rfl

theorem timeFrames_gain (g : ℝ) (padded : Bool) (w hop : Nat) (x : List ℝ) :
    timeFrames padded w hop (x.map (g * ·)) = (timeFrames padded w hop x).map (List.map (List.map (g * ·))) := by
  have hpad : padInput padded w (x.map (g * ·)) =
      (padInput padded w x).map (Prod.map (List.map (g * ·)) id) := by
    unfold padInput
    cases padded with
    | false => rfl
    | true =>
      simp only [Bool.not_true, Bool.false_eq_true, if_false, List.length_map]
      have hz : List.replicate (x.length + (w + 1) / 2 + w / 2) (0 : ℝ) =
          (List.replicate (x.length + (w + 1) / 2 + w / 2) (0 : ℝ)).map (g * ·) := by simp
      have := assign_natural (g * ·) (List.replicate (x.length + (w + 1) / 2 + w / 2) (0 : ℝ))
        (some (Int.ofNat ((w + 1) / 2))) (some (Int.ofNat ((w + 1) / 2 + x.length))) x
      rw [← hz] at this
      rw [this]
      cases Np.assign (List.replicate (x.length + (w + 1) / 2 + w / 2) (0 : ℝ))
        (some (Int.ofNat ((w + 1) / 2))) (some (Int.ofNat ((w + 1) / 2 + x.length))) x <;> rfl
  unfold timeFrames
  rw [hpad]
  cases padInput padded w x with
  | error e => rfl
  | ok ya =>
    obtain ⟨y, a⟩ := ya
    exact overlappingWindows_natural _ _ _ _

/-! ## Peaks -/

/-- Bin `k` is a peak of the magnitudes `B` above the threshold `t`. -/
def Summit (B : Nat → ℝ) (t : ℝ) (n k : Nat) : Prop :=
  1 ≤ k ∧ k + 1 ≤ n / 2 ∧ B (k - 1) < B k ∧ B (k + 1) < B k ∧ t < 20 * Real.logb 10 (B k)

theorem logb10_lt {a b : ℝ} (ha : 0 < a) (hb : 0 < b) :
    20 * Real.logb 10 a < 20 * Real.logb 10 b ↔ a < b := by
  rw [mul_lt_mul_iff_right₀ (by norm_num : (0:ℝ) < 20)]
  exact Real.logb_lt_logb_iff (by norm_num) ha hb

theorem isPeak_summit (B : Nat → ℝ) (hB : ∀ k, 0 ≤ B k) (mx : List ℝ) (n : Nat) (t : ℝ)
    (hl : mx.length = n / 2 + 1)
    (hmx : ∀ k, k ≤ n / 2 → mx[k]? = some (20 * Real.logb 10 (max (B k) floatEps)))
    (ht : 20 * Real.logb 10 floatEps ≤ t) (k : Nat) : IsPeak mx (some t) k ↔ Summit B t n k := by
  have hp := floatEps_pos
  have hpos : ∀ j, 0 < max (B j) floatEps := fun j => lt_max_of_lt_right hp
  constructor
  · rintro ⟨a, b, c, h1, ha, hb, hc, h2, h3, h4⟩
    have hk : k + 1 ≤ n / 2 := by
      have := getElem?_lt' hc
      omega
    rw [hmx _ (by omega)] at ha hb hc
    cases ha; cases hb; cases hc
    have h5 := h4 t rfl
    rw [logb10_lt (hpos _) (hpos _)] at h2 h3
    have h6 : floatEps < max (B k) floatEps := (logb10_lt hp (hpos k)).1 (lt_of_le_of_lt ht h5)
    have h7 : floatEps < B k := (lt_max_iff.1 h6).resolve_right (lt_irrefl _)
    rw [max_eq_left h7.le] at h2 h3 h5
    exact ⟨h1, hk, lt_of_le_of_lt (le_max_left _ _) h2, lt_of_le_of_lt (le_max_left _ _) h3, h5⟩
  · rintro ⟨h1, hk, h2, h3, h5⟩
    have h0 : 0 < B k := lt_of_le_of_lt (hB _) h2
    have h7 : floatEps < B k := (logb10_lt hp h0).1 (lt_of_le_of_lt ht h5)
    refine ⟨_, _, _, h1, hmx (k - 1) (by omega), hmx k (by omega), hmx (k + 1) hk, ?_, ?_, ?_⟩
    · rw [logb10_lt (hpos _) (hpos _), max_eq_left h7.le]
      exact max_lt h2 h7
    · rw [logb10_lt (hpos _) (hpos _), max_eq_left h7.le]
      exact max_lt h3 h7
    · intro th hth
      cases hth
      rw [max_eq_left h7.le]
      exact h5

theorem summit_gain (B : Nat → ℝ) (hB : ∀ k, 0 ≤ B k) (g : ℝ) (hg : g ≠ 0) (t : ℝ) (n k : Nat) :
    Summit (fun k => |g| * B k) (t + 20 * Real.logb 10 |g|) n k ↔ Summit B t n k := by
  have hg' : 0 < |g| := abs_pos.2 hg
  unfold Summit
  simp only [mul_lt_mul_iff_right₀ hg']
  have key : B (k - 1) < B k → ((t + 20 * Real.logb 10 |g| < 20 * Real.logb 10 (|g| * B k)) ↔
      t < 20 * Real.logb 10 (B k)) := by
    intro h
    have h0 : 0 < B k := lt_of_le_of_lt (hB _) h
    rw [Real.logb_mul hg'.ne' h0.ne', mul_add]
    constructor <;> intro h <;> linarith
  constructor
  · rintro ⟨a, b, c, d, e⟩
    exact ⟨a, b, c, d, (key c).1 e⟩
  · rintro ⟨a, b, c, d, e⟩
    exact ⟨a, b, c, d, (key c).2 e⟩

theorem sorted_eq {l l' : List Nat} (h : l.Pairwise (· < ·)) (h' : l'.Pairwise (· < ·))
    (hm : ∀ p, p ∈ l ↔ p ∈ l') : l = l' := by
  have hp : l.Perm l' := (List.perm_ext_iff_of_nodup (h.imp ne_of_lt) (h'.imp ne_of_lt)).2 hm
  exact hp.eq_of_pairwise (fun a b _ _ h1 h2 => by omega) h h'

theorem vertex_shift (a b c G : ℝ) : vertex (a + G) (b + G) (c + G) =
    (vertex a b c).map (fun q => (q.1, q.2 + G)) := by
  unfold vertex
  have e1 : a + G - (c + G) = a - c := by ring
  have e2 : a + G - 2 * (b + G) + (c + G) = a - 2 * b + c := by ring
  simp only [e1, e2]
  split
  · rfl
  · simp only [Option.map_some, Option.some.injEq, Prod.mk.injEq, true_and]
    ring

/-- Peaks without their phases, levels raised by `G`. -/
noncomputable def mute (G : ℝ) : Peak ℝ → Peak ℝ := Peak.rescale 1 G (fun _ => 0)

theorem gain_peaks (tol g : ℝ) (hg : g ≠ 0) (f w : List ℝ) (n : Nat) (t fs : ℝ) (hf : f.length = w.length)
    (h2 : 2 ≤ w.length) (hn : w.length ≤ n) (ht : 20 * Real.logb 10 floatEps ≤ t)
    (ht' : 20 * Real.logb 10 floatEps ≤ t + 20 * Real.logb 10 |g|) (hh : NeighboursHeard g t f w n) :
    ∃ mx px mx' px' pk pk' l l', dft (spectrum tol) f w n = .ok (mx, px) ∧
      dft (spectrum tol) (f.map (g * ·)) w n = .ok (mx', px') ∧
      peakDetectInterp mx px (some t) = .ok pk ∧
      peakDetectInterp mx' px' (some (t + 20 * Real.logb 10 |g|)) = .ok pk' ∧
      toPeaks fs n pk = .ok l ∧ toPeaks fs n pk' = .ok l' ∧
      l'.map (mute 0) = l.map (mute (20 * Real.logb 10 |g|)) := by
  have hg' : 0 < |g| := abs_pos.2 hg
  have hpe := floatEps_pos
  set G := 20 * Real.logb 10 |g| with hG
  obtain ⟨z, h1, e2, hz, hb⟩ := dft_spectrum tol f w n hf h2 hn
  obtain ⟨z', h1', e2', hz', hb'⟩ := dft_spectrum tol (f.map (g * ·)) w n (by simpa using hf) h2 hn
  set mx := (spectrum tol z).1 with hmx
  set px := (spectrum tol z).2 with hpx
  set mx' := (spectrum tol z').1 with hmx'
  set px' := (spectrum tol z').2 with hpx'
  set B : Nat → ℝ := fun k => ‖centredBin f w n k‖ with hBdef
  have hB : ∀ k, 0 ≤ B k := fun k => norm_nonneg _
  have l1 := spectrum_lengths tol z hz
  have l2 := spectrum_lengths tol z' hz'
  rw [e2, ← hmx, ← hpx] at l1
  rw [e2', ← hmx', ← hpx'] at l2
  have m1 : ∀ k, k ≤ n / 2 → mx[k]? = some (20 * Real.logb 10 (max (B k) floatEps)) := by
    intro k hk
    rw [hmx, spectrum_mag tol z k hz (by omega), hb]
  have m2 : ∀ k, k ≤ n / 2 → mx'[k]? = some (20 * Real.logb 10 (max (|g| * B k) floatEps)) := by
    intro k hk
    rw [hmx', spectrum_mag tol z' k hz' (by omega), hb', centredBin_smul, norm_mul, Complex.norm_real,
      Real.norm_eq_abs]
  obtain ⟨ps, p1, p2, p3⟩ := peakDetect_spec mx (some t)
  obtain ⟨ps', q1, q2, q3⟩ := peakDetect_spec mx' (some (t + G))
  have hps : ps' = ps := by
    apply sorted_eq q2 p2
    intro k
    rw [p3, q3, isPeak_summit B hB mx n t l1.1 m1 ht,
      isPeak_summit (fun k => |g| * B k) (fun k => mul_nonneg hg'.le (hB k)) mx' n (t + G) l2.1 m2 ht']
    exact summit_gain B hB g hg t n k
  subst hps
  -- one peak
  have one : ∀ k, ∃ q q' : ℝ × ℝ × ℝ, k ∈ ps' → refineOne mx px k = .ok (some q) ∧
      refineOne mx' px' k = .ok (some q') ∧ q'.1 = q.1 ∧ q'.2.1 = q.2.1 + G := by
    intro k
    by_cases hk : k ∈ ps'
    · have hpk := (p3 k).1 hk
      have hpk' := (q3 k).1 hk
      obtain ⟨s1, s2, s3, s4, s5⟩ := (isPeak_summit B hB mx n t l1.1 m1 ht k).1 hpk
      have hloud : ∀ j, j = k - 1 ∨ j = k ∨ j = k + 1 → floatEps ≤ B j ∧ floatEps ≤ |g| * B j := by
        intro j hj
        have hnb := hh k s1 s2 s5 s3 s4
        rcases hj with hj | hj | hj
        · exact hnb j (Or.inl hj)
        · subst hj
          have := hnb (j + 1) (Or.inr rfl)
          exact ⟨le_trans this.1 s4.le, le_trans this.2 (mul_le_mul_of_nonneg_left s4.le hg'.le)⟩
        · exact hnb j (Or.inr hj)
      have shift : ∀ j, j = k - 1 ∨ j = k ∨ j = k + 1 → ∃ a, mx[j]? = some a ∧ mx'[j]? = some (a + G) := by
        intro j hj
        have hj' : j ≤ n / 2 := by omega
        obtain ⟨g1, g2⟩ := hloud j hj
        refine ⟨_, m1 j hj', ?_⟩
        rw [m2 j hj', max_eq_left g1, max_eq_left g2,
          Real.logb_mul hg'.ne' (lt_of_lt_of_le hpe g1).ne']
        congr 1
        ring
      obtain ⟨a, a1, a2⟩ := shift (k - 1) (Or.inl rfl)
      obtain ⟨b, b1, b2⟩ := shift k (Or.inr (Or.inl rfl))
      obtain ⟨c, c1, c2⟩ := shift (k + 1) (Or.inr (Or.inr rfl))
      obtain ⟨loc, m, ph, _, r1, _⟩ := refineOne_spec mx px (some t) (by rw [l1.1, l1.2]) k hpk
      obtain ⟨loc', m', ph', _, r1', _⟩ := refineOne_spec mx' px' (some (t + G)) (by rw [l2.1, l2.2]) k hpk'
      refine ⟨(loc, m, ph), (loc', m', ph'), fun _ => ⟨r1, r1', ?_⟩⟩
      have i1 : Np.index mx (Int.ofNat k - 1) = .ok a := by
        rw [show Int.ofNat k - 1 = Int.ofNat (k - 1) by simp; omega]
        exact Np.index_ofNat mx (k - 1) a a1
      have i2 : Np.index mx (Int.ofNat k) = .ok b := Np.index_ofNat mx k b b1
      have i3 : Np.index mx (Int.ofNat k + 1) = .ok c := Np.index_ofNat mx (k + 1) c c1
      have j1 : Np.index mx' (Int.ofNat k - 1) = .ok (a + G) := by
        rw [show Int.ofNat k - 1 = Int.ofNat (k - 1) by simp; omega]
        exact Np.index_ofNat mx' (k - 1) _ a2
      have j2 : Np.index mx' (Int.ofNat k) = .ok (b + G) := Np.index_ofNat mx' k _ b2
      have j3 : Np.index mx' (Int.ofNat k + 1) = .ok (c + G) := Np.index_ofNat mx' (k + 1) _ c2
      unfold refineOne at r1 r1'
      simp only [i1, i2, i3] at r1
      simp only [j1, j2, j3, vertex_shift] at r1'
      cases hv : vertex a b c with
      | none => rw [hv] at r1; simp at r1
      | some dm =>
        obtain ⟨d, mm⟩ := dm
        rw [hv] at r1 r1'
        simp only [Option.map_some] at r1 r1'
        split at r1
        · simp at r1
        · split at r1'
          · simp at r1'
          · simp only [Except.ok.injEq, Option.some.injEq, Prod.mk.injEq] at r1 r1'
            exact ⟨by rw [← r1.1, ← r1'.1], by rw [← r1.2.1, ← r1'.2.1]⟩
    · exact ⟨0, 0, fun h => absurd h hk⟩
  choose q q' hq using one
  refine ⟨mx, px, mx', px', ps'.map (fun k => some (q k)), ps'.map (fun k => some (q' k)), 
    (ps'.map q).map (fun e => ⟨e.1 * fs / (n : ℝ), e.2.1, e.2.2⟩),
    (ps'.map q').map (fun e => ⟨e.1 * fs / (n : ℝ), e.2.1, e.2.2⟩), h1, h1', ?_, ?_, ?_, ?_, ?_⟩
  · unfold peakDetectInterp
    rw [p1]
    exact peakRefine_spec mx px _ ps' (fun k hk => (hq k hk).1)
  · unfold peakDetectInterp
    rw [q1]
    exact peakRefine_spec mx' px' _ ps' (fun k hk => (hq k hk).2.1)
  · have := toPeaks_map fs n (ps'.map q)
    rw [List.map_map] at this
    exact this
  · have := toPeaks_map fs n (ps'.map q')
    rw [List.map_map] at this
    exact this
  · simp only [List.map_map]
    apply List.map_congr_left
    intro k hk
    obtain ⟨_, _, g1, g2⟩ := hq k hk
    simp [mute, Peak.rescale, g1, g2]

/-! ## The loop -/

theorem rescale_one_zero (k : ModalCfg ℝ) : k.rescale 1 0 = k := by
  have h1 : ∀ o : Option ℝ, o.map (fun x => 1 * x) = o := by intro o; cases o <;> simp
  have h2 : ∀ o : Option ℝ, o.map (fun x => x / 1) = o := by intro o; cases o <;> simp
  cases k
  simp only [ModalCfg.rescale, h1, h2, one_mul, div_one, add_zero, Option.map_id']

theorem louder_cfg (G : ℝ) (p : Params ℝ) : (p.louder G).cfg = p.cfg.rescale 1 G := by
  have h1 : ∀ o : Option ℝ, o.map (fun x => 1 * x) = o := by intro o; cases o <;> simp
  have h2 : ∀ o : Option ℝ, o.map (fun x => x / 1) = o := by intro o; cases o <;> simp
  simp only [ModalCfg.rescale, Params.louder, Params.cfg, h1, h2, one_mul, div_one, Option.map_id']

/-- States without phases, levels raised by `G`. -/
noncomputable def muteState (G : ℝ) : State ℝ → State ℝ := State.rescale 1 G (fun _ => 0)

theorem fitLoop_gain (tol g : ℝ) (hg : g ≠ 0) (sort : List (Peak ℝ) → List Nat)
    (hs : LevelsShift (20 * Real.logb 10 |g|) sort) (p : Params ℝ) (w : List ℝ)
    (h2 : 2 ≤ w.length) (hn : w.length ≤ p.n) (ht : 20 * Real.logb 10 floatEps ≤ p.t)
    (ht' : 20 * Real.logb 10 floatEps ≤ p.t + 20 * Real.logb 10 |g|) :
    ∀ (xs : List (List ℝ)), (∀ f ∈ xs, f.length = w.length ∧ NeighboursHeard g p.t f w p.n) →
      ∀ (s s' : State ℝ) (st st' : Storage (Saved ℝ)), Even s.active → Even s'.active →
      muteState 0 s' = muteState (20 * Real.logb 10 |g|) s →
      (fitLoop (spectrum tol) sort (p.louder (20 * Real.logb 10 |g|)) w (xs.map (List.map (g * ·)))
          (s', st')).map (fun z => muteState 0 z.1) =
        (fitLoop (spectrum tol) sort p w xs (s, st)).map (fun z => muteState (20 * Real.logb 10 |g|) z.1) ∧
      (∀ z, fitLoop (spectrum tol) sort p w xs (s, st) = .ok z → Even z.1.active) ∧
      (∀ z, fitLoop (spectrum tol) sort (p.louder (20 * Real.logb 10 |g|)) w (xs.map (List.map (g * ·)))
          (s', st') = .ok z → Even z.1.active) := by
  set G := 20 * Real.logb 10 |g| with hG
  intro xs
  induction xs with
  | nil =>
    intro _ s s' st st' hE hE' hr
    refine ⟨?_, fun z hz => by cases hz; exact hE, fun z hz => by cases hz; exact hE'⟩
    simp [fitLoop, Except.map, hr]
  | cons f xs ih =>
    intro hx s s' st st' hE hE' hr
    obtain ⟨hf, hnb⟩ := hx f (by simp)
    obtain ⟨mx, px, mx', px', pk, pk', l, l', d1, d2, k1, k2, t1, t2, hl⟩ :=
      gain_peaks tol g hg f w p.n p.t p.cfg.fs hf h2 hn ht ht' hnb
    rw [← hG] at k2 hl
    have e1 : (p.louder G).n = p.n := rfl
    have e2 : (p.louder G).t = p.t + G := rfl
    have e3 : (p.louder G).cfg.fs = p.cfg.fs := rfl
    rw [List.map_cons]
    simp only [fitLoop]
    simp only [e1, e2, e3, d1, d2, k1, k2, t1, t2]
    have hso : sort l' = sort l := by
      apply hs
      have := congrArg (List.map Peak.mag) hl
      simp only [List.map_map] at this ⊢
      have a1 : (Peak.mag ∘ mute 0) = (Peak.mag : Peak ℝ → ℝ) := by
        funext q; simp [mute, Peak.rescale]
      have a2 : (Peak.mag ∘ mute G) = ((· + G) ∘ Peak.mag : Peak ℝ → ℝ) := by
        funext q; simp [mute, Peak.rescale]
      rw [a1, a2] at this
      exact this
    have hc := one_pos (α := ℝ)
    obtain ⟨c1, c2⟩ := call_rescale hc (follows_deact 1 G (fun _ => 0) hc p (p.louder G) (louder_cfg G p) rfl)
      (removes_deact p) p.cfg (sort l) l s hE
    obtain ⟨c1', c2'⟩ := call_rescale hc (follows_deact 1 0 (fun _ => 0) hc (p.louder G) (p.louder G)
      (rescale_one_zero _).symm rfl) (removes_deact (p.louder G)) (p.louder G).cfg (sort l) l' s' hE'
    rw [rescale_one_zero] at c1'
    rw [← louder_cfg] at c1
    have hl' : l'.map (Peak.rescale 1 0 (fun _ => 0)) = l.map (Peak.rescale 1 G (fun _ => 0)) := hl
    have hr' : s'.rescale 1 0 (fun _ => 0) = s.rescale 1 G (fun _ => 0) := hr
    rw [hl', hr', c1] at c1'
    rw [hso]
    cases hcl : call p.deact p.cfg.toCfg (sort l) l s with
    | error e =>
      rw [hcl] at c1'
      cases hcl' : call (p.louder G).deact (p.louder G).cfg.toCfg (sort l) l' s' with
      | error e' =>
        rw [hcl'] at c1'
        simp only [Except.map, Except.error.injEq] at c1'
        subst c1'
        exact ⟨rfl, fun z hz => by simp at hz, fun z hz => by simp at hz⟩
      | ok s1' => rw [hcl'] at c1'; simp [Except.map] at c1'
    | ok s1 =>
      rw [hcl] at c1'
      cases hcl' : call (p.louder G).deact (p.louder G).cfg.toCfg (sort l) l' s' with
      | error e' => rw [hcl'] at c1'; simp [Except.map] at c1'
      | ok s1' =>
        rw [hcl'] at c1'
        simp only [Except.map, Except.ok.injEq] at c1'
        exact ih (fun f hf => hx f (by simp [hf])) s1 s1' _ _ (c2 s1 hcl) (c2' s1' hcl') c1'.symm

theorem fitBody_gain (tol g : ℝ) (hg : g ≠ 0) (sort : List (Peak ℝ) → List Nat)
    (hs : LevelsShift (20 * Real.logb 10 |g|) sort) (p : Params ℝ) (st st' : Storage (Saved ℝ)) (x : List ℝ)
    (h2 : 2 ≤ p.w.length) (hn : p.w.length ≤ p.n) (ht : 20 * Real.logb 10 floatEps ≤ p.t)
    (ht' : 20 * Real.logb 10 floatEps ≤ p.t + 20 * Real.logb 10 |g|)
    (hh : ∀ frames, timeFrames p.padded p.w.length p.hop (if p.reverse then x.reverse else x) = .ok frames →
      ∀ f ∈ frames, NeighboursHeard g p.t f (p.w.map fun a => a / p.w.sum) p.n) :
    (fitBody (spectrum tol) sort (p.louder (20 * Real.logb 10 |g|)) st' (x.map (g * ·))).map
        (fun z => muteState 0 z.1) =
      (fitBody (spectrum tol) sort p st x).map (fun z => muteState (20 * Real.logb 10 |g|) z.1) ∧
    (∀ z, fitBody (spectrum tol) sort p st x = .ok z → Even z.1.active) ∧
    (∀ z, fitBody (spectrum tol) sort (p.louder (20 * Real.logb 10 |g|)) st' (x.map (g * ·)) = .ok z →
      Even z.1.active) := by
  set G := 20 * Real.logb 10 |g| with hG
  have hE : Even (⟨[], [], 0⟩ : State ℝ).active := by intro t ht; simp at ht
  have e1 : (p.louder G).w = p.w := rfl
  have e2 : (p.louder G).reverse = p.reverse := rfl
  have e3 : (p.louder G).padded = p.padded := rfl
  have e4 : (p.louder G).hop = p.hop := rfl
  have hx : (if p.reverse = true then (x.map (g * ·)).reverse else x.map (g * ·)) =
      (if p.reverse = true then x.reverse else x).map (g * ·) := by split <;> simp
  unfold fitBody
  rw [e1, e2, e3, e4, hx, timeFrames_gain]
  unfold normalizedWindow
  split
  · exact ⟨rfl, fun z hz => by simp at hz, fun z hz => by simp at hz⟩
  · rename_i hw
    split at hw
    · simp at hw
    · cases hw
      cases hfr : timeFrames p.padded p.w.length p.hop (if p.reverse = true then x.reverse else x) with
      | error e => exact ⟨rfl, fun z hz => by simp at hz, fun z hz => by simp [Except.map] at hz⟩
      | ok frames =>
        simp only [Except.map]
        have hrows := timeFrames_rows _ _ _ _ _ hfr
        obtain ⟨f1, f2, f3⟩ := fitLoop_gain tol g hg sort hs p (p.w.map fun a => a / p.w.sum) (by simpa using h2)
          (by simpa using hn) ht ht' frames
          (fun f hf => ⟨by rw [List.length_map]; exact hrows f hf, hh frames hfr f hf⟩) ⟨[], [], 0⟩ ⟨[], [], 0⟩ st st'
          hE hE rfl
        rw [← hG] at f1 f3
        cases h1 : fitLoop (spectrum tol) sort p (p.w.map fun a => a / p.w.sum) frames (⟨[], [], 0⟩, st) with
        | error e =>
          cases h3 : fitLoop (spectrum tol) sort (p.louder G) (p.w.map fun a => a / p.w.sum)
              (frames.map (List.map (g * ·))) (⟨[], [], 0⟩, st') with
          | error e' =>
            rw [h1, h3] at f1
            simp only [Except.map, Except.error.injEq] at f1
            subst f1
            exact ⟨rfl, fun z hz => by simp at hz, fun z hz => by simp at hz⟩
          | ok z' => rw [h1, h3] at f1; simp [Except.map] at f1
        | ok z =>
          cases h3 : fitLoop (spectrum tol) sort (p.louder G) (p.w.map fun a => a / p.w.sum)
              (frames.map (List.map (g * ·))) (⟨[], [], 0⟩, st') with
          | error e' => rw [h1, h3] at f1; simp [Except.map] at f1
          | ok z' =>
            rw [h1, h3] at f1
            simp only [Except.map, Except.ok.injEq] at f1
            refine ⟨by simp [f1], fun y hy => ?_, fun y hy => ?_⟩
            · cases hy; exact f2 z h1
            · cases hy; exact f3 z' h3

theorem map_one_mul (l : List (Option ℝ)) : l.map (Option.map (fun x => 1 * x)) = l := by
  simp [Option.map_id']

theorem map_add_zero (l : List (Option ℝ)) : l.map (Option.map (fun x => x + 0)) = l := by
  simp [Option.map_id']

theorem exceptMap_map {ε α β γ : Type*} (f : α → β) (h : β → γ) (e : Except ε α) :
    (e.map f).map h = e.map (fun a => h (f a)) := by
  cases e <;> rfl

/-- The fit of the louder sound, up to the phases. -/
theorem fit_gain (tol g : ℝ) (hg : g ≠ 0) (sort : List (Peak ℝ) → List Nat)
    (hs : LevelsShift (20 * Real.logb 10 |g|) sort) (m : Model ℝ) (x : List ℝ)
    (h2 : 2 ≤ m.params.w.length) (hn : m.params.w.length ≤ m.params.n)
    (ht : 20 * Real.logb 10 floatEps ≤ m.params.t)
    (ht' : 20 * Real.logb 10 floatEps ≤ m.params.t + 20 * Real.logb 10 |g|)
    (hh : ∀ frames, timeFrames m.params.padded m.params.w.length m.params.hop
        (if m.params.reverse then x.reverse else x) = .ok frames →
      ∀ f ∈ frames, NeighboursHeard g m.params.t f (m.params.w.map fun a => a / m.params.w.sum) m.params.n) :
    (({ m with params := m.params.louder (20 * Real.logb 10 |g|) } : Model ℝ).fit (spectrum tol) sort
        (x.map (g * ·)) Kwargs.none).map (fun m => (m.params, m.tracks.map (Track.rescale 1 0 fun _ => 0))) =
      (m.fit (spectrum tol) sort x Kwargs.none).map (fun m => (m.params.louder (20 * Real.logb 10 |g|),
        m.tracks.map (Track.rescale 1 (20 * Real.logb 10 |g|) fun _ => 0))) := by
  obtain ⟨f1, f2, f3⟩ := fitBody_gain tol g hg sort hs m.params m.storage.reset m.storage.reset x h2 hn ht ht' hh
  set G := 20 * Real.logb 10 |g| with hG
  rw [fit_eq_body, fit_eq_body]
  simp only
  cases h1 : fitBody (spectrum tol) sort m.params m.storage.reset x with
  | error e =>
    cases h3 : fitBody (spectrum tol) sort (m.params.louder G) m.storage.reset (x.map (g * ·)) with
    | error e' =>
      rw [h1, h3] at f1
      simp only [Except.map, Except.error.injEq] at f1
      subst f1
      rfl
    | ok z' => rw [h1, h3] at f1; simp [Except.map] at f1
  | ok z =>
    cases h3 : fitBody (spectrum tol) sort (m.params.louder G) m.storage.reset (x.map (g * ·)) with
    | error e' => rw [h1, h3] at f1; simp [Except.map] at f1
    | ok z' =>
      rw [h1, h3] at f1
      simp only [Except.map, Except.ok.injEq] at f1 ⊢
      have hc := one_pos (α := ℝ)
      have t1 := tracks_rescale 1 G (fun _ => 0) hc ⟨m.params, z.1, z.2.1, some z.2.2⟩
        ⟨m.params.louder G, muteState G z.1, z.2.1, some z.2.2⟩ (louder_cfg G _) rfl rfl (f2 z h1)
      have t2 := tracks_rescale 1 0 (fun _ => 0) hc ⟨m.params.louder G, z'.1, z'.2.1, some z'.2.2⟩
        ⟨m.params.louder G, muteState 0 z'.1, z.2.1, some z.2.2⟩ (rescale_one_zero _).symm rfl rfl (f3 z' h3)
      rw [f1, t1] at t2
      rw [t2]

end Verif.Sms
