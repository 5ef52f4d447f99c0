import Mathlib.Analysis.SpecialFunctions.Trigonometric.Deriv
import Mathlib.Analysis.SpecialFunctions.ExpDeriv
import Mathlib.Analysis.Complex.Norm
import Mathlib.Analysis.Calculus.Deriv.Mul
import Verif.Beat.BeatModel
import Verif.Beat.BeatSpec

/-!
# C43: amplitude modulation, C44: frequency modulation, C45: initial phase
-/

set_option autoImplicit false
set_option linter.unusedSectionVars false
set_option linter.unusedSimpArgs false

namespace Verif.Beat

open Verif.Out

/-! ## Evaluation on a time axis -/

/-- The value `v` stands for the function `F` on the times `ts`. -/
def Is (ts : List ℝ) (v : Val) (F : ℝ → Cell) : Prop :=
  v = .ar (ts.map F) ∨ ∃ c, v = .sc c ∧ ∀ t ∈ ts, F t = c

theorem is_ar (ts : List ℝ) (F : ℝ → Cell) : Is ts (.ar (ts.map F)) F := Or.inl rfl

theorem is_sc (ts : List ℝ) (c : Cell) : Is ts (.sc c) fun _ => c := Or.inr ⟨c, rfl, fun _ _ => rfl⟩

theorem bin_ar_ar (f : ℝ → ℝ → Cell) (ts : List ℝ) (F G : ℝ → Cell) :
    bin f (.ar (ts.map F)) (.ar (ts.map G)) = .ok (.ar (ts.map fun t => lift2 f (F t) (G t))) := by
  simp [bin, List.zipWith_map, List.zipWith_self]

theorem bin_ar_left (f : ℝ → ℝ → Cell) (ts : List ℝ) (F G : ℝ → Cell) (w : Val) (h : Is ts w G) :
    bin f (.ar (ts.map F)) w = .ok (.ar (ts.map fun t => lift2 f (F t) (G t))) := by
  rcases h with rfl | ⟨c, rfl, hc⟩
  · exact bin_ar_ar f ts F G
  · simp only [bin, List.map_map]
    congr 2
    apply List.map_congr_left
    intro t ht
    rw [Function.comp, hc t ht]

theorem bin_ar_right (f : ℝ → ℝ → Cell) (ts : List ℝ) (F G : ℝ → Cell) (v : Val) (h : Is ts v F) :
    bin f v (.ar (ts.map G)) = .ok (.ar (ts.map fun t => lift2 f (F t) (G t))) := by
  rcases h with rfl | ⟨c, rfl, hc⟩
  · exact bin_ar_ar f ts F G
  · simp only [bin, List.map_map]
    congr 2
    apply List.map_congr_left
    intro t ht
    rw [Function.comp, hc t ht]

theorem bin_is (f : ℝ → ℝ → Cell) (ts : List ℝ) (F G : ℝ → Cell) (v w : Val) (hv : Is ts v F)
    (hw : Is ts w G) : ∃ r, bin f v w = .ok r ∧ Is ts r fun t => lift2 f (F t) (G t) := by
  rcases hv with rfl | ⟨c, rfl, hc⟩
  · exact ⟨_, bin_ar_left f ts F G w hw, is_ar ts _⟩
  · rcases hw with rfl | ⟨d, rfl, hd⟩
    · exact ⟨_, bin_ar_right f ts F G _ (Or.inr ⟨c, rfl, hc⟩), is_ar ts _⟩
    · exact ⟨_, rfl, Or.inr ⟨_, rfl, fun t ht => by show lift2 f (F t) (G t) = _; rw [hc t ht, hd t ht]⟩⟩

theorem un_is (f : ℝ → ℝ) (ts : List ℝ) (F : ℝ → Cell) (v : Val) (hv : Is ts v F) :
    Is ts (un f v) fun t => (F t).map f := by
  rcases hv with rfl | ⟨c, rfl, hc⟩
  · left
    simp [un]
  · right
    exact ⟨_, rfl, fun t ht => by show (F t).map f = _; rw [hc t ht]⟩

theorem un_ar (f : ℝ → ℝ) (ts : List ℝ) (F : ℝ → Cell) :
    un f (.ar (ts.map F)) = .ar (ts.map fun t => (F t).map f) := by simp [un]

/-- The value of a parameter at a time. -/
def Par.at : Par → ℝ → ℝ
  | .num v, _ => v
  | .fn f, t => f t

/-- The time axis. -/
def axis (ts : List ℝ) : Val := .ar (ts.map some)

theorem eval_is (q : Par) (ts : List ℝ) : Is ts (q.eval (axis ts)) fun t => some (q.at t) := by
  cases q with
  | num v => exact is_sc ts _
  | fn f => left; simp [Par.eval, axis, un, Par.at, Function.comp_def]

/-- A number first and a function second does not work (`C43_shapes`). -/
def Fits : Par → Par → Prop
  | .num _, .fn _ => False
  | _, _ => True

theorem div_two (ts : List ℝ) (F : ℝ → ℝ) (v : Val) (hv : Is ts v fun t => some (F t)) :
    ∃ r, div v (.sc (some 2)) = .ok r ∧ Is ts r fun t => some (F t / 2) := by
  obtain ⟨r, h1, h2⟩ := bin_is (fun x y => if y = 0 then none else some (x / y)) ts _ _ v
    (.sc (some 2)) hv (is_sc ts (some 2))
  refine ⟨r, ?_, ?_⟩
  · rw [← h1]; rfl
  · simpa [lift2] using h2

theorem semi_is (op : Val → Val → Except PyErr Val) (g : ℝ → ℝ → ℝ)
    (hop : op = bin fun x y => some (g x y)) (q r : Par) (ts : List ℝ) (h : Fits q r) :
    ∃ v, semi op (q.eval (axis ts)) (r.eval (axis ts)) = .ok v ∧
      Is ts v fun t => some (g (q.at t) (r.at t) / 2) := by
  obtain ⟨s, s1, s2⟩ := bin_is (fun x y => some (g x y)) ts _ _ _ _ (eval_is q ts) (eval_is r ts)
  obtain ⟨v, v1, v2⟩ := div_two ts (fun t => g (q.at t) (r.at t)) s (by simpa [lift2] using s2)
  refine ⟨v, ?_, v2⟩
  rw [← hop] at s1
  have key : semi op (q.eval (axis ts)) (r.eval (axis ts)) =
      match op (q.eval (axis ts)) (r.eval (axis ts)) with
      | .error e => .error e
      | .ok s => div s (.sc (some 2)) := by
    cases q with
    | num c => cases r with
      | num d => rfl
      | fn f => exact absurd h id
    | fn f => cases r <;> rfl
  rw [key, s1]
  exact v1

/-- The pairs of parameters that can be evaluated. -/
structure Fit (b : Beat) : Prop where
  a : Fits b.a0 b.a1
  f : Fits b.f0 b.f1
  p : Fits b.p0 b.p1

section Eval

variable (b : Beat) (ts : List ℝ)

/-- Values of the nodes at one time. -/
noncomputable def vAo (t : ℝ) : ℝ := (b.a0.at t + b.a1.at t) / 2
noncomputable def vAh (t : ℝ) : ℝ := (b.a0.at t - b.a1.at t) / 2
noncomputable def vPh (t : ℝ) : ℝ :=
  2 * Real.pi * ((b.f0.at t - b.f1.at t) / 2) * t + (b.p0.at t - b.p1.at t) / 2
noncomputable def vAlpha2 (t : ℝ) : ℝ :=
  (vAo b t ^ 2 - vAh b t ^ 2) * Real.cos (vPh b t) ^ 2 + vAh b t ^ 2
noncomputable def vG (t : ℝ) : ℝ :=
  (b.da0.at t * b.a1.at t - b.da1.at t * b.a0.at t) * Real.sin (vPh b t * 2) * 0.25

theorem aOln_is (h : Fit b) : ∃ v, b.aOln (axis ts) = .ok v ∧ Is ts v fun t => some (vAo b t) :=
  semi_is add _ rfl b.a0 b.a1 ts h.a

theorem aHat_is (h : Fit b) : ∃ v, b.aHat (axis ts) = .ok v ∧ Is ts v fun t => some (vAh b t) :=
  semi_is sub _ rfl b.a0 b.a1 ts h.a

theorem wOln_is (h : Fit b) : ∃ v, b.wOln (axis ts) = .ok v ∧
    Is ts v fun t => some (2 * Real.pi * ((b.f0.at t + b.f1.at t) / 2)) := by
  obtain ⟨v, h1, h2⟩ := semi_is add _ rfl b.f0 b.f1 ts h.f
  obtain ⟨r, r1, r2⟩ := bin_is (fun x y => some (x * y)) ts _ _ (.sc (some (2 * Real.pi))) v
    (is_sc ts _) h2
  exact ⟨r, by rw [Beat.wOln, Beat.fOln, semisum, h1]; exact r1, r2⟩

theorem wHat_is (h : Fit b) : ∃ v, b.wHat (axis ts) = .ok v ∧
    Is ts v fun t => some (2 * Real.pi * ((b.f0.at t - b.f1.at t) / 2)) := by
  obtain ⟨v, h1, h2⟩ := semi_is sub _ rfl b.f0 b.f1 ts h.f
  obtain ⟨r, r1, r2⟩ := bin_is (fun x y => some (x * y)) ts _ _ (.sc (some (2 * Real.pi))) v
    (is_sc ts _) h2
  exact ⟨r, by rw [Beat.wHat, Beat.fHat, semidiff, h1]; exact r1, r2⟩

theorem phase_ar (h : Fit b) :
    b.phase (axis ts) = .ok (.ar (ts.map fun t => some (vPh b t))) := by
  obtain ⟨v, h1, h2⟩ := wHat_is b ts h
  obtain ⟨q, q1, q2⟩ := semi_is sub _ rfl b.p0 b.p1 ts h.p
  have h3 : mul v (axis ts) = _ := bin_ar_right (fun x y => some (x * y)) ts _ some v h2
  have h4 := bin_ar_left (fun x y => some (x + y)) ts
    (fun t => lift2 (fun x y => some (x * y))
      (some (2 * Real.pi * ((b.f0.at t - b.f1.at t) / 2))) (some t)) _ q q2
  rw [Beat.phase, h1]
  simp only [bind, Except.bind]
  rw [h3]
  simp only [Beat.pHat, semidiff]
  rw [q1]
  exact h4

theorem alpha2_ar (h : Fit b) :
    b.alpha2 (axis ts) = .ok (.ar (ts.map fun t => some (vAlpha2 b t))) := by
  obtain ⟨o, o1, o2⟩ := aOln_is b ts h
  obtain ⟨d, d1, d2⟩ := aHat_is b ts h
  obtain ⟨r, r1, r2⟩ := bin_is (fun x y => some (x - y)) ts _ _ _ _ (un_is (· ^ 2) ts _ o o2)
    (un_is (· ^ 2) ts _ d d2)
  rw [Beat.alpha2, o1, d1, phase_ar b ts h]
  simp only [bind, Except.bind, un_ar, Option.map_some]
  rw [show sub (un (· ^ 2) o) (un (· ^ 2) d) = .ok r from r1]
  simp only
  rw [show mul r _ = _ from bin_ar_right (fun x y => some (x * y)) ts _ _ r r2]
  simp only
  rw [show add _ (un (· ^ 2) d) = _ from bin_ar_left (fun x y => some (x + y)) ts _ _ _
    (un_is (· ^ 2) ts _ d d2)]
  simp [lift2, vAlpha2]

theorem am_ar (h : Fit b) :
    b.am (axis ts) = .ok (.ar (ts.map fun t => some (Real.sqrt (vAlpha2 b t) * 2))) := by
  rw [Beat.am, alpha2_ar b ts h]
  simp only [bind, Except.bind, un_ar, Option.map_some]
  rw [show mul _ (.sc (some 2)) = _ from bin_ar_left (fun x y => some (x * y)) ts _ _ _
    (is_sc ts (some 2))]
  simp [lift2]

theorem fromAm_ar (h : Fit b) :
    b.fromAm (axis ts) = .ok (.ar (ts.map fun t => some (vG b t))) := by
  obtain ⟨g, g1, g2⟩ := bin_is (fun x y => some (x * y)) ts _ _ _ _ (eval_is b.da0 ts)
    (eval_is b.a1 ts)
  obtain ⟨g', g'1, g'2⟩ := bin_is (fun x y => some (x * y)) ts _ _ _ _ (eval_is b.da1 ts)
    (eval_is b.a0 ts)
  obtain ⟨r, r1, r2⟩ := bin_is (fun x y => some (x - y)) ts _ _ _ _ g2 g'2
  rw [Beat.fromAm, show mul (b.da0.eval (axis ts)) (b.a1.eval (axis ts)) = .ok g from g1,
    show mul (b.da1.eval (axis ts)) (b.a0.eval (axis ts)) = .ok g' from g'1, phase_ar b ts h]
  simp only [bind, Except.bind]
  rw [show sub g g' = .ok r from r1]
  simp only
  rw [show mul _ (.sc (some 2)) = _ from bin_ar_left (fun x y => some (x * y)) ts _ _ _
    (is_sc ts (some 2))]
  simp only [un_ar, lift2, Option.bind_some, Option.map_some]
  rw [show mul r _ = _ from bin_ar_right (fun x y => some (x * y)) ts _ _ r r2]
  simp only [lift2, Option.bind_some, Option.map_some]
  rw [show mul _ (.sc (some 0.25)) = _ from bin_ar_left (fun x y => some (x * y)) ts _ _ _
    (is_sc ts (some 0.25))]
  simp [lift2, vG]

open Classical in
theorem fm_ar (h : Fit b) :
    b.fm (axis ts) = .ok (.ar (ts.map fun t =>
      if vAlpha2 b t = 0 then none
      else some ((vAo b t * vAh b t * (2 * Real.pi * ((b.f0.at t - b.f1.at t) / 2)) + vG b t) /
        vAlpha2 b t + 2 * Real.pi * ((b.f0.at t + b.f1.at t) / 2)))) := by
  obtain ⟨o, o1, o2⟩ := aOln_is b ts h
  obtain ⟨d, d1, d2⟩ := aHat_is b ts h
  obtain ⟨w, w1, w2⟩ := wHat_is b ts h
  obtain ⟨u, u1, u2⟩ := wOln_is b ts h
  obtain ⟨r, r1, r2⟩ := bin_is (fun x y => some (x * y)) ts _ _ _ _ o2 d2
  obtain ⟨s, s1, s2⟩ := bin_is (fun x y => some (x * y)) ts _ _ _ _ r2 w2
  rw [Beat.fm, o1, d1, w1, u1, alpha2_ar b ts h, fromAm_ar b ts h]
  simp only [bind, Except.bind]
  rw [show mul o d = .ok r from r1]
  simp only
  rw [show mul r w = .ok s from s1]
  simp only
  rw [show add s _ = _ from bin_ar_right (fun x y => some (x + y)) ts _ _ s s2]
  simp only
  rw [show div _ _ = _ from bin_ar_ar (fun x y => if y = 0 then none else some (x / y)) ts _ _]
  simp only
  rw [show add _ u = _ from bin_ar_left (fun x y => some (x + y)) ts _ _ _ u2]
  congr 2
  apply List.map_congr_left
  intro t _
  simp only [lift2, Option.bind_some]
  by_cases hz : vAlpha2 b t = 0 <;> simp [hz]

theorem fmFromAm_ar (h : Fit b) : ∃ F : ℝ → Cell,
    b.fmFromAm (axis ts) = .ok (.ar (ts.map F)) ∧
      ∀ t, vAlpha2 b t ≠ 0 → F t = some (vG b t / vAlpha2 b t) := by
  classical
  rw [Beat.fmFromAm, alpha2_ar b ts h, fromAm_ar b ts h]
  refine ⟨_, bin_ar_ar (fun x y => if y = 0 then none else some (x / y)) ts _ _, ?_⟩
  intro t ht
  simp [lift2, ht]

end Eval

/-! ## C43 -/

/-- The sum of the partials of a beat. -/
noncomputable def Beat.z (b : Beat) : ℝ → ℂ :=
  sumAt b.a0.at b.a1.at b.f0.at b.f1.at b.p0.at b.p1.at

theorem normSq_z (b : Beat) (t : ℝ) : ‖b.z t‖ ^ 2 = 4 * vAlpha2 b t := by
  rw [← Complex.normSq_eq_norm_sq]
  set x := 2 * Real.pi * b.f0.at t * t + b.p0.at t with hx
  set y := 2 * Real.pi * b.f1.at t * t + b.p1.at t with hy
  have hp : vPh b t = (x - y) / 2 := by rw [vPh, hx, hy]; ring
  have hz : b.z t = ((b.a0.at t * Real.cos x + b.a1.at t * Real.cos y : ℝ) : ℂ) +
      ((b.a0.at t * Real.sin x + b.a1.at t * Real.sin y : ℝ) : ℂ) * Complex.I := by
    rw [Beat.z, sumAt, partialAt, partialAt, ← hx, ← hy, Complex.exp_mul_I, Complex.exp_mul_I]
    push_cast
    ring
  rw [hz, Complex.normSq_add_mul_I, vAlpha2, hp, Real.cos_sq, show 2 * ((x - y) / 2) = x - y by ring,
    Real.cos_sub, vAo, vAh]
  linear_combination b.a0.at t ^ 2 * Real.sin_sq_add_cos_sq x +
    b.a1.at t ^ 2 * Real.sin_sq_add_cos_sq y

theorem two_sqrt (b : Beat) (t : ℝ) : Real.sqrt (vAlpha2 b t) * 2 = ‖b.z t‖ := by
  have h := normSq_z b t
  have h0 : (0 : ℝ) ≤ ‖b.z t‖ := norm_nonneg _
  have : vAlpha2 b t = (‖b.z t‖ / 2) ^ 2 := by linarith [div_pow ‖b.z t‖ 2 2]
  rw [this, Real.sqrt_sq (by positivity)]
  ring

/-- What the constructor stores. -/
theorem mkBeat_ok (a0 a1 : Amp) (f0 f1 p0 p1 : Par) (b : Beat)
    (h : mkBeat a0 a1 f0 f1 p0 p1 = .ok b) :
    b.a0 = a0.par ∧ b.a1 = a1.par ∧ b.f0 = f0 ∧ b.f1 = f1 ∧ b.p0 = p0 ∧ b.p1 = p1 ∧
      a0.dt = .ok b.da0 ∧ a1.dt = .ok b.da1 := by
  unfold mkBeat at h
  cases h0 : a0.dt <;> cases h1 : a1.dt <;> simp only [h0, h1] at h <;> cases h
  exact ⟨rfl, rfl, rfl, rfl, rfl, rfl, rfl, rfl⟩

/-- C43.  The amplitude modulation of a beat is, at every time, the modulus of the sum of its two
partials. -/
theorem C43_am (a0 a1 : Amp) (f0 f1 p0 p1 : Par) (b : Beat)
    (h : mkBeat a0 a1 f0 f1 p0 p1 = .ok b) (ha : Fits a0.par a1.par) (hf : Fits f0 f1)
    (hp : Fits p0 p1) (ts : List ℝ) :
    b.am (axis ts) = .ok (.ar (ts.map fun t =>
      some ‖sumAt a0.par.at a1.par.at f0.at f1.at p0.at p1.at t‖)) := by
  obtain ⟨e1, e2, e3, e4, e5, e6, -, -⟩ := mkBeat_ok a0 a1 f0 f1 p0 p1 b h
  rw [am_ar b ts ⟨by rw [e1, e2]; exact ha, by rw [e3, e4]; exact hf, by rw [e5, e6]; exact hp⟩]
  congr 2
  apply List.map_congr_left
  intro t _
  rw [two_sqrt, Beat.z, e1, e2, e3, e4, e5, e6]

/-- C43.  The amplitude modulation lies between the difference and the sum of the amplitudes. -/
theorem C43_range (a0 a1 : Amp) (f0 f1 p0 p1 : Par) (b : Beat)
    (h : mkBeat a0 a1 f0 f1 p0 p1 = .ok b) (ha : Fits a0.par a1.par) (hf : Fits f0 f1)
    (hp : Fits p0 p1) (ts : List ℝ) :
    ∃ vs : List ℝ, b.am (axis ts) = .ok (.ar (vs.map some)) ∧
      List.Forall₂ (fun t v => |(|a0.par.at t| - |a1.par.at t|)| ≤ v ∧
        v ≤ |a0.par.at t| + |a1.par.at t|) ts vs := by
  refine ⟨ts.map fun t => ‖sumAt a0.par.at a1.par.at f0.at f1.at p0.at p1.at t‖, ?_, ?_⟩
  · rw [C43_am a0 a1 f0 f1 p0 p1 b h ha hf hp, List.map_map]
    rfl
  · rw [List.forall₂_map_right_iff, List.forall₂_same]
    intro t _
    have hn : ∀ a f p : ℝ, ‖partialAt a f p t‖ = |a| := by
      intro a f p
      rw [partialAt, norm_mul, Complex.norm_exp_ofReal_mul_I, mul_one, Complex.norm_real,
        Real.norm_eq_abs]
    constructor
    · rw [← hn (a0.par.at t) (f0.at t) (p0.at t), ← hn (a1.par.at t) (f1.at t) (p1.at t), sumAt]
      have := abs_norm_sub_norm_le (partialAt (a0.par.at t) (f0.at t) (p0.at t) t)
        (-partialAt (a1.par.at t) (f1.at t) (p1.at t) t)
      simpa using this
    · rw [← hn (a0.par.at t) (f0.at t) (p0.at t), ← hn (a1.par.at t) (f1.at t) (p1.at t)]
      exact norm_add_le _ _

theorem semi_misfit (op : Val → Val → Except PyErr Val) (q r : Par) (ts : List ℝ)
    (h : ¬ Fits q r) : semi op (q.eval (axis ts)) (r.eval (axis ts)) = .error .valueError := by
  cases q <;> cases r <;> first | exact absurd trivial h | rfl

/-- C43.  A number for the first partial and a function for the second is a `ValueError`, whichever
the parameter. -/
theorem C43_shapes (a0 a1 : Amp) (f0 f1 p0 p1 : Par) (b : Beat)
    (h : mkBeat a0 a1 f0 f1 p0 p1 = .ok b)
    (hm : ¬ Fits a0.par a1.par ∨ ¬ Fits f0 f1 ∨ ¬ Fits p0 p1) (ts : List ℝ) :
    b.am (axis ts) = .error .valueError := by
  obtain ⟨e1, e2, e3, e4, e5, e6, -, -⟩ := mkBeat_ok a0 a1 f0 f1 p0 p1 b h
  rw [Beat.am, Beat.alpha2, Beat.aOln, Beat.aHat, Beat.phase, Beat.wHat, Beat.fHat, Beat.pHat,
    semisum, semidiff, e1, e2, e3, e4, e5, e6]
  by_cases ha : Fits a0.par a1.par
  · obtain ⟨v, v1, -⟩ := semi_is add _ rfl a0.par a1.par ts ha
    obtain ⟨w, w1, -⟩ := semi_is sub _ rfl a0.par a1.par ts ha
    rw [v1, w1]
    by_cases hf : Fits f0 f1
    · obtain ⟨u, u1, u2⟩ := semi_is sub _ rfl f0 f1 ts hf
      obtain ⟨r, r1, r2⟩ := bin_is (fun x y => some (x * y)) ts _ _ (.sc (some (2 * Real.pi))) u
        (is_sc ts _) u2
      rw [u1]
      simp only [bind, Except.bind]
      rw [show mul (.sc (some (2 * Real.pi))) u = .ok r from r1]
      simp only
      rw [show mul r (axis ts) = _ from bin_ar_right (fun x y => some (x * y)) ts _ some r r2]
      simp only
      rw [semi_misfit sub p0 p1 ts (by tauto)]
    · rw [semi_misfit sub f0 f1 ts hf]
      rfl
  · rw [semi_misfit add a0.par a1.par ts ha]
    rfl

/-- A function of time for the first amplitude only. -/
example : ∃ b, mkBeat (expDecay 1 2) (.num 1) (.num 1) (.num 2) (.num 0) (.num 0) = .ok b ∧
    b.am (axis [0, 1]) = .ok (.ar [some 2, some (Real.exp (-1) + 1)]) := by
  refine ⟨_, rfl, ?_⟩
  rw [C43_am (expDecay 1 2) (.num 1) (.num 1) (.num 2) (.num 0) (.num 0) _ rfl trivial trivial
    trivial]
  have h1 : ∀ n : ℕ, Complex.exp (((2 * Real.pi * n * 1 + 0 : ℝ) : ℂ) * Complex.I) = 1 := by
    intro n
    rw [Complex.exp_eq_one_iff]
    exact ⟨n, by push_cast; ring⟩
  have h2 := h1 1
  have h3 := h1 2
  simp only [Nat.cast_one, Nat.cast_ofNat] at h2 h3
  have e : ∀ x : ℝ, ‖(x : ℂ) + 1‖ = |x + 1| := by
    intro x
    rw [← Complex.ofReal_one, ← Complex.ofReal_add, Complex.norm_real, Real.norm_eq_abs]
  simp only [List.map_cons, List.map_nil, sumAt, partialAt, Par.at, Amp.par, expDecay, h2, h3]
  norm_num
  have := e (Real.exp (-1))
  rw [abs_of_pos (by positivity)] at this
  simpa using this

/-- The same the other way round does not work. -/
example : ∃ b, mkBeat (.num 1) (expDecay 1 2) (.num 1) (.num 2) (.num 0) (.num 0) = .ok b ∧
    b.am (axis [0, 1]) = .error .valueError :=
  ⟨_, rfl, C43_shapes (.num 1) (expDecay 1 2) (.num 1) (.num 2) (.num 0) (.num 0) _ rfl
    (Or.inl id) _⟩

/-! ## C44 -/

theorem exp_mk (x : ℝ) : Complex.exp ((x : ℂ) * Complex.I) = ⟨Real.cos x, Real.sin x⟩ := by
  apply Complex.ext
  · simp [Complex.exp_ofReal_mul_I_re]
  · simp [Complex.exp_ofReal_mul_I_im]

/-- The derivative of a partial. -/
theorem partial_deriv (a : ℝ → ℝ) (a' f p t : ℝ) (h : HasDerivAt a a' t) :
    HasDerivAt (fun s => partialAt (a s) f p s)
      ((a' + a t * (2 * Real.pi * f) * Complex.I) *
        Complex.exp (((2 * Real.pi * f * t + p : ℝ) : ℂ) * Complex.I)) t := by
  have h1 : HasDerivAt (fun s : ℝ => ((a s : ℝ) : ℂ)) (a' : ℂ) t := h.ofReal_comp
  have h2 : HasDerivAt (fun s : ℝ => 2 * Real.pi * f * s + p) (2 * Real.pi * f) t := by
    simpa using ((hasDerivAt_id t).const_mul (2 * Real.pi * f)).add_const p
  have h3 := (h2.ofReal_comp.mul_const Complex.I).cexp
  have h4 := h1.mul h3
  refine h4.congr_deriv ?_
  push_cast
  ring

/-- The frequency modulation in terms of the values at one time. -/
theorem im_div (A B A' B' w v x y : ℝ) (z z' : ℂ) (α : ℝ) (hα : α ≠ 0)
    (hz : z = A * Complex.exp ((x : ℂ) * Complex.I) + B * Complex.exp ((y : ℂ) * Complex.I))
    (hz' : z' = (A' + A * w * Complex.I) * Complex.exp ((x : ℂ) * Complex.I) +
      (B' + B * v * Complex.I) * Complex.exp ((y : ℂ) * Complex.I))
    (hn : ‖z‖ ^ 2 = 4 * α) :
    (z' / z).im = ((A + B) / 2 * ((A - B) / 2) * ((w - v) / 2) +
      (A' * B - B' * A) * Real.sin ((x - y) / 2 * 2) * 0.25) / α + (w + v) / 2 := by
  have hn' : Complex.normSq z = 4 * α := by rw [Complex.normSq_eq_norm_sq, hn]
  rw [Complex.div_im, hn']
  rw [Complex.normSq_apply] at hn'
  have r1 : z.re = A * Real.cos x + B * Real.cos y := by rw [hz, exp_mk, exp_mk]; simp
  have i1 : z.im = A * Real.sin x + B * Real.sin y := by rw [hz, exp_mk, exp_mk]; simp
  have r2 : z'.re = A' * Real.cos x - A * w * Real.sin x + (B' * Real.cos y - B * v * Real.sin y) := by
    rw [hz', exp_mk, exp_mk]; simp
  have i2 : z'.im = A' * Real.sin x + A * w * Real.cos x + (B' * Real.sin y + B * v * Real.cos y) := by
    rw [hz', exp_mk, exp_mk]; simp
  rw [r1, i1] at hn'
  rw [r1, i1, r2, i2, show (x - y) / 2 * 2 = x - y by ring, Real.sin_sub]
  have hx := Real.sin_sq_add_cos_sq x
  have hy := Real.sin_sq_add_cos_sq y
  field_simp
  linear_combination (4 * A ^ 2 * (w - v)) * hx + (4 * B ^ 2 * (v - w)) * hy + 4 * (w + v) * hn'

/-- A beat of partials with constant frequencies and phases, and amplitudes with the derivatives
they declare (a number declares zero). -/
structure Modal (a0 a1 : Amp) (f0 f1 p0 p1 : ℝ) (b : Beat) (t : ℝ) : Prop where
  make : mkBeat a0 a1 (.num f0) (.num f1) (.num p0) (.num p1) = .ok b
  fits : Fits a0.par a1.par
  d0 : ∀ d, a0.dt = .ok d → HasDerivAt a0.par.at (d.at t) t
  d1 : ∀ d, a1.dt = .ok d → HasDerivAt a1.par.at (d.at t) t

/-- The sum of two partials with constant frequencies and phases. -/
noncomputable def modalSum (a0 a1 : ℝ → ℝ) (f0 f1 p0 p1 : ℝ) : ℝ → ℂ :=
  sumAt a0 a1 (fun _ => f0) (fun _ => f1) (fun _ => p0) (fun _ => p1)

theorem modal_z {a0 a1 : Amp} {f0 f1 p0 p1 : ℝ} {b : Beat}
    (h : mkBeat a0 a1 (.num f0) (.num f1) (.num p0) (.num p1) = .ok b) :
    b.z = modalSum a0.par.at a1.par.at f0 f1 p0 p1 := by
  obtain ⟨e1, e2, e3, e4, e5, e6, -, -⟩ := mkBeat_ok a0 a1 _ _ _ _ b h
  funext t
  simp only [Beat.z, modalSum, sumAt, e1, e2, e3, e4, e5, e6, Par.at]

theorem modal_fit {a0 a1 : Amp} {f0 f1 p0 p1 : ℝ} {b : Beat}
    (h : mkBeat a0 a1 (.num f0) (.num f1) (.num p0) (.num p1) = .ok b)
    (ha : Fits a0.par a1.par) : Fit b := by
  obtain ⟨e1, e2, e3, e4, e5, e6, -, -⟩ := mkBeat_ok a0 a1 _ _ _ _ b h
  exact ⟨by rw [e1, e2]; exact ha, by rw [e3, e4]; trivial, by rw [e5, e6]; trivial⟩

/-- The derivative of the sum. -/
theorem modal_deriv {a0 a1 : Amp} {f0 f1 p0 p1 : ℝ} {b : Beat} {t : ℝ}
    (h : Modal a0 a1 f0 f1 p0 p1 b t) :
    HasDerivAt (modalSum a0.par.at a1.par.at f0 f1 p0 p1)
      (((b.da0.at t : ℝ) + a0.par.at t * (2 * Real.pi * f0) * Complex.I) *
        Complex.exp (((2 * Real.pi * f0 * t + p0 : ℝ) : ℂ) * Complex.I) +
       ((b.da1.at t : ℝ) + a1.par.at t * (2 * Real.pi * f1) * Complex.I) *
        Complex.exp (((2 * Real.pi * f1 * t + p1 : ℝ) : ℂ) * Complex.I)) t := by
  obtain ⟨-, -, -, -, -, -, e7, e8⟩ := mkBeat_ok a0 a1 _ _ _ _ b h.make
  exact (partial_deriv _ _ f0 p0 t (h.d0 _ e7)).add (partial_deriv _ _ f1 p1 t (h.d1 _ e8))

/-- The value of the frequency modulation. -/
noncomputable def vFm (b : Beat) (t : ℝ) : ℝ :=
  (vAo b t * vAh b t * (2 * Real.pi * ((b.f0.at t - b.f1.at t) / 2)) + vG b t) /
    vAlpha2 b t + 2 * Real.pi * ((b.f0.at t + b.f1.at t) / 2)

theorem vFm_eq {a0 a1 : Amp} {f0 f1 p0 p1 : ℝ} {b : Beat} {t : ℝ}
    (h : Modal a0 a1 f0 f1 p0 p1 b t) (hα : vAlpha2 b t ≠ 0) (z' : ℂ)
    (hz' : HasDerivAt (modalSum a0.par.at a1.par.at f0 f1 p0 p1) z' t) :
    vFm b t = (z' / modalSum a0.par.at a1.par.at f0 f1 p0 p1 t).im := by
  obtain ⟨e1, e2, e3, e4, e5, e6, -, -⟩ := mkBeat_ok a0 a1 _ _ _ _ b h.make
  have hu := hz'.unique (modal_deriv h)
  have hn := normSq_z b t
  rw [modal_z h.make] at hn
  have := im_div (a0.par.at t) (a1.par.at t) (b.da0.at t) (b.da1.at t) (2 * Real.pi * f0)
    (2 * Real.pi * f1) (2 * Real.pi * f0 * t + p0) (2 * Real.pi * f1 * t + p1)
    (modalSum a0.par.at a1.par.at f0 f1 p0 p1 t) z' (vAlpha2 b t) hα rfl (by rw [hu]; push_cast; rfl) hn
  rw [this]
  simp only [vFm, vAo, vAh, vG, vPh, e1, e2, e3, e4, e5, e6, Par.at]
  ring_nf

theorem vAlpha2_zero (b : Beat) (t : ℝ) : vAlpha2 b t = 0 ↔ b.z t = 0 := by
  have h := normSq_z b t
  constructor
  · intro h0
    rw [h0, mul_zero] at h
    exact norm_eq_zero.mp (pow_eq_zero_iff (two_ne_zero) |>.mp h)
  · intro h0
    rw [h0, norm_zero] at h
    linarith

/-- C44.  Where the sum of the partials is not zero the frequency modulation is the imaginary part
of its logarithmic derivative; where it is zero there is none. -/
theorem C44_fm (a0 a1 : Amp) (f0 f1 p0 p1 : ℝ) (b : Beat) (ts : List ℝ)
    (h : mkBeat a0 a1 (.num f0) (.num f1) (.num p0) (.num p1) = .ok b)
    (hf : Fits a0.par a1.par)
    (hd0 : ∀ d, a0.dt = .ok d → ∀ t ∈ ts, HasDerivAt a0.par.at (d.at t) t)
    (hd1 : ∀ d, a1.dt = .ok d → ∀ t ∈ ts, HasDerivAt a1.par.at (d.at t) t) :
    ∃ F : List Cell, b.fm (axis ts) = .ok (.ar F) ∧
      List.Forall₂ (fun t v => ∀ z z',
        z = modalSum a0.par.at a1.par.at f0 f1 p0 p1 → HasDerivAt z z' t →
        v = if z t = 0 then none else some (z' / z t).im) ts F := by
  classical
  refine ⟨_, fm_ar b ts (modal_fit h hf), ?_⟩
  rw [List.forall₂_map_right_iff, List.forall₂_same]
  intro t ht z z' hz hz'
  have hm : Modal a0 a1 f0 f1 p0 p1 b t :=
    ⟨h, hf, fun d e => hd0 d e t ht, fun d e => hd1 d e t ht⟩
  have hzero := vAlpha2_zero b t
  rw [modal_z h, ← hz] at hzero
  by_cases h0 : z t = 0
  · rw [if_pos (hzero.mpr h0), if_pos h0]
  · rw [if_neg (fun e => h0 (hzero.mp e)), if_neg h0]
    subst hz
    rw [← vFm_eq hm (fun e => h0 (hzero.mp e)) z' hz', vFm]

/-- The imaginary part of the logarithmic derivative is the derivative of the angle. -/
theorem im_logDeriv (z : ℝ → ℂ) (z' : ℂ) (θ : ℝ → ℝ) (θ' t : ℝ) (h0 : z t ≠ 0)
    (hθ : ∀ᶠ s in nhds t, z s = ‖z s‖ * Complex.exp (θ s * Complex.I))
    (hz' : HasDerivAt z z' t) (hθ' : HasDerivAt θ θ' t) : (z' / z t).im = θ' := by
  have hr : HasDerivAt (fun s => z s * Complex.exp (-(θ s * Complex.I)))
      (z' * Complex.exp (-(θ t * Complex.I)) +
        z t * (Complex.exp (-(θ t * Complex.I)) * -(θ' * Complex.I))) t :=
    hz'.mul ((hθ'.ofReal_comp.mul_const Complex.I).neg.cexp)
  have hr' := (Complex.imCLM.hasFDerivAt.comp_hasDerivAt t hr)
  have hc : HasDerivAt (fun _ : ℝ => (0 : ℝ)) 0 t := hasDerivAt_const t 0
  have hzero := hr'.congr_of_eventuallyEq (f₁ := fun _ => (0 : ℝ)) (by
    filter_upwards [hθ] with s hs
    simp only [Function.comp]
    rw [hs, mul_assoc, ← Complex.exp_add, add_neg_cancel, Complex.exp_zero, mul_one]
    simp)
  have hu := hzero.unique hc
  have hzt := hθ.self_of_nhds
  have hn : (‖z t‖ : ℝ) ≠ 0 := norm_ne_zero_iff.mpr h0
  have he : Complex.exp (-(θ t * Complex.I)) = ‖z t‖ / z t := by
    rw [Complex.exp_neg, eq_div_iff h0]
    conv_lhs => rw [hzt]
    rw [mul_comm, mul_assoc, mul_inv_cancel₀ (Complex.exp_ne_zero _), mul_one]
  rw [he] at hu
  have : z' * (‖z t‖ / z t) + z t * (‖z t‖ / z t * -(θ' * Complex.I)) =
      ((‖z t‖ : ℝ) : ℂ) * (z' / z t - θ' * Complex.I) := by
    field_simp
    ring
  rw [this] at hu
  simp only [Complex.imCLM_apply, Complex.re_ofReal_mul, Complex.im_ofReal_mul, Complex.sub_im,
    Complex.ofReal_re, Complex.I_im, Complex.I_re, mul_zero, mul_one] at hu
  have := (mul_eq_zero.mp hu).resolve_left hn
  linarith

/-- C44.  So it is the derivative of the phase: of every function that is, around that time, the
angle of the sum of the partials. -/
theorem C44_phase (a0 a1 : Amp) (f0 f1 p0 p1 : ℝ) (b : Beat) (ts : List ℝ)
    (h : mkBeat a0 a1 (.num f0) (.num f1) (.num p0) (.num p1) = .ok b)
    (hf : Fits a0.par a1.par)
    (hd0 : ∀ d, a0.dt = .ok d → ∀ t ∈ ts, HasDerivAt a0.par.at (d.at t) t)
    (hd1 : ∀ d, a1.dt = .ok d → ∀ t ∈ ts, HasDerivAt a1.par.at (d.at t) t) :
    ∃ F : List Cell, b.fm (axis ts) = .ok (.ar F) ∧
      List.Forall₂ (fun t v => ∀ θ : ℝ → ℝ, ∀ θ' z, z = modalSum a0.par.at a1.par.at f0 f1 p0 p1 →
        z t ≠ 0 → (∀ᶠ s in nhds t, z s = ‖z s‖ * Complex.exp (θ s * Complex.I)) →
        HasDerivAt θ θ' t → v = some θ') ts F := by
  classical
  refine ⟨_, fm_ar b ts (modal_fit h hf), ?_⟩
  rw [List.forall₂_map_right_iff, List.forall₂_same]
  intro t ht θ θ' z hz h0 hθ hθ'
  have hm : Modal a0 a1 f0 f1 p0 p1 b t :=
    ⟨h, hf, fun d e => hd0 d e t ht, fun d e => hd1 d e t ht⟩
  have hzero := vAlpha2_zero b t
  rw [modal_z h, ← hz] at hzero
  have hα : vAlpha2 b t ≠ 0 := fun e => h0 (hzero.mp e)
  rw [if_neg hα]
  subst hz
  rw [← vFm, vFm_eq hm hα _ (modal_deriv hm), im_logDeriv _ _ θ θ' t h0 hθ (modal_deriv hm) hθ']

/-- C44.  `ExponentialDecay.dt` is the derivative of the decay, so that `ModalBeat` meets the
hypotheses. -/
theorem C44_decay (a d t : ℝ) :
    ∃ q, (expDecay a d).dt = .ok q ∧ HasDerivAt (expDecay a d).par.at (q.at t) t := by
  refine ⟨_, rfl, ?_⟩
  have h1 : HasDerivAt (fun s : ℝ => -2 / d * s) (-2 / d) t := by
    simpa using (hasDerivAt_id t).const_mul (-2 / d)
  have h2 := (h1.exp).const_mul a
  refine h2.congr_deriv ?_
  simp only [Par.at]
  ring

/-- C44.  The frequency modulation of a `ModalBeat`. -/
theorem C44_modal (a0 a1 f0 f1 d0 d1 p0 p1 : ℝ) (h0 : d0 ≠ 0) (h1 : d1 ≠ 0) (ts : List ℝ) :
    ∃ b F, modalBeat a0 a1 f0 f1 d0 d1 p0 p1 = .ok b ∧ b.fm (axis ts) = .ok (.ar F) ∧
      List.Forall₂ (fun t v => ∀ z z',
        z = modalSum (fun s => a0 * Real.exp (-2 / d0 * s)) (fun s => a1 * Real.exp (-2 / d1 * s))
          f0 f1 p0 p1 → HasDerivAt z z' t →
        v = if z t = 0 then none else some (z' / z t).im) ts F := by
  have hm : modalBeat a0 a1 f0 f1 d0 d1 p0 p1 = mkBeat (expDecay a0 d0) (expDecay a1 d1) (.num f0)
      (.num f1) (.num p0) (.num p1) := by
    rw [modalBeat, if_neg (by tauto)]
  obtain ⟨F, hF, hv⟩ := C44_fm (expDecay a0 d0) (expDecay a1 d1) f0 f1 p0 p1 _ ts rfl trivial
    (fun d e t _ => by
      obtain ⟨q, q1, q2⟩ := C44_decay a0 d0 t
      rw [q1] at e
      cases e
      exact q2)
    (fun d e t _ => by
      obtain ⟨q, q1, q2⟩ := C44_decay a1 d1 t
      rw [q1] at e
      cases e
      exact q2)
  exact ⟨_, F, hm, hF, hv⟩

/-- C44.  An amplitude function without a derivative is an `AttributeError`, for either partial. -/
theorem C44_no_derivative (g : ℝ → ℝ) (a : Amp) (f0 f1 p0 p1 : Par) :
    mkBeat (.fn g none) a f0 f1 p0 p1 = .error .attributeError ∧
      mkBeat a (.fn g none) f0 f1 p0 p1 = .error .attributeError := by
  constructor
  · rfl
  · cases a with
    | num v => rfl
    | fn f d => cases d <;> rfl

/-- C44.  With a frequency that is a function of time the frequency modulation is not the derivative
of the phase of the signal whose modulus is the amplitude modulation: a single partial of frequency
`t` has the angle `2πt²` and the derivative `4πt`, and the frequency modulation is `2πt`. -/
theorem C44_chirp (t : ℝ) :
    ∃ b, mkBeat (.num 1) (.num 0) (.fn fun s => s) (.num 0) (.num 0) (.num 0) = .ok b ∧
      b.am (axis [t]) = .ok (.ar [some 1]) ∧
      b.fm (axis [t]) = .ok (.ar [some (2 * Real.pi * t)]) ∧
      (∀ s, sumAt (fun _ => 1) (fun _ => 0) (fun s => s) (fun _ => 0) (fun _ => 0) (fun _ => 0) s =
        Complex.exp (((2 * Real.pi * s ^ 2 : ℝ) : ℂ) * Complex.I)) ∧
      HasDerivAt (fun s : ℝ => 2 * Real.pi * s ^ 2) (4 * Real.pi * t) t := by
  classical
  have hz : ∀ s : ℝ, sumAt (fun _ => 1) (fun _ => 0) (fun s => s) (fun _ => 0) (fun _ => 0)
      (fun _ => 0) s = Complex.exp (((2 * Real.pi * s ^ 2 : ℝ) : ℂ) * Complex.I) := by
    intro s
    simp only [sumAt, partialAt, Complex.ofReal_one, one_mul, Complex.ofReal_zero, zero_mul, add_zero]
    congr 3
    ring
  refine ⟨_, rfl, ?_, ?_, hz, ?_⟩
  · rw [C43_am (.num 1) (.num 0) (.fn fun s => s) (.num 0) (.num 0) (.num 0) _ rfl trivial trivial
      trivial]
    simp only [List.map_cons, List.map_nil]
    have : sumAt (Amp.num 1).par.at (Amp.num 0).par.at (Par.fn fun s => s).at (Par.num 0).at
        (Par.num 0).at (Par.num 0).at t = _ := hz t
    rw [this, Complex.norm_exp_ofReal_mul_I]
  · rw [Amp.par, Amp.par, fm_ar (⟨.num 1, .num 0, .fn fun s => s, .num 0, .num 0, .num 0, .num 0, .num 0⟩ :
      Beat) [t] ⟨trivial, trivial, trivial⟩]
    simp only [List.map_cons, List.map_nil, vAlpha2, vAo, vAh, vG, vPh, Par.at, Amp.par]
    norm_num
    ring
  · have := ((hasDerivAt_id t).pow 2).const_mul (2 * Real.pi)
    refine this.congr_deriv ?_
    simp
    ring

/-- Two decaying partials at time zero, where the sum is `3`; and two opposite ones, whose sum is
zero. -/
example : ∃ b F, modalBeat 2 1 1 2 1 3 0 0 = .ok b ∧ b.fm (axis [0]) = .ok (.ar [some F]) ∧
    F = 8 * Real.pi / 3 := by
  obtain ⟨b, F, h1, h2, h3⟩ := C44_modal 2 1 1 2 1 3 0 0 (by norm_num) (by norm_num) [0]
  have hm : Modal (expDecay 2 1) (expDecay 1 3) 1 2 0 0 b 0 := by
    refine ⟨by rw [← h1, modalBeat, if_neg (by norm_num)], trivial, ?_, ?_⟩
    · intro d e
      obtain ⟨q, q1, q2⟩ := C44_decay 2 1 0
      rw [q1] at e
      cases e
      exact q2
    · intro d e
      obtain ⟨q, q1, q2⟩ := C44_decay 1 3 0
      rw [q1] at e
      cases e
      exact q2
  cases h3 with
  | cons h4 h5 =>
    cases h5
    rename_i v
    have h6 := h4 _ _ rfl (modal_deriv hm)
    have hz : modalSum (fun s => 2 * Real.exp (-2 / 1 * s)) (fun s => 1 * Real.exp (-2 / 3 * s))
        1 2 0 0 0 = 3 := by
      simp [modalSum, sumAt, partialAt]
      norm_num
    rw [if_neg (by rw [hz]; norm_num), hz] at h6
    refine ⟨b, _, h1, by rw [h2, h6], ?_⟩
    simp [Amp.par, Par.at, expDecay, exp_mk]
    ring

example : ∃ b, modalBeat 1 1 1 2 1 1 0 Real.pi = .ok b ∧ b.fm (axis [0]) = .ok (.ar [none]) := by
  obtain ⟨b, F, h1, h2, h3⟩ := C44_modal 1 1 1 2 1 1 0 Real.pi (by norm_num) (by norm_num) [0]
  have hm : Modal (expDecay 1 1) (expDecay 1 1) 1 2 0 Real.pi b 0 := by
    refine ⟨by rw [← h1, modalBeat, if_neg (by norm_num)], trivial, ?_, ?_⟩ <;>
    · intro d e
      obtain ⟨q, q1, q2⟩ := C44_decay 1 1 0
      rw [q1] at e
      cases e
      exact q2
  cases h3 with
  | cons h4 h5 =>
    cases h5
    have h6 := h4 _ _ rfl (modal_deriv hm)
    rw [if_pos (by simp [modalSum, sumAt, partialAt, Complex.exp_pi_mul_I])] at h6
    exact ⟨b, h1, by rw [h2, h6]⟩

/-! ## C45 -/

theorem trapezoids_length (fs ts : List Cell) (s : Cell) (h : fs.length = ts.length)
    (h0 : fs ≠ []) : (trapezoids fs ts s).length = ts.length := by
  induction fs generalizing ts s with
  | nil => exact absurd rfl h0
  | cons f fs ih =>
    cases ts with
    | nil => simp at h
    | cons t ts =>
      cases fs with
      | nil =>
        cases ts with
        | nil => rfl
        | cons u ts => simp at h
      | cons g fs =>
        cases ts with
        | nil => simp at h
        | cons u ts =>
          simp only [trapezoids, List.length_cons]
          have := ih (u :: ts) (lift2 (fun s x => some (s + x)) s (lift2 (fun x y => some (x * y / 2))
            (lift2 (fun a b => some (b - a)) t u) (lift2 (fun a b => some (a + b)) f g)))
            (by simpa using h) (by simp)
          rw [this]
          rfl

theorem trapezoids_head (fs ts : List Cell) (s : Cell) : ∃ r, trapezoids fs ts s = s :: r := by
  unfold trapezoids
  split <;> exact ⟨_, rfl⟩

/-- The initial phase when the phases are numbers. -/
noncomputable def vPhase0 (b : Beat) (p0 p1 : ℝ) : ℝ :=
  (p0 + p1) / 2 + Beat.arctan2 (vAh b 0 * Real.sin ((p0 - p1) / 2)) (vAo b 0 * Real.cos ((p0 - p1) / 2))

theorem initialPhase_eq (b : Beat) (p0 p1 : ℝ) (h0 : b.p0 = .num p0) (h1 : b.p1 = .num p1) (t : Val) :
    b.initialPhase t = .ok (.sc (some (vPhase0 b p0 p1))) := by
  have ea : ∀ q : Par, q.eval (.sc (some 0)) = .sc (some (q.at 0)) := by
    intro q
    cases q <;> rfl
  have en : ∀ v : ℝ, (Par.num v).eval t = .sc (some v) := fun _ => rfl
  simp only [Beat.initialPhase, Beat.aHat, Beat.aOln, Beat.pHat, Beat.pOln, ea, h0, h1, en,
    semisum, semidiff, semi, add, sub, div, mul, bin, lift2, bind, Except.bind, un, Option.bind_some,
    Option.map_some]
  norm_num [lift2, vPhase0, vAh, vAo]

theorem phase0_z (b : Beat) (p0 p1 : ℝ) (h0 : b.p0 = .num p0) (h1 : b.p1 = .num p1) :
    b.z 0 = ‖b.z 0‖ * Complex.exp (vPhase0 b p0 p1 * Complex.I) := by
  set φ := (p0 - p1) / 2 with hφ
  set w : ℂ := ⟨vAo b 0 * Real.cos φ, vAh b 0 * Real.sin φ⟩ with hw
  have hz : b.z 0 = 2 * w * Complex.exp ((((p0 + p1) / 2 : ℝ) : ℂ) * Complex.I) := by
    have e1 : (((p0 + p1) / 2 + φ : ℝ) : ℂ) = (p0 : ℂ) := by rw [hφ]; push_cast; ring
    have hp : Complex.exp ((p0 : ℂ) * Complex.I) = Complex.exp ((((p0 + p1) / 2 : ℝ) : ℂ) * Complex.I) *
        Complex.exp ((φ : ℂ) * Complex.I) := by
      rw [← Complex.exp_add, ← add_mul, hφ]; congr 2; push_cast; ring
    have hq : Complex.exp ((p1 : ℂ) * Complex.I) = Complex.exp ((((p0 + p1) / 2 : ℝ) : ℂ) * Complex.I) *
        Complex.exp (((-φ : ℝ) : ℂ) * Complex.I) := by
      rw [← Complex.exp_add, ← add_mul, hφ]; congr 2; push_cast; ring
    have hw' : 2 * w = b.a0.at 0 * Complex.exp ((φ : ℂ) * Complex.I) +
        b.a1.at 0 * Complex.exp (((-φ : ℝ) : ℂ) * Complex.I) := by
      rw [exp_mk, exp_mk, hw]
      apply Complex.ext
      · simp [vAo]; ring
      · simp [vAh]; ring
    rw [hw', Beat.z, sumAt, partialAt, partialAt, h0, h1]
    simp only [Par.at, mul_zero, zero_add]
    rw [hp, hq]
    ring
  have hn : ‖b.z 0‖ = 2 * ‖w‖ := by
    rw [hz, norm_mul, Complex.norm_exp_ofReal_mul_I, mul_one, norm_mul]
    norm_num
  rw [hn, vPhase0, ← hφ, Beat.arctan2, ← hw]
  rw [hz]
  conv_lhs => rw [← Complex.norm_mul_exp_arg_mul_I w]
  push_cast
  rw [add_mul, Complex.exp_add]
  ring

/-- C45.  With constant phases, the initial phase is the angle of the sum of the partials at time
zero. -/
theorem C45_initial_phase (a0 a1 : Amp) (f0 f1 : Par) (p0 p1 : ℝ) (b : Beat)
    (h : mkBeat a0 a1 f0 f1 (.num p0) (.num p1) = .ok b) (t : Val) :
    ∃ θ : ℝ, b.initialPhase t = .ok (.sc (some θ)) ∧
      ∀ z, z = sumAt a0.par.at a1.par.at f0.at f1.at (fun _ => p0) (fun _ => p1) 0 →
        z = ‖z‖ * Complex.exp (θ * Complex.I) := by
  obtain ⟨e1, e2, e3, e4, e5, e6, -, -⟩ := mkBeat_ok a0 a1 f0 f1 _ _ b h
  refine ⟨_, initialPhase_eq b p0 p1 e5 e6 t, ?_⟩
  intro z hz
  have : z = b.z 0 := by simp only [hz, Beat.z, sumAt, e1, e2, e3, e4, e5, e6, Par.at]
  rw [this]
  exact phase0_z b p0 p1 e5 e6

/-- The signal in terms of the phase modulation. -/
theorem x_ar (b : Beat) (hb : Fit b) (p0 p1 : ℝ) (h0 : b.p0 = .num p0) (h1 : b.p1 = .num p1)
    (ts : List ℝ) (hts : ts ≠ []) (F : List Cell) (hF : b.fm (axis ts) = .ok (.ar F))
    (hl : F.length = ts.length) :
    b.x (axis ts) = .ok (.ar (List.zipWith (lift2 fun x y => some (x * y))
      (ts.map fun t => some ‖b.z t‖)
      ((trapezoids F (ts.map some) (some 0)).map
        (Option.map fun s => Real.cos (s + vPhase0 b p0 p1))))) := by
  have hF0 : F ≠ [] := by
    intro h
    rw [h] at hl
    exact hts (List.length_eq_zero_iff.mp hl.symm)
  have hc : cumtrapz (.ar F) (axis ts) = .ok (.ar (trapezoids F (ts.map some) (some 0))) := by
    exact if_pos ⟨by rw [hl, List.length_map], hF0⟩
  have hlen := trapezoids_length F (ts.map some) (some 0) (by rw [hl, List.length_map]) hF0
  rw [Beat.x, am_ar b ts hb, Beat.pm, hF, initialPhase_eq b p0 p1 h0 h1]
  simp only [bind, Except.bind, hc, add, bin, un, mul, List.length_map]
  rw [if_pos (by rw [hlen, List.length_map])]
  congr 3
  · apply List.map_congr_left
    intro t _
    rw [two_sqrt]
  · rw [List.map_map]
    apply List.map_congr_left
    intro c _
    cases c <;> rfl

/-- C45.  The first sample of the signal, of a time axis that starts anywhere: the modulus at the
first time, with the angle at time zero. -/
theorem C45_first_sample (a0 a1 : Amp) (f0 f1 : Par) (p0 p1 : ℝ) (b : Beat)
    (h : mkBeat a0 a1 f0 f1 (.num p0) (.num p1) = .ok b) (ha : Fits a0.par a1.par)
    (hf : Fits f0 f1) (t0 : ℝ) (ts : List ℝ) :
    ∃ (xs : List Cell) (θ : ℝ), b.x (axis (t0 :: ts)) = .ok (.ar xs) ∧
      xs.length = ts.length + 1 ∧
      ∀ z, z = sumAt a0.par.at a1.par.at f0.at f1.at (fun _ => p0) (fun _ => p1) →
        z 0 = ‖z 0‖ * Complex.exp (θ * Complex.I) ∧ xs[0]? = some (some (‖z t0‖ * Real.cos θ)) := by
  classical
  obtain ⟨e1, e2, e3, e4, e5, e6, -, -⟩ := mkBeat_ok a0 a1 f0 f1 _ _ b h
  have hb : Fit b := ⟨by rw [e1, e2]; exact ha, by rw [e3, e4]; exact hf, by rw [e5, e6]; trivial⟩
  have hx := x_ar b hb p0 p1 e5 e6 (t0 :: ts) (by simp) _ (fm_ar b _ hb) (by simp)
  refine ⟨_, vPhase0 b p0 p1, hx, ?_, ?_⟩
  · rw [List.length_zipWith, List.length_map, List.length_map, trapezoids_length _ _ _ (by simp)
      (by simp)]
    simp
  · intro z hz
    have hz' : z = b.z := by
      funext s
      simp only [hz, Beat.z, sumAt, e1, e2, e3, e4, e5, e6, Par.at]
    rw [hz']
    refine ⟨phase0_z b p0 p1 e5 e6, ?_⟩
    obtain ⟨r, hr⟩ := trapezoids_head ((t0 :: ts).map fun t =>
      if vAlpha2 b t = 0 then none
      else some ((vAo b t * vAh b t * (2 * Real.pi * ((b.f0.at t - b.f1.at t) / 2)) + vG b t) /
        vAlpha2 b t + 2 * Real.pi * ((b.f0.at t + b.f1.at t) / 2))) ((t0 :: ts).map some) (some 0)
    rw [hr]
    simp [lift2]

/-- C45.  If the time axis starts at zero, the first sample is the real part of the sum of the
partials. -/
theorem C45_start (a0 a1 : Amp) (f0 f1 : Par) (p0 p1 : ℝ) (b : Beat)
    (h : mkBeat a0 a1 f0 f1 (.num p0) (.num p1) = .ok b) (ha : Fits a0.par a1.par)
    (hf : Fits f0 f1) (ts : List ℝ) :
    ∃ xs : List Cell, b.x (axis (0 :: ts)) = .ok (.ar xs) ∧ xs.length = ts.length + 1 ∧
      xs[0]? = some (some
        (sumAt a0.par.at a1.par.at f0.at f1.at (fun _ => p0) (fun _ => p1) 0).re) := by
  obtain ⟨xs, θ, h1, h2, h3⟩ := C45_first_sample a0 a1 f0 f1 p0 p1 b h ha hf 0 ts
  obtain ⟨h4, h5⟩ := h3 _ rfl
  refine ⟨xs, h1, h2, ?_⟩
  rw [h5]
  congr 2
  conv_rhs => rw [h4]
  rw [Complex.re_ofReal_mul, exp_mk]

/-- C45.  If it does not, the first sample can be wrong: a cosine of frequency `1/4` is zero at time
one, where the signal is one. -/
theorem C45_offset :
    ∃ b, mkBeat (.num 1) (.num 0) (.num (1 / 4)) (.num (1 / 4)) (.num 0) (.num 0) = .ok b ∧
      b.x (axis [1]) = .ok (.ar [some 1]) ∧
      (sumAt (fun _ => 1) (fun _ => 0) (fun _ => 1 / 4) (fun _ => 1 / 4) (fun _ => 0) (fun _ => 0)
        1).re = 0 := by
  obtain ⟨xs, θ, h1, h2, h3⟩ := C45_first_sample (.num 1) (.num 0) (.num (1 / 4)) (.num (1 / 4)) 0 0 _
    rfl trivial trivial 1 []
  obtain ⟨h4, h5⟩ := h3 _ rfl
  refine ⟨_, rfl, ?_, ?_⟩
  · have hθ : Real.cos θ = 1 := by
      have := congrArg Complex.re h4
      rw [exp_mk] at this
      simp [sumAt, partialAt, Amp.par, Par.at] at this
      exact this.symm
    have hn : ‖sumAt (Amp.num 1).par.at (Amp.num 0).par.at (Par.num (1 / 4)).at (Par.num (1 / 4)).at
        (fun _ => 0) (fun _ => 0) 1‖ = 1 := by
      simp only [sumAt, partialAt, Amp.par, Par.at, Complex.ofReal_one, one_mul, Complex.ofReal_zero,
        zero_mul, add_zero, Complex.norm_exp_ofReal_mul_I]
    rw [hθ, hn, mul_one] at h5
    rw [h1]
    match xs, h2, h5 with
    | [v], _, h5 => simpa using h5
  · simp only [sumAt, partialAt]
    rw [exp_mk, show 2 * Real.pi * (1 / 4) * 1 + 0 = Real.pi / 2 by ring]
    simp

example : ∃ b xs, mkBeat (expDecay 1 1) (expDecay 1 2) (.num 1) (.num 2) (.num 0) (.num Real.pi) = .ok b ∧
    b.x (axis [0, 1, 2]) = .ok (.ar xs) ∧ xs[0]? = some (some 0) := by
  obtain ⟨xs, h1, -, h3⟩ := C45_start (expDecay 1 1) (expDecay 1 2) (.num 1) (.num 2) 0 Real.pi _ rfl
    trivial trivial [1, 2]
  refine ⟨_, xs, rfl, h1, ?_⟩
  rw [h3]
  simp [sumAt, partialAt, Amp.par, Par.at, expDecay]

end Verif.Beat
