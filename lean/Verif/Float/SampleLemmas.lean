import Verif.Float.SampleModel
import Verif.Float.FitProps
import Verif.Float.HingeProps
import Verif.Sample.FitProps

/-!
# Lemmas for `SAMPLE.fit` in floating point
-/

set_option autoImplicit false
set_option linter.unusedSectionVars false
set_option linter.unusedSimpArgs false

namespace Verif.Float

open Arith
open Verif.Tracker (State Track Peak)
open Verif.Sms (Params)
open Verif.Sample (mask filterItem PreTrack allSome cleanParams kept)

variable {K : Type} [Field K] [LinearOrder K] [IsStrictOrderedRing K] (A : Arith K)

/-! ## Times -/

/-- Rounding a number near `x₀`. -/
theorem rnd_near {x x₀ e : K} (h : |x - x₀| ≤ e) : |A.rnd x - x₀| ≤ e + A.u * (|x₀| + e) + A.eta := by
  have h1 := A.err x
  have h2 := abs_add_le (A.rnd x - x) (x - x₀)
  rw [sub_add_sub_cancel] at h2
  have h3 := abs_add_le (x - x₀) x₀
  rw [sub_add_cancel] at h3
  have h4 := mul_le_mul_of_nonneg_left (h3.trans (add_le_add_left h _)) A.u_pos.le
  linarith

theorem add_near {x y z e : K} (hx : A.Rep x) (hy : A.Rep y) (h : |x + y - z| ≤ e) :
    |A.add x y - z| ≤ e + A.u * (|z| + e) := by
  have h1 := A.errAdd x y hx hy
  have h2 := abs_add_le (A.rnd (x + y) - (x + y)) (x + y - z)
  rw [sub_add_sub_cancel] at h2
  have h3 := abs_add_le (x + y - z) z
  rw [sub_add_cancel] at h3
  have h4 := mul_le_mul_of_nonneg_left (h3.trans (add_le_add_left h _)) A.u_pos.le
  unfold Arith.add
  linarith

/-- Division by the computed frame rate. -/
theorem div_rate {fs h j : K} (hfs : 0 < fs) (hh : 0 < h) (hj : 0 ≤ j) (hu : A.u ≤ 1 / 128)
    (e1 : A.eta ≤ A.u * (h / fs)) (e2 : A.eta ≤ A.u * (fs / h)) :
    |A.div j (A.div fs h) - j * (h / fs)| ≤ A.u * (h / fs) * (4 * j + 1) := by
  have u0 := A.u_pos
  have hφ : 0 < fs / h := div_pos hfs hh
  have hδ : 0 < h / fs := div_pos hh hfs
  have hφδ : fs / h * (h / fs) = 1 := by field_simp
  have r := A.err (fs / h)
  rw [abs_of_pos hφ] at r
  unfold Arith.div
  generalize A.rnd (fs / h) = g at *
  generalize fs / h = φ at *
  generalize h / fs = δ at *
  have r' : |g - φ| ≤ 2 * (A.u * φ) := by linarith
  obtain ⟨l1, l2⟩ := abs_le.1 r'
  have uφ : A.u * φ ≤ 1 / 128 * φ := mul_le_mul_of_nonneg_right hu hφ.le
  have hg : φ * (63 / 64) ≤ g := by linarith
  have hg0 : 0 < g := lt_of_lt_of_le (by linarith) hg
  -- 1 / g
  have hgδ : 63 / 64 ≤ g * δ := by
    have := mul_le_mul_of_nonneg_right hg hδ.le
    have e : φ * (63 / 64) * δ = 63 / 64 * (φ * δ) := by ring
    rw [e, hφδ] at this
    linarith
  have key : |j / g - j * δ| ≤ 5 / 2 * (A.u * (j * δ)) := by
    have e : j / g - j * δ = j * (φ - g) * δ / g := by
      rw [eq_div_iff hg0.ne', sub_mul, div_mul_cancel₀ _ hg0.ne']
      linear_combination (-j) * hφδ
    rw [e, abs_div, abs_of_pos hg0, div_le_iff₀ hg0, abs_mul, abs_mul, abs_of_nonneg hj,
      abs_of_pos hδ, abs_sub_comm]
    have h1 : j * |g - φ| * δ ≤ j * (2 * (A.u * φ)) * δ :=
      mul_le_mul_of_nonneg_right (mul_le_mul_of_nonneg_left r' hj) hδ.le
    have h2 : j * (2 * (A.u * φ)) * δ = 2 * (A.u * j) := by
      calc _ = 2 * (A.u * j) * (φ * δ) := by ring
        _ = _ := by rw [hφδ]; ring
    have h3 : 5 / 2 * (A.u * (j * δ)) * g = 5 / 2 * (A.u * j) * (g * δ) := by ring
    rw [h3]
    have h4 : 5 / 2 * (A.u * j) * (63 / 64) ≤ 5 / 2 * (A.u * j) * (g * δ) :=
      mul_le_mul_of_nonneg_left hgδ (by positivity)
    have h5 : 0 ≤ A.u * j := by positivity
    linarith
  have h1 := rnd_near A key
  rw [abs_of_nonneg (mul_nonneg hj hδ.le)] at h1
  have hw : 0 ≤ A.u * (j * δ) := by positivity
  have h2 : A.u * (5 / 2 * (A.u * (j * δ))) ≤ 1 / 128 * (5 / 2 * (A.u * (j * δ))) :=
    mul_le_mul_of_nonneg_right hu (by positivity)
  have h3 : A.u * δ * (4 * j + 1) = 4 * (A.u * (j * δ)) + A.u * δ := by ring
  rw [h3]
  linarith

/-- Half the window. -/
theorem half_window {fs h w : K} (hfs : 0 < fs) (hw : 2 ≤ w) (hu : A.u ≤ 1 / 128)
    (e1 : A.eta ≤ A.u * (h / fs)) :
    |A.div (A.mul (1 / 2) w) fs - w / 2 / fs| ≤ A.u * (4 * (w / 2 / fs) + h / fs) := by
  have u0 := A.u_pos
  have r := A.err (1 / 2 * w)
  have eη := A.eta_le
  rw [abs_of_nonneg (by linarith : (0 : K) ≤ 1 / 2 * w)] at r
  unfold Arith.div Arith.mul
  generalize A.rnd (1 / 2 * w) = g at *
  have r' : |g - w / 2| ≤ 2 * (A.u * (w / 2)) := by
    have : A.u * 1 ≤ A.u * (w / 2) := mul_le_mul_of_nonneg_left (by linarith) u0.le
    rw [show w / 2 = 1 / 2 * w by ring] at *
    linarith
  have key : |g / fs - w / 2 / fs| ≤ 2 * (A.u * (w / 2 / fs)) := by
    rw [← sub_div, abs_div, abs_of_pos hfs, div_le_iff₀ hfs]
    have : 2 * (A.u * (w / 2 / fs)) * fs = 2 * (A.u * (w / 2)) := by field_simp
    rw [this]
    exact r'
  have h1 := rnd_near A key
  have hW : 0 ≤ w / 2 / fs := div_nonneg (by linarith) hfs.le
  rw [abs_of_nonneg hW] at h1
  generalize w / 2 / fs = W at *
  have hw : 0 ≤ A.u * W := by positivity
  have h2 : A.u * (2 * (A.u * W)) ≤ 1 / 128 * (2 * (A.u * W)) :=
    mul_le_mul_of_nonneg_right hu (by positivity)
  linarith

/-- The exact time of the frame `k` of a signal of size `n`. -/
def exactTime (p : Params K) (n k : Nat) : K :=
  let t := (k : K) * p.hop / p.tracker.fs + if p.padded then 0 else (p.w.length : K) / 2 / p.tracker.fs
  if p.modal = true ∧ p.tracker.reverse = true then (n : K) / p.tracker.fs - t else t

/-- Computed times of frames within the signal. -/
theorem frameTimeF_err (p : Params K) (hfs : 0 < p.tracker.fs) (hh : 1 ≤ p.hop) (h2 : 2 ≤ p.w.length)
    (n start i : Nat)
    (hk : if p.padded then (start + i) * p.hop ≤ n else (start + i) * p.hop + p.w.length ≤ n)
    (e1 : A.eta ≤ A.u * (p.hop / p.tracker.fs)) (e2 : A.eta ≤ A.u * (p.tracker.fs / p.hop))
    (hB : 64 * A.u * ((n : K) / p.hop + 2) ≤ 1) :
    A.rnd (frameTimeF A p n start i) = frameTimeF A p n start i ∧
    |frameTimeF A p n start i - exactTime p n (start + i)| ≤
      8 * A.u * ((n : K) / p.hop + 2) * (p.hop / p.tracker.fs) := by
  have u0 := A.u_pos
  have hhK : (0 : K) < p.hop := by exact_mod_cast hh
  have hδ : 0 < (p.hop : K) / p.tracker.fs := div_pos hhK hfs
  have hX : 0 ≤ (n : K) / p.hop := by positivity
  have hu : A.u ≤ 1 / 128 := by
    have := mul_nonneg u0.le hX
    linarith
  have hkn : (start + i) * p.hop ≤ n := by
    split at hk <;> omega
  have hkX : ((start + i : Nat) : K) ≤ (n : K) / p.hop := by
    rw [le_div_iff₀ hhK]
    exact_mod_cast hkn
  have hint : A.add (i : K) (start : K) = ((start + i : Nat) : K) := by
    unfold Arith.add
    rw [show (i : K) + start = (((start + i : Nat) : ℤ) : K) by push_cast; ring]
    rw [A.int]
    · push_cast; ring
    · rw [Int.cast_natCast, abs_of_nonneg (Nat.cast_nonneg _)]
      have h := mul_le_mul_of_nonneg_right hkX u0.le
      nlinarith [mul_nonneg u0.le hX]
  have hj0 : (0 : K) ≤ ((start + i : Nat) : K) := Nat.cast_nonneg _
  have t1 := div_rate A (fs := p.tracker.fs) (h := (p.hop : K)) hfs hhK hj0 hu e1 e2
  have t2 := half_window A (w := (p.w.length : K)) (h := (p.hop : K)) hfs (by exact_mod_cast h2) hu e1
  have hXδ : (n : K) / p.tracker.fs = n / p.hop * (p.hop / p.tracker.fs) := by
    field_simp
  have t3 := A.err ((n : K) / p.tracker.fs)
  rw [abs_of_nonneg (by positivity : (0 : K) ≤ (n : K) / p.tracker.fs), hXδ] at t3
  have hr1 : A.Rep (A.div ((start + i : Nat) : K) (A.div p.tracker.fs p.hop)) := rnd_rep _
  have hr2 : A.Rep (A.div (A.mul (1 / 2) (p.w.length : K)) p.tracker.fs) := rnd_rep _
  have hr3 : A.Rep (A.div (n : K) p.tracker.fs) := rnd_rep _
  -- the sum of frame time and half window, in units of the hop
  obtain ⟨s, hs0, hsX, hst, hsr⟩ : ∃ s : K, 0 ≤ s ∧ s ≤ (n : K) / p.hop ∧
      (∃ v, v = (if !p.padded then A.add (A.div ((start + i : Nat) : K) (A.div p.tracker.fs p.hop))
        (A.div (A.mul (1 / 2) (p.w.length : K)) p.tracker.fs)
        else A.div ((start + i : Nat) : K) (A.div p.tracker.fs p.hop)) ∧ A.Rep v ∧
        |v - s * (p.hop / p.tracker.fs)| ≤ A.u * (p.hop / p.tracker.fs) * (51 / 10 * s + 21 / 10)) ∧
      ((start + i : Nat) : K) * p.hop / p.tracker.fs +
        (if p.padded then 0 else (p.w.length : K) / 2 / p.tracker.fs) = s * (p.hop / p.tracker.fs) := by
    by_cases hp : p.padded = true
    · refine ⟨((start + i : Nat) : K), hj0, hkX, ⟨_, rfl, ?_, ?_⟩, ?_⟩
      · simp only [hp, Bool.not_true, Bool.false_eq_true, if_false]; exact hr1
      · simp only [hp, Bool.not_true, Bool.false_eq_true, if_false]
        refine t1.trans (mul_le_mul_of_nonneg_left (by linarith) (by positivity))
      · simp only [hp, if_true, add_zero]
        ring
    · have hp' : p.padded = false := by simpa using hp
      simp only [hp', Bool.false_eq_true, if_false] at hk
      have hWn : (((start + i : Nat) : K) + (p.w.length : K) / 2 / p.hop) ≤ (n : K) / p.hop := by
        rw [le_div_iff₀ hhK, add_mul, div_mul_cancel₀ _ hhK.ne']
        have h3 : (((start + i) * p.hop + p.w.length : Nat) : K) ≤ n := by exact_mod_cast hk
        rw [Nat.cast_add, Nat.cast_mul] at h3
        have : (0 : K) ≤ p.w.length := Nat.cast_nonneg _
        linarith
      have hWδ : (p.w.length : K) / 2 / p.tracker.fs =
          (p.w.length : K) / 2 / p.hop * (p.hop / p.tracker.fs) := by field_simp
      have hW0 : (0 : K) ≤ (p.w.length : K) / 2 / p.hop := by positivity
      rw [hWδ] at t2
      refine ⟨((start + i : Nat) : K) + (p.w.length : K) / 2 / p.hop, by positivity, hWn,
        ⟨_, rfl, ?_, ?_⟩, ?_⟩
      · simp only [hp', Bool.not_false, if_true]; exact rnd_rep _
      · simp only [hp', Bool.not_false, if_true]
        generalize A.div ((start + i : Nat) : K) (A.div p.tracker.fs p.hop) = a at *
        generalize A.div (A.mul (1 / 2) (p.w.length : K)) p.tracker.fs = b at *
        generalize ((start + i : Nat) : K) = j at *
        generalize (p.w.length : K) / 2 / p.hop = W at *
        generalize (p.hop : K) / p.tracker.fs = δ at *
        have h3 := abs_add_le (a - j * δ) (b - W * δ)
        rw [show a - j * δ + (b - W * δ) = a + b - (j + W) * δ by ring] at h3
        have h4 := add_near A hr1 hr2 (h3.trans (add_le_add t1 t2))
        rw [abs_of_nonneg (by positivity : 0 ≤ (j + W) * δ)] at h4
        have h5 : A.u * δ * (4 * j + 1) + A.u * (4 * (W * δ) + δ) =
            A.u * δ * (4 * (j + W) + 2) := by ring
        rw [h5] at h4
        have h6 : A.u * (A.u * δ * (4 * (j + W) + 2)) ≤ 1 / 128 * (A.u * δ * (4 * (j + W) + 2)) :=
          mul_le_mul_of_nonneg_right hu (by positivity)
        have h7 : 0 ≤ A.u * δ * (j + W) := by positivity
        have h8 : 0 ≤ A.u * δ := by positivity
        linarith
      · simp only [hp', Bool.false_eq_true, if_false, hWδ]
        ring
  obtain ⟨v, hv, vr, ve⟩ := hst
  have hF : frameTimeF A p n start i = if p.reverse then A.sub (A.div (n : K) p.tracker.fs) v else v := by
    rw [hv, ← hint]
    rfl
  have hE : exactTime p n (start + i) = if p.reverse then (n : K) / p.tracker.fs -
      s * (p.hop / p.tracker.fs) else s * (p.hop / p.tracker.fs) := by
    unfold exactTime
    simp only [hsr]
    by_cases hr : p.modal = true ∧ p.tracker.reverse = true
    · simp [hr, Params.reverse]
    · have : p.reverse = false := by
        simp only [Params.reverse, Bool.and_eq_false_iff]
        by_contra hc
        simp only [not_or, Bool.not_eq_false] at hc
        exact hr hc
      simp [this, if_neg hr]
  rw [hF, hE]
  by_cases hr : p.reverse = true
  · simp only [hr, if_true]
    refine ⟨rnd_rep _, ?_⟩
    rw [hXδ]
    have t3' : |A.div (n : K) p.tracker.fs - n / p.hop * (p.hop / p.tracker.fs)| ≤
        A.u * (p.hop / p.tracker.fs) * ((n : K) / p.hop + 1) := by
      refine le_trans (le_of_eq ?_) (t3.trans ?_)
      · rw [← hXδ]; rfl
      · rw [show A.u * ((p.hop : K) / p.tracker.fs) * ((n : K) / p.hop + 1) =
          A.u * ((n : K) / p.hop * (p.hop / p.tracker.fs)) + A.u * (p.hop / p.tracker.fs) by ring]
        linarith
    generalize A.div (n : K) p.tracker.fs = b at *
    generalize (n : K) / p.hop = X at *
    generalize (p.hop : K) / p.tracker.fs = δ at *
    have h3 := abs_add_le (b - X * δ) (-(v - s * δ))
    rw [abs_neg, show b - X * δ + -(v - s * δ) = b + -v - (X * δ - s * δ) by ring] at h3
    have h4 := add_near A hr3 (rep_neg vr) (h3.trans (add_le_add t3' ve))
    have e : A.add b (-v) = A.sub b v := by
      unfold Arith.add Arith.sub
      rw [sub_eq_add_neg]
    rw [e, abs_of_nonneg (by nlinarith : 0 ≤ X * δ - s * δ)] at h4
    have h5 : A.u * δ * (X + 1) + A.u * δ * (51 / 10 * s + 21 / 10) =
        A.u * δ * (X + 51 / 10 * s + 31 / 10) := by ring
    rw [h5] at h4
    have h6 : A.u * (A.u * δ * (X + 51 / 10 * s + 31 / 10)) ≤
        1 / 128 * (A.u * δ * (X + 51 / 10 * s + 31 / 10)) :=
      mul_le_mul_of_nonneg_right hu (by positivity)
    have h7 : 0 ≤ A.u * δ * X := by positivity
    have h8 : 0 ≤ A.u * δ := by positivity
    have h9 : A.u * δ * s ≤ A.u * δ * X := mul_le_mul_of_nonneg_left hsX h8
    linarith
  · simp only [hr, Bool.false_eq_true, if_false]
    refine ⟨vr, ve.trans ?_⟩
    have h8 : 0 ≤ A.u * ((p.hop : K) / p.tracker.fs) := by positivity
    have h9 := mul_le_mul_of_nonneg_left hsX h8
    nlinarith

/-- Times are in strict order. -/
theorem exactTime_step (p : Params K) (hfs : 0 < p.tracker.fs) (n j k : Nat) (h : j < k) :
    if p.modal = true ∧ p.tracker.reverse = true then
      exactTime p n k + p.hop / p.tracker.fs ≤ exactTime p n j
    else exactTime p n j + p.hop / p.tracker.fs ≤ exactTime p n k := by
  have hjk : (j : K) + 1 ≤ k := by exact_mod_cast h
  have hδ : 0 ≤ (p.hop : K) / p.tracker.fs := by positivity
  have h1 := mul_le_mul_of_nonneg_right hjk hδ
  unfold exactTime
  simp only [mul_div_assoc]
  split <;> linarith

/-! ## The filtered track -/

variable (L : SampleLib K)

theorem preprocessTrackF_eq (p : Params K) (n : Nat) (t : Track K) (ht : t.Aligned)
    (h1 : t.mag.length ≠ 1) :
    ∃ r, preprocessTrackF A L p n t = .ok r ∧
      r.time = (kept t).map (fun e => frameTimeF A p n t.start (e.1 - t.start)) ∧
      r.freq = (kept t).map (fun e => some e.2.freq) ∧
      r.mag = (kept t).map (fun e => some (A.add e.2.mag L.doubleDb)) := by
  obtain ⟨r, kp, e0, e1, e2, e3, e4, -⟩ := Sample.C20_times (⟨1, 1, 0, true, false, 0⟩ : Sample.Analysis K)
    n t ht.1 ht.2.1 ht.2.2 h1
  have e1' : kp = kept t := e1
  subst e1'
  unfold Sample.preprocessTrack at e0
  unfold preprocessTrackF
  cases hm : mask (List.range t.mag.length) (t.mag.map Option.isSome) with
  | error e => simp [hm] at e0
  | ok idx =>
    cases hf : filterItem t.freq (t.mag.map Option.isSome) with
    | error e => simp [hm, hf] at e0
    | ok freq =>
      cases hg : filterItem t.mag (t.mag.map Option.isSome) with
      | error e => simp [hm, hf, hg] at e0
      | ok mag =>
        cases hp : filterItem t.phase (t.mag.map Option.isSome) with
        | error e => simp [hm, hf, hg, hp] at e0
        | ok phase =>
          simp only [hm, hf, hg, hp, Except.ok.injEq] at e0
          subst e0
          refine ⟨⟨idx.map (frameTimeF A p n t.start), freq,
            mag.map (fun m => m.map fun v => A.add v L.doubleDb), phase⟩, by simp only [hm, hf, hg, hp],
            ?_, e3, ?_⟩
          · simp only at e2 ⊢
            have h2 : idx.map (fun i => t.start + i) = (kept t).map (fun e => e.1) := by
              apply List.map_injective_iff.2 (Nat.cast_injective (R := K))
              rw [List.map_map, List.map_map]
              refine (List.map_congr_left ?_).trans (e2.trans (List.map_congr_left ?_))
              · intro i _
                simp [Sample.frameTime, Function.comp]
                ring
              · intro e _
                simp [Function.comp]
            have h3 : idx.map (frameTimeF A p n t.start) =
                (idx.map (fun i => t.start + i)).map fun k => frameTimeF A p n t.start (k - t.start) := by
              rw [List.map_map]
              apply List.map_congr_left
              intro i _
              simp [Function.comp]
            rw [h3, h2, List.map_map]
            rfl
          · simp only at e4 ⊢
            have h2 : mag = (kept t).map fun e => some e.2.mag := by
              have : mag.map (fun m => m.map (· + (0 : K))) = mag := by simp
              rw [this] at e4
              simpa using e4
            rw [h2, List.map_map]
            apply List.map_congr_left
            intro e _
            rfl

/-! ## Magnitudes and mean frequencies -/

/-- The magnitude of a refined peak is at most twice as large as those of the spectrum. -/
theorem PeakAtF.mag_le {fs t B : K} {n : Nat} {mx : List K} {j : Nat} {pk : Peak K}
    (h : PeakAtF A fs t n mx j pk) (hu : A.u ≤ 1 / 128) (hB : ∀ v ∈ mx, |v| ≤ B) : |pk.mag| ≤ 2 * B := by
  obtain ⟨a, b, c, _, h1, h2, h3, hab, hcb, _, _, _, _, hbm, _, he⟩ := h
  have ha := abs_le.1 (hB a (List.mem_of_getElem? h1))
  have hb := abs_le.1 (hB b (List.mem_of_getElem? h2))
  have hc := abs_le.1 (hB c (List.mem_of_getElem? h3))
  have hb' := hB b (List.mem_of_getElem? h2)
  have hB0 : 0 ≤ B := (abs_nonneg b).trans hb'
  have hD : 0 < (b - a) + (b - c) := by linarith
  have hm0 : b - (a - c) ^ 2 / (8 * (a - 2 * b + c)) ≤ b + ((b - a) + (b - c)) / 8 := by
    have e : b - (a - c) ^ 2 / (8 * (a - 2 * b + c)) = b + (a - c) ^ 2 / (8 * ((b - a) + (b - c))) := by
      rw [show 8 * (a - 2 * b + c) = -(8 * ((b - a) + (b - c))) by ring, div_neg]
      ring
    rw [e]
    have : (a - c) ^ 2 / (8 * ((b - a) + (b - c))) ≤ ((b - a) + (b - c)) / 8 := by
      rw [div_le_iff₀ (by linarith)]
      nlinarith [mul_pos (sub_pos.2 hab) (sub_pos.2 hcb)]
    linarith
  have hmax : max (b - a) (b - c) ≤ 2 * B := max_le (by linarith) (by linarith)
  have hE : A.u * (8 * max (b - a) (b - c) + 2 * |b|) ≤ 1 / 128 * (18 * B) :=
    mul_le_mul hu (by linarith) (by
      have := le_max_left (b - a) (b - c)
      have := abs_nonneg b
      linarith) (by norm_num)
  have := (abs_le.1 he).2
  rw [abs_le]
  constructor <;> linarith

theorem sum_abs_eq (l : List K) (h : ∀ f ∈ l, 0 ≤ f) : (l.map fun x => |x|).sum = l.sum := by
  congr 1
  conv_rhs => rw [← List.map_id l]
  apply List.map_congr_left
  intro x hx
  exact abs_of_nonneg (h x hx)

theorem mean_between (l : List K) (hl : l ≠ []) {a b : K} (h : ∀ f ∈ l, a ≤ f ∧ f ≤ b) :
    a ≤ l.sum / (l.length : K) ∧ l.sum / (l.length : K) ≤ b := by
  have hn : (0 : K) < l.length := by exact_mod_cast List.length_pos_iff.2 hl
  rw [le_div_iff₀ hn, div_le_iff₀ hn]
  have : a * l.length ≤ l.sum ∧ l.sum ≤ b * l.length := by
    clear hl hn
    induction l with
    | nil => simp
    | cons x l ih =>
      have h1 := h x (by simp)
      have h2 := ih fun f hf => h f (by simp [hf])
      simp only [List.sum_cons, List.length_cons, Nat.cast_add, Nat.cast_one]
      constructor <;> linarith
  exact this

/-- The computed mean of frequencies that stay away from 0 and from the Nyquist frequency. -/
theorem meanF_freq [FloorRing K] {fs : K} (hfs : 0 < fs) {n : Nat} (hn : 0 < n) (hη : A.eta ≤ A.u * (fs / n))
    (hu : A.u ≤ 1 / 128) (l : List K) (hl : l ≠ []) (m : K) (h : MeanF A l m)
    (hN : (l.length : K) * A.u ≤ 1 / 32)
    (hf : ∀ f ∈ l, fs / n / 8 ≤ f ∧ f ≤ fs / 2 - fs / n / 8) :
    0 < m ∧ |m - l.sum / (l.length : K)| ≤
      (2 * l.length + 34) * A.u * (l.sum / (l.length : K)) ∧
    (8 * ((l.length : K) + 17) * n * A.u < 1 → m < fs / 2) := by
  have hnK : (0 : K) < n := by exact_mod_cast hn
  have hc : 0 < fs / (n : K) := div_pos hfs hnK
  have h1 := C147_mean A l m hl h (by linarith)
  rw [sum_abs_eq l fun f hfl => by linarith [(hf f hfl).1]] at h1
  obtain ⟨b1, b2⟩ := mean_between l hl hf
  have u0 := A.u_pos
  have hN0 : (0 : K) ≤ l.length := Nat.cast_nonneg _
  generalize l.sum / (l.length : K) = M at *
  generalize (l.length : K) = N at *
  have hM : 0 < M := by linarith
  have h2 : A.eta ≤ 8 * (A.u * M) := by
    have := mul_le_mul_of_nonneg_left b1 u0.le
    linarith
  have h3 : |m - M| ≤ (2 * N + 34) * A.u * M := by
    have : (2 * N + 34) * A.u * M = (2 * N + 2) * A.u * M + 32 * (A.u * M) := by ring
    linarith
  have h4 : (2 * N + 34) * A.u ≤ 1 / 2 := by linarith
  have h5 := mul_le_mul_of_nonneg_right h4 hM.le
  obtain ⟨c1, c2⟩ := abs_le.1 h3
  refine ⟨by linarith, h3, ?_⟩
  intro h6
  have h7 : (2 * N + 34) * A.u * M ≤ (2 * N + 34) * A.u * (fs / 2) :=
    mul_le_mul_of_nonneg_left (by linarith) (by positivity)
  have h8 : (2 * N + 34) * A.u * (fs / 2) < fs / n / 8 := by
    rw [div_div, lt_div_iff₀ (by positivity)]
    calc (2 * N + 34) * A.u * (fs / 2) * (n * 8) = 8 * (N + 17) * n * A.u * fs := by ring
      _ < 1 * fs := mul_lt_mul_of_pos_right h6 hfs
      _ = fs := one_mul _
  linarith

end Verif.Float
