import Mathlib.Data.Rat.Floor
import Verif.Float.StartModel
import Verif.Float.HingeProps
import Verif.Beat.RegressionProps

/-!
# Start and bounds of the beat regression in floating point (C149)
-/

set_option autoImplicit false
set_option linter.unusedSectionVars false
set_option linter.unusedSimpArgs false

namespace Verif.Float

open Arith
open Verif.Beat (Octet)
open Verif.Hinge (npMin npMax)

variable {K : Type} [Field K] [LinearOrder K] [IsStrictOrderedRing K] (A : Arith K)

/-- Adding a number that is not too small gives a larger number. -/
theorem lt_add_of {x d : K} (rx : A.Rep x) (rd : A.Rep d) (hd : 0 < d)
    (h : A.u * (|x| + d) < d) : x < A.add x d := by
  refine lt_of_le_of_ne (le_rnd (by linarith) rx) fun e => ?_
  have h1 := A.errAdd x d rx rd
  change x = A.rnd (x + d) at e
  rw [← e, show x - (x + d) = -d by ring, abs_neg, abs_of_pos hd] at h1
  have h2 : |x + d| ≤ |x| + d := (abs_add_le x d).trans (by rw [abs_of_pos hd])
  have h3 := mul_le_mul_of_nonneg_left h2 A.u_pos.le
  linarith

/-- Subtracting a number that is not too small gives a smaller number. -/
theorem sub_lt_of {x d : K} (rx : A.Rep x) (rd : A.Rep d) (hd : 0 < d)
    (h : A.u * (|x| + d) < d) : A.sub x d < x := by
  have := lt_add_of A (rep_neg rx) rd hd (by rwa [abs_neg])
  have e : A.add (-x) d = -A.sub x d := by
    unfold Arith.add Arith.sub
    rw [← A.odd]
    congr 1
    ring
  rw [e] at this
  linarith

/-- Going down by the (rounded) distance to a larger number always gives a smaller number. -/
theorem sub_dist_lt {x y : K} (rx : A.Rep x) (ry : A.Rep y) (hx : 0 ≤ x) (h : x < y) :
    A.sub x (A.sub y x) < x := by
  have u0 := A.u_pos
  have u8 := A.u_le
  have rd : A.Rep (A.sub y x) := rnd_rep _
  have hd : 0 < A.sub y x := (rnd_sub_pos ry rx).2 h
  refine lt_of_le_of_ne (rnd_le (by linarith) rx) fun e => ?_
  have h1 := errSub rx rd (A := A)
  change A.rnd (x - A.sub y x) = x at e
  rw [e, show x - (x - A.sub y x) = A.sub y x by ring, abs_of_pos hd] at h1
  rcases le_or_gt (A.sub y x) x with hle | hgt
  · rw [abs_of_nonneg (by linarith)] at h1
    -- the distance is at least the spacing at `x`
    have h2 : A.u * x ≤ A.sub y x := by
      by_cases hy : y ≤ 2 * x
      · have h3 : A.sub y x = y - x := A.sterbenz y x ry rx (by linarith) hy
        have h4 := A.spacing x y rx ry h.ne
        rw [abs_of_nonneg hx, abs_of_neg (by linarith)] at h4
        rw [h3]
        linarith
      · have h3 := errSub ry rx (A := A)
        have h4 := (abs_le.1 h3).1
        rw [abs_of_pos (by linarith : 0 < y - x)] at h4
        change _ ≤ A.sub y x - (y - x) at h4
        have h5 : A.u * (y - x) ≤ 1 / 8 * (y - x) :=
          mul_le_mul_of_nonneg_right u8 (by linarith)
        have h6 : A.u * x ≤ 1 / 8 * x := mul_le_mul_of_nonneg_right u8 hx
        linarith
    have : 0 < A.u * A.sub y x := mul_pos u0 hd
    have h7 : A.u * (x - A.sub y x) = A.u * x - A.u * A.sub y x := by ring
    linarith
  · rw [abs_of_neg (by linarith)] at h1
    have h5 : A.u * -(x - A.sub y x) ≤ 1 / 8 * -(x - A.sub y x) :=
      mul_le_mul_of_nonneg_right u8 (by linarith)
    linarith

/-- A rounded difference keeps most of the difference. -/
theorem sub_ge {x y : K} (rx : A.Rep x) (ry : A.Rep y) (h : y ≤ x) :
    7 / 8 * (x - y) ≤ A.sub x y := by
  have h1 := (abs_le.1 (errSub rx ry (A := A))).1
  rw [abs_of_nonneg (by linarith : 0 ≤ x - y)] at h1
  change _ ≤ A.sub x y - (x - y) at h1
  have h2 : A.u * (x - y) ≤ 1 / 8 * (x - y) := mul_le_mul_of_nonneg_right A.u_le (by linarith)
  linarith

theorem rep_min {x y : K} (rx : A.Rep x) (ry : A.Rep y) : A.Rep (min x y) := by
  rcases min_choice x y with e | e <;> rw [e] <;> assumption

theorem rep_max {x y : K} (rx : A.Rep x) (ry : A.Rep y) : A.Rep (max x y) := by
  rcases max_choice x y with e | e <;> rw [e] <;> assumption

/-- The computed results are floating-point numbers, amplitudes are not negative, the angle is
between 0 and 4 (`p_hat` is computed modulo `np.pi`) and `np.pi` between 3 and 4. -/
structure BeatLib.Ok (L : BeatLib K) : Prop where
  reg : ∀ t a k q, L.reg t a = .ok (k, q) → A.Rep k ∧ A.Rep q
  db2a : ∀ x, A.Rep (L.db2a x) ∧ 0 ≤ L.db2a x
  mean : ∀ l, A.Rep (L.mean l)
  phat : ∀ t a am, A.Rep (L.phat t a am) ∧ 0 ≤ L.phat t a am ∧ L.phat t a am ≤ 4
  pi : A.Rep L.pi ∧ 3 ≤ L.pi ∧ L.pi ≤ 4

/-- The starting amplitude can be separated from the bounds: if all amplitudes are equal, it is below
them; otherwise one amplitude is larger or one is smaller by `2 u` (relatively). -/
def AmpOk (u : K) (amps : List K) (s : K) : Prop :=
  ((∃ x ∈ amps, ∃ y ∈ amps, x ≠ y) ∧
    ((∃ x ∈ amps, s < x) ∨ ∃ x ∈ amps, x ≤ (1 - 2 * u) * s)) ∨
  ∀ x ∈ amps, s < x

/-- The frequency varies by at least `2 u` of the largest frequency `M`. -/
def FreqOk (u : K) (f : List K) (M : K) : Prop :=
  ∃ x ∈ f, ∃ y ∈ f, x ≠ y ∧ 2 * u * M ≤ |x - y|

theorem ampBoundsF_ok {lo hi s : K} (rl : A.Rep lo) (rh : A.Rep hi) (rs : A.Rep s) (l0 : 0 ≤ lo)
    (hle : lo ≤ hi) (hs : 0 < s)
    (h : (lo < hi ∧ (s < hi ∨ lo ≤ (1 - 2 * A.u) * s)) ∨ (lo = hi ∧ s < hi)) :
    0 ≤ (ampBoundsF A lo hi s s).1 ∧ (ampBoundsF A lo hi s s).1 < s ∧
      s < (ampBoundsF A lo hi s s).2 ∧ (ampBoundsF A lo hi s s).1 ≤ lo ∧
      hi ≤ (ampBoundsF A lo hi s s).2 := by
  have u0 := A.u_pos
  have u8 := A.u_le
  unfold ampBoundsF
  rcases h with ⟨hlt, h⟩ | ⟨rfl, h⟩
  · rw [if_neg hlt.ne]
    simp only [max_assoc, min_assoc, max_self, min_self]
    have rM : A.Rep (max hi s) := rep_max A rh rs
    have rm : A.Rep (min lo s) := rep_min A rl rs
    have hmM : min lo s < max hi s := lt_of_le_of_lt (min_le_left _ _) (lt_of_lt_of_le hlt (le_max_left _ _))
    have hm0 : 0 ≤ min lo s := le_min l0 hs.le
    have hd : 0 < A.sub (max hi s) (min lo s) := (rnd_sub_pos rM rm).2 hmM
    have hlow : A.sub (min lo s) (A.sub (max hi s) (min lo s)) < min lo s :=
      sub_dist_lt A rm rM hm0 hmM
    have hup : max hi s ≤ A.add (max hi s) (A.sub (max hi s) (min lo s)) :=
      le_rnd (by linarith) rM
    refine ⟨le_max_left _ _, max_lt hs (lt_of_lt_of_le hlow (min_le_right _ _)), ?_,
      max_le l0 (hlow.le.trans (min_le_left _ _)), (le_max_left _ _).trans hup⟩
    by_cases hsh : s < hi
    · exact lt_of_lt_of_le (lt_of_lt_of_le hsh (le_max_left _ _)) hup
    · have hl : lo ≤ (1 - 2 * A.u) * s := h.resolve_left hsh
      rw [not_lt] at hsh
      have e1 : max hi s = s := max_eq_right hsh
      have e2 : min lo s = lo := min_eq_left (hle.trans hsh)
      rw [e1, e2] at hd ⊢
      have hg := sub_ge A rs rl (hle.trans hsh)
      have hl' : 2 * A.u * s ≤ s - lo := by linarith
      apply lt_add_of A rs (rnd_rep _) hd
      rw [abs_of_pos hs]
      have : A.u * A.sub s lo ≤ 1 / 8 * A.sub s lo := mul_le_mul_of_nonneg_right u8 hd.le
      change A.u * (s + A.sub s lo) < A.sub s lo
      have h7 : A.u * (s + A.sub s lo) = A.u * s + A.u * A.sub s lo := by ring
      have : 0 < A.u * s := mul_pos u0 hs
      linarith
  · rw [if_pos rfl]
    simp only
    rw [if_neg (by linarith : ¬ (0 = lo))]
    exact ⟨le_rfl, hs, h, l0, le_rfl⟩

theorem freqBoundsF_ok {lo hi f0 f1 M : K} (rl : A.Rep lo) (rh : A.Rep hi) (r0 : A.Rep f0)
    (r1 : A.Rep f1) (hlt : lo < hi) (hM : 2 * A.u * M ≤ hi - lo) (hM1 : 2 * A.u * M ≤ 1)
    (bl : |lo| ≤ M) (bh : |hi| ≤ M) (b0 : |f0| ≤ M) (b1 : |f1| ≤ M) :
    (freqBoundsF A lo hi f0 f1).1 < f0 ∧ (freqBoundsF A lo hi f0 f1).1 < f1 ∧
      f0 < (freqBoundsF A lo hi f0 f1).2 ∧ f1 < (freqBoundsF A lo hi f0 f1).2 ∧
      (freqBoundsF A lo hi f0 f1).1 ≤ lo ∧ hi ≤ (freqBoundsF A lo hi f0 f1).2 := by
  have u0 := A.u_pos
  have u8 := A.u_le
  unfold freqBoundsF
  simp only
  have hd0 : 0 < A.sub hi lo := (rnd_sub_pos rh rl).2 hlt
  have rd : A.Rep (min (A.sub hi lo) 1) := rep_min A (rnd_rep _) rep_one
  have hd : 0 < min (A.sub hi lo) 1 := lt_min hd0 one_pos
  have hg := sub_ge A rh rl hlt.le
  have hM0 : 0 < M := by
    refine lt_of_le_of_ne ((abs_nonneg _).trans bl) fun e => ?_
    rw [← e] at bl bh
    have h1 := abs_eq_zero.1 (le_antisymm bl (abs_nonneg _))
    have h2 := abs_eq_zero.1 (le_antisymm bh (abs_nonneg _))
    linarith
  have huM : 0 < A.u * M := mul_pos u0 hM0
  have hdM : 7 / 4 * (A.u * M) ≤ min (A.sub hi lo) 1 := le_min (by linarith) (by linarith)
  generalize min (A.sub hi lo) 1 = d at *
  have hstep : ∀ x : K, |x| ≤ M → A.u * (|x| + d) < d := by
    intro x hx
    have h1 := mul_le_mul_of_nonneg_left hx u0.le
    have h2 : A.u * d ≤ 1 / 8 * d := mul_le_mul_of_nonneg_right u8 hd.le
    have h3 : A.u * (|x| + d) = A.u * |x| + A.u * d := by ring
    linarith
  have rM : A.Rep (max (max f0 f1) hi) := rep_max A (rep_max A r0 r1) rh
  have rm : A.Rep (min (min f0 f1) lo) := rep_min A (rep_min A r0 r1) rl
  have bM : |max (max f0 f1) hi| ≤ M := by
    rcases max_choice (max f0 f1) hi with e | e <;> rw [e]
    · rcases max_choice f0 f1 with e | e <;> rw [e] <;> assumption
    · exact bh
  have bm : |min (min f0 f1) lo| ≤ M := by
    rcases min_choice (min f0 f1) lo with e | e <;> rw [e]
    · rcases min_choice f0 f1 with e | e <;> rw [e] <;> assumption
    · exact bl
  have hup := lt_add_of A rM rd hd (hstep _ bM)
  have hlow := sub_lt_of A rm rd hd (hstep _ bm)
  have e1 : f0 ≤ max (max f0 f1) hi := (le_max_left _ _).trans (le_max_left _ _)
  have e2 : f1 ≤ max (max f0 f1) hi := (le_max_right _ _).trans (le_max_left _ _)
  have e3 : min (min f0 f1) lo ≤ f0 := (min_le_left _ _).trans (min_le_left _ _)
  have e4 : min (min f0 f1) lo ≤ f1 := (min_le_left _ _).trans (min_le_right _ _)
  exact ⟨lt_of_lt_of_le hlow e3, lt_of_lt_of_le hlow e4, lt_of_le_of_lt e1 hup,
    lt_of_le_of_lt e2 hup, hlow.le.trans (min_le_right _ _), (le_max_right _ _).trans hup.le⟩

/-- A constant frequency is never accepted. -/
theorem freqBoundsF_const {v f0 f1 : K} (r0 : A.Rep f0) (r1 : A.Rep f1) (rv : A.Rep v)
    (h : (freqBoundsF A v v f0 f1).1 < f0 ∧ (freqBoundsF A v v f0 f1).1 < f1 ∧
      f0 < (freqBoundsF A v v f0 f1).2 ∧ f1 < (freqBoundsF A v v f0 f1).2) : False := by
  unfold freqBoundsF at h
  have e : min (A.sub v v) 1 = 0 := by
    unfold Arith.sub
    rw [sub_self, rnd_zero]
    exact min_eq_left zero_le_one
  have rM : A.Rep (max (max f0 f1) v) := rep_max A (rep_max A r0 r1) rv
  have rm : A.Rep (min (min f0 f1) v) := rep_min A (rep_min A r0 r1) rv
  simp only [e] at h
  simp only [Arith.sub, Arith.add, add_zero, sub_zero] at h
  rw [rnd_of rM, rnd_of rm] at h
  obtain ⟨h1, h2, h3, h4⟩ := h
  have h5 : v < f0 := by
    rcases min_lt_iff.1 h1 with h | h
    · rcases min_lt_iff.1 h with h | h
      · exact absurd h (lt_irrefl _)
      · rcases min_lt_iff.1 h2 with g | g
        · rcases min_lt_iff.1 g with g | g
          · exact absurd (h.trans g) (lt_irrefl _)
          · exact absurd g (lt_irrefl _)
        · exact g.trans h
    · exact h
  have h6 : f0 < v := by
    rcases lt_max_iff.1 h3 with h | h
    · rcases lt_max_iff.1 h with h | h
      · exact absurd h (lt_irrefl _)
      · rcases lt_max_iff.1 h4 with g | g
        · rcases lt_max_iff.1 g with g | g
          · exact absurd (h.trans g) (lt_irrefl _)
          · exact absurd g (lt_irrefl _)
        · exact h.trans g
    · exact h
  exact absurd (h5.trans h6) (lt_irrefl _)

theorem extremes (l : List K) (h : l ≠ []) : ∃ m M, npMin l = .ok m ∧ npMax l = .ok M ∧ m ∈ l ∧
    M ∈ l ∧ (∀ y ∈ l, m ≤ y) ∧ ∀ y ∈ l, y ≤ M := by
  obtain ⟨m, hm, hm'⟩ := Hinge.npMin_ok l h
  obtain ⟨M, hM, hM'⟩ := Hinge.npMax_ok l h
  exact ⟨m, M, hm, hM, npMin_mem l m hm, npMax_mem l M hM, hm', hM'⟩

/-- C149.  With the default starting value and bounds the optimiser is called, with a starting value
strictly inside the bounds, for a track of at least two points if the trend decays with a (computed)
decay time between `eps` and 100 s, the starting amplitude is positive and can be separated from the
bounds (`AmpOk`), and the frequency varies by at least `2 u` of the largest frequency (`FreqOk`).  All
amplitudes and frequencies of the track are inside the bounds, no amplitude bound is negative. -/
theorem C149_start (L : BeatLib K) (hL : L.Ok A) (fs : K)
    (solve : Octet K → Octet K → Octet K → Except PyErr (Octet K)) (t a f : List K)
    (ht : 2 ≤ t.length) (ha : a.length = t.length) (hf : f.length = t.length)
    (rf : ∀ x ∈ f, A.rnd x = x) (k q : K) (hr : L.reg t a = .ok (k, q))
    (hk : k ≠ 0) (d1 : L.eps < A.rnd (L.d2k / k)) (d2 : A.rnd (L.d2k / k) < 100)
    (s : K) (hs : s = A.rnd (L.db2a q / 2)) (hs0 : 0 < s) (hamp : AmpOk A.u (a.map L.db2a) s)
    (am : K) (ham : ∀ l ls, L.peaks t a = l :: ls → am = A.rnd (fs / A.rnd (2 * l)))
    (ham0 : L.peaks t a = [] → am = 0) (M : K) (hM1 : 2 * A.u * M ≤ 1) (hM : ∀ x ∈ f, |x| ≤ M)
    (hM2 : |A.rnd (L.mean f + am)| ≤ M) (hM3 : |A.rnd (L.mean f - am)| ≤ M)
    (hfreq : FreqOk A.u f M) :
    ∃ x0 lo hi, fitBeatF A L fs solve t a f = solve x0 lo hi ∧
      x0.a0 = s ∧ x0.a1 = s ∧ x0.f0 = A.rnd (L.mean f + am) ∧ x0.f1 = A.rnd (L.mean f - am) ∧
      x0.d0 = A.rnd (L.d2k / k) ∧ x0.d1 = A.rnd (L.d2k / k) ∧ x0.p0 = 0 ∧
      x0.p1 = -(2 * L.phat t a am) ∧
      (lo.a0 < x0.a0 ∧ x0.a0 < hi.a0) ∧ (lo.a1 < x0.a1 ∧ x0.a1 < hi.a1) ∧
      (lo.f0 < x0.f0 ∧ x0.f0 < hi.f0) ∧ (lo.f1 < x0.f1 ∧ x0.f1 < hi.f1) ∧
      (lo.d0 < x0.d0 ∧ x0.d0 < hi.d0) ∧ (lo.d1 < x0.d1 ∧ x0.d1 < hi.d1) ∧
      (lo.p0 < x0.p0 ∧ x0.p0 < hi.p0) ∧ (lo.p1 < x0.p1 ∧ x0.p1 < hi.p1) ∧
      0 ≤ lo.a0 ∧ 0 ≤ lo.a1 ∧
      (∀ x ∈ a, lo.a0 ≤ L.db2a x ∧ L.db2a x ≤ hi.a0 ∧ lo.a1 ≤ L.db2a x ∧ L.db2a x ≤ hi.a1) ∧
      ∀ x ∈ f, lo.f0 ≤ x ∧ x ≤ hi.f0 ∧ lo.f1 ≤ x ∧ x ≤ hi.f1 := by
  have u0 := A.u_pos
  have u8 := A.u_le
  have hane : a.map L.db2a ≠ [] := by
    intro h
    have := congrArg List.length h
    simp only [List.length_map, List.length_nil] at this
    omega
  have hfne : f ≠ [] := by
    intro h
    rw [h, List.length_nil] at hf
    omega
  obtain ⟨al, ah, e1, e2, al1, ah1, al2, ah2⟩ := extremes _ hane
  obtain ⟨fl, fh, e3, e4, fl1, fh1, fl2, fh2⟩ := extremes _ hfne
  have ramp : ∀ x ∈ a.map L.db2a, A.Rep x ∧ 0 ≤ x := by
    intro x hx
    obtain ⟨y, -, rfl⟩ := List.mem_map.1 hx
    exact hL.db2a y
  have hamf : amFreqF A fs (L.peaks t a) = am := by
    cases hp : L.peaks t a with
    | nil => exact (ham0 hp).symm
    | cons l ls => exact (ham l ls hp).symm
  have hA := ampBoundsF_ok A (ramp al al1).1 (ramp ah ah1).1 (s := s) (by rw [hs]; exact rnd_rep _)
    (ramp al al1).2 (al2 _ ah1) hs0 (by
      rcases hamp with ⟨⟨x, hx, y, hy, hne⟩, h⟩ | h
      · left
        refine ⟨lt_of_le_of_ne (al2 _ ah1) fun e => hne ?_, ?_⟩
        · have h1 := al2 x hx
          have h2 := ah2 x hx
          have h3 := al2 y hy
          have h4 := ah2 y hy
          linarith
        · rcases h with ⟨x, hx, h⟩ | ⟨x, hx, h⟩
          · exact Or.inl (lt_of_lt_of_le h (ah2 x hx))
          · exact Or.inr ((al2 x hx).trans h)
      · have h1 := h ah ah1
        rcases eq_or_lt_of_le (al2 _ ah1) with e | e
        · exact Or.inr ⟨e, h1⟩
        · exact Or.inl ⟨e, Or.inl h1⟩)
  have hF := freqBoundsF_ok A (rf fl fl1) (rf fh fh1) (rnd_rep (A := A) (L.mean f + am))
    (rnd_rep (A := A) (L.mean f - am)) (M := M) (by
      obtain ⟨x, hx, y, hy, hne, -⟩ := hfreq
      refine lt_of_le_of_ne (fl2 _ fh1) fun e => hne ?_
      have h1 := fl2 x hx
      have h2 := fh2 x hx
      have h3 := fl2 y hy
      have h4 := fh2 y hy
      linarith) (by
      obtain ⟨x, hx, y, hy, -, h⟩ := hfreq
      refine h.trans (abs_le.2 ⟨?_, ?_⟩)
      · linarith [fl2 x hx, fh2 y hy]
      · linarith [fl2 y hy, fh2 x hx]) hM1 (hM _ fl1) (hM _ fh1) hM2 hM3
  obtain ⟨rph, ph0, ph4⟩ := hL.phat t a am
  obtain ⟨rpi, pi3, pi4⟩ := hL.pi
  have hp1 : A.mul (-2) (L.phat t a am) = -(2 * L.phat t a am) := by
    unfold Arith.mul
    rw [neg_mul, A.odd, A.double _ rph]
  have rp1 : A.Rep (-(2 * L.phat t a am)) := rep_neg (rep_double rph)
  have hpstep : A.u * (|-(2 * L.phat t a am)| + L.pi) < L.pi := by
    rw [abs_neg, abs_of_nonneg (by linarith)]
    have : A.u * (2 * L.phat t a am + L.pi) ≤ 1 / 8 * (2 * L.phat t a am + L.pi) :=
      mul_le_mul_of_nonneg_right u8 (by linarith)
    linarith
  have hpl := sub_lt_of A rp1 rpi (by linarith) hpstep
  have hph := lt_add_of A rp1 rpi (by linarith) hpstep
  obtain ⟨A0, A1, A2, A3, A4⟩ := hA
  obtain ⟨F1, F2, F3, F4, F5, F6⟩ := hF
  refine ⟨⟨s, s, A.rnd (L.mean f + am), A.rnd (L.mean f - am), A.rnd (L.d2k / k), A.rnd (L.d2k / k), 0,
      -(2 * L.phat t a am)⟩,
    (boundsOfF A L al ah fl fh ⟨s, s, A.rnd (L.mean f + am), A.rnd (L.mean f - am),
      some (A.rnd (L.d2k / k)), some (A.rnd (L.d2k / k)), 0, -(2 * L.phat t a am)⟩).1,
    (boundsOfF A L al ah fl fh ⟨s, s, A.rnd (L.mean f + am), A.rnd (L.mean f - am),
      some (A.rnd (L.d2k / k)), some (A.rnd (L.d2k / k)), 0, -(2 * L.phat t a am)⟩).2, ?_,
    rfl, rfl, rfl, rfl, rfl, rfl, rfl, rfl, ⟨A1, A2⟩, ⟨A1, A2⟩, ⟨F1, F3⟩, ⟨F2, F4⟩, ⟨d1, d2⟩, ⟨d1, d2⟩,
    ⟨?_, ?_⟩, ⟨hpl, hph⟩, A0, A0, ?_, ?_⟩
  · have hi : defaultInitBeatF A L fs t a f = .ok ⟨s, s, A.rnd (L.mean f + am), A.rnd (L.mean f - am),
        some (A.rnd (L.d2k / k)), some (A.rnd (L.d2k / k)), 0, -(2 * L.phat t a am)⟩ := by
      simp only [defaultInitBeatF, hr, hamf, if_neg hk, hp1]
      rw [hs]
      rfl
    have hb : ∀ p, defaultBoundsBeatF A L t a f p = .ok (boundsOfF A L al ah fl fh p) := by
      intro p
      unfold defaultBoundsBeatF
      rw [if_neg (by omega), e1, e2, e3, e4]
    simp only [fitBeatF, hi, hb]
    have : feasibleF (K := K) ⟨s, s, A.rnd (L.mean f + am), A.rnd (L.mean f - am),
        some (A.rnd (L.d2k / k)), some (A.rnd (L.d2k / k)), 0, -(2 * L.phat t a am)⟩
        (boundsOfF A L al ah fl fh ⟨s, s, A.rnd (L.mean f + am), A.rnd (L.mean f - am),
          some (A.rnd (L.d2k / k)), some (A.rnd (L.d2k / k)), 0, -(2 * L.phat t a am)⟩).1
        (boundsOfF A L al ah fl fh ⟨s, s, A.rnd (L.mean f + am), A.rnd (L.mean f - am),
          some (A.rnd (L.d2k / k)), some (A.rnd (L.d2k / k)), 0, -(2 * L.phat t a am)⟩).2 =
        some ⟨s, s, A.rnd (L.mean f + am), A.rnd (L.mean f - am), A.rnd (L.d2k / k),
          A.rnd (L.d2k / k), 0, -(2 * L.phat t a am)⟩ := by
      unfold feasibleF
      simp only
      rw [if_pos]
      refine ⟨A1, A1, F1, F2, d1, d1, ?_, hpl, A2, A2, F3, F4, d2, d2, ?_, hph⟩
      · change -L.pi < 0
        linarith
      · change 0 < L.pi
        linarith
    rw [this]
  · change -L.pi < 0
    linarith
  · change 0 < L.pi
    linarith
  · intro x hx
    have h1 := al2 _ (List.mem_map_of_mem (f := L.db2a) hx)
    have h2 := ah2 _ (List.mem_map_of_mem (f := L.db2a) hx)
    exact ⟨A3.trans h1, h2.trans A4, A3.trans h1, h2.trans A4⟩
  · intro x hx
    have h1 := fl2 _ hx
    have h2 := fh2 _ hx
    exact ⟨F5.trans h1, h2.trans F6, F5.trans h1, h2.trans F6⟩

/-- C149.  The optimiser is not called, whatever the libraries compute, for a track of less than two
points, a track with a constant frequency, a track with constant (positive) amplitudes not above the
starting amplitude, and a trend without a decay time between `eps` and 100 s: `ValueError`. -/
theorem C149_errors (L : BeatLib K) (hL : L.Ok A) (fs : K)
    (solve : Octet K → Octet K → Octet K → Except PyErr (Octet K)) (t a f : List K)
    (ha : a.length = t.length) (hf : f.length = t.length)
    (rf : ∀ x ∈ f, A.rnd x = x) (k q : K) (hr : L.reg t a = .ok (k, q))
    (h : t.length < 2 ∨ (∃ v, ∀ x ∈ f, x = v) ∨
      (∃ v, 0 < v ∧ v ≤ A.rnd (L.db2a q / 2) ∧ ∀ x ∈ a, L.db2a x = v) ∨
      k = 0 ∨ A.rnd (L.d2k / k) ≤ L.eps ∨ 100 ≤ A.rnd (L.d2k / k)) :
    fitBeatF A L fs solve t a f = .error .valueError := by
  simp only [fitBeatF, defaultInitBeatF, hr, defaultBoundsBeatF]
  by_cases hl : t.length ≤ 1
  · rw [if_pos hl]
  rw [if_neg hl]
  have hane : a.map L.db2a ≠ [] := by
    intro h
    have := congrArg List.length h
    simp only [List.length_map, List.length_nil] at this
    omega
  have hfne : f ≠ [] := by
    intro h
    rw [h, List.length_nil] at hf
    omega
  obtain ⟨al, ah, e1, e2, al1, ah1, al2, ah2⟩ := extremes _ hane
  obtain ⟨fl, fh, e3, e4, fl1, fh1, fl2, fh2⟩ := extremes _ hfne
  rw [e1, e2, e3, e4]
  simp only
  have key : feasibleF (K := K) ⟨A.div (L.db2a q) 2, A.div (L.db2a q) 2,
      A.add (L.mean f) (amFreqF A fs (L.peaks t a)), A.sub (L.mean f) (amFreqF A fs (L.peaks t a)),
      if k = 0 then none else some (A.div L.d2k k), if k = 0 then none else some (A.div L.d2k k), 0,
      A.mul (-2) (L.phat t a (amFreqF A fs (L.peaks t a)))⟩
      (boundsOfF A L al ah fl fh ⟨A.div (L.db2a q) 2, A.div (L.db2a q) 2,
      A.add (L.mean f) (amFreqF A fs (L.peaks t a)), A.sub (L.mean f) (amFreqF A fs (L.peaks t a)),
      if k = 0 then none else some (A.div L.d2k k), if k = 0 then none else some (A.div L.d2k k), 0,
      A.mul (-2) (L.phat t a (amFreqF A fs (L.peaks t a)))⟩).1
      (boundsOfF A L al ah fl fh ⟨A.div (L.db2a q) 2, A.div (L.db2a q) 2,
      A.add (L.mean f) (amFreqF A fs (L.peaks t a)), A.sub (L.mean f) (amFreqF A fs (L.peaks t a)),
      if k = 0 then none else some (A.div L.d2k k), if k = 0 then none else some (A.div L.d2k k), 0,
      A.mul (-2) (L.phat t a (amFreqF A fs (L.peaks t a)))⟩).2 = none := by
    by_cases hk : k = 0
    · simp [feasibleF, hk]
    simp only [feasibleF, hk, if_false]
    rw [if_neg]
    rintro ⟨g1, -, g3, g4, g5, -, -, -, g9, -, g11, g12, g13, -⟩
    rcases h with h | ⟨v, h⟩ | ⟨v, v0, hv, h⟩ | h | h | h
    · omega
    · have hfl := h fl fl1
      have hfh := h fh fh1
      subst hfl
      subst hfh
      exact freqBoundsF_const A (rnd_rep _) (rnd_rep _) (rf _ fl1) ⟨g3, g4, g11, g12⟩
    · have hall : ∀ x ∈ a.map L.db2a, x = v := by
        intro x hx
        obtain ⟨y, hy, rfl⟩ := List.mem_map.1 hx
        exact h y hy
      have hal := hall al al1
      have hah := hall ah ah1
      subst hal
      subst hah
      simp only [boundsOfF, ampBoundsF, if_true] at g9
      rw [if_neg (by exact v0.ne)] at g9
      exact absurd g9 (not_lt.2 hv)
    · exact hk h
    · exact absurd g5 (not_lt.2 h)
    · exact absurd g13 (not_lt.2 h)
  rw [key]

/-! ### Examples in doubles -/

/-- Results of the libraries that fit to a decaying track: the slope is `-20` dB/s, the decay time
about 0.87 s, the starting amplitude `1 / 2`. -/
def exBeatLib (m : ℚ) (peaks : List ℚ) (q : ℚ) : BeatLib ℚ where
  reg := fun _ _ => .ok (-20, q)
  db2a := fun x => (double ℚ).rnd (|x|)
  mean := fun _ => (double ℚ).rnd m
  peaks := fun _ _ => peaks
  phat := fun _ _ _ => 1
  pi := 884279719003555 / 281474976710656
  d2k := -4889721167171369 / 281474976710656
  eps := 1 / 4503599627370496

theorem exPi_rep : (double ℚ).rnd (884279719003555 / 281474976710656) = 884279719003555 / 281474976710656 := by
  decide +kernel

theorem exSlope_rep : (double ℚ).rnd (-20) = -20 := by
  decide +kernel

theorem exOne_rep : (double ℚ).rnd 1 = 1 := by
  decide +kernel

theorem exBeatLib_ok (m : ℚ) (peaks : List ℚ) (q : ℚ) (hq : (double ℚ).rnd q = q) :
    (exBeatLib m peaks q).Ok (double ℚ) := by
  have h1 := exSlope_rep
  have h2 := exOne_rep
  have h3 := exPi_rep
  have h4 := (double ℚ).idem
  have h5 : ∀ x : ℚ, 0 ≤ (double ℚ).rnd |x| := fun x => rnd_nonneg (A := double ℚ) (abs_nonneg x)
  unfold exBeatLib
  generalize double ℚ = B at *
  refine ⟨?_, fun x => ⟨h4 _, h5 x⟩, fun _ => h4 _, fun _ _ _ => ⟨h2, by norm_num, by norm_num⟩,
    ⟨h3, by norm_num, by norm_num⟩⟩
  intro t a k q' h
  simp only [Except.ok.injEq, Prod.mk.injEq] at h
  obtain ⟨rfl, rfl⟩ := h
  exact ⟨h1, hq⟩

/-- A track that is accepted: the hypotheses of `C149_start` hold. -/
example : (fitBeatF (double ℚ) (exBeatLib 440 [50] 1) 100 (fun x _ _ => .ok x) [0, 1 / 64, 1 / 32]
      [1, 3 / 4, 7 / 8] [439, 440, 441]).toOption.map
      (fun x => (x.a0, x.a1, x.f0, x.f1, x.p0, x.p1)) =
        some (1 / 2, 1 / 2, 441, 439, 0, -2) ∧
    AmpOk (double ℚ).u [1, 3 / 4, 7 / 8] (1 / 2) ∧ FreqOk (double ℚ).u [439, 440, 441] 441 := by
  refine ⟨by decide +kernel, Or.inl ⟨⟨1, by simp, 3 / 4, by simp, by norm_num⟩,
    Or.inl ⟨1, by simp, by norm_num⟩⟩, 439, by simp, 441, by simp, by norm_num, ?_⟩
  have : (2 : ℚ) * (double ℚ).u * 441 ≤ 1 := by decide +kernel
  have h2 : (|439 - 441| : ℚ) = 2 := by norm_num
  rw [h2]
  linarith

/-- C149: the conditions are needed.  Two frequencies of 256 Hz and the number below it, without an
autocorrelation peak and with the correctly rounded mean, and two amplitudes of 1/2 and the number
below it with a starting amplitude of 1/2, are refused although neither is constant. -/
theorem C149_gap :
    fitBeatF (double ℚ) (exBeatLib (256 - 1 / 2 ^ 46) [] 1) 100 (fun x _ _ => .ok x) [0, 1 / 64]
      [1, 3 / 4] [256, 256 - 1 / 2 ^ 45] = .error .valueError ∧
    fitBeatF (double ℚ) (exBeatLib 440 [] 1) 100 (fun x _ _ => .ok x) [0, 1 / 64]
      [1 / 2, 1 / 2 - 1 / 2 ^ 54] [439, 441] = .error .valueError ∧
    (double ℚ).rnd (256 - 1 / 2 ^ 45) = 256 - 1 / 2 ^ 45 ∧
    (double ℚ).rnd (1 / 2 - 1 / 2 ^ 54) = 1 / 2 - 1 / 2 ^ 54 := by
  decide +kernel

end Verif.Float
