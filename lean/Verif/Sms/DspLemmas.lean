import Verif.Sms.DspModel
import Mathlib.Tactic

/-! # Lemmas about `Verif.Sms.DspModel` -/

set_option autoImplicit false
set_option linter.unusedSectionVars false
set_option linter.unusedSimpArgs false

namespace Verif.Np

theorem slice_getElem? {α : Type*} (l : List α) (a b : Option Int) (i : Nat) :
    (slice l a b)[i]? =
      if i < upper l.length b -
          lower l.length a
      then l[lower l.length a + i]? else none := by
  unfold slice
  simp only [List.getElem?_take, List.getElem?_drop]

theorem slice_length {α : Type*} (l : List α) (a b : Option Int) :
    (slice l a b).length = min
      (upper l.length b -
          lower l.length a)
      (l.length - lower l.length a) := by
  unfold slice
  simp only [List.length_take, List.length_drop]

theorem binop_eq {α β γ : Type*} (f : α → β → γ) (a : List α) (b : List β)
    (h : a.length = b.length) : binop f a b = .ok (List.zipWith f a b) := by
  unfold binop; rw [if_pos h]

theorem flatnonzero_mem (l : List Bool) (i : Nat) : i ∈ flatnonzero l ↔ l[i]? = some true := by
  unfold flatnonzero
  rw [List.mem_filter, List.mem_range]
  constructor
  · rintro ⟨h1, h2⟩
    rw [List.getD_eq_getElem?_getD, List.getElem?_eq_getElem h1] at h2
    rw [List.getElem?_eq_getElem h1]
    simpa using h2
  · intro h
    have := List.getElem?_eq_some_iff.1 h
    obtain ⟨h1, h2⟩ := this
    exact ⟨h1, by rw [List.getD_eq_getElem?_getD, h]; rfl⟩

theorem flatnonzero_sorted (l : List Bool) : (flatnonzero l).Pairwise (· < ·) :=
  List.Pairwise.filter _ List.pairwise_lt_range

theorem index_ofNat {α : Type*} (l : List α) (i : Nat) (a : α) (h : l[i]? = some a) :
    index l (Int.ofNat i) = .ok a := by
  unfold index
  rw [if_neg (by simp)]
  simp [getE, h]

end Verif.Np

namespace Verif.Sms

variable {K : Type*} [Field K] [LinearOrder K]

theorem getElem?_lt' {α : Type*} {l : List α} {i : Nat} {a : α} (h : l[i]? = some a) :
    i < l.length := (List.getElem?_eq_some_iff.1 h).1

/-- `p` is an interior strict local maximum above the threshold. -/
def IsPeak (x : List K) (t : Option K) (p : Nat) : Prop :=
  ∃ a b c : K, 1 ≤ p ∧ x[p - 1]? = some a ∧ x[p]? = some b ∧ x[p + 1]? = some c ∧ a < b ∧ c < b ∧
    ∀ th, t = some th → th < b

theorem peakDetect_spec (x : List K) (t : Option K) :
    ∃ l, peakDetect x t = .ok l ∧ l.Pairwise (· < ·) ∧ ∀ p, p ∈ l ↔ IsPeak x t p := by
  set mid := Np.slice x (some 1) (some (-1)) with hmid
  set nxt := Np.slice x (some 2) none with hnxt
  set prv := Np.slice x none (some (-2)) with hprv
  have b1 : Np.bound x.length 1 = min 1 x.length := by simp [Np.bound]
  have b2 : Np.bound x.length 2 = min 2 x.length := by simp [Np.bound]
  have bm1 : Np.bound x.length (-1) = x.length - 1 := by
    unfold Np.bound; rw [if_pos (by omega)]; simp; omega
  have bm2 : Np.bound x.length (-2) = x.length - 2 := by
    unfold Np.bound; rw [if_pos (by omega)]; simp; omega
  have lm : mid.length = x.length - 2 := by
    rw [hmid, Np.slice_length]; simp only [Np.lower, Np.upper, b1, bm1]; omega
  have ln : nxt.length = x.length - 2 := by
    rw [hnxt, Np.slice_length]; simp only [Np.lower, Np.upper, b2]; omega
  have lp : prv.length = x.length - 2 := by
    rw [hprv, Np.slice_length]; simp only [Np.lower, Np.upper, bm2]; omega
  have gm : ∀ i : Nat, i < x.length - 2 → mid[i]? = x[i + 1]? := by
    intro i hi
    rw [hmid, Np.slice_getElem?]; simp only [Np.lower, Np.upper, b1, bm1]
    rw [if_pos (by omega)]; congr 1; omega
  have gn : ∀ i : Nat, i < x.length - 2 → nxt[i]? = x[i + 2]? := by
    intro i hi
    rw [hnxt, Np.slice_getElem?]; simp only [Np.lower, Np.upper, b2]
    rw [if_pos (by omega)]; congr 1; omega
  have gp : ∀ i : Nat, i < x.length - 2 → prv[i]? = x[i]? := by
    intro i hi
    rw [hprv, Np.slice_getElem?]; simp only [Np.lower, Np.upper, bm2]
    rw [if_pos (by omega)]; congr 1; omega
  have hfin : ∀ cnd : List Bool, cnd.length = x.length - 2 →
      (∀ i : Nat, cnd[i]? = some true ↔ IsPeak x t (i + 1)) →
      ∃ l, (Except.ok ((Np.flatnonzero cnd).map (· + 1)) : Except PyErr (List Nat)) = .ok l ∧
        l.Pairwise (· < ·) ∧ ∀ p, p ∈ l ↔ IsPeak x t p := by
    intro cnd _ hc
    refine ⟨_, rfl, ?_, ?_⟩
    · rw [List.pairwise_map]
      exact (Np.flatnonzero_sorted cnd).imp (by intro a b h; omega)
    · intro p
      rw [List.mem_map]
      constructor
      · rintro ⟨i, hi, rfl⟩
        exact (hc i).1 ((Np.flatnonzero_mem _ _).1 hi)
      · intro h
        have h1 : 1 ≤ p := by obtain ⟨_, _, _, h, _⟩ := h; exact h
        refine ⟨p - 1, (Np.flatnonzero_mem _ _).2 ((hc (p - 1)).2 ?_), by omega⟩
        rwa [show p - 1 + 1 = p by omega]
  have hbase : ∀ i : Nat, (List.zipWith (fun x y => x && y)
      (List.zipWith (fun a b => decide (a > b)) mid nxt)
      (List.zipWith (fun a b => decide (a > b)) mid prv))[i]? = some true ↔
      ∃ a b c : K, x[i]? = some a ∧ x[i + 1]? = some b ∧ x[i + 2]? = some c ∧ a < b ∧ c < b := by
    intro i
    by_cases hi : i < x.length - 2
    · simp only [List.getElem?_zipWith, gm i hi, gn i hi, gp i hi]
      rw [List.getElem?_eq_getElem (show i < x.length by omega),
        List.getElem?_eq_getElem (show i + 1 < x.length by omega),
        List.getElem?_eq_getElem (show i + 2 < x.length by omega)]
      simp
      tauto
    · rw [List.getElem?_eq_none (by simp; omega)]
      simp only [reduceCtorEq, false_iff, not_exists]
      rintro a b c ⟨_, _, h, _⟩
      have := getElem?_lt' h
      omega
  unfold peakDetect
  simp only [← hmid, ← hnxt, ← hprv]
  rw [Np.binop_eq _ mid nxt (by omega)]
  simp only
  rw [Np.binop_eq _ mid prv (by omega)]
  simp only [logicalAnd]
  rw [Np.binop_eq _ _ _ (by simp; omega)]
  simp only
  cases t with
  | none =>
    simp only
    apply hfin _ (by simp; omega)
    intro i
    rw [hbase]
    unfold IsPeak
    constructor
    · rintro ⟨a, b, c, h1, h2, h3, h4, h5⟩
      exact ⟨a, b, c, by omega, h1, h2, h3, h4, h5, by simp⟩
    · rintro ⟨a, b, c, _, h1, h2, h3, h4, h5, _⟩
      exact ⟨a, b, c, h1, h2, h3, h4, h5⟩
  | some th =>
    simp only
    rw [Np.binop_eq _ _ _ (by simp; omega)]
    simp only
    apply hfin _ (by simp; omega)
    intro i
    have hand : ∀ (c d : List Bool), (List.zipWith (fun x y => x && y) c d)[i]? = some true ↔
        c[i]? = some true ∧ d[i]? = some true := by
      intro c d
      rw [List.getElem?_zipWith]
      cases c[i]? <;> cases d[i]? <;> simp
    rw [hand, hbase]
    have hm : (mid.map fun a => decide (a > th))[i]? = some true ↔
        ∃ b, mid[i]? = some b ∧ th < b := by
      rw [List.getElem?_map]
      cases mid[i]? <;> simp
    rw [hm]
    unfold IsPeak
    constructor
    · rintro ⟨⟨a, b, c, h1, h2, h3, h4, h5⟩, b', h6, h7⟩
      rw [gm i (by have := getElem?_lt' h3; omega), h2] at h6
      cases h6
      exact ⟨a, b, c, by omega, h1, h2, h3, h4, h5, by intro th' h; cases h; exact h7⟩
    · rintro ⟨a, b, c, _, h1, h2, h3, h4, h5, h6⟩
      refine ⟨⟨a, b, c, h1, h2, h3, h4, h5⟩, b, ?_, h6 th rfl⟩
      rw [gm i (by have := getElem?_lt' h3; omega)]
      exact h2

/-! ## Parabolic refinement -/

theorem vertex_spec [IsStrictOrderedRing K] (l c r : K) (hl : l < c) (hr : r < c) :
    ∃ d m, vertex l c r = some (d, m) ∧ |d| < 1 / 2 ∧ c ≤ m ∧
      ∀ α v h : K, (∀ z : K, (z = -1 → l = α * (z - v) ^ 2 + h) ∧ (z = 0 → c = α * (z - v) ^ 2 + h) ∧
        (z = 1 → r = α * (z - v) ^ 2 + h)) → d = v ∧ m = h := by
  have hden : l - 2 * c + r < 0 := by linarith
  refine ⟨_, _, by unfold vertex; rw [if_neg hden.ne], ?_, ?_, ?_⟩
  · rw [abs_lt]
    constructor
    · rw [lt_div_iff_of_neg hden]; linarith
    · rw [div_lt_iff_of_neg hden]; linarith
  · have : (1 / 4) * (l - r) * ((1 / 2) * (l - r) / (l - 2 * c + r)) =
        (1 / 8) * ((l - r) ^ 2 / (l - 2 * c + r)) := by ring
    rw [this]
    have h2 : (l - r) ^ 2 / (l - 2 * c + r) ≤ 0 := div_nonpos_of_nonneg_of_nonpos (sq_nonneg _) hden.le
    linarith
  · intro α v h hp
    have h1 := (hp (-1)).1 rfl
    have h2 := (hp 0).2.1 rfl
    have h3 := (hp 1).2.2 rfl
    have hα : l - 2 * c + r = 2 * α := by rw [h1, h2, h3]; ring
    have hlr : l - r = 4 * α * v := by rw [h1, h3]; ring
    have hα0 : α ≠ 0 := by
      intro h0
      rw [hα, h0] at hden
      simp at hden
    rw [hα, hlr]
    have hd : 1 / 2 * (4 * α * v) / (2 * α) = v := by field_simp; ring
    rw [hd]
    refine ⟨rfl, ?_⟩
    rw [h2]; ring

theorem grid_cons_getElem? (px : List K) (i : Nat) :
    (grid px)[i]? = px[i]?.map fun v => ((i : K), v) := by
  unfold grid
  rw [List.getElem?_map]
  simp [List.getElem?_zipIdx]
  cases px[i]? <;> simp

/-- Interpolation on consecutive integer abscissae starting at `s`. -/
theorem interp_spec [IsStrictOrderedRing K] (px : List K) : ∀ (s : Nat) (x : K),
    (s : K) ≤ x → x ≤ (s : K) + ((px.length : K) - 1) → 2 ≤ px.length →
    ∃ (j : Nat) (a b y : K), interp x (px.zipIdx.map fun p => (((s + p.2 : Nat) : K), p.1)) = .ok y ∧
      px[j]? = some a ∧ px[j + 1]? = some b ∧ ((s + j : Nat) : K) ≤ x ∧
      x ≤ ((s + j + 1 : Nat) : K) ∧ y = a + (b - a) * (x - ((s + j : Nat) : K)) := by
  induction px with
  | nil => intro s x _ _ h; simp at h
  | cons u px ih =>
    intro s x h1 h2 h3
    cases px with
    | nil => simp at h3
    | cons v px =>
      by_cases hx : x < ((s + 1 : Nat) : K)
      · by_cases hx0 : x ≤ (s : K)
        · have e : x = s := le_antisymm hx0 h1
          refine ⟨0, u, v, u, ?_, rfl, rfl, by simpa using h1, by simpa using hx.le, by simp [e]⟩
          rw [e] at *
          simp only [List.zipIdx_cons, List.map_cons, interp]
          rw [if_pos (by push_cast; linarith), if_pos (by push_cast; linarith)]
        · refine ⟨0, u, v, _, ?_, rfl, rfl, by simpa using h1, by simpa using hx.le, rfl⟩
          simp only [List.zipIdx_cons, List.map_cons, interp]
          rw [if_pos (by push_cast at hx ⊢; linarith), if_neg (by push_cast; simpa using hx0)]
          congr 1
          push_cast
          ring
      · have hx' := not_lt.1 hx
        cases px with
        | nil =>
          refine ⟨0, u, v, v, ?_, rfl, rfl, by simpa using h1, ?_, ?_⟩
          · simp only [List.zipIdx_cons, List.map_cons, interp]
            rw [if_neg (by push_cast at hx ⊢; simpa using hx)]
            simp [interp]
          · simp only [List.length_cons, List.length_nil] at h2
            push_cast at h2 ⊢; linarith
          · have : x = s + 1 := by
              simp only [List.length_cons, List.length_nil] at h2
              push_cast at h2 hx'; linarith
            rw [this]; simp
        | cons w px =>
          obtain ⟨j, a, b, y, i1, i2, i3, i4, i5, i6⟩ := ih (s + 1) x hx'
            (by simp only [List.length_cons] at h2 ⊢; push_cast at h2 ⊢; linarith) (by simp)
          refine ⟨j + 1, a, b, y, ?_, by simpa using i2, by simpa using i3, ?_, ?_, ?_⟩
          · rw [← i1]
            have hz : ∀ (q : List K) (k : Nat), (q.zipIdx (k + 1)).map (fun p => (((s + p.2 : Nat) : K), p.1)) =
                (q.zipIdx k).map (fun p => (((s + 1 + p.2 : Nat) : K), p.1)) := by
              intro q
              induction q with
              | nil => simp
              | cons z q ihq =>
                intro k
                simp only [List.zipIdx_cons, List.map_cons, ihq]
                congr 3
                omega
            have := hz (v :: w :: px) 0
            conv_lhs => simp only [List.zipIdx_cons, List.map_cons]
            rw [interp, if_neg]
            · rw [← this]
              simp only [List.zipIdx_cons, List.map_cons]
            · push_cast at hx ⊢
              simpa using hx
          · rw [show s + (j + 1) = s + 1 + j by omega]; exact i4
          · rw [show s + (j + 1) + 1 = s + 1 + j + 1 by omega]; exact i5
          · rw [show s + (j + 1) = s + 1 + j by omega]; exact i6

theorem refineOne_spec [IsStrictOrderedRing K] (mx px : List K) (t : Option K)
    (hl : px.length = mx.length) (p : Nat) (hp : IsPeak mx t p) :
    ∃ (loc m ph c : K), refineOne mx px p = .ok (some (loc, m, ph)) ∧ mx[p]? = some c ∧
      |loc - (p : K)| < 1 / 2 ∧ c ≤ m ∧
      (∀ α v h : K, (∀ (j : Nat) (z : K), p ≤ j + 1 → j ≤ p + 1 → mx[j]? = some z →
        z = α * ((j : K) - v) ^ 2 + h) → loc = v ∧ m = h) ∧
      ∃ (j : Nat) (a b : K), px[j]? = some a ∧ px[j + 1]? = some b ∧ (j : K) ≤ loc ∧
        loc ≤ ((j + 1 : Nat) : K) ∧ ph = a + (b - a) * (loc - (j : K)) := by
  obtain ⟨l, c, r, h1, hlc, hc, hr, hlt, hrt, _⟩ := hp
  obtain ⟨d, m, hv, hd, hcm, hpar⟩ := vertex_spec l c r hlt hrt
  have hlen := getElem?_lt' hr
  have hd' := abs_lt.1 hd
  have hp1 : (1 : K) ≤ p := by exact_mod_cast h1
  have hlenK : (p : K) + 2 ≤ px.length := by
    have : p + 2 ≤ px.length := by omega
    exact_mod_cast this
  obtain ⟨j, a, b, y, i1, i2, i3, i4, i5, i6⟩ := interp_spec px 0 ((p : K) + d)
    (by push_cast; linarith) (by push_cast; linarith) (by omega)
  have hgrid : grid px = px.zipIdx.map fun q => (((0 + q.2 : Nat) : K), q.1) := by
    simp [grid]
  refine ⟨p + d, m, y, c, ?_, hc, by simpa using hd, hcm, ?_, j, a, b, i2, i3, by simpa using i4,
    by simpa using i5, by simpa using i6⟩
  · unfold refineOne
    rw [show Int.ofNat p - 1 = Int.ofNat (p - 1) by simp; omega, Np.index_ofNat _ _ _ hlc,
      Np.index_ofNat _ _ _ hc, show Int.ofNat p + 1 = Int.ofNat (p + 1) by simp,
      Np.index_ofNat _ _ _ hr]
    simp only [hv, hgrid, i1]
  · intro α v h hz
    have e := hpar α (v - p) h ?_
    · obtain ⟨e1, e2⟩ := e
      exact ⟨by rw [e1]; ring, e2⟩
    · intro z
      refine ⟨?_, ?_, ?_⟩
      · rintro rfl
        rw [hz (p - 1) l (by omega) (by omega) hlc]
        rw [Nat.cast_sub h1]; push_cast; ring
      · rintro rfl
        rw [hz p c (by omega) (by omega) hc]; ring
      · rintro rfl
        rw [hz (p + 1) r (by omega) (by omega) hr]; push_cast; ring

theorem peakRefine_spec (mx px : List K) (f : Nat → Option (K × K × K)) : ∀ (ps : List Nat),
    (∀ p ∈ ps, refineOne mx px p = .ok (f p)) → peakRefine mx px ps = .ok (ps.map f) := by
  intro ps
  induction ps with
  | nil => intro _; rfl
  | cons p ps ih =>
    intro h
    unfold peakRefine
    rw [h p (by simp), ih (fun q hq => h q (by simp [hq]))]
    rfl

/-! ## The FFT buffer -/

theorem bound_ofNat (n k : Nat) (h : k ≤ n) : Np.bound n (Int.ofNat k) = k := by
  unfold Np.bound
  rw [if_neg (by simp)]
  simp [h]

theorem bound_neg (n k : Nat) (h : k ≤ n) (h0 : 0 < k) : Np.bound n (-Int.ofNat k) = n - k := by
  unfold Np.bound
  rw [if_pos (by simp; omega)]
  simp
  omega

theorem dftBuffer_eq (x w : List K) (n : Nat) (hx : x.length = w.length) (h2 : 2 ≤ w.length)
    (hn : w.length ≤ n) :
    dftBuffer x w n = .ok ((List.zipWith (· * ·) x w).drop (w.length / 2) ++
      List.replicate (n - w.length) 0 ++ (List.zipWith (· * ·) x w).take (w.length / 2)) := by
  set xw := List.zipWith (· * ·) x w with hxw
  have hl : xw.length = w.length := by rw [hxw]; simp [hx]
  set hw := w.length / 2 with hhw
  have hhw1 : 1 ≤ hw := by omega
  have s1 : Np.slice xw (some (Int.ofNat hw)) none = xw.drop hw := by
    unfold Np.slice
    simp only [Np.lower, Np.upper, bound_ofNat xw.length hw (by omega)]
    exact List.take_of_length_le (by simp)
  have s2 : Np.slice xw none (some (Int.ofNat hw)) = xw.take hw := by
    unfold Np.slice
    simp only [Np.lower, Np.upper, bound_ofNat xw.length hw (by omega)]
    simp
  unfold dftBuffer
  simp only [← hhw]
  rw [Np.binop_eq _ _ _ hx]
  simp only [← hxw, s1, s2]
  have a1 : Np.assign (List.replicate n (0 : K)) none (some (Int.ofNat (w.length - hw))) (xw.drop hw) =
      .ok (xw.drop hw ++ List.replicate (n - (w.length - hw)) 0) := by
    unfold Np.assign
    simp only [Np.lower, Np.upper, List.length_replicate, bound_ofNat n (w.length - hw) (by omega)]
    rw [if_pos (by simp [hl])]
    simp
  rw [a1]
  simp only
  unfold Np.assign
  have hlen : (xw.drop hw ++ List.replicate (n - (w.length - hw)) (0 : K)).length = n := by
    simp [hl]; omega
  simp only [Np.lower, Np.upper, hlen, bound_neg n hw (by omega) (by omega)]
  rw [if_pos (by simp [hl]; omega)]
  congr 1
  have t1 : (xw.drop hw ++ List.replicate (n - (w.length - hw)) (0 : K)).take (n - hw) =
      xw.drop hw ++ List.replicate (n - w.length) 0 := by
    rw [List.take_append, List.take_of_length_le (by simp [hl]; omega), List.take_replicate]
    congr 2
    simp [hl]; omega
  have t2 : (xw.drop hw ++ List.replicate (n - (w.length - hw)) (0 : K)).drop
      (n - hw + (n - (n - hw))) = [] := List.drop_of_length_le (by rw [hlen]; omega)
  rw [t1, t2, List.append_nil]

end Verif.Sms
