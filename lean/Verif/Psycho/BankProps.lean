import Mathlib.Algebra.Ring.Hom.Defs
import Verif.Dsp.OnsetLemmas
import Verif.Dsp.WindowsProps
import Verif.Psycho.BankModel
import Verif.Psycho.MelProps

/-!
# C52: convolution with a bank of impulse responses
-/

set_option autoImplicit false
set_option linter.unusedSectionVars false
set_option linter.unusedSimpArgs false

namespace Verif.Psycho

open Verif.Np Verif.Dsp Finset

/-! ### Lists -/

theorem mapM_ok {α β : Type} (f : α → Except PyErr β) : ∀ (l : List α),
    (∀ a ∈ l, ∃ b, f a = .ok b) → ∃ r, l.mapM f = .ok r ∧ r.length = l.length ∧
      ∀ (i : Nat) (a : α), l[i]? = some a → ∃ b, r[i]? = some b ∧ f a = .ok b
  | [], _ => ⟨[], rfl, rfl, fun i a h => by simp at h⟩
  | a :: l, h => by
    obtain ⟨b, hb⟩ := h a (by simp)
    obtain ⟨r, h1, h2, h3⟩ := mapM_ok f l fun a ha => h a (by simp [ha])
    refine ⟨b :: r, by rw [List.mapM_cons, hb, h1]; rfl, by simp [h2], fun i a' ha => ?_⟩
    cases i with
    | zero =>
      simp only [List.getElem?_cons_zero, Option.some.injEq] at ha
      subst ha
      exact ⟨b, rfl, hb⟩
    | succ i =>
      rw [List.getElem?_cons_succ] at ha ⊢
      exact h3 i a' ha

theorem le_foldl_max (l : List Nat) (a : Nat) (h : a ∈ l) : a ≤ l.foldl max 0 := by
  have : ∀ (l : List Nat) (b a : Nat), a ∈ l ∨ a ≤ b → a ≤ l.foldl max b := by
    intro l
    induction l with
    | nil => intro b a h; simpa using h
    | cons c l ih =>
      intro b a h
      rw [List.foldl_cons]
      apply ih
      rcases h with h | h
      · rcases List.mem_cons.1 h with h | h
        · subst h; exact Or.inr (le_max_right _ _)
        · exact Or.inl h
      · exact Or.inr (h.trans (le_max_left _ _))
  exact this l 0 a (Or.inl h)

theorem foldl_max_cast (l : List Nat) (b : Nat) :
    (l.map Int.ofNat).foldl max (b : Int) = ((l.foldl max b : Nat) : Int) := by
  induction l generalizing b with
  | nil => rfl
  | cons a l ih =>
    rw [List.map_cons, List.foldl_cons, List.foldl_cons, ← ih]
    congr 1
    simp only [Int.ofNat_eq_natCast]
    omega

section ring
variable {R : Type} [CommRing R]

theorem irSize_le (b : Bank R) (i : Nat) (ir : List R) (off : Nat) (h1 : b.irs[i]? = some ir)
    (h2 : b.offsets[i]? = some off) : ir.length + off ≤ b.irSize := by
  apply le_foldl_max
  have : (List.zipWith (fun ir off => ir.length + off) b.irs b.offsets)[i]? =
      some (ir.length + off) := by rw [List.getElem?_zipWith, h1, h2]
  exact List.mem_of_getElem? this

theorem sampleAt_nat (x : List R) (n : Nat) : sampleAt x n = x.getD n 0 := by
  simp [sampleAt]

theorem sampleAt_neg (x : List R) (m : Int) (h : m < 0) : sampleAt x m = 0 := by
  rw [sampleAt, if_neg (by omega)]

theorem sampleAt_big (x : List R) (m : Int) (h : x.length ≤ m) : sampleAt x m = 0 := by
  rw [sampleAt, if_pos (by omega), List.getD_eq_getElem?_getD, List.getElem?_eq_none (by omega)]
  rfl

theorem conv_neg (x k : List R) (m : Int) (h : m < 0) : conv x k m = 0 := by
  refine Finset.sum_eq_zero fun i _ => ?_
  rw [sampleAt_neg x _ (by omega), zero_mul]

theorem conv_big (x k : List R) (m : Int) (h : (x.length : Int) + k.length - 1 ≤ m) :
    conv x k m = 0 := by
  refine Finset.sum_eq_zero fun i hi => ?_
  have := Finset.mem_range.1 hi
  rw [sampleAt_big x _ (by omega), zero_mul]

/-! ### Without stride -/

theorem fullRow_ok (size : Nat) (x ir : List R) (off : Nat)
    (h : x.length + ir.length - 1 + off ≤ size) :
    ∃ r, fullRow size x ir off = .ok r ∧ r.length = size ∧
      ∀ n < size, r[n]? = some (conv x ir ((n : Int) - off)) := by
  have hl : (fullConv x ir).length = x.length + ir.length - 1 := by simp [fullConv]
  have b1 : lower size (some (off : Int)) = off := by
    show bound size (off : Int) = off
    rw [bound_nat]; omega
  have b2 : upper size (some ((off : Int) + (fullConv x ir).length)) = off + (fullConv x ir).length := by
    show bound size ((off : Int) + (fullConv x ir).length) = _
    rw [← Nat.cast_add, bound_nat]; omega
  have hlen : (List.replicate size (0 : R)).length = size := List.length_replicate
  have hsrc : (fullConv x ir).length = off + (fullConv x ir).length - off := by omega
  refine ⟨_, by
    unfold fullRow assign
    simp only [hlen, b1, b2]
    rw [if_pos hsrc], ?_, ?_⟩
  · rw [piece_length _ _ _ _ hsrc (by rw [hlen]; omega), hlen]
  · intro n hn
    rw [piece_get _ _ _ _ hsrc (by rw [hlen]; omega)]
    have hz : (List.replicate size (0 : R))[n]? = some 0 := by
      rw [List.getElem?_eq_getElem (by rw [hlen]; exact hn), List.getElem_replicate]
    by_cases h1 : n < off
    · rw [if_pos h1, hz, conv_neg _ _ _ (by omega)]
    · rw [if_neg h1]
      by_cases h2 : n < off + (off + (fullConv x ir).length - off)
      · rw [if_pos h2]
        simp only [fullConv]
        rw [List.getElem?_map, List.getElem?_range (by omega), Option.map_some]
        congr 2
        omega
      · rw [if_neg h2, hz]
        by_cases hk : ir.length = 0
        · have : ir = [] := List.length_eq_zero_iff.1 hk
          subst this
          rfl
        · rw [conv_big _ _ _ (by omega)]

/-- C52, without stride: for every bank, signal and method, the matrix has a row per filter and
`N + M - 1` columns (`M` the size of the aligned responses); sample `n` of row `i` is sample `n` of
the full convolution of the signal with response `i`, delayed by its offset; nothing is cut off.
`N ≥ 1` is the size of the signal; every response has at least one sample. -/
theorem C52_full (b : Bank R) (x : List R) (cplx : Bool) (method : Option String)
    (hm : method ∈ [none, some "overlap-add", some "auto", some "fft", some "direct"])
    (hb : b.irs.length = b.offsets.length) (hx : 1 ≤ x.length) (hir : ∀ ir ∈ b.irs, 1 ≤ ir.length) :
    ∃ rows, convolve b x cplx method none = .ok rows ∧ rows.length = b.irs.length ∧
      ∀ (i : Nat) (ir : List R) (off : Nat), b.irs[i]? = some ir → b.offsets[i]? = some off →
        ∃ row, rows[i]? = some row ∧ row.length = x.length + b.irSize - 1 ∧
          ∀ n : Nat, (row[n]?).getD (some 0) = some (conv x ir ((n : Int) - off)) := by
  have hget : ∀ (i : Nat) (ir : List R) (off : Nat), b.irs[i]? = some ir → b.offsets[i]? = some off →
      x.length + ir.length - 1 + off ≤ x.length + b.irSize - 1 := by
    intro i ir off h1 h2
    have := irSize_le b i ir off h1 h2
    have := hir ir (List.mem_of_getElem? h1)
    omega
  obtain ⟨r, h1, h2, h3⟩ := mapM_ok
    (fun p : List R × Nat => fullRow (x.length + b.irSize - 1) x p.1 p.2) (b.irs.zip b.offsets) (by
      rintro ⟨ir, off⟩ hp
      obtain ⟨i, hi, he⟩ := List.getElem_of_mem hp
      rw [List.getElem_zip] at he
      injection he with e1 e2
      rw [List.length_zip] at hi
      obtain ⟨r, hr, -⟩ := fullRow_ok (x.length + b.irSize - 1) x ir off (hget i ir off
        (by rw [← e1]; exact List.getElem?_eq_getElem (by omega))
        (by rw [← e2]; exact List.getElem?_eq_getElem (by omega)))
      exact ⟨r, hr⟩)
  refine ⟨r.map (List.map some), ?_, ?_, ?_⟩
  · simp only [convolve, convolveFull, hm, if_true, h1, Except.map]
  · rw [List.length_map, h2, List.length_zip]; omega
  · intro i ir off hi ho
    obtain ⟨row, r1, r2⟩ := h3 i (ir, off) (by
      rw [List.getElem?_zip_eq_some]; exact ⟨hi, ho⟩)
    obtain ⟨row', s1, s2, s3⟩ := fullRow_ok (x.length + b.irSize - 1) x ir off (hget i ir off hi ho)
    simp only at r2
    rw [s1] at r2
    injection r2 with r2
    subst r2
    refine ⟨row'.map some, by rw [List.getElem?_map, r1]; rfl, by rw [List.length_map, s2], ?_⟩
    intro n
    rw [List.getElem?_map]
    by_cases hn : n < x.length + b.irSize - 1
    · rw [s3 n hn]; rfl
    · rw [List.getElem?_eq_none (by omega)]
      have := hget i ir off hi ho
      rw [conv_big _ _ _ (by omega)]
      rfl

/-! ### With stride -/

variable {X : Type} [CommRing X]

theorem geometry_ok (m n l off s : Nat) (hn : 1 ≤ n) (hl : 1 ≤ l) (hm : l + off ≤ m) (hs : 1 ≤ s) :
    geometry m n (n + 2 * (m - 1)) l off s =
      .ok (((off / s : Nat) : Int), ((m - l - off % s : Nat) : Int), ((n + 2 * (l - 1) : Nat) : Int),
        ((1 + (n + l - 2) / s : Nat) : Int)) := by
  have e1 : Int.fdiv (off : Int) (s : Int) = ((off / s : Nat) : Int) := by
    rw [Int.fdiv_eq_ediv_of_nonneg _ (by omega)]; rfl
  have hmod : (off : Int) - ((off / s : Nat) : Int) * s = ((off % s : Nat) : Int) := by
    have := Nat.mod_add_div off s
    have h2 : ((off % s : Nat) : Int) + s * ((off / s : Nat) : Int) = off := by exact_mod_cast this
    rw [mul_comm] at h2
    omega
  have hle : off % s ≤ off := Nat.mod_le _ _
  have e2 : (m : Int) - l - ((off % s : Nat) : Int) = ((m - l - off % s : Nat) : Int) := by omega
  have e3 : min (((n + 2 * (m - 1) : Nat) : Int) - ((m - l - off % s : Nat) : Int))
      ((n : Int) + 2 * ((l : Int) - 1)) = ((n + 2 * (l - 1) : Nat) : Int) := by omega
  have e4 : ((n + 2 * (l - 1) : Nat) : Int) - l = ((n + l - 2 : Nat) : Int) := by omega
  have e5 : Int.fdiv ((n + l - 2 : Nat) : Int) (s : Int) = (((n + l - 2) / s : Nat) : Int) := by
    rw [Int.fdiv_eq_ediv_of_nonneg _ (by omega)]; rfl
  unfold geometry
  simp only [e1, hmod, e2, e3, nWindows, Option.getD_some, e4, e5]
  rw [if_neg (by omega)]
  simp

theorem xPad_ok (x : List X) (m : Nat) (hm : 2 ≤ m) :
    ∃ p, assign (List.replicate (x.length + 2 * (m - 1)) (0 : X)) (some ((m : Int) - 1))
        (some (-((m : Int) - 1))) x = .ok p ∧ p.length = x.length + 2 * (m - 1) ∧
      ∀ i < x.length + 2 * (m - 1), p[i]? = some (sampleAt x ((i : Int) - ((m : Int) - 1))) := by
  have hlen : (List.replicate (x.length + 2 * (m - 1)) (0 : X)).length = x.length + 2 * (m - 1) :=
    List.length_replicate
  have c : (m : Int) - 1 = ((m - 1 : Nat) : Int) := by omega
  have b1 : lower (x.length + 2 * (m - 1)) (some ((m : Int) - 1)) = m - 1 := by
    show bound _ _ = _
    rw [c, bound_nat]; omega
  have b2 : upper (x.length + 2 * (m - 1)) (some (-((m : Int) - 1))) = x.length + (m - 1) := by
    show bound _ _ = _
    rw [c, bound_neg _ _ (by omega)]; omega
  have hsrc : x.length = x.length + (m - 1) - (m - 1) := by omega
  refine ⟨_, by
    unfold assign
    simp only [hlen, b1, b2]
    rw [if_pos hsrc], ?_, ?_⟩
  · rw [piece_length _ _ _ _ hsrc (by rw [hlen]; omega), hlen]
  · intro i hi
    rw [piece_get _ _ _ _ hsrc (by rw [hlen]; omega)]
    have hz : (List.replicate (x.length + 2 * (m - 1)) (0 : X))[i]? = some 0 := by
      rw [List.getElem?_eq_getElem (by rw [hlen]; exact hi), List.getElem_replicate]
    by_cases h1 : i < m - 1
    · rw [if_pos h1, hz, sampleAt_neg _ _ (by omega)]
    · rw [if_neg h1]
      by_cases h2 : i < m - 1 + (x.length + (m - 1) - (m - 1))
      · rw [if_pos h2]
        have : (i : Int) - ((m : Int) - 1) = ((i - (m - 1) : Nat) : Int) := by omega
        rw [this, sampleAt_nat, List.getD_eq_getElem _ _ (by omega), List.getElem?_eq_getElem]
      · rw [if_neg h2, hz, sampleAt_big _ _ (by omega)]

/-- The contract of the strided convolutions, as shown by `C40_strided` and `C40_complex`. -/
def GoodSc (φ : X →+* R) (sc : List X → List R → Int → Nat → Except PyErr (List (Option R))) : Prop :=
  ∀ (seg : List X) (ir : List R) (s n : Nat), 1 ≤ s → ir.length ≤ seg.length →
    n = 1 + (seg.length - ir.length) / s →
    ∃ y, sc seg ir s n = .ok y ∧ y.length = n ∧
      ∀ (j : Nat), j < n → y[j]? = some (some (conv (seg.map φ) ir ((ir.length : Int) - 1 + j * s)))

theorem count_eq (y seg l s : Nat) (hs : 1 ≤ s) (hl : l ≤ seg)
    (h : ∀ j : Nat, j < y ↔ (j : Int) * s + l ≤ seg) : y = 1 + (seg - l) / s := by
  have h2 : ∀ j : Nat, j < y ↔ j < 1 + (seg - l) / s := by
    intro j
    rw [h j, Nat.lt_one_add_iff, Nat.le_div_iff_mul_le (by omega)]
    have : ((j * s : Nat) : Int) = (j : Int) * s := by push_cast; ring
    constructor
    · intro h; omega
    · intro h; omega
  have a1 := (h2 y).2
  have a2 := (h2 (1 + (seg - l) / s)).1
  omega

theorem goodSc_real : GoodSc (RingHom.id R) (scReal (R := R)) := by
  intro seg ir s n hs hl hn
  obtain ⟨y, h1, h2, h3⟩ := C40_strided seg ir s (by omega) hl
  have hy : y.length = n := by
    rw [hn]; exact count_eq _ _ _ _ hs hl h2
  refine ⟨y, by simp only [scReal, h1, hy, if_true], hy, fun j hj => ?_⟩
  have : seg.map (RingHom.id R) = seg := by simp
  rw [this, h3 j (by omega)]

theorem goodSc_complex : GoodSc Complex.ofRealHom
    (fun x k s n => stridedConvComplex x k s (some n)) := by
  intro seg ir s n hs hl hn
  obtain ⟨y, h1, h2, h3, h4⟩ := C40_complex seg ir s (by omega) hl
  have hy : y.length = n := by
    rw [hn]; exact count_eq _ _ _ _ hs hl h2
  refine ⟨y, by simp only [h4 n, hy, if_true], hy, fun j hj => ?_⟩
  rw [h3 j (by omega)]
  rfl

theorem sampleAt_map (φ : X →+* R) (x : List X) (m : Int) :
    sampleAt (x.map φ) m = φ (sampleAt x m) := by
  unfold sampleAt
  by_cases h : 0 ≤ m
  · rw [if_pos h, if_pos h, List.getD_eq_getElem?_getD, List.getD_eq_getElem?_getD, List.getElem?_map]
    cases x[m.toNat]? <;> simp
  · rw [if_neg h, if_neg h, map_zero]

theorem conv_seg (φ : X →+* R) (x seg : List X) (ir : List R) (r j s : Nat) (hl : 1 ≤ ir.length)
    (hseg : ∀ i < seg.length, seg[i]? = some (sampleAt x ((i : Int) - ((ir.length : Int) - 1) - r)))
    (hj : j * s + ir.length ≤ seg.length) :
    conv (seg.map φ) ir ((ir.length : Int) - 1 + j * s) = conv (x.map φ) ir ((j : Int) * s - r) := by
  unfold conv
  refine Finset.sum_congr rfl fun i hi => ?_
  have hi' := Finset.mem_range.1 hi
  congr 1
  rw [sampleAt_map, sampleAt_map]
  congr 1
  have e : ((ir.length : Int) - 1 + j * s) - i = ((ir.length - 1 + j * s - i : Nat) : Int) := by
    have : ((j * s : Nat) : Int) = (j : Int) * s := by push_cast; ring
    omega
  rw [e, sampleAt_nat, List.getD_eq_getElem?_getD, hseg _ (by omega), ← e]
  simp only [Option.getD_some]
  congr 1
  ring

theorem stridedRow_ok (φ : X →+* R)
    (sc : List X → List R → Int → Nat → Except PyErr (List (Option R))) (hsc : GoodSc φ sc)
    (x xPad : List X) (m : Nat) (hx : 1 ≤ x.length) (hp : xPad.length = x.length + 2 * (m - 1))
    (hpv : ∀ i < x.length + 2 * (m - 1), xPad[i]? = some (sampleAt x ((i : Int) - ((m : Int) - 1))))
    (s : Nat) (hs : 1 ≤ s) (ir : List R) (off width : Nat) (hl : 1 ≤ ir.length)
    (hm : ir.length + off ≤ m) (hw : 1 + (x.length + ir.length - 2) / s + off / s ≤ width) :
    ∃ row, stridedRow sc xPad width s ir (((off / s : Nat) : Int),
        ((m - ir.length - off % s : Nat) : Int), ((x.length + 2 * (ir.length - 1) : Nat) : Int),
        ((1 + (x.length + ir.length - 2) / s : Nat) : Int)) = .ok row ∧ row.length = width ∧
      ∀ q < width, row[q]? = some (some (if q < off / s + (1 + (x.length + ir.length - 2) / s)
        then conv (x.map φ) ir ((q : Int) * s - off) else 0)) := by
  have hmod := Nat.mod_le off s
  have hdm := Nat.mod_add_div off s
  -- the input segment
  set g := m - ir.length - off % s with hg
  set sz := x.length + 2 * (ir.length - 1) with hsz
  set nw := 1 + (x.length + ir.length - 2) / s with hnw
  set o := off / s with ho
  have hw' : nw + o ≤ width := hw
  clear_value g sz nw o
  have c1 : lower xPad.length (some (g : Int)) = g := by
    show bound _ _ = _
    rw [bound_nat]; omega
  have c2 : upper xPad.length (some ((g : Int) + (sz : Int))) = g + sz := by
    show bound _ _ = _
    rw [← Nat.cast_add, bound_nat]; omega
  have hseglen : (slice xPad (some (g : Int)) (some ((g : Int) + (sz : Int)))).length = sz := by
    rw [slice_length, c1, c2]; omega
  have hseg : ∀ i < (slice xPad (some (g : Int)) (some ((g : Int) + (sz : Int)))).length,
      (slice xPad (some (g : Int)) (some ((g : Int) + (sz : Int))))[i]? =
        some (sampleAt x ((i : Int) - ((ir.length : Int) - 1) - ((off % s : Nat) : Int))) := by
    intro i hi
    rw [hseglen] at hi
    rw [slice_get, c1, c2, if_pos (by omega), hpv _ (by omega)]
    congr 2
    omega
  -- the output slice
  have hzl : (List.replicate width (some (0 : R))).length = width := List.length_replicate
  have d1 : lower width (some (o : Int)) = o := by
    show bound _ _ = _
    rw [bound_nat]; omega
  have d2 : upper width (some ((o : Int) + (nw : Int))) = o + nw := by
    show bound _ _ = _
    rw [← Nat.cast_add, bound_nat]; omega
  have hn : (slice (List.replicate width (some (0 : R))) (some (o : Int))
      (some ((o : Int) + (nw : Int)))).length = nw := by
    rw [slice_length, hzl, d1, d2]; omega
  obtain ⟨y, y1, y2, y3⟩ := hsc (slice xPad (some (g : Int)) (some ((g : Int) + (sz : Int)))) ir s nw hs
    (by rw [hseglen]; omega) (by
      rw [hseglen, hnw]
      congr 2
      omega)
  obtain ⟨row, hrow⟩ := store_of_length (l := List.replicate width (some (0 : R)))
    (a := some (o : Int)) (b := some ((o : Int) + (nw : Int))) (src := y)
    (by rw [hzl, d1, d2, y2]; omega)
  obtain ⟨-, r2, r3⟩ := store_ok hrow
  refine ⟨row, ?_, by rw [r2, hzl], ?_⟩
  · unfold stridedRow
    simp only [hn, y1, hrow]
  · intro q hq
    rw [r3 q, hzl, d1, d2]
    have hz : (List.replicate width (some (0 : R)))[q]? = some (some 0) := by
      rw [List.getElem?_eq_getElem (by rw [hzl]; exact hq), List.getElem_replicate]
    by_cases h1 : q < o
    · rw [if_pos h1, hz, if_pos (by omega), conv_neg]
      have h2 : (q + 1) * s ≤ o * s := Nat.mul_le_mul_right _ h1
      have h3 : o * s ≤ off := by rw [ho]; exact Nat.div_mul_le_self off s
      have h4 : (((q + 1) * s : Nat) : Int) = (q : Int) * s + s := by push_cast; ring
      omega
    · rw [if_neg h1]
      by_cases h2 : q < o + (o + nw - o)
      · rw [if_pos h2, if_pos (by omega), y3 (q - o) (by omega)]
        have hjs : (q - o) * s + ir.length ≤ sz := by
          have h5 : q - o ≤ (x.length + ir.length - 2) / s := by omega
          rw [Nat.le_div_iff_mul_le (by omega)] at h5
          omega
        rw [conv_seg φ x _ ir (off % s) (q - o) s hl hseg (by rw [hseglen]; exact hjs)]
        congr 3
        have e1 : ((q - o : Nat) : Int) = (q : Int) - o := by omega
        have e2 : ((off % s : Nat) : Int) + s * (o : Int) = off := by exact_mod_cast hdm
        rw [e1, sub_mul]
        linarith [mul_comm (s : Int) (o : Int)]
      · rw [if_neg h2, hz, if_neg (by omega)]

/-- Number of output samples with stride. -/
def strideWidth (b : Bank R) (n s : Nat) : Nat :=
  ((b.irs.zip b.offsets).map fun q => 1 + (n + q.1.length - 2) / s + q.2 / s).foldl max 0

/-- Output with stride in terms of the full convolution. -/
theorem strided_ok (φ : X →+* R)
    (sc : List X → List R → Int → Nat → Except PyErr (List (Option R))) (hsc : GoodSc φ sc)
    (b : Bank R) (x : List X) (s : Nat) (hs : 1 ≤ s) (hb : b.irs.length = b.offsets.length)
    (hx : 1 ≤ x.length) (hir : ∀ ir ∈ b.irs, 1 ≤ ir.length) (hM : 2 ≤ b.irSize) :
    ∃ rows, convolveStrided sc b x s = .ok rows ∧ rows.length = b.irs.length ∧
      ∀ (i : Nat) (ir : List R) (off : Nat), b.irs[i]? = some ir → b.offsets[i]? = some off →
        off / s + 1 + (x.length + ir.length - 2) / s ≤ strideWidth b x.length s ∧
        ∃ row, rows[i]? = some row ∧ row.length = strideWidth b x.length s ∧
          ∀ q < strideWidth b x.length s, row[q]? = some (some (if q < off / s + (1 + (x.length + ir.length - 2) / s)
            then conv (x.map φ) ir ((q : Int) * s - off) else 0)) := by
  obtain ⟨p, p1, p2, p3⟩ := xPad_ok x b.irSize hM
  have hmem : ∀ q ∈ b.irs.zip b.offsets, geometry b.irSize x.length (x.length + 2 * (b.irSize - 1))
      q.1.length q.2 s = .ok (((q.2 / s : Nat) : Int), ((b.irSize - q.1.length - q.2 % s : Nat) : Int),
        ((x.length + 2 * (q.1.length - 1) : Nat) : Int),
        ((1 + (x.length + q.1.length - 2) / s : Nat) : Int)) := by
    rintro ⟨ir, off⟩ hp
    obtain ⟨i, hi, he⟩ := List.getElem_of_mem hp
    rw [List.getElem_zip] at he
    injection he with e1 e2
    rw [List.length_zip] at hi
    have h1 : b.irs[i]? = some ir := by rw [← e1]; exact List.getElem?_eq_getElem (by omega)
    have h2 : b.offsets[i]? = some off := by rw [← e2]; exact List.getElem?_eq_getElem (by omega)
    exact geometry_ok _ _ _ _ _ hx (hir ir (List.mem_of_getElem? h1)) (irSize_le b i ir off h1 h2) hs
  obtain ⟨gs, g1, g2, g3⟩ := mapM_ok (fun p : List R × Nat => geometry b.irSize x.length
    (x.length + 2 * (b.irSize - 1)) p.1.length p.2 s) (b.irs.zip b.offsets)
    fun q hq => ⟨_, hmem q hq⟩
  have hgs : gs = (b.irs.zip b.offsets).map fun q => (((q.2 / s : Nat) : Int),
      ((b.irSize - q.1.length - q.2 % s : Nat) : Int),
      ((x.length + 2 * (q.1.length - 1) : Nat) : Int),
      ((1 + (x.length + q.1.length - 2) / s : Nat) : Int)) := by
    apply List.ext_getElem?
    intro i
    rw [List.getElem?_map]
    cases hz : (b.irs.zip b.offsets)[i]? with
    | none =>
      rw [List.getElem?_eq_none_iff] at hz
      rw [List.getElem?_eq_none (by omega)]
      rfl
    | some q =>
      obtain ⟨c, c1, c2⟩ := g3 i q hz
      rw [hmem q (List.mem_of_getElem? hz)] at c2
      injection c2 with c2
      rw [c1, ← c2]
      rfl
  set W := strideWidth b x.length s with hWdef
  have hW : ((gs.map fun (g : Int × Int × Int × Int) => g.2.2.2 + g.1).foldl max 0).toNat = W := by
    have : gs.map (fun (g : Int × Int × Int × Int) => g.2.2.2 + g.1) = ((b.irs.zip b.offsets).map fun q =>
        1 + (x.length + q.1.length - 2) / s + q.2 / s).map Int.ofNat := by
      rw [hgs, List.map_map, List.map_map]
      apply List.map_congr_left
      intro q _
      simp [Function.comp_apply]
    rw [this]
    have h0 : (0 : Int) = ((0 : Nat) : Int) := rfl
    rw [h0, foldl_max_cast, Int.toNat_natCast, hWdef, strideWidth]
  have hWle : ∀ (i : Nat) (ir : List R) (off : Nat), b.irs[i]? = some ir → b.offsets[i]? = some off →
      1 + (x.length + ir.length - 2) / s + off / s ≤ W := by
    intro i ir off h1 h2
    apply le_foldl_max
    rw [List.mem_map]
    refine ⟨(ir, off), ?_, rfl⟩
    exact List.mem_of_getElem? (i := i) (by rw [List.getElem?_zip_eq_some]; exact ⟨h1, h2⟩)
  have hzip : ∀ (i : Nat) (ir : List R) (off : Nat), b.irs[i]? = some ir → b.offsets[i]? = some off →
      gs[i]? = some (((off / s : Nat) : Int), ((b.irSize - ir.length - off % s : Nat) : Int),
        ((x.length + 2 * (ir.length - 1) : Nat) : Int),
        ((1 + (x.length + ir.length - 2) / s : Nat) : Int)) := by
    intro i ir off h1 h2
    have : (b.irs.zip b.offsets)[i]? = some (ir, off) := by
      rw [List.getElem?_zip_eq_some]; exact ⟨h1, h2⟩
    rw [hgs, List.getElem?_map, this]
    rfl
  have hgl : gs.length = b.irs.length := by rw [g2, List.length_zip]; omega
  have hrow : ∀ (i : Nat) (ir : List R) (off : Nat), b.irs[i]? = some ir → b.offsets[i]? = some off →
      _ := fun i ir off h1 h2 => stridedRow_ok φ sc hsc x p b.irSize hx p2 p3 s hs ir off W
        (hir ir (List.mem_of_getElem? h1)) (irSize_le b i ir off h1 h2) (hWle i ir off h1 h2)
  obtain ⟨rows, r1, r2, r3⟩ := mapM_ok
    (fun q : List R × (Int × Int × Int × Int) => stridedRow sc p W s q.1 q.2) (b.irs.zip gs) (by
      rintro ⟨ir, g⟩ hq
      obtain ⟨i, hi, he⟩ := List.getElem_of_mem hq
      rw [List.getElem_zip] at he
      injection he with e1 e2
      rw [List.length_zip] at hi
      have h1 : b.irs[i]? = some ir := by rw [← e1]; exact List.getElem?_eq_getElem (by omega)
      have h2 : b.offsets[i]? = some (b.offsets[i]'(by omega)) := List.getElem?_eq_getElem (by omega)
      have h3 : gs[i]? = some g := by rw [← e2]; exact List.getElem?_eq_getElem (by omega)
      rw [hzip i ir _ h1 h2, Option.some.injEq] at h3
      obtain ⟨row, hr, -⟩ := hrow i ir _ h1 h2
      exact ⟨row, by rw [← h3]; exact hr⟩)
  refine ⟨rows, ?_, by rw [r2, List.length_zip]; omega, fun i ir off h1 h2 => ?_⟩
  · simp only [convolveStrided, bind, Except.bind, p1, g1, hW]
    exact r1
  · obtain ⟨row, q1, q2⟩ := r3 i (ir, _) (by
      rw [List.getElem?_zip_eq_some]; exact ⟨h1, hzip i ir off h1 h2⟩)
    obtain ⟨row', s1, s2, s3⟩ := hrow i ir off h1 h2
    simp only at q2
    rw [s1] at q2
    injection q2 with q2
    subst q2
    exact ⟨by have := hWle i ir off h1 h2; omega, row', q1, s2, s3⟩

/-- What `strided_ok` says about one row, read as a signal that is zero beyond its end. -/
theorem row_reading (x : List R) (ir : List R) (s off width : Nat) (hs : 1 ≤ s) (hx : 1 ≤ x.length)
    (hl : 1 ≤ ir.length) (hw : off / s + 1 + (x.length + ir.length - 2) / s ≤ width)
    (row : List (Option R)) (hrl : row.length = width)
    (hrow : ∀ q < width, row[q]? = some (some (if q < off / s + (1 + (x.length + ir.length - 2) / s)
            then conv x ir ((q : Int) * s - off) else 0))) :
    (∀ q : Nat, (q ≠ off / s + 1 + (x.length + ir.length - 2) / s ∨ s ∣ off) →
      (row[q]?).getD (some 0) = some (conv x ir ((q : Int) * s - off))) ∧
    (row[off / s + 1 + (x.length + ir.length - 2) / s]?).getD (some 0) = some 0 := by
  have hbig : ∀ q : Nat, off / s + (1 + (x.length + ir.length - 2) / s) ≤ q →
      (row[q]?).getD (some 0) = some 0 := by
    intro q hq
    by_cases h : q < width
    · rw [hrow q h, if_neg (by omega)]; rfl
    · rw [List.getElem?_eq_none (by omega)]; rfl
  have hd1 := Nat.mod_add_div off s
  have hd2 := Nat.mod_add_div (x.length + ir.length - 2) s
  have hm1 := Nat.mod_lt off hs
  have hm2 := Nat.mod_lt (x.length + ir.length - 2) hs
  refine ⟨fun q hq => ?_, hbig _ (by omega)⟩
  by_cases h : q < off / s + (1 + (x.length + ir.length - 2) / s)
  · rw [hrow q (by omega), if_pos h]; rfl
  · rw [hbig q (by omega), conv_big]
    have hkey : x.length + ir.length - 1 + off ≤ q * s := by
      rcases hq with hq | hq
      · have h1 : off / s + 1 + (x.length + ir.length - 2) / s + 1 ≤ q := by omega
        have h2 := Nat.mul_le_mul_right s h1
        have h3 : (off / s + 1 + (x.length + ir.length - 2) / s + 1) * s =
          s * (off / s) + s + s * ((x.length + ir.length - 2) / s) + s := by ring
        omega
      · have h0 : off % s = 0 := Nat.mod_eq_zero_of_dvd hq
        have h1 : off / s + 1 + (x.length + ir.length - 2) / s ≤ q := by omega
        have h2 := Nat.mul_le_mul_right s h1
        have h3 : (off / s + 1 + (x.length + ir.length - 2) / s) * s =
          s * (off / s) + s + s * ((x.length + ir.length - 2) / s) := by ring
        omega
    have : ((q * s : Nat) : Int) = (q : Int) * s := by push_cast; ring
    omega

/-- C52, with stride `s ≥ 1`: for every bank whose aligned responses have at least two samples and
every signal: the rows are aligned and all of the same size; sample `q` of row `i` is sample `q * s`
of the output without stride (`C52_full`; rows are read as zero beyond their end), with at most one
exception per row: the one at `off / s + 1 + (N + L - 2) / s`, behind the last computed sample, which
is always zero.  There is no exception if the delay of the response is a multiple of the stride. -/
theorem C52_strided (b : Bank R) (x : List R) (s : Nat) (hs : 1 ≤ s)
    (hb : b.irs.length = b.offsets.length) (hx : 1 ≤ x.length) (hir : ∀ ir ∈ b.irs, 1 ≤ ir.length)
    (hM : 2 ≤ b.irSize) :
    ∃ rows, convolve b x false none (some s) = .ok rows ∧ rows.length = b.irs.length ∧ ∃ width : Nat,
      ∀ (i : Nat) (ir : List R) (off : Nat), b.irs[i]? = some ir → b.offsets[i]? = some off →
        ∃ row, rows[i]? = some row ∧ row.length = width ∧
          (∀ q : Nat, (q ≠ off / s + 1 + (x.length + ir.length - 2) / s ∨ s ∣ off) →
            (row[q]?).getD (some 0) = some (conv x ir ((q : Int) * s - off))) ∧
          (row[off / s + 1 + (x.length + ir.length - 2) / s]?).getD (some 0) = some 0 := by
  obtain ⟨rows, h1, h2, h3⟩ := strided_ok (RingHom.id R) scReal goodSc_real b x s hs hb hx hir hM
  refine ⟨rows, by simpa [convolve] using h1, h2, strideWidth b x.length s, fun i ir off hi ho => ?_⟩
  obtain ⟨hw, row, r1, r2, r3⟩ := h3 i ir off hi ho
  have hmap : x.map (RingHom.id R) = x := by simp
  rw [hmap] at r3
  exact ⟨row, r1, r2, row_reading x ir s off _ hs hx (hir ir (List.mem_of_getElem? hi)) hw row r2 r3⟩

/-- C52: a stride excludes a method, and a complex input. -/
theorem C52_refused (b : Bank R) (x : List R) (cplx : Bool) (method : Option String) (s : Int)
    (h : method ≠ none ∨ cplx = true) :
    convolve b x cplx method (some s) = .error .valueError := by
  cases method with
  | some m => simp [convolve]
  | none =>
    rcases h with h | h
    · exact absurd rfl h
    · simp [convolve, h]

/-- C52, alignment: with leading times `leads` (in samples), the delays are such that the time origins
of all responses fall on the same sample, and no response is delayed more than needed. -/
theorem C52_alignment (leads : List Int) (irs : List (List R)) (h : leads ≠ []) :
    ∃ (b : Bank R) (t : Int), mkBank leads irs = .ok b ∧ b.irs = irs ∧
      b.offsets.length = leads.length ∧ t ∈ leads ∧
      ∀ (i : Nat) (l : Int), leads[i]? = some l → ∃ off, b.offsets[i]? = some off ∧
        (off : Int) + l = t := by
  cases leads with
  | nil => exact absurd rfl h
  | cons a l =>
    have hmax : ∀ (l : List Int) (a : Int), l.foldl max a ∈ a :: l ∧ ∀ v ∈ a :: l, v ≤ l.foldl max a := by
      intro l
      induction l with
      | nil => intro a; simp
      | cons c l ih =>
        intro a
        obtain ⟨h1, h2⟩ := ih (max a c)
        rw [List.foldl_cons]
        refine ⟨?_, ?_⟩
        · rcases List.mem_cons.1 h1 with h1 | h1
          · rw [h1]
            rcases max_choice a c with h | h <;> rw [h] <;> simp
          · simp [h1]
        · intro v hv
          have hm := h2 (max a c) (by simp)
          rcases List.mem_cons.1 hv with hv | hv
          · subst hv; exact (le_max_left _ _).trans hm
          · rcases List.mem_cons.1 hv with hv | hv
            · subst hv; exact (le_max_right _ _).trans hm
            · exact h2 v (by simp [hv])
    obtain ⟨m1, m2⟩ := hmax l a
    refine ⟨_, l.foldl max a, rfl, rfl, by simp, m1, fun i v hv => ?_⟩
    refine ⟨(l.foldl max a - v).toNat, by simp only [List.getElem?_map, hv]; rfl, ?_⟩
    have := m2 v (List.mem_of_getElem? hv)
    omega

/-- C52: responses of one sample without delays (`_ir_size` 1) do not work with a stride: `x` is
assigned to the empty slice `[0:-0]`.  A signal of another size than one is a `ValueError`; the only
sample of a signal of size one is lost. -/
theorem C52_size_one (b : Bank R) (x : List R) (s : Int) (hM : b.irSize = 1) :
    (x.length ≠ 1 → x ≠ [] → convolve b x false none (some s) = .error .valueError) ∧
    ∀ v : R, assign (List.replicate 1 (0 : R)) (some 0) (some (-0)) [v] = .ok [0] := by
  constructor
  · intro h1 h2
    have : ∀ n : Nat, upper n (some (-((1 : Nat) - 1 : Int))) - lower n (some ((1 : Nat) - 1 : Int)) = 0 := by
      intro n
      simp [upper, lower, bound]
    have ha : assign (List.replicate (x.length + 2 * (1 - 1)) (0 : R)) (some (((1 : Nat) : Int) - 1))
        (some (-(((1 : Nat) : Int) - 1))) x = .error .valueError := by
      unfold assign
      simp only [this]
      have hl : ¬ x.length = 0 := by simpa using h2
      rw [if_neg hl]
      cases x with
      | nil => exact absurd rfl h2
      | cons a l =>
        cases l with
        | nil => simp at h1
        | cons c l => rfl
    simp only [convolve, convolveStrided, hM, ha, bind, Except.bind]
    rfl
  · intro v
    rfl

end ring

/-- C52: a sample that is not zero may be dropped: two filters, delays 1 and 0, stride 2; without
stride, sample 2 of the first row is one; with stride, sample 1 is zero. -/
theorem C52_drops :
    (convolve ⟨[[1, 1], [1, 1, 1]], [1, 0]⟩ [(1 : ℚ)] false none none).toOption =
      some [[some 0, some 1, some 1], [some 1, some 1, some 1]] ∧
    (convolve ⟨[[1, 1], [1, 1, 1]], [1, 0]⟩ [(1 : ℚ)] false none (some 2)).toOption =
      some [[some 0, some 0], [some 1, some 1]] := by
  decide +kernel

/-- Two filters and a longer signal, stride 2; the hypotheses of `C52_strided` hold. -/
example : (convolve ⟨[[1, 2], [1, 1, 1]], [0, 2]⟩ [(1 : ℚ), 0, 3, 4] false none none).toOption =
      some [[some 1, some 2, some 3, some 10, some 8, some 0, some 0, some 0],
        [some 0, some 0, some 1, some 1, some 4, some 7, some 7, some 4]] ∧
    (convolve ⟨[[1, 2], [1, 1, 1]], [0, 2]⟩ [(1 : ℚ), 0, 3, 4] false none (some 2)).toOption =
      some [[some 1, some 3, some 8, some 0], [some 0, some 1, some 4, some 7]] := by
  decide +kernel

/-! ### Analytic banks -/

/-- C52, analytic bank with stride: as `C52_strided`, for complex responses and a real signal. -/
theorem C52_analytic (b : Bank ℂ) (x : List ℝ) (s : Nat) (hs : 1 ≤ s)
    (hb : b.irs.length = b.offsets.length) (hx : 1 ≤ x.length) (hir : ∀ ir ∈ b.irs, 1 ≤ ir.length)
    (hM : 2 ≤ b.irSize) :
    ∃ rows, convolveAnalytic b x none (some s) = .ok rows ∧ rows.length = b.irs.length ∧
      ∃ width : Nat,
      ∀ (i : Nat) (ir : List ℂ) (off : Nat), b.irs[i]? = some ir → b.offsets[i]? = some off →
        ∃ row, rows[i]? = some row ∧ row.length = width ∧
          (∀ q : Nat, (q ≠ off / s + 1 + (x.length + ir.length - 2) / s ∨ s ∣ off) →
            (row[q]?).getD (some 0) =
              some (conv (x.map Complex.ofReal) ir ((q : Int) * s - off))) ∧
          (row[off / s + 1 + (x.length + ir.length - 2) / s]?).getD (some 0) = some 0 := by
  obtain ⟨rows, h1, h2, h3⟩ := strided_ok Complex.ofRealHom _ goodSc_complex b x s hs hb hx hir hM
  refine ⟨rows, by simpa [convolveAnalytic] using h1, h2, strideWidth b x.length s, fun i ir off hi ho => ?_⟩
  obtain ⟨hw, row, r1, r2, r3⟩ := h3 i ir off hi ho
  have hl : (x.map Complex.ofReal).length = x.length := by simp
  have := row_reading (x.map Complex.ofReal) ir s off _ hs (by rw [hl]; exact hx)
    (hir ir (List.mem_of_getElem? hi)) (by rw [hl]; exact hw) row r2 (by rw [hl]; exact r3)
  rw [hl] at this
  exact ⟨row, r1, r2, this⟩

/-- The bank of the real parts of the responses. -/
def reBank (b : Bank ℂ) : Bank ℝ := ⟨b.irs.map (List.map Complex.re), b.offsets⟩

theorem reBank_irSize (b : Bank ℂ) : (reBank b).irSize = b.irSize := by
  simp only [Bank.irSize, reBank]
  congr 1
  rw [List.zipWith_map_left]
  simp

/-- C52, "the real part will be the ordinary cochleagram": for every analytic bank and real signal,
with or without stride, the real part of the output is the output of the bank of the real parts. -/
theorem C52_real_part (b : Bank ℂ) (x : List ℝ) (s : Option Nat) (hs : ∀ k, s = some k → 1 ≤ k)
    (hb : b.irs.length = b.offsets.length) (hx : 1 ≤ x.length) (hir : ∀ ir ∈ b.irs, 1 ≤ ir.length)
    (hM : 2 ≤ b.irSize) :
    ∃ rows rows', convolveAnalytic b x none (s.map Int.ofNat) = .ok rows ∧
      convolve (reBank b) x false none (s.map Int.ofNat) = .ok rows' ∧
      rows' = rows.map (List.map (Option.map Complex.re)) := by
  have hlen : (reBank b).irs.length = (reBank b).offsets.length := by simp [reBank, hb]
  have hir' : ∀ ir ∈ (reBank b).irs, 1 ≤ ir.length := by
    intro ir h
    simp only [reBank, List.mem_map] at h
    obtain ⟨k, hk, rfl⟩ := h
    rw [List.length_map]
    exact hir k hk
  have hM' : 2 ≤ (reBank b).irSize := by rw [reBank_irSize]; exact hM
  have hget : ∀ (i : Nat) (ir : List ℂ), b.irs[i]? = some ir →
      (reBank b).irs[i]? = some (ir.map Complex.re) := by
    intro i ir h
    simp only [reBank, List.getElem?_map, h, Option.map_some]
  have hrows : ∀ (rows : List (List (Option ℂ))) (rows' : List (List (Option ℝ))),
      rows.length = b.irs.length → rows'.length = b.irs.length →
      (∀ (i : Nat) (ir : List ℂ) (off : Nat), b.irs[i]? = some ir → b.offsets[i]? = some off →
        ∃ row row', rows[i]? = some row ∧ rows'[i]? = some row' ∧
          row' = row.map (Option.map Complex.re)) →
      rows' = rows.map (List.map (Option.map Complex.re)) := by
    intro rows rows' h1 h2 h3
    apply List.ext_getElem?
    intro i
    rw [List.getElem?_map]
    by_cases hi : i < b.irs.length
    · obtain ⟨row, row', e1, e2, e3⟩ := h3 i _ _ (List.getElem?_eq_getElem hi)
        (List.getElem?_eq_getElem (by omega))
      rw [e1, e2, e3]
      rfl
    · rw [List.getElem?_eq_none (by omega), List.getElem?_eq_none (by omega)]
      rfl
  cases s with
  | none =>
    obtain ⟨rows, h1, h2, h3⟩ := C52_full b (x.map Complex.ofReal) false none (by simp) hb
      (by simpa using hx) hir
    obtain ⟨rows', k1, k2, k3⟩ := C52_full (reBank b) x false none (by simp) hlen hx hir'
    refine ⟨rows, rows', h1, k1, hrows rows rows' h2 (by rw [k2]; simp [reBank]) ?_⟩
    intro i ir off hi ho
    obtain ⟨row, e1, e2, e3⟩ := h3 i ir off hi ho
    obtain ⟨row', f1, f2, f3⟩ := k3 i _ off (hget i ir hi) ho
    refine ⟨row, row', e1, f1, ?_⟩
    rw [reBank_irSize] at f2
    rw [List.length_map] at e2
    apply List.ext_getElem?
    intro n
    rw [List.getElem?_map]
    by_cases hn : n < row.length
    · have q1 := e3 n
      have q2 := f3 n
      rw [List.getElem?_eq_getElem hn, Option.getD_some] at q1
      rw [List.getElem?_eq_getElem (show n < row'.length by omega), Option.getD_some] at q2
      rw [List.getElem?_eq_getElem hn, List.getElem?_eq_getElem (show n < row'.length by omega), q1, q2]
      simp only [Option.map_some]
      rw [(conv_re x ir _).1]
    · rw [List.getElem?_eq_none (by omega), List.getElem?_eq_none (by omega)]
      rfl
  | some s =>
    have hs' := hs s rfl
    obtain ⟨rows, h1, h2, h3⟩ := strided_ok Complex.ofRealHom _ goodSc_complex b x s hs' hb hx hir hM
    obtain ⟨rows', k1, k2, k3⟩ := strided_ok (RingHom.id ℝ) scReal goodSc_real (reBank b) x s hs' hlen
      hx hir' hM'
    have hw : strideWidth (reBank b) x.length s = strideWidth b x.length s := by
      simp only [strideWidth, reBank]
      congr 1
      rw [List.zip_map_left, List.map_map]
      simp [Function.comp_def]
    refine ⟨rows, rows', by simpa [convolveAnalytic] using h1, by simpa [convolve] using k1,
      hrows rows rows' h2 (by rw [k2]; simp [reBank]) ?_⟩
    intro i ir off hi ho
    obtain ⟨-, row, e1, e2, e3⟩ := h3 i ir off hi ho
    obtain ⟨-, row', f1, f2, f3⟩ := k3 i _ off (hget i ir hi) ho
    refine ⟨row, row', e1, f1, ?_⟩
    rw [hw] at f2 f3
    apply List.ext_getElem?
    intro n
    rw [List.getElem?_map]
    by_cases hn : n < strideWidth b x.length s
    · rw [e3 n hn, f3 n hn, List.length_map]
      simp only [Option.map_some]
      by_cases hc : n < off / s + (1 + (x.length + ir.length - 2) / s)
      · rw [if_pos hc, if_pos hc]
        have hmap : x.map (RingHom.id ℝ) = x := by simp
        rw [hmap]
        have := (conv_re x ir ((n : Int) * s - off)).1
        rw [← this]
        rfl
      · rw [if_neg hc, if_neg hc]
        rfl
    · rw [List.getElem?_eq_none (by omega), List.getElem?_eq_none (by omega)]
      rfl

end Verif.Psycho
