import Mathlib.Analysis.MeanInequalities
import Mathlib.Analysis.Normed.Lp.PiLp
import Verif.Eval.MetricsModel

/-!
# `lp_distance` is a metric (C53)
-/

set_option autoImplicit false
set_option linter.unusedSectionVars false
set_option linter.unusedSimpArgs false

namespace Verif.Eval

open scoped ENNReal

/-- Two arrays have the same shape. -/
def SameShape {E F : Type} (x : List (List E)) (y : List (List F)) : Prop :=
  x.map List.length = y.map List.length

/-- An exponent that is a number, and its value. -/
def Expo.Is (p : Expo) (r : ℝ) : Prop := p = .float r ∨ ∃ n : ℤ, p = .int n ∧ (n : ℝ) = r

/-- Kinds of arrays that can hold the powers: integers only with an integer exponent, or with one. -/
def Holds (k : Kind) (p : Expo) : Prop := k = .int → p = .float 1 ∨ ∃ n : ℤ, p = .int n

section shape
variable {E F G : Type}

theorem SameShape.symm {x : List (List E)} {y : List (List F)} (h : SameShape x y) :
    SameShape y x := Eq.symm h

theorem SameShape.trans {x : List (List E)} {y : List (List F)} {z : List (List G)}
    (h : SameShape x y) (h' : SameShape y z) : SameShape x z := Eq.trans h h'

theorem SameShape.rfl {x : List (List E)} : SameShape x x := Eq.refl _

theorem SameShape.length {x : List (List E)} {y : List (List F)} (h : SameShape x y) :
    x.length = y.length := by
  have := congrArg List.length h
  simpa using this

theorem SameShape.flatten {x : List (List E)} {y : List (List F)} (h : SameShape x y) :
    x.flatten.length = y.flatten.length := by
  rw [List.length_flatten, List.length_flatten, h]

theorem SameShape.eq_of_flatten {x y : List (List E)} (h : SameShape x y)
    (hf : x.flatten = y.flatten) : x = y := by
  induction x generalizing y with
  | nil =>
    cases y with
    | nil => rfl
    | cons _ _ => simp [SameShape] at h
  | cons a x ih =>
    cases y with
    | nil => simp [SameShape] at h
    | cons b y =>
      simp only [SameShape, List.map_cons, List.cons.injEq] at h
      simp only [List.flatten_cons] at hf
      obtain ⟨h1, h2⟩ := List.append_inj hf h.1
      rw [h1, ih h.2 h2]

end shape

/-! ## The value -/

section value
variable {E : Type}

theorem subRows_ok [Sub E] {x y : List (List E)} (h : SameShape x y) :
    ∃ d, (x.zip y).mapM (fun p => subRow p.1 p.2) = Except.ok d ∧
      d.flatten = List.zipWith (· - ·) x.flatten y.flatten := by
  induction x generalizing y with
  | nil => exact ⟨[], rfl, by simp⟩
  | cons a x ih =>
    cases y with
    | nil => simp [SameShape] at h
    | cons b y =>
      simp only [SameShape, List.map_cons, List.cons.injEq] at h
      obtain ⟨d, hd, hf⟩ := ih h.2
      refine ⟨List.zipWith (· - ·) a b :: d, ?_, ?_⟩
      · have hr : subRow a b = .ok (List.zipWith (· - ·) a b) := by simp [subRow, h.1]
        simp [List.zip_cons_cons, List.mapM_cons, hr, hd, bind, Except.bind, pure, Except.pure]
      · simp only [List.flatten_cons, hf]
        rw [List.zipWith_append h.1]

theorem subOut_ok [Sub E] {x y : Arr E} (hk : y.kind.rank ≤ x.kind.rank)
    (h : SameShape x.rows y.rows) :
    ∃ d, subOut x y = .ok d ∧
      d.flatten = List.zipWith (· - ·) x.rows.flatten y.rows.flatten := by
  obtain ⟨d, hd, hf⟩ := subRows_ok h
  exact ⟨d, by simp [subOut, not_lt.2 hk, pairRows, h.length, hd], hf⟩

/-- The lp-distance of two lists of entries. -/
noncomputable def lpOf [NormedAddCommGroup E] (r : ℝ) (x y : List E) : ℝ≥0∞ :=
  ((List.zipWith (fun a b => ‖a - b‖ₑ ^ r) x y).sum) ^ (1 / r)

theorem lpFold_eq {k : Kind} {p : Expo} {r : ℝ} (hp : p.Is r) (hk : Holds k p) (hr : 0 < r)
    (t : List ℝ≥0∞) : lpFold k p t = .ok ((t.map (· ^ r)).sum ^ (1 / r)) := by
  rcases hp with rfl | ⟨n, rfl, rfl⟩
  · by_cases h1 : r = 1
    · subst h1
      simp [lpFold, Expo.isOne]
    · have hk' : k ≠ .int := by
        intro h
        rcases hk h with h | ⟨n, h⟩
        · exact h1 (Expo.float.inj h)
        · exact Expo.noConfusion h
      simp [lpFold, Expo.isOne, h1, powOut, hk', rootOut, hr.ne']
  · have hn : 0 < n := by exact_mod_cast hr
    by_cases h1 : n = 1
    · subst h1
      simp [lpFold, Expo.isOne]
    · simp [lpFold, Expo.isOne, h1, powOut, rootOut, hn.ne', not_lt.2 hn.le]

variable [NormedAddCommGroup E]

theorem lpDistance_eq {x y : Arr E} {p : Expo} {r : ℝ} (hk : y.kind.rank ≤ x.kind.rank)
    (h : SameShape x.rows y.rows) (hp : p.Is r) (hh : Holds x.kind p) (hr : 0 < r) :
    lpDistance x y p = .ok (lpOf r x.rows.flatten y.rows.flatten) := by
  obtain ⟨d, hd, hf⟩ := subOut_ok hk h
  simp only [lpDistance, hd, lpFold_eq hp hh hr, lpOf, hf, List.map_zipWith]

/-! ## Metric -/

theorem lpOf_eq_sum (r : ℝ) (x y : List E) (h : x.length = y.length) :
    lpOf r x y = (∑ i : Fin x.length, ‖x[i] - y[i.1]'(h ▸ i.2)‖ₑ ^ r) ^ (1 / r) := by
  rw [lpOf]
  congr 1
  induction x generalizing y with
  | nil => simp
  | cons a x ih =>
    cases y with
    | nil => simp at h
    | cons b y =>
      have h' : x.length = y.length := by simpa using h
      simp only [List.zipWith_cons_cons, List.sum_cons]
      rw [ih y h']
      exact (Fin.sum_univ_succ (n := x.length)
        (f := fun i => ‖(a :: x)[i] - (b :: y)[i.1]'(h ▸ i.2)‖ₑ ^ r)).symm

theorem sum_ne_top (l : List ℝ≥0∞) (h : ∀ a ∈ l, a ≠ ⊤) : l.sum ≠ ⊤ := by
  induction l with
  | nil => simp
  | cons a l ih =>
    simp only [List.sum_cons]
    exact ENNReal.add_ne_top.2 ⟨h a (by simp), ih fun b hb => h b (by simp [hb])⟩

theorem lpOf_ne_top {r : ℝ} (hr : 0 < r) (x y : List E) : lpOf r x y ≠ ⊤ := by
  apply ENNReal.rpow_ne_top_of_nonneg (by positivity)
  apply sum_ne_top
  intro a ha
  rw [← List.map_uncurry_zip_eq_zipWith] at ha
  obtain ⟨q, _, rfl⟩ := List.mem_map.1 ha
  exact ENNReal.rpow_ne_top_of_nonneg hr.le enorm_ne_top

theorem lpOf_symm (r : ℝ) (x y : List E) : lpOf r x y = lpOf r y x := by
  rw [lpOf, lpOf, List.zipWith_comm]
  simp only [enorm_sub_rev]

theorem lpOf_eq_zero {r : ℝ} (hr : 0 < r) (x y : List E) (h : x.length = y.length) :
    lpOf r x y = 0 ↔ x = y := by
  rw [lpOf, ENNReal.rpow_eq_zero_iff_of_pos (by positivity)]
  induction x generalizing y with
  | nil =>
    cases y with
    | nil => simp
    | cons _ _ => simp at h
  | cons a x ih =>
    cases y with
    | nil => simp at h
    | cons b y =>
      simp [ih y (by simpa using h), hr, hr.le, not_lt.2 hr.le, sub_eq_zero]

theorem lpOf_triangle {r : ℝ} (hr : 1 ≤ r) (x y z : List E) (h : x.length = y.length)
    (h' : y.length = z.length) : lpOf r x z ≤ lpOf r x y + lpOf r y z := by
  have hr0 : 0 < r := lt_of_lt_of_le one_pos hr
  have e1 := lpOf_eq_sum r x y h
  have e3 := lpOf_eq_sum r x z (h.trans h')
  have e2 : lpOf r y z = (∑ i : Fin x.length,
      ‖y[i.1]'(h ▸ i.2) - z[i.1]'((h.trans h') ▸ i.2)‖ₑ ^ r) ^ (1 / r) := by
    rw [lpOf_eq_sum r y z h']
    congr 1
    exact (Fintype.sum_equiv (finCongr h) _ _ fun i => rfl).symm
  rw [e1, e2, e3]
  refine le_trans ?_ (ENNReal.Lp_add_le Finset.univ _ _ hr)
  apply ENNReal.rpow_le_rpow _ (by positivity)
  apply Finset.sum_le_sum
  intro i _
  apply ENNReal.rpow_le_rpow _ hr0.le
  simp only [← edist_eq_enorm_sub]
  exact edist_triangle _ _ _

/-- **C53 (metric).** For an exponent of at least one there is a real-valued function of the arrays
of any one shape which `lp_distance` computes, and which is not negative, is zero exactly for equal
arrays, is symmetric and satisfies the triangle inequality. -/
theorem C53_metric (k : Kind) (p : Expo) (r : ℝ) (hp : p.Is r) (hr : 1 ≤ r) (hk : Holds k p) :
    ∃ d : List (List E) → List (List E) → ℝ, ∀ x y z : List (List E), SameShape x y →
      SameShape y z →
      lpDistance ⟨k, x⟩ ⟨k, y⟩ p = .ok (ENNReal.ofReal (d x y)) ∧
      0 ≤ d x y ∧ (d x y = 0 ↔ x = y) ∧ d x y = d y x ∧ d x z ≤ d x y + d y z := by
  have hr0 : 0 < r := lt_of_lt_of_le one_pos hr
  refine ⟨fun x y => (lpOf r x.flatten y.flatten).toReal, ?_⟩
  intro x y z hxy hyz
  refine ⟨?_, ENNReal.toReal_nonneg, ?_, ?_, ?_⟩
  · rw [lpDistance_eq (x := ⟨k, x⟩) (y := ⟨k, y⟩) le_rfl hxy hp hk hr0,
      ENNReal.ofReal_toReal (lpOf_ne_top hr0 _ _)]
  · rw [ENNReal.toReal_eq_zero_iff, or_iff_left (lpOf_ne_top hr0 _ _),
      lpOf_eq_zero hr0 _ _ hxy.flatten]
    exact ⟨fun h => hxy.eq_of_flatten h, fun h => by rw [h]⟩
  · exact congrArg ENNReal.toReal (lpOf_symm r _ _)
  · show (lpOf r x.flatten z.flatten).toReal ≤
      (lpOf r x.flatten y.flatten).toReal + (lpOf r y.flatten z.flatten).toReal
    rw [← ENNReal.toReal_add (lpOf_ne_top hr0 _ _) (lpOf_ne_top hr0 _ _)]
    exact ENNReal.toReal_mono (ENNReal.add_ne_top.2 ⟨lpOf_ne_top hr0 _ _, lpOf_ne_top hr0 _ _⟩)
      (lpOf_triangle hr _ _ _ hxy.flatten hyz.flatten)

/-- **C53 (value).** It is the distance of the space `ℓ^p` over the entries (for vectors). -/
theorem C53_value (k : Kind) (p : Expo) (r : ℝ) (hp : p.Is r) (hr : 1 ≤ r) (hk : Holds k p) (n : ℕ)
    (x y : Fin n → E) :
    lpDistance ⟨k, [List.ofFn x]⟩ ⟨k, [List.ofFn y]⟩ p =
      .ok (edist (WithLp.toLp (ENNReal.ofReal r) x : PiLp (ENNReal.ofReal r) fun _ : Fin n => E)
        (WithLp.toLp (ENNReal.ofReal r) y)) := by
  have hr0 : 0 < r := lt_of_lt_of_le one_pos hr
  rw [lpDistance_eq (x := ⟨k, [List.ofFn x]⟩) (y := ⟨k, [List.ofFn y]⟩) le_rfl
    (by simp [SameShape]) hp hk hr0]
  rw [PiLp.edist_eq_sum (by rw [ENNReal.toReal_ofReal hr0.le]; exact hr0),
    ENNReal.toReal_ofReal hr0.le]
  simp only [List.flatten_cons, List.flatten_nil, List.append_nil]
  rw [lpOf_eq_sum r _ _ (by simp)]
  congr 2
  refine Fintype.sum_equiv (finCongr (by simp)) _ _ fun i => ?_
  simp [edist_eq_enorm_sub]
  rfl

/-- The Euclidean distance of (1, 2) and (4, 6). -/
example : lpDistance (⟨.int, [[1, 2]]⟩ : Arr ℝ) ⟨.int, [[4, 6]]⟩ (.int 2) = .ok 5 := by
  rw [lpDistance_eq (r := 2) (by rfl) (by simp [SameShape]) (Or.inr ⟨2, rfl, by norm_num⟩)
    (fun _ => Or.inr ⟨2, rfl⟩) (by norm_num)]
  have h5 : (9 + 16 : ℝ≥0∞) = 5 ^ (2 : ℝ) := by
    rw [show (2 : ℝ) = ((2 : ℕ) : ℝ) by norm_num, ENNReal.rpow_natCast]
    norm_num
  have e3 : ‖(1 - 4 : ℝ)‖ₑ = 3 := by
    rw [Real.enorm_eq_ofReal_abs]
    norm_num
  have e4 : ‖(2 - 6 : ℝ)‖ₑ = 4 := by
    rw [Real.enorm_eq_ofReal_abs]
    norm_num
  have h9 : (3 : ℝ≥0∞) ^ (2 : ℝ) = 9 := by
    rw [show (2 : ℝ) = ((2 : ℕ) : ℝ) by norm_num, ENNReal.rpow_natCast]
    norm_num
  have h16 : (4 : ℝ≥0∞) ^ (2 : ℝ) = 16 := by
    rw [show (2 : ℝ) = ((2 : ℕ) : ℝ) by norm_num, ENNReal.rpow_natCast]
    norm_num
  simp only [lpOf, List.flatten_cons, List.flatten_nil, List.append_nil, List.zipWith_cons_cons,
    List.zipWith_nil_right, List.sum_cons, List.sum_nil, add_zero, e3, e4, h9, h16, h5]
  rw [← ENNReal.rpow_mul]
  norm_num

/-- **C53 (small exponents).** Below one the triangle inequality fails; everything else holds. -/
theorem C53_small :
    (∀ (k : Kind) (p : Expo) (r : ℝ), p.Is r → 0 < r → Holds k p → ∀ x y : List (List E),
      SameShape x y → ∃ d : ℝ, 0 ≤ d ∧ lpDistance ⟨k, x⟩ ⟨k, y⟩ p = .ok (ENNReal.ofReal d) ∧
        lpDistance ⟨k, y⟩ ⟨k, x⟩ p = .ok (ENNReal.ofReal d) ∧ (d = 0 ↔ x = y)) ∧
    ∃ x y z : List ℝ, x.length = 2 ∧ y.length = 2 ∧ z.length = 2 ∧
      lpDistance ⟨.float, [x]⟩ ⟨.float, [y]⟩ (.float 0.5) = .ok 1 ∧
      lpDistance ⟨.float, [y]⟩ ⟨.float, [z]⟩ (.float 0.5) = .ok 1 ∧
      lpDistance ⟨.float, [x]⟩ ⟨.float, [z]⟩ (.float 0.5) = .ok 4 := by
  refine ⟨?_, [1, 0], [0, 0], [0, 1], rfl, rfl, rfl, ?_, ?_, ?_⟩
  · intro k p r hp hr hk x y hxy
    refine ⟨(lpOf r x.flatten y.flatten).toReal, ENNReal.toReal_nonneg, ?_, ?_, ?_⟩
    · rw [lpDistance_eq (x := ⟨k, x⟩) (y := ⟨k, y⟩) le_rfl hxy hp hk hr,
        ENNReal.ofReal_toReal (lpOf_ne_top hr _ _)]
    · rw [lpDistance_eq (x := ⟨k, y⟩) (y := ⟨k, x⟩) le_rfl hxy.symm hp hk hr,
        ENNReal.ofReal_toReal (lpOf_ne_top hr _ _), lpOf_symm]
    · rw [ENNReal.toReal_eq_zero_iff, or_iff_left (lpOf_ne_top hr _ _),
        lpOf_eq_zero hr _ _ hxy.flatten]
      exact ⟨fun h => hxy.eq_of_flatten h, fun h => by rw [h]⟩
  all_goals
    rw [lpDistance_eq (r := 0.5) (by rfl) (by simp [SameShape]) (Or.inl rfl)
      (fun h => by simp at h) (by norm_num)]
    have hz : (0 : ℝ≥0∞) ^ (0.5 : ℝ) = 0 := ENNReal.zero_rpow_of_pos (by norm_num)
    simp only [lpOf, List.flatten_cons, List.flatten_nil, List.append_nil, List.zipWith_cons_cons,
      List.zipWith_nil_right, List.sum_cons, List.sum_nil, add_zero, sub_zero, sub_self, zero_sub,
      enorm_neg, enorm_zero, enorm_one, hz, ENNReal.one_rpow, zero_add]
  rw [show (1 / 0.5 : ℝ) = ((2 : ℕ) : ℝ) by norm_num, ENNReal.rpow_natCast]
  norm_num

/-- **C53 (infinity).** For an infinite exponent the result is one for every pair of arrays of the
same shape (also of equal arrays): not the maximum norm. -/
theorem C53_infinity (k : Kind) (hk : k ≠ .int) (x y : List (List E)) (h : SameShape x y) :
    lpDistance ⟨k, x⟩ ⟨k, y⟩ .inf = .ok 1 := by
  obtain ⟨d, hd, _⟩ := subOut_ok (x := ⟨k, x⟩) (y := ⟨k, y⟩) le_rfl h
  simp [lpDistance, hd, lpFold, Expo.isOne, powOut, hk, rootOut]

/-- **C53 (kinds).** An array of integers minus one of floats is an error, the other way round it
is not: not symmetric.  Integers cannot be raised to a float, except one. -/
theorem C53_kinds (x y : List (List E)) (p : Expo) :
    lpDistance ⟨.int, x⟩ ⟨.float, y⟩ p = .error .typeError ∧
    (∀ r : ℝ, p.Is r → 0 < r → SameShape y x →
      ∃ d : ℝ≥0∞, lpDistance ⟨.float, y⟩ ⟨.int, x⟩ p = .ok d) ∧
    (∀ r : ℝ, r ≠ 1 → SameShape x y →
      lpDistance ⟨.int, x⟩ ⟨.int, y⟩ (.float r) = .error .typeError) := by
  refine ⟨by simp [lpDistance, subOut, Kind.rank], ?_, ?_⟩
  · intro r hp hr h
    exact ⟨_, lpDistance_eq (x := ⟨.float, y⟩) (y := ⟨.int, x⟩) (by simp [Kind.rank]) h hp
      (fun h => by simp at h) hr⟩
  · intro r hr h
    obtain ⟨d, hd, _⟩ := subOut_ok (x := ⟨.int, x⟩) (y := ⟨.int, y⟩) le_rfl h
    simp [lpDistance, hd, lpFold, Expo.isOne, hr, powOut]

/-- **C53 (exponent zero)** is a `ZeroDivisionError`. -/
theorem C53_zero (k : Kind) (x y : List (List E)) (h : SameShape x y) :
    lpDistance ⟨k, x⟩ ⟨k, y⟩ (.int 0) = .error .zeroDivisionError := by
  obtain ⟨d, hd, _⟩ := subOut_ok (x := ⟨k, x⟩) (y := ⟨k, y⟩) le_rfl h
  simp [lpDistance, hd, lpFold, Expo.isOne, powOut, rootOut]

/-- **C53 (sizes).** Vectors of different sizes are an error, except that a second vector of one
entry stands for one with this entry everywhere. -/
theorem C53_sizes (k : Kind) (x y : List E) (p : Expo) :
    (x.length ≠ y.length → y.length ≠ 1 → lpDistance ⟨k, [x]⟩ ⟨k, [y]⟩ p = .error .valueError) ∧
    ∀ b, lpDistance ⟨k, [x]⟩ ⟨k, [[b]]⟩ p =
      lpDistance ⟨k, [x]⟩ ⟨k, [List.replicate x.length b]⟩ p := by
  constructor
  · intro h hy
    have : subRow x y = .error .valueError := by
      match y with
      | [] => simp only [subRow, if_neg h]
      | [b] => simp at hy
      | _ :: _ :: _ => simp only [subRow, if_neg h]
    simp [lpDistance, subOut, pairRows, this, bind, Except.bind, pure, Except.pure, List.mapM_cons]
  · intro b
    have e : subRow x [b] = subRow x (List.replicate x.length b) := by
      have : List.zipWith (· - ·) x (List.replicate x.length b) = x.map fun a => a - b := by
        induction x with
        | nil => rfl
        | cons a x ih => simp [List.replicate_succ, ih]
      have e2 : subRow x (List.replicate x.length b) = .ok (x.map fun a => a - b) := by
        unfold subRow
        rw [if_pos (by simp), this]
      rw [e2]
      unfold subRow
      split_ifs with h1
      · match x, h1 with
        | [a], _ => rfl
      · rfl
    simp [lpDistance, subOut, pairRows, e, List.mapM_cons]

end value
end Verif.Eval
