import Verif.Beat.CompareModel
import Verif.Beat.StateProps

/-!
# Comparison plot of beat regressions (C155)
-/

set_option autoImplicit false
set_option linter.unusedSectionVars false
set_option linter.unusedSimpArgs false

namespace Verif.Beat

open Verif.Out

/-! ## Specification -/

open Classical in
/-- Level of an amplitude; nothing at -60 dB or less. -/
noncomputable def levelOf (a : ℝ) : Cell := if 1 / 1000 < a then some (20 * Real.logb 10 a) else none

/-- An amplitude and its level on the first two axes of a column. -/
noncomputable def twoCurves (i : Nat) (label : String) (t : List ℝ) (a : ℝ → ℝ) : List Curve :=
  [⟨0, i, label, t, t.map fun s => some (a s)⟩, ⟨1, i, label, t, t.map fun s => levelOf (a s)⟩]

/-- The curves in the column of a regression with the parameters `p`: signal, track, modulus and
frequency of the sum of the partials (in Hz), and amplitudes and frequencies of both partials. -/
def IsColumn (sig : Curve) (d : Track) (i : Nat) (p : Octet ℝ) (l : List Curve) : Prop :=
  ∃ F : List Cell,
    List.Forall₂ (fun t c => ∀ z', HasDerivAt (partials p) z' t →
      c = if partials p t = 0 then none else some ((z' / partials p t).im / (2 * Real.pi))) d.t F ∧
    l = [sig] ++
      [⟨0, i, "Sinusoidal Track", d.t, d.a.map fun v => some ((10 : ℝ) ^ (v / 20))⟩,
       ⟨1, i, "Sinusoidal Track", d.t, d.a.map fun v => if -60 < v then some v else none⟩] ++
      twoCurves i "Prediction" d.t (fun t => ‖partials p t‖) ++
      twoCurves i "$A_1(t)$" d.t (fun t => p.a0 * Real.exp (-2 / p.d0 * t)) ++
      twoCurves i "$A_2(t)$" d.t (fun t => p.a1 * Real.exp (-2 / p.d1 * t)) ++
      [⟨2, i, "Sinusoidal Track", d.t, d.f.map some⟩, ⟨2, i, "Prediction", d.t, F⟩,
       ⟨2, i, "$\\nu_1$", d.t, d.t.map fun _ => some p.f0⟩,
       ⟨2, i, "$\\nu_2$", d.t, d.t.map fun _ => some p.f1⟩]

/-- The clone of a candidate. -/
def Candidate.clone (c : Candidate) : Br := Br.new (c.reg.map fun _ => none)

/-- The parameters that the clone of a candidate finds. -/
def Candidate.Finds (c : Candidate) (d : Track) (p : Octet ℝ) : Prop :=
  (c.steps.fit c.clone d).2 = none ∧ (Call.run c.clone ⟨c.steps, d, none⟩).params = some p ∧
    p.d0 ≠ 0 ∧ p.d1 ≠ 0

/-! ## Levels -/

theorem db2a_60 : Dsp.db2a (-60) = 1 / 1000 := by
  rw [Dsp.db2a, show (-60 : ℝ) / 20 = -((3 : ℕ) : ℝ) by norm_num, Real.rpow_neg (by norm_num),
    Real.rpow_natCast]
  norm_num

theorem inDb_some (a : ℝ) : inDb (some a) = levelOf a := by
  unfold inDb levelOf
  rw [db2a_60]
  simp only [Option.bind_some]
  by_cases h : a ≤ 1 / 1000
  · rw [if_pos h, if_neg (not_lt.2 h)]
  · rw [if_neg h, if_pos (not_le.1 h)]
    have h0 : 0 < a := lt_trans (by norm_num) (not_le.1 h)
    simp [Dsp.a2db, Dsp.a2dbFloorless, Dsp.npLog10, h0]

theorem levelOf_db (v : ℝ) :
    levelOf ((10 : ℝ) ^ (v / 20)) = if -60 < v then some v else none := by
  have h : (1 / 1000 : ℝ) < (10 : ℝ) ^ (v / 20) ↔ -60 < v := by
    rw [← db2a_60, Dsp.db2a, Real.rpow_lt_rpow_left_iff (by norm_num)]
    constructor <;> intro h <;> linarith
  unfold levelOf
  by_cases hv : -60 < v
  · rw [if_pos (h.2 hv), if_pos hv, Real.logb_rpow (by norm_num) (by norm_num)]
    congr 1
    ring
  · rw [if_neg (fun h' => hv (h.1 h')), if_neg hv]

/-! ## Drawing -/

/-- What the clone of a candidate shows. -/
theorem predict_four (c : Candidate) (d : Track) (p : Octet ℝ) (hc : c.Finds d p)
    (ht : 2 ≤ d.t.length) :
    ∃ am a0 a1 fm, (Call.run c.clone ⟨c.steps, d, none⟩).predict (.flat d.t) ["am", "a0", "a1", "fm"] =
        .ok [am, a0, a1, fm] ∧
      ∀ (fs : ℝ) (x env : List ℝ) (e : Envelope) (i : Nat),
        IsColumn (signalCurve fs x env e i) d i p
          (columnCurves fs x env e d i p (elems am) (elems a0) (elems a1) (elems fm)) := by
  obtain ⟨h1, h2, h3, h4⟩ := hc
  obtain ⟨_, _, _, _, y, -, -, -, -, -, -, hy⟩ := (C154_call c.steps c.clone d).1 h1
  have hb : (Call.run c.clone ⟨c.steps, d, none⟩).beat = some p := by
    rw [hy] at h2 ⊢
    exact h2
  obtain ⟨out, ho, hs⟩ := C154_predict _ p hb h3 h4 (.flat d.t) ht ["am", "a0", "a1", "fm"]
    (by simp [Names])
  simp only [TimeAxis.times] at hs
  rw [if_neg (by simp)] at hs
  obtain ⟨am, l1, s1, hs1, rfl⟩ := List.forall₂_cons_left_iff.1 hs
  obtain ⟨a0, l2, s2, hs2, rfl⟩ := List.forall₂_cons_left_iff.1 hs1
  obtain ⟨a1, l3, s3, hs3, rfl⟩ := List.forall₂_cons_left_iff.1 hs2
  obtain ⟨fm, l4, s4, hs4, rfl⟩ := List.forall₂_cons_left_iff.1 hs3
  obtain rfl := List.forall₂_nil_left_iff.1 hs4
  refine ⟨am, a0, a1, fm, ho, ?_⟩
  intro fs x env e i
  simp only [Shows, String.reduceEq, false_imp_iff, true_imp_iff, true_and, and_true] at s1 s2 s3 s4
  obtain ⟨F, hF, hv⟩ := s4
  subst s1 s2 s3 hF
  refine ⟨F.map fun c => c.map (· / (2 * Real.pi)), ?_, ?_⟩
  · rw [List.forall₂_map_right_iff]
    refine hv.imp fun t c h z' hz => ?_
    rw [h z' hz]
    by_cases h0 : partials p t = 0 <;> simp [h0]
  · simp only [columnCurves, ampCurves, twoCurves, elems, List.map_map, Function.comp_def, inDb_some,
      levelOf_db, Dsp.db2a, decays]

theorem drawAll_ok (fs : ℝ) (x env : List ℝ) (e : Envelope) (d : Track) (m : Nat)
    (ht : 2 ≤ d.t.length) (cs : List Candidate) (hc : ∀ c ∈ cs, ∃ p, c.Finds d p) (i : Nat)
    (hm : i + cs.length ≤ m) :
    ∃ cols : List (List Curve),
      drawAll fs x env e d (some m) i (cs.map fun c => Call.run c.clone ⟨c.steps, d, none⟩) =
        (cols.flatten, .ok ()) ∧ cols.length = cs.length ∧
      ∀ (j : Nat) c p, cs[j]? = some c → c.Finds d p → ∃ l, cols[j]? = some l ∧
        IsColumn (signalCurve fs x env e (i + j)) d (i + j) p l := by
  induction cs generalizing i with
  | nil => exact ⟨[], rfl, rfl, by simp⟩
  | cons c cs ih =>
    obtain ⟨p, hp⟩ := hc c (by simp)
    obtain ⟨am, a0, a1, fm, hpr, hcol⟩ := predict_four c d p hp ht
    obtain ⟨cols, h1, h2, h3⟩ := ih (fun c' h => hc c' (by simp [h])) (i + 1)
      (by simp at hm; omega)
    refine ⟨columnCurves fs x env e d i p (elems am) (elems a0) (elems a1) (elems fm) :: cols, ?_,
      by simp [h2], ?_⟩
    · have hg : Axes.get (some m) i = .ok () := by
        simp only [List.length_cons] at hm
        simp [Axes.get, show i < m by omega]
      simp only [List.map_cons, drawAll, hpr, hg, hp.2.1, h1, List.flatten_cons]
    · intro j c' p' hj hp'
      cases j with
      | zero =>
        simp only [List.getElem?_cons_zero, Option.some.injEq] at hj
        subst hj
        have : p' = p := by
          have := hp'.2.1.symm.trans hp.2.1
          exact Option.some.inj this
        subst this
        exact ⟨_, List.getElem?_cons_zero, by simpa using hcol fs x env e i⟩
      | succ j =>
        obtain ⟨l, hl1, hl2⟩ := h3 j c' p' (by simpa using hj) hp'
        exact ⟨l, by simpa using hl1, by rwa [show i + (j + 1) = i + 1 + j by omega]⟩

theorem fitAll_ok (d : Track) (cs : List Candidate) (hc : ∀ c ∈ cs, ∃ p, c.Finds d p) :
    fitAll d cs = .ok (cs.map fun c => Call.run c.clone ⟨c.steps, d, none⟩) := by
  induction cs with
  | nil => rfl
  | cons c cs ih =>
    obtain ⟨p, hp⟩ := hc c (by simp)
    have h1 := hp.1
    simp only [Candidate.clone] at h1
    simp only [fitAll, h1, ih fun c' h => hc c' (by simp [h]), List.map_cons, Candidate.clone]

/-- There is a column of axes for each of the `n` regressions. -/
def Axes.Enough (n : Nat) : Axes → Prop
  | .new => 2 ≤ n
  | .array m => n ≤ m
  | .nested m => n ≤ m

/-- C155: if the clones of all regressions can be fitted to a track of two frames or more, and there are
axes for all of them, then the column of each regression shows the signal, the track, and the beat with
the parameters that its clone found, and nothing else is drawn; at the end a list of axes raises. -/
theorem C155_drawn (fs : ℝ) (x env : List ℝ) (e : Envelope) (d : Track) (ht : 2 ≤ d.t.length)
    (cs : List Candidate) (hc : ∀ c ∈ cs, ∃ p, c.Finds d p) (axs : Axes)
    (ha : axs.Enough cs.length) :
    ∃ cols : List (List Curve), (compare fs x env e d cs axs).1 = cols.flatten ∧
      cols.length = cs.length ∧
      (∀ (i : Nat) c p, cs[i]? = some c → c.Finds d p → ∃ l, cols[i]? = some l ∧
        IsColumn (signalCurve fs x env e i) d i p l) ∧
      ((∀ m, axs ≠ .nested m) → (compare fs x env e d cs axs).2 = .ok ()) ∧
      (∀ m, axs = .nested m → (compare fs x env e d cs axs).2 = .error .attributeError) := by
  obtain ⟨m, hmk, hm⟩ : ∃ m, axs.make cs.length = .ok (some m) ∧ cs.length ≤ m := by
    cases axs with
    | new =>
      have : 2 ≤ cs.length := ha
      exact ⟨cs.length, by simp [Axes.make, show cs.length ≠ 0 by omega, show cs.length ≠ 1 by omega],
        le_refl _⟩
    | array m => exact ⟨m, rfl, ha⟩
    | nested m => exact ⟨m, rfl, ha⟩
  obtain ⟨cols, h1, h2, h3⟩ := drawAll_ok fs x env e d m ht cs hc 0 (by omega)
  refine ⟨cols, ?_, h2, by simpa using h3, ?_, ?_⟩
  · cases axs <;> simp [compare, hmk, fitAll_ok d cs hc, h1]
  · intro hn
    cases axs with
    | nested k => exact absurd rfl (hn k)
    | _ => simp [compare, hmk, fitAll_ok d cs hc, h1]
  · rintro k rfl
    simp [compare, hmk, fitAll_ok d cs hc, h1]

theorem fitAll_error (d : Track) (cs cs' : List Candidate) (c : Candidate) (err : PyErr)
    (hc : ∀ c ∈ cs, ∃ p, c.Finds d p) (he : (c.steps.fit c.clone d).2 = some err) :
    fitAll d (cs ++ c :: cs') = .error err := by
  induction cs with
  | nil =>
    simp only [Candidate.clone] at he
    simp [fitAll, he]
  | cons b cs ih =>
    obtain ⟨p, hp⟩ := hc b (by simp)
    have h1 := hp.1
    simp only [Candidate.clone] at h1
    simp [fitAll, h1, ih fun c' h => hc c' (by simp [h])]

/-- C155: what raises: no regression, or a single one, without axes of one's own; too few axes; and the
first regression that cannot be fitted, before anything is drawn. -/
theorem C155_errors (fs : ℝ) (x env : List ℝ) (e : Envelope) (d : Track) (ht : 2 ≤ d.t.length) :
    compare fs x env e d [] .new = ([], .error .valueError) ∧
    (∀ c p, c.Finds d p → compare fs x env e d [c] .new = ([], .error .typeError)) ∧
    (∀ cs, (∀ c ∈ cs, ∃ p, c.Finds d p) → ∀ m, m < cs.length →
      (compare fs x env e d cs (.array m)).2 = .error .indexError) ∧
    (∀ cs c cs' axs err, (∀ c ∈ cs, ∃ p, c.Finds d p) → (c.steps.fit c.clone d).2 = some err →
      compare fs x env e d (cs ++ c :: cs') axs = ([], .error err)) := by
  refine ⟨rfl, ?_, ?_, ?_⟩
  · intro c p hp
    obtain ⟨am, a0, a1, fm, hpr, -⟩ := predict_four c d p hp ht
    have hall := fitAll_ok d [c] (by simpa using ⟨p, hp⟩)
    simp only [List.map_cons, List.map_nil] at hall
    simp [compare, Axes.make, hall, drawAll, hpr, Axes.get]
  · intro cs hc m hm
    have key : ∀ i, i ≤ m → m < i + cs.length → (drawAll fs x env e d (some m) i
        (cs.map fun c => Call.run c.clone ⟨c.steps, d, none⟩)).2 = .error .indexError := by
      clear hm
      induction cs with
      | nil => intro i h1 h2; simp at h2; omega
      | cons c cs ih =>
        intro i h1 h2
        obtain ⟨p, hp⟩ := hc c (by simp)
        obtain ⟨am, a0, a1, fm, hpr, -⟩ := predict_four c d p hp ht
        by_cases hi : i < m
        · have := ih (fun c' h => hc c' (by simp [h])) (i + 1) hi (by simp at h2; omega)
          simp only [List.map_cons, drawAll, hpr, Axes.get, hi, if_true, hp.2.1, this]
        · simp only [List.map_cons, drawAll, hpr, Axes.get, hi, if_false]
    simp [compare, Axes.make, fitAll_ok d cs hc, key 0 (Nat.zero_le m) (by omega)]
  · intro cs c cs' axs err hc he
    have hmk : ∃ cols, axs.make (cs ++ c :: cs').length = .ok cols := by
      cases axs with
      | new =>
        by_cases h : (cs ++ c :: cs').length = 1
        · exact ⟨none, by simp only [Axes.make, h]; rfl⟩
        · exact ⟨some _, by
            simp only [Axes.make, h, if_false]
            rw [if_neg (by simp)]⟩
      | array m => exact ⟨_, rfl⟩
      | nested m => exact ⟨_, rfl⟩
    obtain ⟨cols, hcols⟩ := hmk
    simp only [compare, hcols, fitAll_error d cs cs' c err hc he]

/-- C155: the label of the time axis is on the axes of the bottom row of a transposed figure; otherwise it
is on the last column instead, and (with two regressions or more) the bottom of the first column has
none. -/
theorem C155_labels (n : Nat) (hn : 2 ≤ n) :
    (∀ r c, (r, c) ∈ timeLabels n true ↔ r = n - 1 ∧ c < 3) ∧
    (∀ r c, (r, c) ∈ timeLabels n false ↔ r < 3 ∧ c = n - 1) ∧ (2, 0) ∉ timeLabels n false := by
  refine ⟨?_, ?_, ?_⟩
  · intro r c
    simp [timeLabels]
    constructor <;> intro h <;> omega
  · intro r c
    simp only [timeLabels, List.mem_map, List.mem_range, Prod.mk.injEq, if_false, Bool.false_eq_true]
    constructor
    · rintro ⟨a, h, rfl, rfl⟩
      exact ⟨h, rfl⟩
    · rintro ⟨h, rfl⟩
      exact ⟨r, h, rfl, rfl⟩
  · simp [timeLabels]
    omega

/-- C155: the envelope is drawn at indices of the signal only: all of them, or the multiples of a step
(which may leave out the last). -/
theorem C155_envelope (size : Nat) (m : Int) (hm : 0 < m) :
    (∀ j, j ∈ Envelope.indices size .all ↔ 0 ≤ j ∧ j < size) ∧
    (∀ j ∈ Envelope.indices size (.every m), 0 ≤ j ∧ j < size ∧ m ∣ j) ∧
    (∀ j, 0 ≤ j → j + m ≤ size → m ∣ j → j ∈ Envelope.indices size (.every m)) := by
  refine ⟨?_, ?_, ?_⟩
  · intro j
    simp only [Envelope.indices, List.mem_map, List.mem_range]
    constructor
    · rintro ⟨i, hi, rfl⟩
      omega
    · rintro ⟨h1, h2⟩
      exact ⟨j.toNat, by omega, by omega⟩
  · intro j hj
    simp only [Envelope.indices, List.mem_map, List.mem_range] at hj
    obtain ⟨i, hi, rfl⟩ := hj
    have h1 : (i : Int) < Int.fdiv size m := by omega
    rw [Int.fdiv_eq_ediv_of_nonneg _ hm.le] at h1
    have h2 : ((i : Int) + 1) * m ≤ size := (Int.le_ediv_iff_mul_le hm).1 (by omega)
    refine ⟨by positivity, by nlinarith, Dvd.intro_left _ rfl⟩
  · rintro j h1 h2 ⟨k, rfl⟩
    have hk : 0 ≤ k := by
      by_contra h
      have : m * k < 0 := mul_neg_of_pos_of_neg hm (not_le.1 h)
      omega
    simp only [Envelope.indices, List.mem_map, List.mem_range]
    have h3 : k + 1 ≤ Int.fdiv size m := by
      rw [Int.fdiv_eq_ediv_of_nonneg _ hm.le, Int.le_ediv_iff_mul_le hm]
      nlinarith
    exact ⟨k.toNat, by omega, by rw [Int.toNat_of_nonneg hk, mul_comm]⟩

/-- C155: each point of the curve of the signal is a sample of the signal, or of its envelope, at its
time. -/
theorem C155_signal (fs : ℝ) (x env : List ℝ) (hl : env.length = x.length) (e : Envelope)
    (he : ∀ m, e = .every m → 0 < m) (i : Nat) :
    let c := signalCurve fs x env e i
    c.row = 0 ∧ c.col = i ∧ c.x.length = c.y.length ∧
    (e = .no ∨ e = .all → c.x.length = x.length) ∧
    ∀ (k : Nat) u v, c.x[k]? = some u → c.y[k]? = some v →
      ∃ j : Nat, u = (j : ℝ) / fs ∧ (e = .no → j = k ∧ ∃ w, x[j]? = some w ∧ v = some w) ∧
        (e = .all → j = k ∧ ∃ w, env[j]? = some w ∧ v = some w) ∧
        (∀ m, e = .every m → (j : Int) = k * m ∧ ∃ w, env[j]? = some w ∧ v = some w) := by
  intro c
  cases e with
  | no =>
    refine ⟨rfl, rfl, by simp [c, signalCurve], by simp [c, signalCurve], ?_⟩
    intro k u v hu hv
    simp only [c, signalCurve, List.getElem?_map, Option.map_eq_some_iff] at hu hv
    obtain ⟨j, hj, rfl⟩ := hu
    obtain ⟨w, hw, rfl⟩ := hv
    obtain ⟨h1, rfl⟩ := List.getElem?_eq_some_iff.1 hj
    simp only [List.getElem_range]
    exact ⟨k, rfl, fun _ => ⟨rfl, w, hw, rfl⟩, by simp, by simp⟩
  | all =>
    refine ⟨rfl, rfl, by simp [c, signalCurve], by simp [c, signalCurve, Envelope.indices], ?_⟩
    intro k u v hu hv
    simp only [c, signalCurve, Envelope.indices, List.map_map, List.getElem?_map,
      Option.map_eq_some_iff, Function.comp_def] at hu hv
    obtain ⟨j, hj, rfl⟩ := hu
    obtain ⟨j', hj', rfl⟩ := hv
    obtain rfl := Option.some.inj (hj.symm.trans hj')
    obtain ⟨h1, rfl⟩ := List.getElem?_eq_some_iff.1 hj
    simp only [List.length_range] at h1
    simp only [List.getElem_range, Int.toNat_natCast, Int.cast_natCast]
    exact ⟨k, rfl, by simp, fun _ => ⟨rfl, _, List.getElem?_eq_getElem (by omega),
      List.getElem?_eq_getElem (by omega)⟩, by simp⟩
  | every m =>
    refine ⟨rfl, rfl, by simp [c, signalCurve], by simp, ?_⟩
    intro k u v hu hv
    simp only [c, signalCurve, Envelope.indices, List.map_map, List.getElem?_map,
      Option.map_eq_some_iff, Function.comp_def] at hu hv
    obtain ⟨j, hj, rfl⟩ := hu
    obtain ⟨j', hj', rfl⟩ := hv
    obtain rfl := Option.some.inj (hj.symm.trans hj')
    obtain ⟨h1, rfl⟩ := List.getElem?_eq_some_iff.1 hj
    simp only [List.length_range] at h1
    simp only [List.getElem_range]
    obtain ⟨h2, h3, -⟩ := (C155_envelope x.length m (he m rfl)).2.1 ((k : Int) * m) (by
      simp only [Envelope.indices, List.mem_map, List.mem_range]
      exact ⟨k, h1, rfl⟩)
    refine ⟨((k : Int) * m).toNat, ?_, by simp, by simp, ?_⟩
    · have : ((((k : Int) * m).toNat : Int) : ℝ) = (((k : Int) * m : Int) : ℝ) := by
        rw [Int.toNat_of_nonneg h2]
      rw [← this, Int.cast_natCast]
    · intro m' hm'
      cases hm'
      exact ⟨Int.toNat_of_nonneg h2, _, List.getElem?_eq_getElem (by omega),
        List.getElem?_eq_getElem (by omega)⟩

/-- Two regressions that find their parameters, on new axes. -/
example : ∃ cols : List (List Curve),
    (compare 10 [0, 1, 0] [0, 1, 0] .no ⟨[0, 1], [-6, -70], [100, 101]⟩
      [⟨"a", exSteps ⟨1, 1, 100, 98, 1, 1, 0, 0⟩, none⟩, ⟨"b", exSteps ⟨1, 2, 100, 97, 1, 2, 0, 0⟩, none⟩]
      .new).1 = cols.flatten ∧ cols.length = 2 := by
  obtain ⟨cols, h1, h2, -⟩ := C155_drawn 10 [0, 1, 0] [0, 1, 0] .no ⟨[0, 1], [-6, -70], [100, 101]⟩
    (by simp)
    [⟨"a", exSteps ⟨1, 1, 100, 98, 1, 1, 0, 0⟩, none⟩, ⟨"b", exSteps ⟨1, 2, 100, 97, 1, 2, 0, 0⟩, none⟩]
    (by
      have key : ∀ l x, x.d0 ≠ 0 → x.d1 ≠ 0 → Candidate.Finds ⟨l, exSteps x, none⟩
          ⟨[0, 1], [-6, -70], [100, 101]⟩ x := by
        intro l x h0 h1
        obtain ⟨e1, e2, -, -⟩ := exSteps_fit x (Br.new none) ⟨[0, 1], [-6, -70], [100, 101]⟩
        refine ⟨e1, ?_, h0, h1⟩
        have := C154_agree none [⟨exSteps x, ⟨[0, 1], [-6, -70], [100, 101]⟩, none⟩] (by simp)
        exact this.symm.trans e2
      intro c hc
      simp only [List.mem_cons, List.not_mem_nil, or_false] at hc
      rcases hc with rfl | rfl
      · exact ⟨_, key _ _ (by norm_num) (by norm_num)⟩
      · exact ⟨_, key _ _ (by norm_num) (by norm_num)⟩)
    .new (by simp [Axes.Enough])
  exact ⟨cols, h1, h2⟩

end Verif.Beat
