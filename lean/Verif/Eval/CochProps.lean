import Verif.Eval.LossProps
import Verif.Psycho.FilterbankProps

/-!
# Cochleagram loss (C82)
-/

set_option autoImplicit false
set_option linter.unusedSectionVars false
set_option linter.unusedSimpArgs false

namespace Verif.Eval

open Verif.Psycho Verif.Np Verif.Dsp
open scoped ENNReal

/-! ## Shapes -/

section shape

theorem mapM_lengths {α β : Type} (f : α → Except PyErr (List β)) (n : Nat) :
    ∀ (l : List α) (r : List (List β)), l.mapM f = .ok r →
      (∀ a ∈ l, ∀ b, f a = .ok b → b.length = n) → r.map List.length = List.replicate l.length n
  | [], r, h, _ => by
    simp only [List.mapM_nil, pure, Except.pure, Except.ok.injEq] at h
    simp [← h]
  | a :: l, r, h, hf => by
    rw [List.mapM_cons] at h
    cases ha : f a with
    | error e => simp [ha, bind, Except.bind] at h
    | ok b =>
      cases hl : l.mapM f with
      | error e => simp [ha, hl, bind, Except.bind] at h
      | ok bs =>
        simp only [ha, hl, bind, Except.bind, pure, Except.pure, Except.ok.injEq] at h
        subst h
        simp only [List.map_cons, List.length_cons, List.replicate_succ]
        rw [hf a (by simp) b ha, mapM_lengths f n l bs hl fun a ha => hf a (by simp [ha])]

theorem bound_le' (n : Nat) (i : Int) (_ : 0 ≤ i) : bound n i ≤ n := by
  unfold bound
  split_ifs
  · omega
  · exact Nat.min_le_right _ _

theorem assign_len {α : Type} (l : List α) (a b : Int) (ha : 0 ≤ a) (hb : 0 ≤ b) (src r : List α)
    (h : assign l (some a) (some b) src = .ok r) : r.length = l.length := by
  have h1 : lower l.length (some a) ≤ l.length := bound_le' _ _ ha
  have h2 : upper l.length (some b) ≤ l.length := bound_le' _ _ hb
  unfold assign at h
  generalize lower l.length (some a) = lo at h h1
  generalize upper l.length (some b) = hi at h h2
  simp only at h
  by_cases hc : src.length = hi - lo
  · rw [if_pos hc] at h
    simp only [Except.ok.injEq] at h
    subst h
    simp only [List.length_append, List.length_take, List.length_drop, hc]
    omega
  · rw [if_neg hc] at h
    match src, h with
    | [x], h =>
      simp only [Except.ok.injEq] at h
      subst h
      simp only [List.length_append, List.length_take, List.length_drop, List.length_replicate]
      omega
    | [], h => simp at h
    | _ :: _ :: _, h => simp at h

variable {R X : Type} [CommRing R] [CommRing X]

theorem full_shape (b : Bank R) (x : List R) (method : Option String) (o : List (List R))
    (h : convolveFull b x method = .ok o) :
    o.map List.length =
      List.replicate (b.irs.zip b.offsets).length (x.length + b.irSize - 1) := by
  unfold convolveFull at h
  split_ifs at h with hm
  apply mapM_lengths _ _ _ _ h
  intro p _ row hrow
  have := assign_len _ _ _ (by omega) (by omega) _ _ hrow
  simpa using this

theorem stridedRow_len (sc : List X → List R → Int → Nat → Except PyErr (List (Option R)))
    (xPad : List X) (width : Nat) (s : Int) (ir : List R) (g : Int × Int × Int × Int)
    (row : List (Option R)) (h : stridedRow sc xPad width s ir g = .ok row) : row.length = width := by
  unfold stridedRow at h
  simp only at h
  split at h
  · simp at h
  · rw [(store_ok h).2.1]
    simp

theorem strided_shape (sc : List X → List R → Int → Nat → Except PyErr (List (Option R)))
    (b : Bank R) (x x' : List X) (hl : x.length = x'.length) (s : Int) (o o' : List (List (Option R)))
    (h : convolveStrided sc b x s = .ok o) (h' : convolveStrided sc b x' s = .ok o') :
    SameShape o o' := by
  unfold convolveStrided at h h'
  rw [← hl] at h'
  simp only [bind, Except.bind] at h h'
  cases ha : assign (List.replicate (x.length + 2 * (b.irSize - 1)) (0 : X))
      (some ((b.irSize : Int) - 1)) (some (-((b.irSize : Int) - 1))) x with
  | error e => simp only [ha, reduceCtorEq] at h
  | ok xp =>
    cases ha' : assign (List.replicate (x.length + 2 * (b.irSize - 1)) (0 : X))
        (some ((b.irSize : Int) - 1)) (some (-((b.irSize : Int) - 1))) x' with
    | error e => simp only [ha', reduceCtorEq] at h'
    | ok xp' =>
      cases hg : (b.irs.zip b.offsets).mapM (fun p => geometry b.irSize x.length
          (x.length + 2 * (b.irSize - 1)) p.1.length p.2 s) with
      | error e => simp only [ha, hg, reduceCtorEq] at h
      | ok gs =>
        simp only [ha, hg] at h
        simp only [ha', hg] at h'
        unfold SameShape
        rw [mapM_lengths _ _ _ _ h fun p _ row hrow => stridedRow_len _ _ _ _ _ _ _ hrow,
          mapM_lengths _ _ _ _ h' fun p _ row hrow => stridedRow_len _ _ _ _ _ _ _ hrow]

theorem SameShape.of_map {E F E' F' : Type} {f : E → E'} {g : F → F'} {x : List (List E)}
    {y : List (List F)} (h : SameShape (x.map (List.map f)) (y.map (List.map g))) : SameShape x y := by
  simpa [SameShape, Function.comp_def] using h

theorem convolve_shape (b : Bank R) (x x' : List R) (hl : x.length = x'.length) (c : Bool)
    (m : Option String) (s : Option Int) (o o' : List (List (Option R)))
    (h : convolve b x c m s = .ok o) (h' : convolve b x' c m s = .ok o') : SameShape o o' := by
  unfold convolve at h h'
  cases s with
  | none =>
    simp only at h h'
    cases hf : convolveFull b x m with
    | error e => simp [hf, Except.map] at h
    | ok p =>
      cases hf' : convolveFull b x' m with
      | error e => simp [hf', Except.map] at h'
      | ok p' =>
        simp only [hf, hf', Except.map, Except.ok.injEq] at h h'
        subst h h'
        apply SameShape.map
        rw [SameShape, full_shape b x m p hf, full_shape b x' m p' hf', hl]
  | some s =>
    simp only at h h'
    split_ifs at h h'
    exact strided_shape _ b x x' hl s o o' h h'

end shape

/-- Two cochleagrams have the same type and the same shape. -/
def CochShape : Coch → Coch → Prop
  | .real m, .real m' => SameShape m m'
  | .cplx m, .cplx m' => SameShape m m'
  | _, _ => False

theorem analytic_shape (b : Bank ℂ) (x x' : List ℝ) (hl : x.length = x'.length)
    (m : Option String) (s : Option Int) (o o' : List (List (Option ℂ)))
    (h : convolveAnalytic b x m s = .ok o) (h' : convolveAnalytic b x' m s = .ok o') :
    SameShape o o' := by
  unfold convolveAnalytic at h h'
  cases s with
  | none =>
    exact convolve_shape b (x.map Complex.ofReal) (x'.map Complex.ofReal) (by simpa using hl) false m
      none o o' h h'
  | some s =>
    simp only at h h'
    split_ifs at h h'
    exact strided_shape _ b x x' hl s o o' h h'

section coch
variable (hilb : List ℝ → List ℂ)

theorem filter_shape (hh : ∀ l, (hilb l).length = l.length) (b : IRBank) (x x' : List ℝ)
    (hl : x.length = x'.length) (an m : Option String) (s : Option Int) (o o' : Coch)
    (h : filterWith hilb b x an m s = .ok o) (h' : filterWith hilb b x' an m s = .ok o') :
    CochShape o o' := by
  unfold filterWith at h h'
  cases b with
  | real f b =>
    simp only at h h'
    split_ifs at h h' with hi
    · cases hf : convolve ⟨b.irs.map (List.map Complex.ofReal), b.offsets⟩ (hilb x) true m s with
      | error e => simp [hf, Except.map] at h
      | ok p =>
        cases hf' : convolve ⟨b.irs.map (List.map Complex.ofReal), b.offsets⟩ (hilb x') true m s with
        | error e => simp [hf', Except.map] at h'
        | ok p' =>
          simp only [hf, hf', Except.map, Except.ok.injEq] at h h'
          subst h h'
          exact convolve_shape _ _ _ (by rw [hh, hh, hl]) _ _ _ _ _ hf hf'
    · cases hf : convolve b x false m s with
      | error e => simp [hf, Except.map] at h
      | ok p =>
        cases hf' : convolve b x' false m s with
        | error e => simp [hf', Except.map] at h'
        | ok p' =>
          simp only [hf, hf', Except.map, Except.ok.injEq] at h h'
          subst h h'
          exact convolve_shape _ _ _ hl _ _ _ _ _ hf hf'
  | analytic f b =>
    simp only at h h'
    cases hf : convolveAnalytic b x m s with
    | error e => simp [hf, Except.map] at h
    | ok p =>
      cases hf' : convolveAnalytic b x' m s with
      | error e => simp [hf', Except.map] at h'
      | ok p' =>
        simp only [hf, hf', Except.map, Except.ok.injEq] at h h'
        subst h h'
        exact analytic_shape _ _ _ hl _ _ _ _ hf hf'

theorem hilbertOut_shape (hh : ∀ l, (hilb l).length = l.length) (an : Option String)
    (c c' o o' : Coch) (hs : CochShape c c') (h : hilbertOut hilb an c = .ok o)
    (h' : hilbertOut hilb an c' = .ok o') : CochShape o o' := by
  unfold hilbertOut at h h'
  split_ifs at h h' with ho
  · match c, c', hs, h, h' with
    | .real m, .real m', hs, h, h' =>
      simp only [Except.ok.injEq] at h h'
      subst h h'
      simpa [CochShape, SameShape, Function.comp_def, hh] using hs
    | .cplx _, .cplx _, _, h, _ => simp at h
  · simp only [Except.ok.injEq] at h h'
    subst h h'
    exact hs

theorem abs_shape (c c' : Coch) (h : CochShape c c') : CochShape (absCoch c) (absCoch c') := by
  match c, c', h with
  | .real m, .real m', h => exact SameShape.map _ _ h
  | .cplx m, .cplx m', h => exact SameShape.map _ _ h

theorem hwr_shape (c c' : Coch) (h : CochShape c c') : CochShape (hwrCoch c) (hwrCoch c') := by
  match c, c', h with
  | .real m, .real m', h => exact SameShape.map _ _ h
  | .cplx m, .cplx m', h => exact h

/-- The parts of a cochleagram. -/
theorem cochleagram_parts (x : List ℝ) (fs : Option ℝ) (fb : Filterbank) (an m : Option String)
    (s : Option Int) (post : Option (Option (Coch → Coch))) (r : Coch × List ℝ)
    (h : Psycho.cochleagram hilb x fs fb an m s post = .ok r) :
    ∃ an' b o o', checkAnalytic fb an = .ok an' ∧ bankOf fb fs an' = .ok b ∧
      filterWith hilb b x an' m s = .ok o ∧ hilbertOut hilb an' o = .ok o' ∧
      r.1 = (match postOf an' post with
        | none => o'
        | some f => f o') := by
  unfold Psycho.cochleagram at h
  simp only [bind, Except.bind] at h
  cases h1 : checkAnalytic fb an with
  | error e => simp [h1] at h
  | ok an' =>
    cases h2 : bankOf fb fs an' with
    | error e => simp [h1, h2] at h
    | ok b =>
      cases h3 : filterWith hilb b x an' m s with
      | error e => simp [h1, h2, h3, liftPy] at h
      | ok o =>
        cases h4 : hilbertOut hilb an' o with
        | error e => simp [h1, h2, h3, h4, liftPy] at h
        | ok o' =>
          simp only [h1, h2, h3, h4, liftPy, Except.ok.injEq] at h
          exact ⟨an', b, o, o', rfl, h2, h3, h4, by subst h; rfl⟩

/-- Signals of the same size have cochleagrams of the same type and shape (with the default
post-processing). -/
theorem loss_shape (hh : ∀ l, (hilb l).length = l.length) (gs : List Gammatone) (fs : ℝ)
    (an m : Option String) (s : Option Int) (p : Expo) (c : CochLoss)
    (hc : CochLoss.new gs fs an m s p none = .ok c) (x x' : List ℝ) (hl : x.length = x'.length)
    (o o' : Coch) (h : c.cochleagram hilb x = .ok o) (h' : c.cochleagram hilb x' = .ok o') :
    CochShape o o' := by
  unfold CochLoss.new at hc
  split at hc
  · simp at hc
  · rename_i b hb
    simp only [Except.ok.injEq] at hc
    subst hc
    simp only [CochLoss.cochleagram] at h h'
    split at h
    · simp at h
    · rename_i r hr
      split at h'
      · simp at h'
      · rename_i r' hr'
        simp only [Except.ok.injEq] at h h'
        obtain ⟨an1, b1, q, q1, a1, a2, a3, a4, a5⟩ := cochleagram_parts hilb _ _ _ _ _ _ _ _ hr
        obtain ⟨an2, b2, w, w1, e1, e2, e3, e4, e5⟩ := cochleagram_parts hilb _ _ _ _ _ _ _ _ hr'
        rw [a1, Except.ok.injEq] at e1
        subst e1
        rw [a2, Except.ok.injEq] at e2
        subst e2
        have := hilbertOut_shape hilb hh an1 q w q1 w1
          (filter_shape hilb hh b1 x x' hl an1 m s q w a3 e3) a4 e4
        rw [← h, ← h', a5, e5]
        cases an with
        | none =>
          simp only [Option.isSome_none, Bool.false_eq_true, if_false]
          cases hp : postOf an1 none with
          | none => exact this
          | some f =>
            have hf : f = hwrCoch := by
              simp only [postOf] at hp
              split_ifs at hp
              exact (Option.some.inj hp).symm
            subst hf
            exact hwr_shape _ _ this
        | some a =>
          simp only [Option.isSome_some, if_true, postOf]
          exact abs_shape _ _ this

/-! ## C82 -/

theorem mapM_id_len {E F : Type} (f : E → Option F) : ∀ (l : List E) (r : List F),
    l.mapM f = some r → r.length = l.length
  | [], r, h => by
    simp at h
    simp [h]
  | a :: l, r, h => by
    rw [List.mapM_cons] at h
    cases ha : f a with
    | none => simp [ha] at h
    | some b =>
      cases hl : l.mapM f with
      | none => simp [ha, hl] at h
      | some bs =>
        simp [ha, hl] at h
        subst h
        simp [mapM_id_len f l bs hl]

theorem mapM_shape {E F : Type} (f : E → Option F) : ∀ (l : List (List E)) (r : List (List F)),
    l.mapM (List.mapM f) = some r → SameShape r l
  | [], r, h => by
    simp at h
    simp [h, SameShape]
  | a :: l, r, h => by
    rw [List.mapM_cons] at h
    cases ha : a.mapM f with
    | none => simp [ha] at h
    | some b =>
      cases hl : l.mapM (List.mapM f) with
      | none => simp [ha, hl] at h
      | some bs =>
        simp [ha, hl] at h
        subst h
        have := mapM_shape f l bs hl
        simp only [SameShape] at this
        simp [SameShape, this, mapM_id_len f a b ha]

theorem mapM_inj {E F : Type} (f : E → Option F) (hf : ∀ a b, f a = f b → a = b ∨ f a = none) :
    ∀ (l l' : List E) (r : List F), l.mapM f = some r → l'.mapM f = some r → l = l'
  | [], l', r, h, h' => by
    simp at h
    subst h
    have := mapM_id_len f l' [] h'
    exact (List.length_eq_zero_iff.1 this.symm).symm
  | a :: l, l', r, h, h' => by
    cases l' with
    | nil =>
      simp at h'
      subst h'
      have := mapM_id_len f _ _ h
      simp at this
    | cons a' l' =>
      rw [List.mapM_cons] at h h'
      cases ha : f a with
      | none => simp [ha] at h
      | some b =>
        cases hl : l.mapM f with
        | none => simp [ha, hl] at h
        | some bs =>
          cases ha' : f a' with
          | none => simp [ha'] at h'
          | some b' =>
            cases hl' : l'.mapM f with
            | none => simp [ha', hl'] at h'
            | some bs' =>
              simp [ha, hl] at h
              simp [ha', hl'] at h'
              rw [← h, List.cons.injEq] at h'
              obtain ⟨rfl, rfl⟩ := h'
              rw [mapM_inj f hf l l' _ hl hl']
              rcases hf a a' (by rw [ha, ha']) with e | e
              · rw [e]
              · rw [e] at ha
                simp at ha

theorem cochArr_kind (c c' : Coch) (a a' : Arr ℂ) (hs : CochShape c c') (h : cochArr c = some a)
    (h' : cochArr c' = some a') : a.kind = a'.kind ∧ a.kind ≠ .int ∧ SameShape a.rows a'.rows ∧
      (a.rows = a'.rows ↔ c = c') := by
  have hinj : ∀ a b : Option ℝ, Option.map Complex.ofReal a = Option.map Complex.ofReal b →
      a = b ∨ Option.map Complex.ofReal a = none := by
    intro a b h
    cases a <;> cases b <;> simp_all
  match c, c', hs with
  | .real m, .real m', hs =>
    simp only [cochArr, Option.map_eq_some_iff] at h h'
    obtain ⟨r, hr, rfl⟩ := h
    obtain ⟨r', hr', rfl⟩ := h'
    have s1 := mapM_shape _ _ _ hr
    have s2 := mapM_shape _ _ _ hr'
    refine ⟨rfl, by simp, s1.trans (SameShape.trans hs s2.symm), ?_⟩
    constructor
    · intro e
      have e' : r = r' := e
      subst e'
      congr 1
      refine mapM_inj _ ?_ _ _ _ hr hr'
      intro l l' hll
      cases hl : l.mapM (Option.map Complex.ofReal) with
      | none => exact Or.inr rfl
      | some q => exact Or.inl (mapM_inj _ hinj _ _ q hl (by rw [← hll, hl]))
    · intro e
      simp only [Coch.real.injEq] at e
      subst e
      rw [hr, Option.some.injEq] at hr'
      exact hr'
  | .cplx m, .cplx m', hs =>
    simp only [cochArr, Option.map_eq_some_iff] at h h'
    obtain ⟨r, hr, rfl⟩ := h
    obtain ⟨r', hr', rfl⟩ := h'
    have s1 := mapM_shape _ _ _ hr
    have s2 := mapM_shape _ _ _ hr'
    refine ⟨rfl, by simp, s1.trans (SameShape.trans hs s2.symm), ?_⟩
    constructor
    · intro e
      have e' : r = r' := e
      subst e'
      congr 1
      refine mapM_inj _ ?_ _ _ _ hr hr'
      intro l l' hll
      cases hl : l.mapM id with
      | none => exact Or.inr rfl
      | some q => exact Or.inl (mapM_inj id (fun a b h => Or.inl h) _ _ q hl (by rw [← hll, hl]))
    · intro e
      simp only [Coch.cplx.injEq] at e
      subst e
      rw [hr, Option.some.injEq] at hr'
      exact hr'

/-- **C82 (pseudometric).** With the default post-processing and an exponent of at least one, the
cochleagram loss of signals of the same size whose cochleagrams are finite is a number that is not
negative, is symmetric, satisfies the triangle inequality and is zero exactly if the cochleagrams are
equal. -/
theorem C82_pseudometric (hh : ∀ l, (hilb l).length = l.length) (gs : List Gammatone) (fs : ℝ)
    (an m : Option String) (s : Option Int) (p : Expo) (r : ℝ) (hp : p.Is r) (hr : 1 ≤ r)
    (c : CochLoss) (hc : CochLoss.new gs fs an m s p none = .ok c) (x y z : List ℝ)
    (hxy : x.length = y.length) (hyz : y.length = z.length) (cx cy cz : Coch) (ax ay az : Arr ℂ)
    (hx : c.cochleagram hilb x = .ok cx) (hy : c.cochleagram hilb y = .ok cy)
    (hz : c.cochleagram hilb z = .ok cz) (fx : cochArr cx = some ax) (fy : cochArr cy = some ay)
    (fz : cochArr cz = some az) :
    ∃ dxy dyz dxz : ℝ, c.call hilb x y = .ok (some (ENNReal.ofReal dxy)) ∧
      c.call hilb y x = .ok (some (ENNReal.ofReal dxy)) ∧
      c.call hilb y z = .ok (some (ENNReal.ofReal dyz)) ∧
      c.call hilb x z = .ok (some (ENNReal.ofReal dxz)) ∧
      0 ≤ dxy ∧ 0 ≤ dyz ∧ 0 ≤ dxz ∧ dxz ≤ dxy + dyz ∧ (dxy = 0 ↔ cx = cy) := by
  have hcp : c.p = p := by
    unfold CochLoss.new at hc
    split at hc
    · simp at hc
    · simp only [Except.ok.injEq] at hc
      rw [← hc]
  obtain ⟨k1, k0, s1, i1⟩ := cochArr_kind _ _ _ _
    (loss_shape hilb hh gs fs an m s p c hc x y hxy cx cy hx hy) fx fy
  obtain ⟨k2, -, s2, i2⟩ := cochArr_kind _ _ _ _
    (loss_shape hilb hh gs fs an m s p c hc y z hyz cy cz hy hz) fy fz
  obtain ⟨d, hd⟩ := C53_metric (E := ℂ) ax.kind p r hp hr (fun h => absurd h k0)
  have ex : ax = ⟨ax.kind, ax.rows⟩ := rfl
  have ey : ay = ⟨ax.kind, ay.rows⟩ := by rw [k1]
  have ez : az = ⟨ax.kind, az.rows⟩ := by rw [k1, k2]
  obtain ⟨v1, n1, z1, y1, t1⟩ := hd _ _ _ s1 s2
  obtain ⟨v2, n2, -⟩ := hd _ _ _ s2 s2.symm
  obtain ⟨v3, n3, -⟩ := hd _ _ _ (s1.trans s2) s2.symm
  obtain ⟨v4, -⟩ := hd _ _ _ s1.symm s1
  rw [← y1] at v4
  refine ⟨d ax.rows ay.rows, d ay.rows az.rows, d ax.rows az.rows, ?_, ?_, ?_, ?_, n1, n2, n3, t1, ?_⟩
  · rw [← ex, ← ey] at v1
    simp [CochLoss.call, hx, hy, fx, fy, hcp, v1, liftPy, Except.map]
  · rw [← ex, ← ey] at v4
    simp [CochLoss.call, hx, hy, fx, fy, hcp, v4, liftPy, Except.map]
  · rw [← ey, ← ez] at v2
    simp [CochLoss.call, hz, hy, fz, fy, hcp, v2, liftPy, Except.map]
  · rw [← ex, ← ez] at v3
    simp [CochLoss.call, hx, hz, fx, fz, hcp, v3, liftPy, Except.map]
  · rw [z1, i1]

/-- **C82 (cochleagram).** The cochleagram of the loss is that of the function `cochleagram` with the
filters of the bank, followed by magnitudes if it is analytic. -/
theorem C82_same (gs : List Gammatone) (fs : ℝ) (an m : Option String) (s : Option Int) (p : Expo)
    (c : CochLoss) (hc : CochLoss.new gs fs an m s p none = .ok c) (x : List ℝ) :
    c.cochleagram hilb x =
      (Psycho.cochleagram hilb x (some fs) (.filters gs) an m s none).map fun r =>
        if an = none then r.1 else absCoch r.1 := by
  unfold CochLoss.new at hc
  split at hc
  · simp at hc
  · rename_i b hb
    simp only [Except.ok.injEq] at hc
    subst hc
    have hchk : checkAnalytic (.precomputed b) an = .ok an := by
      unfold checkAnalytic
      cases b with
      | real f b => rfl
      | analytic f b =>
        have : an = some "ir" := by
          by_contra hne
          have hd : decide (an = some "ir") = false := by simpa using hne
          rw [hd] at hb
          unfold precompute at hb
          simp only [bind, Except.bind, Bool.false_eq_true, if_false] at hb
          split at hb
          · simp at hb
          · split at hb <;> simp at hb
        simp [this]
    have e1 : ∀ post, Psycho.cochleagram hilb x none (.precomputed b) an m s post =
        Psycho.cochleagram hilb x (some fs) (.filters gs) an m s post := by
      intro post
      unfold Psycho.cochleagram
      rw [hchk]
      simp only [checkAnalytic, bankOf, hb, bind, Except.bind]
    simp only [CochLoss.cochleagram, e1]
    cases an with
    | none =>
      simp only [Option.isSome_none, Bool.false_eq_true, if_false, if_true]
      cases Psycho.cochleagram hilb x (some fs) (.filters gs) none m s none <;> rfl
    | some a =>
      simp only [Option.isSome_some, if_true, Psycho.cochleagram, checkAnalytic, bankOf, hb, bind,
        Except.bind, postOf]
      cases filterWith hilb b x (some a) m s with
      | error e => rfl
      | ok o =>
        simp only [liftPy]
        cases hilbertOut hilb (some a) o with
        | error e => rfl
        | ok o' => simp [liftPy, Except.map]

theorem mapM_total {E F : Type} (f : E → Option F) : ∀ l : List E, (∀ a ∈ l, ∃ b, f a = some b) →
    ∃ r, l.mapM f = some r
  | [], _ => ⟨[], rfl⟩
  | a :: l, h => by
    obtain ⟨b, hb⟩ := h a (by simp)
    obtain ⟨r, hr⟩ := mapM_total f l fun a ha => h a (by simp [ha])
    exact ⟨b :: r, by rw [List.mapM_cons, hb, hr]; rfl⟩

/-- Spec: the analytic response of filter `g` to the signal `x` at sample `k` of the time axis of the
filter: the impulse response is sampled at `fs` hertz and ends after `t` seconds. -/
noncomputable def respAt (g : Gammatone) (fs t : ℝ) (x : List ℝ) (k : Int) : ℂ :=
  ∑ m ∈ Finset.range x.length, (x.getD m 0 : ℂ) * tap g g.waveAnalytic fs t (k - m)

theorem default_cochleagram (gs : List Gammatone) (fs : ℝ) (T : Gammatone → ℝ)
    (hr : Ready gs fs T) (method : Option String)
    (hm : method ∈ [none, some "overlap-add", some "auto", some "fft", some "direct"])
    (p : Expo) (c : CochLoss) (hc : CochLoss.new gs fs (some "ir") method none p none = .ok c)
    (x : List ℝ) (hx : 1 ≤ x.length) :
    ∃ (rows : List (List (Option ℝ))) (o : Int) (a : Arr ℂ), c.cochleagram hilb x = .ok (.real rows) ∧
      rows.length = gs.length ∧ (∃ g ∈ gs, o = ⌈g.tc * fs⌉) ∧ (∀ g ∈ gs, ⌈g.tc * fs⌉ ≤ o) ∧
      cochArr (.real rows) = some a ∧
      ∀ (i : Nat) (g : Gammatone), gs[i]? = some g → ∃ row, rows[i]? = some row ∧
        ∀ n : Nat, (row[n]?).getD (some 0) = some ‖respAt g fs (T g) x ((n : Int) - o)‖ := by
  obtain ⟨rows, rows', o, h1, h2, -, -, h3, h4, h5⟩ := C76_analytic hilb gs fs T hr x hx method hm
  have hval : ∀ (i : Nat) (g : Gammatone), gs[i]? = some g →
      ∃ row, (rows.map (List.map (Option.map norm)))[i]? = some row ∧
        ∀ n : Nat, (row[n]?).getD (some 0) = some ‖respAt g fs (T g) x ((n : Int) - o)‖ := by
    intro i g hi
    obtain ⟨row, row', r1, -, r3⟩ := h5 i g hi
    refine ⟨row.map (Option.map norm), by simp [r1], fun n => ?_⟩
    obtain ⟨z, z1, z2, -⟩ := r3 n
    have e : ((row.map (Option.map norm))[n]?).getD (some (0 : ℝ)) =
        Option.map norm ((row[n]?).getD (some 0)) := by
      rw [List.getElem?_map]
      cases row[n]? <;> simp
    rw [e, z1, z2, Option.map_some, respAt]
    congr 2
    apply Finset.sum_congr rfl
    intro m _
    rw [show (n : Int) - m - o = (n : Int) - o - m by ring]
  have hfin : ∃ q, (rows.map (List.map (Option.map norm))).mapM
      (List.mapM (Option.map Complex.ofReal)) = some q := by
    apply mapM_total
    intro row hrow
    obtain ⟨i, hi, he⟩ := List.getElem_of_mem hrow
    have hig : i < gs.length := by simpa [h2] using hi
    obtain ⟨row', e1, e2⟩ := hval i gs[i] (List.getElem?_eq_getElem hig)
    rw [List.getElem?_eq_getElem hi, he, Option.some.injEq] at e1
    subst e1
    apply mapM_total
    intro v hv
    obtain ⟨n, hn, hn'⟩ := List.getElem_of_mem hv
    have := e2 n
    rw [List.getElem?_eq_getElem hn, hn', Option.getD_some] at this
    exact ⟨_, by rw [this, Option.map_some]⟩
  obtain ⟨q, hq⟩ := hfin
  refine ⟨rows.map (List.map (Option.map norm)), o, ⟨.float, q⟩, ?_, by simpa using h2, h3, h4,
    by simp only [cochArr, hq, Option.map_some], hval⟩
  rw [C82_same hilb gs fs _ _ _ _ _ hc, h1]
  simp [Except.map, absCoch]

/-- **C82 (analytic responses).** With the analytic mode `"ir"`, every method and no stride, the loss
can be made and gives a finite value for any two signals of the same size that are not empty.  The value
is zero exactly if, for each filter, both responses have the same magnitude at every sample. -/
theorem C82_analytic (hh : ∀ l, (hilb l).length = l.length) (gs : List Gammatone) (fs : ℝ)
    (T : Gammatone → ℝ) (hr : Ready gs fs T) (method : Option String)
    (hm : method ∈ [none, some "overlap-add", some "auto", some "fft", some "direct"])
    (p : Expo) (r : ℝ) (hp : p.Is r) (h1 : 1 ≤ r) :
    ∃ c, CochLoss.new gs fs (some "ir") method none p none = .ok c ∧
      ∃ o : Int, (∃ g ∈ gs, o = ⌈g.tc * fs⌉) ∧ (∀ g ∈ gs, ⌈g.tc * fs⌉ ≤ o) ∧
      ∀ x y : List ℝ, 1 ≤ x.length → x.length = y.length → ∃ d : ℝ, 0 ≤ d ∧
        c.call hilb x y = .ok (some (ENNReal.ofReal d)) ∧
        (d = 0 ↔ ∀ g ∈ gs, ∀ n : Nat, ‖respAt g fs (T g) x ((n : Int) - o)‖ =
          ‖respAt g fs (T g) y ((n : Int) - o)‖) := by
  have hnew : ∃ c, CochLoss.new gs fs (some "ir") method none p none = .ok c := by
    obtain ⟨rows, -, -, e1, -⟩ := C76_analytic hilb gs fs T hr [0] (by simp) method hm
    obtain ⟨an', b, -, -, e2, e3, -⟩ := cochleagram_parts hilb _ _ _ _ _ _ _ _ e1
    simp only [checkAnalytic, Except.ok.injEq] at e2
    subst e2
    have e3' : precompute gs fs (decide (some "ir" = some "ir")) = .ok b := by
      simpa [bankOf] using e3
    exact ⟨_, by rw [CochLoss.new, e3']⟩
  obtain ⟨c, hc⟩ := hnew
  obtain ⟨-, o, -, -, -, o1, o2, -⟩ :=
    default_cochleagram hilb gs fs T hr method hm p c hc [0] (by simp)
  have hou : ∀ o' : Int, (∃ g ∈ gs, o' = ⌈g.tc * fs⌉) → (∀ g ∈ gs, ⌈g.tc * fs⌉ ≤ o') → o' = o := by
    rintro o' ⟨g, hg, e⟩ h'
    obtain ⟨g2, hg2, e2⟩ := o1
    have := o2 g hg
    have := h' g2 hg2
    omega
  refine ⟨c, hc, o, o1, o2, fun x y hx hxy => ?_⟩
  obtain ⟨rx, ox, ax, a1, a2, a3, a4, a5, a6⟩ :=
    default_cochleagram hilb gs fs T hr method hm p c hc x hx
  obtain ⟨ry, oy, ay, b1, b2, b3, b4, b5, b6⟩ :=
    default_cochleagram hilb gs fs T hr method hm p c hc y (hxy ▸ hx)
  rw [hou ox a3 a4] at a6
  rw [hou oy b3 b4] at b6
  have hsh : SameShape rx ry := loss_shape hilb hh gs fs _ _ _ p c hc x y hxy _ _ a1 b1
  obtain ⟨d, -, -, d1, -, -, -, d2, -, -, -, d3⟩ := C82_pseudometric hilb hh gs fs _ _ _ p r hp h1 c hc
    x y y hxy rfl _ _ _ _ _ _ a1 b1 b1 a5 b5 b5
  refine ⟨d, d2, d1, ?_⟩
  rw [d3, Coch.real.injEq]
  constructor
  · rintro rfl g hg n
    obtain ⟨i, hi, he⟩ := List.getElem_of_mem hg
    have hi' : gs[i]? = some g := by rw [List.getElem?_eq_getElem hi, he]
    obtain ⟨row, e1, e2⟩ := a6 i g hi'
    obtain ⟨row', e3, e4⟩ := b6 i g hi'
    rw [e1, Option.some.injEq] at e3
    subst e3
    have := (e2 n).symm.trans (e4 n)
    exact Option.some.inj this
  · intro h
    apply List.ext_getElem?
    intro i
    by_cases hi : i < gs.length
    · obtain ⟨row, e1, e2⟩ := a6 i gs[i] (List.getElem?_eq_getElem hi)
      obtain ⟨row', e3, e4⟩ := b6 i gs[i] (List.getElem?_eq_getElem hi)
      rw [e1, e3]
      have hlen : row.length = row'.length := by
        have := congrArg (fun l => l[i]?) hsh
        simpa [SameShape, e1, e3] using this
      congr 1
      apply List.ext_getElem hlen
      intro n hn hn'
      have u1 := e2 n
      have u2 := e4 n
      rw [List.getElem?_eq_getElem hn, Option.getD_some] at u1
      rw [List.getElem?_eq_getElem hn', Option.getD_some] at u2
      rw [u1, u2, h gs[i] (List.getElem_mem hi) n]
    · rw [List.getElem?_eq_none (by omega), List.getElem?_eq_none (by omega)]

/-- C82: the loss with analytic responses does not tell a signal from its opposite. -/
theorem C82_polarity (hh : ∀ l, (hilb l).length = l.length) (gs : List Gammatone) (fs : ℝ)
    (T : Gammatone → ℝ) (hr : Ready gs fs T) (method : Option String)
    (hm : method ∈ [none, some "overlap-add", some "auto", some "fft", some "direct"])
    (p : Expo) (r : ℝ) (hp : p.Is r) (h1 : 1 ≤ r) (c : CochLoss)
    (hc : CochLoss.new gs fs (some "ir") method none p none = .ok c) (x : List ℝ) (hx : 1 ≤ x.length) :
    c.call hilb x (x.map fun v => -v) = .ok (some 0) := by
  obtain ⟨c', hc', o, -, -, h⟩ := C82_analytic hilb hh gs fs T hr method hm p r hp h1
  rw [hc, Except.ok.injEq] at hc'
  subst hc'
  obtain ⟨d, -, d2, d3⟩ := h x (x.map fun v => -v) hx (by simp)
  have : d = 0 := by
    rw [d3]
    intro g _ n
    have : respAt g fs (T g) (x.map fun v => -v) ((n : Int) - o) = -respAt g fs (T g) x ((n : Int) - o) := by
      unfold respAt
      rw [List.length_map, ← Finset.sum_neg_distrib]
      apply Finset.sum_congr rfl
      intro m _
      have : (x.map fun v => -v).getD m 0 = -x.getD m 0 := by
        simp only [List.getD_eq_getElem?_getD, List.getElem?_map]
        cases x[m]? <;> simp
      rw [this]
      push_cast
      ring
    rw [this, norm_neg]
  rw [d2, this, ENNReal.ofReal_zero]

/-- The hypotheses hold for one filter and the exponent 2. -/
example : ∃ c, CochLoss.new [Gammatone.mk 1 4 (some 1) (some 0) (some 0) false none] 10 (some "ir") none
    none (.float 2) none = .ok c ∧
    c.call (fun l => l.map Complex.ofReal) [1, 2, 3] [-1, -2, -3] = .ok (some 0) := by
  obtain ⟨T, hT⟩ := Psycho.ready_example
  obtain ⟨c, hc, -⟩ := C82_analytic (fun l => l.map Complex.ofReal) (by simp) _ _ T hT none (by simp)
    (.float 2) 2 (by simp [Expo.Is]) (by norm_num)
  refine ⟨c, hc, ?_⟩
  simpa using C82_polarity (fun l => l.map Complex.ofReal) (by simp) _ _ T hT none (by simp)
    (.float 2) 2 (by simp [Expo.Is]) (by norm_num) c hc [1, 2, 3] (by simp)

end coch
end Verif.Eval
