import Verif.Hinge.StateModel
import Verif.Hinge.Props

/-!
# C158: hinge regression over any history of fits
-/

set_option autoImplicit false
set_option linter.unusedSectionVars false
set_option linter.unusedSimpArgs false

namespace Verif.Hinge

variable {K : Type*} [Field K] [LinearOrder K] [IsStrictOrderedRing K]

/-- The outcome of the linear regressor for the data does not depend on what it was fitted to before. -/
def Fresh (S : Steps K) : Prop := ∀ r r' x y, (S.lin r x y).2 = (S.lin r' x y).2

/-- `c` are starting values that the call can compute. -/
def Starts (c : Coeffs K) (d : Call K) : Prop :=
  ∃ r k q, (d.steps.lin r d.x d.y).2 = .ok (k, q) ∧ d.steps.init d.x d.y k q = .ok c

/-- `p` are coefficients that the search of the call finds, from its starting values. -/
def Finds (p : Coeffs K) (d : Call K) : Prop :=
  ∃ r k q c b, (d.steps.lin r d.x d.y).2 = .ok (k, q) ∧ d.steps.init d.x d.y k q = .ok c ∧
    d.steps.bounds d.x d.y k q = .ok b ∧
    d.steps.solve (fun p => List.zipWith (fun u v => p.k * min u p.a + p.q - v) d.x d.y) c b.1 b.2 = .ok p

theorem residuals_def (x y : List K) :
    residuals x y = fun p => List.zipWith (fun u v => p.k * min u p.a + p.q - v) x y := by
  funext p
  simp only [residuals, hingeFunction, add_comm]

theorem leastSquares_ok {solve : (Coeffs K → List K) → Coeffs K → Coeffs K → Coeffs K → Except PyErr (Coeffs K)}
    {f : Coeffs K → List K} {c lo hi p : Coeffs K} (h : leastSquares solve f c lo hi = .ok p) :
    solve f c lo hi = .ok p := by
  unfold leastSquares at h
  split at h
  · simp at h
  · split at h
    · simp at h
    · exact h

/-- The possible courses of a call. -/
theorem fit_cases (S : Steps K) (s : Hr K) (x y : List K) :
    (∃ e, (S.lin s.reg x y).2 = .error e ∧ S.fit s x y = ([s, { s with reg := (S.lin s.reg x y).1 }], some e)) ∨
    (∃ k q e, (S.lin s.reg x y).2 = .ok (k, q) ∧ S.init x y k q = .error e ∧
      S.fit s x y = ([s, { s with reg := (S.lin s.reg x y).1 }], some e)) ∨
    (∃ k q c e, (S.lin s.reg x y).2 = .ok (k, q) ∧ S.init x y k q = .ok c ∧
      (S.bounds x y k q = .error e ∨ ∃ b, S.bounds x y k q = .ok b ∧
        leastSquares S.solve (residuals x y) c b.1 b.2 = .error e) ∧
      S.fit s x y = ([s, { s with reg := (S.lin s.reg x y).1 },
        ⟨(S.lin s.reg x y).1, some c, s.result⟩], some e)) ∨
    (∃ k q c b p, (S.lin s.reg x y).2 = .ok (k, q) ∧ S.init x y k q = .ok c ∧ S.bounds x y k q = .ok b ∧
      leastSquares S.solve (residuals x y) c b.1 b.2 = .ok p ∧
      S.fit s x y = ([s, { s with reg := (S.lin s.reg x y).1 }, ⟨(S.lin s.reg x y).1, some c, s.result⟩,
        ⟨(S.lin s.reg x y).1, some c, some p⟩, ⟨(S.lin s.reg x y).1, some p, some p⟩], none)) := by
  rcases h1 : (S.lin s.reg x y).2 with e | ⟨k, q⟩
  · exact Or.inl ⟨e, rfl, by simp [Steps.fit, h1]⟩
  rcases h2 : S.init x y k q with e | c
  · exact Or.inr (Or.inl ⟨k, q, e, rfl, h2, by simp [Steps.fit, h1, h2]⟩)
  rcases h3 : S.bounds x y k q with e | b
  · exact Or.inr (Or.inr (Or.inl ⟨k, q, c, e, rfl, h2, Or.inl h3, by simp [Steps.fit, h1, h2, h3]⟩))
  rcases h4 : leastSquares S.solve (residuals x y) c b.1 b.2 with e | p
  · exact Or.inr (Or.inr (Or.inl ⟨k, q, c, e, rfl, h2, Or.inr ⟨b, h3, h4⟩, by simp [Steps.fit, h1, h2, h3, h4]⟩))
  · exact Or.inr (Or.inr (Or.inr ⟨k, q, c, b, p, rfl, h2, h3, h4, by simp [Steps.fit, h1, h2, h3, h4]⟩))

/-- C158: a call that returns leaves the coefficients found by the search, also as `result_`. -/
theorem C158_success (S : Steps K) (s : Hr K) (x y : List K) (h : (S.fit s x y).2 = none) :
    ∃ p, Finds p ⟨S, x, y, none⟩ ∧ (Call.run s ⟨S, x, y, none⟩).coeffs = some p ∧
      (Call.run s ⟨S, x, y, none⟩).result = some p := by
  rcases fit_cases S s x y with ⟨e, _, hf⟩ | ⟨k, q, e, _, _, hf⟩ | ⟨k, q, c, e, _, _, _, hf⟩ |
    ⟨k, q, c, b, p, h1, h2, h3, h4, hf⟩
  · rw [hf] at h; simp at h
  · rw [hf] at h; simp at h
  · rw [hf] at h; simp at h
  · refine ⟨p, ⟨s.reg, k, q, c, b, h1, h2, h3, ?_⟩, by simp [Call.run, hf], by simp [Call.run, hf]⟩
    have := leastSquares_ok h4
    rwa [residuals_def] at this

/-- C158: whether a call raises, what it raises and what it finds is given by the functional description, whatever
was fitted before. -/
theorem C158_outcome (S : Steps K) (hS : Fresh S) (s : Hr K) (x y : List K) :
    (∀ e, (S.fit s x y).2 = some e ↔
      fit (fun x y => (S.lin none x y).2) S.init S.bounds S.solve x y = .error e) ∧
    (∀ p, (S.fit s x y).2 = none ∧ (Call.run s ⟨S, x, y, none⟩).coeffs = some p ↔
      fit (fun x y => (S.lin none x y).2) S.init S.bounds S.solve x y = .ok p) := by
  have hl := hS none s.reg x y
  rcases fit_cases S s x y with ⟨e, h1, hf⟩ | ⟨k, q, e, h1, h2, hf⟩ | ⟨k, q, c, e, h1, h2, h3, hf⟩ |
    ⟨k, q, c, b, p, h1, h2, h3, h4, hf⟩
  · simp [hf, fit, hl, h1]
  · simp [hf, fit, hl, h1, h2]
  · rcases h3 with h3 | ⟨b, h3, h4⟩
    · simp [hf, fit, hl, h1, h2, h3]
    · simp [hf, fit, hl, h1, h2, h3, h4]
  · simp [Call.run, hf, fit, hl, h1, h2, h3, h4]

/-- C158: a call that raises leaves `result_` as it was, and `coeffs_` as it was if the linear regressor or the
initialiser raised; otherwise `coeffs_` are the starting values of this call. -/
theorem C158_failure (S : Steps K) (s : Hr K) (x y : List K) (e : PyErr) (h : (S.fit s x y).2 = some e) :
    (Call.run s ⟨S, x, y, none⟩).result = s.result ∧
    (∀ k q c, (S.lin s.reg x y).2 = .ok (k, q) → S.init x y k q = .ok c →
      (Call.run s ⟨S, x, y, none⟩).coeffs = some c) ∧
    ((¬ ∃ k q c, (S.lin s.reg x y).2 = .ok (k, q) ∧ S.init x y k q = .ok c) →
      (Call.run s ⟨S, x, y, none⟩).coeffs = s.coeffs) := by
  rcases fit_cases S s x y with ⟨e, h1, hf⟩ | ⟨k, q, e, h1, h2, hf⟩ | ⟨k, q, c, e, h1, h2, _, hf⟩ |
    ⟨k, q, c, b, p, h1, h2, h3, h4, hf⟩
  · refine ⟨by simp [Call.run, hf], ?_, fun _ => by simp [Call.run, hf]⟩
    intro k q c g
    rw [h1] at g
    simp at g
  · refine ⟨by simp [Call.run, hf], ?_, fun _ => by simp [Call.run, hf]⟩
    intro k' q' c g g'
    rw [h1] at g
    simp only [Except.ok.injEq, Prod.mk.injEq] at g
    rw [← g.1, ← g.2, h2] at g'
    simp at g'
  · refine ⟨by simp [Call.run, hf], ?_, fun g => absurd ⟨k, q, c, h1, h2⟩ g⟩
    intro k' q' c' g g'
    rw [h1] at g
    simp only [Except.ok.injEq, Prod.mk.injEq] at g
    rw [← g.1, ← g.2, h2] at g'
    simp only [Except.ok.injEq] at g'
    simp [Call.run, hf, g']
  · rw [hf] at h; simp at h

/-- C158 (finding): with the default starting values and bounds, a fit to a single point raises `ValueError` and yet
leaves coefficients: knee at the point, slope and intercept of the linear regressor. -/
theorem C158_single (S : Steps K) (hi : S.init = defaultCoeffsInit) (hb : S.bounds = defaultBounds) (s : Hr K)
    (u v k q : K) (hl : (S.lin s.reg [u] [v]).2 = .ok (k, q)) :
    (S.fit s [u] [v]).2 = some .valueError ∧
    (∀ x, (Call.run s ⟨S, [u], [v], none⟩).predict x = .ok (x.map fun w => k * min w u + q)) ∧
    (Call.run s ⟨S, [u], [v], none⟩).akq = .ok (u, k, q) ∧
    (Call.run s ⟨S, [u], [v], none⟩).result = s.result := by
  have hu : (u + u) / 2 = u := by
    rw [← two_mul, mul_div_assoc, mul_comm, div_mul_cancel₀ _ (by norm_num : (2 : K) ≠ 0)]
  have h1 : S.init [u] [v] k q = .ok ⟨u, k, q⟩ := by
    rw [hi]
    simp [defaultCoeffsInit, npMin, npMax, hu]
  have h2 : S.bounds [u] [v] k q = .error .valueError := by
    rw [hb]
    exact C28_short _ _ _ _ (by simp)
  have hf : (S.fit s [u] [v]).2 = some .valueError := by simp [Steps.fit, hl, h1, h2]
  obtain ⟨g1, g2, _⟩ := C158_failure S s [u] [v] _ hf
  have hc := g2 k q _ hl h1
  refine ⟨hf, ?_, ?_, g1⟩
  · intro x
    rw [Hr.predict, hc]
    simp only [Hinge.predict, hingeFunction, add_comm]
  · rw [Hr.akq, hc]

/-- C158: before any call, `predict`, `a_`, `k_` and `q_` are an `AttributeError`; with coefficients, `predict` gives the
hinge of `a_`, `k_` and `q_` at each time. -/
theorem C158_predict (s : Hr K) (x : List K) :
    ((Hr.new : Hr K).predict x = .error .attributeError ∧ (Hr.new : Hr K).akq = .error .attributeError) ∧
    ∀ a k q, s.akq = .ok (a, k, q) → ∃ v, s.predict x = .ok v ∧ v.length = x.length ∧
      ∀ (i : Nat) (u w : K), x[i]? = some u → v[i]? = some w →
        (u ≤ a → w = k * u + q) ∧ (a ≤ u → w = k * a + q) := by
  refine ⟨⟨rfl, rfl⟩, ?_⟩
  intro a k q h
  unfold Hr.akq at h
  split at h
  · simp at h
  · rename_i p hp
    simp only [Except.ok.injEq, Prod.mk.injEq] at h
    obtain ⟨rfl, rfl, rfl⟩ := h
    exact ⟨_, by rw [Hr.predict, hp], (C27_predict p x).1, (C27_predict p x).2⟩

/-- All that can be said after any calls, however interrupted. -/
def Known (calls : List (Call K)) (s : Hr K) : Prop :=
  (∀ c, s.coeffs = some c → ∃ d ∈ calls, Starts c d ∨ Finds c d) ∧
  (∀ p, s.result = some p → (∃ d ∈ calls, Finds p d) ∧ s.coeffs ≠ none)

theorem known_step (calls : List (Call K)) (s : Hr K) (d : Call K) (h : Known calls s) :
    ∀ s' ∈ (d.steps.fit s d.x d.y).1, Known (calls ++ [d]) s' := by
  have h0 : Known (calls ++ [d]) s := by
    refine ⟨fun c hc => ?_, fun p hp => ?_⟩
    · obtain ⟨d', hd, h'⟩ := h.1 c hc
      exact ⟨d', by simp [hd], h'⟩
    · obtain ⟨⟨d', hd, h'⟩, h2⟩ := h.2 p hp
      exact ⟨⟨d', by simp [hd], h'⟩, h2⟩
  have h1 : Known (calls ++ [d]) { s with reg := (d.steps.lin s.reg d.x d.y).1 } := h0
  have h2 : ∀ k q c, (d.steps.lin s.reg d.x d.y).2 = .ok (k, q) → d.steps.init d.x d.y k q = .ok c →
      Known (calls ++ [d]) ⟨(d.steps.lin s.reg d.x d.y).1, some c, s.result⟩ := by
    intro k q c g1 g2
    refine ⟨fun c' hc => ?_, fun p hp => ?_⟩
    · simp only [Option.some.injEq] at hc
      subst hc
      exact ⟨d, by simp, Or.inl ⟨s.reg, k, q, g1, g2⟩⟩
    · exact ⟨(h0.2 p hp).1, by simp⟩
  rcases fit_cases d.steps s d.x d.y with ⟨e, _, hf⟩ | ⟨k, q, e, _, _, hf⟩ | ⟨k, q, c, e, g1, g2, _, hf⟩ |
    ⟨k, q, c, b, p, g1, g2, g3, g4, hf⟩
  · intro s' hs
    rw [hf] at hs
    simp only [List.mem_cons, List.not_mem_nil, or_false] at hs
    rcases hs with rfl | rfl
    · exact h0
    · exact h1
  · intro s' hs
    rw [hf] at hs
    simp only [List.mem_cons, List.not_mem_nil, or_false] at hs
    rcases hs with rfl | rfl
    · exact h0
    · exact h1
  · intro s' hs
    rw [hf] at hs
    simp only [List.mem_cons, List.not_mem_nil, or_false] at hs
    rcases hs with rfl | rfl | rfl
    · exact h0
    · exact h1
    · exact h2 k q c g1 g2
  · have hp : Finds p d := by
      refine ⟨s.reg, k, q, c, b, g1, g2, g3, ?_⟩
      have := leastSquares_ok g4
      rwa [residuals_def] at this
    intro s' hs
    rw [hf] at hs
    simp only [List.mem_cons, List.not_mem_nil, or_false] at hs
    rcases hs with rfl | rfl | rfl | rfl | rfl
    · exact h0
    · exact h1
    · exact h2 k q c g1 g2
    · refine ⟨(h2 k q c g1 g2).1, fun p' hp' => ?_⟩
      simp only [Option.some.injEq] at hp'
      subst hp'
      exact ⟨⟨d, by simp, hp⟩, by simp⟩
    · refine ⟨fun c' hc => ?_, fun p' hp' => ?_⟩
      · simp only [Option.some.injEq] at hc
        subst hc
        exact ⟨d, by simp, Or.inr hp⟩
      · simp only [Option.some.injEq] at hp'
        subst hp'
        exact ⟨⟨d, by simp, hp⟩, by simp⟩

/-- The trace of a call is not empty. -/
theorem run_mem (s : Hr K) (d : Call K) : d.run s ∈ (d.steps.fit s d.x d.y).1 := by
  have hne : (d.steps.fit s d.x d.y).1 ≠ [] := by
    rcases fit_cases d.steps s d.x d.y with ⟨e, _, hf⟩ | ⟨k, q, e, _, _, hf⟩ | ⟨k, q, c, e, _, _, _, hf⟩ |
      ⟨k, q, c, b, p, _, _, _, _, hf⟩ <;> simp [hf]
  have hlast : (d.steps.fit s d.x d.y).1.getLastD s ∈ (d.steps.fit s d.x d.y).1 := by
    rw [List.getLastD_eq_getLast?, List.getLast?_eq_getLast_of_ne_nil hne]
    exact List.getLast_mem hne
  unfold Call.run
  cases d.stop with
  | none => exact hlast
  | some k =>
    simp only
    cases hk : (d.steps.fit s d.x d.y).1[k]? with
    | none => exact hlast
    | some s' => exact List.mem_of_getElem? hk

/-- C158: after any history of calls of a new object, each possibly failing or interrupted between any two
assignments: coefficients are the starting values or the result of one of the calls, `result_` is the result of one of
the calls, and there is no `result_` without coefficients. -/
theorem C158_history (calls : List (Call K)) : Known calls (calls.foldl (fun s d => d.run s) Hr.new) := by
  have key : ∀ (cs : List (Call K)) (before : List (Call K)) (s : Hr K), Known before s →
      Known (before ++ cs) (cs.foldl (fun s d => d.run s) s) := by
    intro cs
    induction cs with
    | nil => intro before s h; simpa using h
    | cons d cs ih =>
      intro before s h
      have := ih (before ++ [d]) (d.run s) (known_step before s d h _ (run_mem s d))
      simpa using this
  have := key calls [] Hr.new ⟨by intro c h; simp [Hr.new] at h, by intro p h; simp [Hr.new] at h⟩
  simpa using this

/-- C158: with a linear regressor that does not remember, a call in any state (in particular after any history)
raises what it raises for a new object, or gives what it gives there. -/
theorem C158_refit (S : Steps K) (hS : Fresh S) (x y : List K) (s : Hr K) :
    (S.fit s x y).2 = (S.fit Hr.new x y).2 ∧
    ((S.fit s x y).2 = none → (Call.run s ⟨S, x, y, none⟩).coeffs = (Call.run Hr.new ⟨S, x, y, none⟩).coeffs ∧
      (Call.run s ⟨S, x, y, none⟩).result = (Call.run Hr.new ⟨S, x, y, none⟩).result) := by
  obtain ⟨a1, a2⟩ := C158_outcome S hS s x y
  obtain ⟨b1, b2⟩ := C158_outcome S hS Hr.new x y
  have e : (S.fit s x y).2 = (S.fit Hr.new x y).2 := by
    apply Option.ext
    intro e
    rw [a1 e, b1 e]
  refine ⟨e, fun h => ?_⟩
  obtain ⟨p, _, c1, c2⟩ := C158_success S s x y h
  obtain ⟨p', _, d1, d2⟩ := C158_success S Hr.new x y (e ▸ h)
  have := (a2 p).1 ⟨h, c1⟩
  rw [(b2 p').1 ⟨e ▸ h, d1⟩, Except.ok.injEq] at this
  rw [c1, c2, d1, d2, this]
  exact ⟨rfl, rfl⟩

/-! ## A concrete case -/

/-- A regressor that computes the line through the first two points, default starting values and bounds, and a search
that stays at its starting point. -/
def exHinge : Steps ℚ where
  lin _ x y :=
    match x, y with
    | a :: b :: _, u :: v :: _ => (some ((v - u) / (b - a), u - (v - u) / (b - a) * a), .ok ((v - u) / (b - a),
        u - (v - u) / (b - a) * a))
    | [_], [u] => (some (0, u), .ok (0, u))
    | _, _ => (none, .error .valueError)
  init := defaultCoeffsInit
  bounds := defaultBounds
  solve _ x0 _ _ := .ok x0

/-- The regressor does not remember. -/
example : Fresh exHinge := fun _ _ _ _ => rfl

/-- A fit to three points, then a failed one to a single point: `result_` is that of the first fit, and the
coefficients are the starting values of the second. -/
example : ((exHinge.fit Hr.new [0, 1, 2] [-1, -3, -8]).2 = none ∧
    let s := Call.run Hr.new ⟨exHinge, [0, 1, 2], [-1, -3, -8], none⟩
    s.coeffs = some ⟨1, -2, -1⟩ ∧ (exHinge.fit s [5] [7]).2 = some .valueError ∧
    (Call.run s ⟨exHinge, [5], [7], none⟩).coeffs = some ⟨5, 0, 7⟩ ∧
    (Call.run s ⟨exHinge, [5], [7], none⟩).result = some ⟨1, -2, -1⟩) := by
  decide +kernel

end Verif.Hinge
