import Verif.Learn.EstFrame

/-!
# When `set_params` succeeds, and that it ends
-/

set_option autoImplicit false
set_option linter.unusedSectionVars false
set_option linter.unusedSimpArgs false

namespace Verif.Est

open Verif

variable {A C : Type}

/-- No argument belongs to a part that another argument replaces. -/
def Apart (kw : Dict (Val A)) : Prop := ∀ e ∈ kw, ∀ e' ∈ kw, ∀ r, e'.1 ≠ join e.1 r

/-! ## Success -/

theorem gather_ok {T : Table A C} {depth i : Nat} (sl : Dict (Slot A C)) (kw : Dict (Val A)) {h h' : Heap A C}
    (hs : ∀ e ∈ kw, ∃ s, sl.get? (partition e.1).1 = some s) (valid : Dict (Val A)) (nested : Dict (Dict (Val A)))
    {res : Except PyErr (Dict (Val A) × Dict (Dict (Val A)))}
    (e : gather T depth i sl kw h valid nested = some (h', res)) : ∃ p, res = .ok p := by
  induction kw generalizing h valid nested with
  | nil =>
    simp only [gather, Option.some.injEq, Prod.mk.injEq] at e
    exact ⟨_, e.2.symm⟩
  | cons x kw ih =>
    obtain ⟨k, v⟩ := x
    obtain ⟨s, hs1⟩ := hs (k, v) (by simp)
    have hs' : ∀ e ∈ kw, ∃ s, sl.get? (partition e.1).1 = some s := fun e he => hs e (by simp [he])
    simp only at hs1
    rw [gather] at e
    simp only [hs1] at e
    cases hp : (partition k).2 with
    | some sub =>
      simp only [hp] at e
      exact ih hs' _ _ e
    | none =>
      simp only [hp] at e
      cases ha : setAttr T depth i s (partition k).1 v h with
      | none => rw [ha] at e; simp at e
      | some h1 =>
        simp only [ha] at e
        exact ih hs' _ _ e

theorem gather_err {T : Table A C} {depth i : Nat} (sl : Dict (Slot A C)) (kw : Dict (Val A)) {h h' : Heap A C}
    (valid : Dict (Val A)) (nested : Dict (Dict (Val A))) {err : PyErr}
    (e : gather T depth i sl kw h valid nested = some (h', .error err)) : err = .valueError := by
  induction kw generalizing h valid nested with
  | nil => simp [gather] at e
  | cons x kw ih =>
    obtain ⟨k, v⟩ := x
    rw [gather] at e
    cases hs1 : sl.get? (partition k).1 with
    | none =>
      simp only [hs1, Option.some.injEq, Prod.mk.injEq, Except.error.injEq] at e
      exact e.2.symm
    | some s =>
      simp only [hs1] at e
      cases hp : (partition k).2 with
      | some sub =>
        simp only [hp] at e
        exact ih _ _ e
      | none =>
        simp only [hp] at e
        cases ha : setAttr T depth i s (partition k).1 v h with
        | none => rw [ha] at e; simp at e
        | some h1 =>
          simp only [ha] at e
          exact ih _ _ e

theorem spread_err {rec : Nat → Dict (Val A) → Heap A C → Option (Heap A C × Except PyErr Unit)}
    (hrec : ∀ j sub h h' err, rec j sub h = some (h', .error err) → err = .valueError ∨ err = .attributeError)
    (valid : Dict (Val A)) (nested : Dict (Dict (Val A))) {h h' : Heap A C} {err : PyErr}
    (e : spread rec valid nested h = some (h', .error err)) : err = .valueError ∨ err = .attributeError := by
  induction nested generalizing h with
  | nil => simp [spread] at e
  | cons x nested ih =>
    obtain ⟨n, d⟩ := x
    rw [spread] at e
    have other : ∀ w : Option (Val A), (∀ j, w ≠ some (.ref j)) → valid.get? n = w →
        err = .valueError ∨ err = .attributeError := by
      intro w hw hv
      rw [hv] at e
      cases w with
      | none => simp only [Option.some.injEq, Prod.mk.injEq, Except.error.injEq] at e; exact .inr e.2.symm
      | some u =>
        cases u with
        | ref j => exact absurd rfl (hw j)
        | none => simp only [Option.some.injEq, Prod.mk.injEq, Except.error.injEq] at e; exact .inr e.2.symm
        | atom a => simp only [Option.some.injEq, Prod.mk.injEq, Except.error.injEq] at e; exact .inr e.2.symm
    cases hv : valid.get? n with
    | none => exact other _ (by simp) hv
    | some u =>
      cases u with
      | none => exact other _ (by simp) hv
      | atom a => exact other _ (by simp) hv
      | ref j =>
        simp only [hv] at e
        cases hr : rec j d h with
        | none => rw [hr] at e; simp at e
        | some r =>
          obtain ⟨h1, r1⟩ := r
          simp only [hr] at e
          cases r1 with
          | error err' =>
            simp only [Option.some.injEq, Prod.mk.injEq, Except.error.injEq] at e
            obtain ⟨rfl, rfl⟩ := e
            exact hrec _ _ _ _ _ hr
          | ok u => exact ih e

/-- The exceptions of `set_params`. -/
theorem setParams_err {T : Table A C} {depth fuel i : Nat} {kw : Dict (Val A)} {h h' : Heap A C} {err : PyErr}
    (e : setParams T depth fuel i kw h = some (h', .error err)) : err = .valueError ∨ err = .attributeError := by
  induction fuel generalizing i kw h h' err with
  | zero => simp [setParams] at e
  | succ fuel ih =>
    rw [setParams] at e
    split at e
    · simp at e
    · cases hi : h[i]? with
      | none => rw [hi] at e; simp at e
      | some o =>
        simp only [hi] at e
        cases hg : gather T depth i (T.slots o.cls) kw h o.attrs [] with
        | none => rw [hg] at e; simp at e
        | some r =>
          obtain ⟨h1, r1⟩ := r
          simp only [hg] at e
          cases r1 with
          | error err' =>
            simp only [Option.some.injEq, Prod.mk.injEq, Except.error.injEq] at e
            obtain ⟨rfl, rfl⟩ := e
            exact .inl (gather_err _ _ _ _ hg)
          | ok p => exact spread_err (fun j sub h h' err he => ih he) _ _ e

theorem spread_ok {T : Table A C} {rec : Nat → Dict (Val A) → Heap A C → Option (Heap A C × Except PyErr Unit)}
    (hrec : ∀ j sub h h' res fp, Wf T h → Own h [.ref j] fp → Plain sub → Dict.Ok sub →
      rec j sub h = some (h', res) → Post T h fp j sub h' res)
    (hgo : ∀ j sub h h' res fp, Wf T h → Own h [.ref j] fp → Plain sub → Dict.Ok sub → Apart sub →
      (∀ e ∈ sub, ∃ s, SlotAt T h j e.1 s) → rec j sub h = some (h', res) → res = .ok ())
    {i : Nat} (valid : Dict (Val A)) (nested : Dict (Dict (Val A))) (hn : nested.Ok)
    (hsub : ∀ n d, (n, d) ∈ nested → Plain d ∧ d.Ok ∧ Apart d) {h h' : Heap A C} (w : Wf T h) {fp : List Nat}
    (o : Own h [.ref i] fp) {ob : Obj A C} (hi : h[i]? = some ob)
    (hv : ∀ n d, (n, d) ∈ nested → ∃ j, valid.get? n = some (.ref j) ∧ ob.attrs.get? n = some (.ref j) ∧
      ∀ e ∈ d, ∃ s, SlotAt T h j e.1 s)
    {res : Except PyErr Unit} (e : spread rec valid nested h = some (h', res)) : res = .ok () := by
  induction nested generalizing h fp with
  | nil =>
    simp only [spread, Option.some.injEq, Prod.mk.injEq] at e
    exact e.2.symm
  | cons x nested ih =>
    obtain ⟨n, d⟩ := x
    simp only [Dict.Ok, List.map_cons, List.nodup_cons] at hn
    obtain ⟨j, hvn, haj, hsl⟩ := hv n d (by simp)
    rw [spread] at e
    simp only [hvn] at e
    cases hr : rec j d h with
    | none => rw [hr] at e; simp at e
    | some r =>
      obtain ⟨h1, r1⟩ := r
      simp only [hr] at e
      obtain ⟨hpd, hod, had⟩ := hsub n d (by simp)
      -- the spread of the first part alone gives the frame
      obtain ⟨ob', f, hi', rfl, of, hif⟩ := own_ref o
      rw [hi] at hi'
      cases hi'
      obtain ⟨fj, rest, oj, dj, mj, sj, pj⟩ := of.split _ _ _ haj
      have hr1 := hgo j d h h1 r1 fj w oj hpd hod had hsl hr
      subst hr1
      simp only at e
      obtain ⟨fp1, t1, t2, t3, t4, _, t6⟩ := spread_spec hrec valid [(n, d)] (by simp [Dict.Ok])
        (fun n' d' hm => by
          obtain ⟨rfl, rfl⟩ := Prod.mk.inj (List.mem_singleton.1 hm)
          exact ⟨hpd, hod⟩) w o hi
        (fun n' d' j' hm hvj => by
          obtain ⟨rfl, rfl⟩ := Prod.mk.inj (List.mem_singleton.1 hm)
          rw [hvn] at hvj
          simp only [Option.some.injEq, Val.ref.injEq] at hvj
          rw [← hvj]; exact haj)
        (h' := h1) (res := .ok ()) (by rw [spread]; simp only [hvn, hr]; rfl)
      obtain ⟨fj', oj', gj, _, _⟩ := hrec j d h h1 _ fj w oj hpd hod hr
      refine ih hn.2 (fun n d hm => hsub n d (by simp [hm])) t3 t1 t4 (fun n' d' hm => ?_) e
      obtain ⟨j', v1, v2, v3⟩ := hv n' d' (by simp [hm])
      have hne : n' ≠ n := by
        intro hnn
        exact hn.1 (List.mem_map.2 ⟨(n', d'), hm, hnn⟩)
      obtain ⟨g, og, mg⟩ := sj n' _ hne v2
      refine ⟨j', v1, v2, fun e he => ?_⟩
      obtain ⟨s, hs⟩ := v3 e he
      exact ⟨s, hs.frame og fun x hx => gj.same x (of.lt x ((mj x).2 (.inr (mg x hx))))
        fun hxf => dj x hxf (mg x hx)⟩

theorem setParams_ok {T : Table A C} (hT : T.Good) {depth fuel i : Nat} {kw : Dict (Val A)} (hkw : kw.Ok)
    (hpl : Plain kw) (hap : Apart kw) {h h' : Heap A C} (w : Wf T h) {fp : List Nat} (o : Own h [.ref i] fp)
    (hsl : ∀ e ∈ kw, ∃ s, SlotAt T h i e.1 s)
    {res : Except PyErr Unit} (e : setParams T depth fuel i kw h = some (h', res)) : res = .ok () := by
  induction fuel generalizing i kw h h' fp res with
  | zero => simp [setParams] at e
  | succ fuel ih =>
    rw [setParams] at e
    cases hemp : kw.isEmpty with
    | true =>
      simp only [hemp, if_true, Option.some.injEq, Prod.mk.injEq] at e
      exact e.2.symm
    | false =>
      obtain ⟨⟨c, attrs⟩, f, hi, rfl, of, hif⟩ := own_ref o
      simp only [hemp, Bool.false_eq_true, if_false, hi] at e
      cases hg : gather T depth i (T.slots c) kw h attrs [] with
      | none => rw [hg] at e; simp at e
      | some r =>
        obtain ⟨h1, r1⟩ := r
        obtain ⟨fp1, attrs', o1, g1, w1, hi1, sm1, keep1, ok1⟩ := gather_spec hT c kw hkw hpl w o hi _ _ hg
        have hfirst : ∀ e ∈ kw, ∃ s, (T.slots c).get? (partition e.1).1 = some s := by
          intro e he
          obtain ⟨s, hs⟩ := hsl e he
          rw [slotAt_iff] at hs
          obtain ⟨ob, hob, ⟨_, h2⟩ | ⟨r, j, _, h2, _⟩⟩ := hs
          · rw [hi] at hob; cases hob
            exact ⟨s, h2⟩
          · rw [hi] at hob; cases hob
            have := get?_keys _ _ (wf_get w hi).1 (partition e.1).1
            simp only at this h2
            rw [h2] at this
            exact Option.isSome_iff_exists.1 (by simpa using this.symm)
        obtain ⟨⟨valid, nested⟩, rfl⟩ := gather_ok _ _ hfirst _ _ hg
        simp only [hg] at e
        obtain ⟨rfl, hval, hslots, hst⟩ := ok1 valid nested rfl
        obtain ⟨nok, nsub⟩ := nest_ok kw [] (by simp [Dict.Ok]) (by simp [Dict.get?])
        have hmem : ∀ n d, (n, d) ∈ nest [] kw → ∀ x ∈ d, ∃ k, partition k = (n, some x.1) ∧ (k, x.2) ∈ kw := by
          intro n d hm x hx
          have hd := Dict.get?_of_mem _ _ _ nok hm
          exact (nest_sub hkw hd x.1 x.2).1 (Dict.get?_of_mem _ _ _ (nsub n d hd) hx)
        have hne : ∀ n d, (n, d) ∈ nest [] kw → d ≠ [] := by
          suffices H : ∀ (kw : Dict (Val A)) (l : Dict (Dict (Val A))), l.Ok → (∀ n d, l.get? n = some d → d ≠ []) →
              ∀ n d, (nest l kw).get? n = some d → d ≠ [] by
            intro n d hm
            exact H kw [] (by simp [Dict.Ok]) (by simp [Dict.get?]) n d (Dict.get?_of_mem _ _ _ nok hm)
          intro kw
          induction kw with
          | nil => intro l _ hl; exact hl
          | cons e kw ihk =>
            intro l hl hd
            rw [nest, List.foldl_cons]
            refine ihk _ ?_ ?_
            · unfold nestOne
              cases (partition e.1).2 with
              | none => exact hl
              | some sub => exact Dict.ok_set _ _ _ hl
            · intro n d hnd
              unfold nestOne at hnd
              cases hp : (partition e.1).2 with
              | none => rw [hp] at hnd; exact hd n d hnd
              | some sub =>
                rw [hp] at hnd
                simp only [Dict.get?_set] at hnd
                by_cases hn : n = (partition e.1).1
                · rw [if_pos hn] at hnd
                  simp only [Option.some.injEq] at hnd
                  rintro rfl
                  have := Dict.get?_set_self ((l.get? (partition e.1).1).getD []) sub e.2
                  rw [hnd] at this
                  simp [Dict.get?] at this
                · rw [if_neg hn] at hnd
                  exact hd n d hnd
        refine spread_ok (T := T) (fun j sub h h' res fp w o hp ho he => setParams_spec hT ho hp w o he)
          (fun j sub h h' res fp w o hp ho ha hs he => ih ho hp ha w o hs he) valid (nest [] kw) nok ?_ w1 o1 hi1
          ?_ e
        · intro n d hm
          refine ⟨fun x hx j hxj => ?_, nsub n d (Dict.get?_of_mem _ _ _ nok hm), ?_⟩
          · obtain ⟨k, _, hk⟩ := hmem n d hm x hx
            exact hpl _ hk j hxj
          · intro x hx y hy r hr
            obtain ⟨k, p1, hk⟩ := hmem n d hm x hx
            obtain ⟨k', p2, hk'⟩ := hmem n d hm y hy
            refine hap _ hk _ hk' r ?_
            simp only
            rw [of_partition_some p1, of_partition_some p2, hr, join_assoc]
        · intro n d hm
          obtain ⟨x, hx⟩ := List.exists_mem_of_ne_nil _ (hne n d hm)
          obtain ⟨k, p1, hk⟩ := hmem n d hm x hx
          have hon : (ownPart kw).get? n = Option.none := by
            cases hon : (ownPart kw).get? n with
            | none => rfl
            | some u =>
              exact absurd (of_partition_some p1) (hap _ (ownPart_get? n u hon).1 _ hk x.1)
          have hall : ∀ y ∈ d, ∃ j s, attrs.get? n = some (.ref j) ∧ SlotAt T h j y.1 s := by
            intro y hy
            obtain ⟨k, p1, hk⟩ := hmem n d hm y hy
            obtain ⟨s, hs⟩ := hsl _ hk
            rw [slotAt_iff] at hs
            obtain ⟨ob, hob, ⟨h3, _⟩ | ⟨r, j, h3, h2, h4⟩⟩ := hs
            · rw [p1] at h3; simp at h3
            · rw [hi] at hob; cases hob
              rw [p1] at h3 h2
              simp only [Option.some.injEq] at h3 h2
              subst h3
              exact ⟨j, s, h2, h4⟩
          obtain ⟨j, s, ha, _⟩ := hall x hx
          refine ⟨j, by rw [hval, hon, Option.none_or]; exact ha, (keep1 n hon).trans ha, ?_⟩
          intro y hy
          obtain ⟨j', s', ha', hs'⟩ := hall y hy
          rw [ha] at ha'
          simp only [Option.some.injEq, Val.ref.injEq] at ha'
          subst ha'
          obtain ⟨fj, rest, oj, dj, mj, _⟩ := of.split _ _ _ ha
          exact ⟨s', hs'.frame oj fun x hx => sm1 x (oj.lt x hx) fun hxi => hif (hxi ▸ (mj x).2 (.inl hx))⟩

/-! ## Enough fuel -/

/-- Defaults of defaults end. -/
structure Ranked (T : Table A C) (rk : C → Nat) : Prop where
  lt : ∀ c n s c', (n, s) ∈ T.slots c → s.auto = some (.make c') → rk c' < rk c

theorem store_total {mk : C → Heap A C → Option (Heap A C × Nat)} {s : Slot A C}
    (hmk : ∀ c, s.auto = some (.make c) → ∀ h, ∃ r, mk c h = some r) (v : Val A) (h : Heap A C) :
    ∃ r, store mk s v h = some r := by
  unfold store
  cases v with
  | none =>
    cases ha : s.auto with
    | none => exact ⟨_, rfl⟩
    | some d =>
      cases d with
      | value a => exact ⟨_, rfl⟩
      | make c =>
        obtain ⟨r, hr⟩ := hmk c ha h
        simp only [hr]
        exact ⟨_, rfl⟩
  | atom a => exact ⟨_, rfl⟩
  | ref j => exact ⟨_, rfl⟩

theorem fill_total {mk : C → Heap A C → Option (Heap A C × Nat)} (given : Dict (Val A)) (l : Dict (Slot A C))
    (hmk : ∀ n s c, (n, s) ∈ l → s.auto = some (.make c) → ∀ h, ∃ r, mk c h = some r) (h : Heap A C) :
    ∃ r, fill mk given l h = some r := by
  induction l generalizing h with
  | nil => exact ⟨_, rfl⟩
  | cons x l ih =>
    obtain ⟨n, s⟩ := x
    obtain ⟨⟨h1, v⟩, hr⟩ := store_total (hmk n s · (by simp)) ((given.get? n).getD s.init) h
    obtain ⟨⟨h2, d⟩, hr2⟩ := ih (fun n s c hm => hmk n s c (by simp [hm])) h1
    rw [fill]
    simp only [hr, hr2]
    exact ⟨_, rfl⟩

theorem newObj_total {T : Table A C} {rk : C → Nat} (hr : Ranked T rk) {depth : Nat} {c : C} (hd : rk c < depth)
    (given : Dict (Val A)) (h : Heap A C) : ∃ r, newObj T depth c given h = some r := by
  induction depth generalizing c given h with
  | zero => omega
  | succ depth ih =>
    rw [newObj]
    obtain ⟨⟨h1, d⟩, hf⟩ := fill_total (mk := fun c h => newObj T depth c [] h) given (T.slots c)
      (fun n s c' hm ha h => ih (by have := hr.lt c n s c' hm ha; omega) [] h) h
    simp only [hf]
    exact ⟨_, rfl⟩

theorem store_le {T : Table A C} {depth : Nat} {s : Slot A C} {v : Val A} {h : Heap A C} {r : Heap A C × Val A}
    (hmk : ∀ d c given (h : Heap A C) r, newObj T d c given h = some r → h.length ≤ r.1.length)
    (e : store (fun c h => newObj T depth c [] h) s v h = some r) : h.length ≤ r.1.length := by
  unfold store at e
  split at e
  · split at e
    · simp only [Option.some.injEq] at e; subst e; exact Nat.le_refl _
    · simp only [Option.some.injEq] at e; subst e; exact Nat.le_refl _
    · next c _ =>
      simp only at e
      cases hm : newObj T depth c [] h with
      | none => rw [hm] at e; simp at e
      | some q =>
        simp only [hm, Option.some.injEq] at e
        subst e
        exact hmk _ _ _ _ _ hm
  · simp only [Option.some.injEq] at e; subst e; exact Nat.le_refl _

theorem newObj_le {T : Table A C} {depth : Nat} {c : C} {given : Dict (Val A)} {h : Heap A C} {r : Heap A C × Nat}
    (e : newObj T depth c given h = some r) : h.length ≤ r.1.length := by
  induction depth generalizing c given h r with
  | zero => simp [newObj] at e
  | succ depth ih =>
    rw [newObj] at e
    cases hf : fill (fun c h => newObj T depth c [] h) given (T.slots c) h with
    | none => rw [hf] at e; simp at e
    | some q =>
      obtain ⟨h1, d⟩ := q
      simp only [hf, Option.some.injEq] at e
      subst e
      have : h.length ≤ h1.length := by
        generalize T.slots c = l at hf
        induction l generalizing h d with
        | nil => simp only [fill, Option.some.injEq, Prod.mk.injEq] at hf; rw [hf.1]; exact Nat.le_refl _
        | cons x l ihl =>
          obtain ⟨n, s⟩ := x
          rw [fill] at hf
          cases hs : store (fun c h => newObj T depth c [] h) s ((given.get? n).getD s.init) h with
          | none => rw [hs] at hf; simp at hf
          | some q =>
            obtain ⟨h2, v⟩ := q
            simp only [hs] at hf
            cases hf2 : fill (fun c h => newObj T depth c [] h) given l h2 with
            | none => rw [hf2] at hf; simp at hf
            | some q2 =>
              obtain ⟨h3, d3⟩ := q2
              simp only [hf2, Option.some.injEq, Prod.mk.injEq] at hf
              obtain ⟨rfl, rfl⟩ := hf
              have h1 := ihl _ hf2
              have h2 : h.length ≤ h2.length := by
                unfold store at hs
                split at hs
                · split at hs
                  · simp only [Option.some.injEq, Prod.mk.injEq] at hs; rw [hs.1]; exact Nat.le_refl _
                  · simp only [Option.some.injEq, Prod.mk.injEq] at hs; rw [hs.1]; exact Nat.le_refl _
                  · next c' _ =>
                    simp only at hs
                    cases hm : newObj T depth c' [] h with
                    | none => rw [hm] at hs; simp at hs
                    | some q =>
                      simp only [hm, Option.some.injEq, Prod.mk.injEq] at hs
                      rw [← hs.1]
                      exact ih hm
                · simp only [Option.some.injEq, Prod.mk.injEq] at hs; rw [hs.1]; exact Nat.le_refl _
              omega
      simp only [List.length_append, List.length_singleton]
      omega

theorem setAttr_total {T : Table A C} {rk : C → Nat} (hr : Ranked T rk) {depth : Nat} {c : C} (hd : rk c < depth)
    {n : String} {s : Slot A C} (hs : (n, s) ∈ T.slots c) (i : Nat) (key : String) (v : Val A) (h : Heap A C)
    (hi : i < h.length) : ∃ h', setAttr T depth i s key v h = some h' ∧ h.length ≤ h'.length := by
  obtain ⟨⟨h1, v1⟩, hst⟩ := store_total (mk := fun c h => newObj T depth c [] h) (s := s)
    (fun c' ha h => newObj_total hr (by have := hr.lt c n s c' hs ha; omega) [] h) v h
  have hl := store_le (fun d c g h r e => newObj_le e) hst
  simp only at hl
  unfold setAttr
  simp only [hst]
  have : i < h1.length := by omega
  rw [List.getElem?_eq_getElem this]
  exact ⟨_, rfl, by simp; omega⟩

theorem gather_total {T : Table A C} {rk : C → Nat} (hr : Ranked T rk) {depth : Nat} {c : C} (hd : rk c < depth)
    (i : Nat) (kw : Dict (Val A)) (h : Heap A C) (hi : i < h.length) (valid : Dict (Val A))
    (nested : Dict (Dict (Val A))) : ∃ r, gather T depth i (T.slots c) kw h valid nested = some r := by
  induction kw generalizing h valid nested with
  | nil => exact ⟨_, rfl⟩
  | cons x kw ih =>
    obtain ⟨k, v⟩ := x
    rw [gather]
    cases hs1 : (T.slots c).get? (partition k).1 with
    | none => exact ⟨_, rfl⟩
    | some s =>
      simp only
      cases hp : (partition k).2 with
      | some sub => exact ih h hi _ _
      | none =>
        obtain ⟨h', ha, hl⟩ := setAttr_total hr hd (Dict.get?_some_mem _ _ _ hs1) i (partition k).1 v h hi
        simp only [ha]
        exact ih h' (by omega) _ _

/-- `set_params` ends. -/
theorem setParams_total {T : Table A C} (hT : T.Good) {rk : C → Nat} (hr : Ranked T rk) {depth : Nat}
    (hd : ∀ c, rk c < depth) {fuel i : Nat} {kw : Dict (Val A)} (hkw : kw.Ok) (hpl : Plain kw)
    (hf : ∀ e ∈ kw, e.1.toList.length < fuel) (hf0 : 0 < fuel) {h : Heap A C} (w : Wf T h) {fp : List Nat}
    (o : Own h [.ref i] fp) : ∃ r, setParams T depth fuel i kw h = some r := by
  induction fuel generalizing i kw h fp with
  | zero => omega
  | succ fuel ih =>
    rw [setParams]
    cases hemp : kw.isEmpty with
    | true => exact ⟨_, rfl⟩
    | false =>
      simp only [Bool.false_eq_true, if_false]
      obtain ⟨⟨c, attrs⟩, f, hi, rfl, of, hif⟩ := own_ref o
      have hil : i < h.length := (List.getElem?_eq_some_iff.1 hi).1
      obtain ⟨⟨h1, r1⟩, hg⟩ := gather_total hr (hd c) i kw h hil attrs []
      simp only [hi, hg]
      obtain ⟨fp1, attrs', o1, g1, w1, hi1, sm1, keep1, ok1⟩ := gather_spec hT c kw hkw hpl w o hi _ _ hg
      cases r1 with
      | error err => exact ⟨_, rfl⟩
      | ok p =>
        obtain ⟨valid, nested⟩ := p
        obtain ⟨rfl, hval, -, -⟩ := ok1 valid nested rfl
        obtain ⟨nok, nsub⟩ := nest_ok kw [] (by simp [Dict.Ok]) (by simp [Dict.get?])
        have hmem : ∀ n d, (n, d) ∈ nest [] kw → ∀ x ∈ d, ∃ k, partition k = (n, some x.1) ∧ (k, x.2) ∈ kw := by
          intro n d hm x hx
          have hd := Dict.get?_of_mem _ _ _ nok hm
          exact (nest_sub hkw hd x.1 x.2).1 (Dict.get?_of_mem _ _ _ (nsub n d hd) hx)
        -- a part that gets arguments has a key before them
        have hpos : nest [] kw ≠ [] → 0 < fuel := by
          intro hne
          have : ∃ e ∈ kw, (partition e.1).2 ≠ Option.none := by
            by_contra hc
            push Not at hc
            apply hne
            suffices H : ∀ (kw : Dict (Val A)) (l : Dict (Dict (Val A))), (∀ e ∈ kw, (partition e.1).2 = Option.none) →
                nest l kw = l from H kw [] hc
            intro kw
            induction kw with
            | nil => intro l _; rfl
            | cons e kw ihk =>
              intro l hl
              rw [nest, List.foldl_cons]
              have h1 := hl e (by simp)
              rw [show nestOne l e = l by simp [nestOne, h1]]
              exact ihk l fun e he => hl e (by simp [he])
          obtain ⟨e, he, hp⟩ := this
          obtain ⟨r, hr⟩ := Option.ne_none_iff_exists'.1 hp
          have := of_partition_some (k := e.1) (n := (partition e.1).1) (r := r) (by rw [← hr])
          have hl := hf e he
          rw [this, length_join] at hl
          omega
        suffices H : ∀ (l : Dict (Dict (Val A))) (h1 : Heap A C) (fp1 : List Nat) (attrs' : Dict (Val A)), l.Ok →
            (∀ n d, (n, d) ∈ l → (n, d) ∈ nest [] kw) → Wf T h1 → Own h1 [.ref i] fp1 → h1[i]? = some ⟨c, attrs'⟩ →
            (∀ n j, valid.get? n = some (.ref j) → attrs'.get? n = some (.ref j)) →
            ∃ r, spread (setParams T depth fuel) valid l h1 = some r by
          refine H _ h1 fp1 attrs' nok (fun _ _ h => h) w1 o1 hi1 ?_
          intro n j hvj
          rw [hval] at hvj
          cases hon : (ownPart kw).get? n with
          | none =>
            rw [hon, Option.none_or] at hvj
            exact (keep1 n hon).trans hvj
          | some u =>
            rw [hon, Option.some_or, Option.some.injEq] at hvj
            exact absurd hvj (hpl _ (ownPart_get? n u hon).1 j)
        intro l
        induction l with
        | nil => intro h1 _ _ _ _ _ _ _ _; exact ⟨_, rfl⟩
        | cons x l ihl =>
          intro h1 fp1 attrs' hl hsub w1 o1 hi1 hv
          obtain ⟨n, d⟩ := x
          simp only [Dict.Ok, List.map_cons, List.nodup_cons] at hl
          have hmn := hsub n d (by simp)
          have hpd : Plain d := fun x hx j hxj => by
            obtain ⟨k, _, hk⟩ := hmem n d hmn x hx
            exact hpl _ hk j hxj
          have hod : d.Ok := nsub n d (Dict.get?_of_mem _ _ _ nok hmn)
          have hfd : ∀ e ∈ d, e.1.toList.length < fuel := by
            intro e he
            obtain ⟨k, p1, hk⟩ := hmem n d hmn e he
            have h2 := hf _ hk
            simp only at h2
            rw [of_partition_some p1, length_join] at h2
            omega
          have hf0' : 0 < fuel := hpos (List.ne_nil_of_mem hmn)
          rw [spread]
          cases hvn : valid.get? n with
          | none => exact ⟨_, rfl⟩
          | some u =>
            cases u with
            | none => exact ⟨_, rfl⟩
            | atom a => exact ⟨_, rfl⟩
            | ref j =>
              simp only
              have haj := hv n j hvn
              obtain ⟨ob', f', hi', rfl, of', hif'⟩ := own_ref o1
              rw [hi1] at hi'
              cases hi'
              obtain ⟨fj, rest, oj, dj, mj, sj, pj⟩ := of'.split _ _ _ haj
              obtain ⟨⟨h2, r2⟩, hr2⟩ := ih hod hpd hfd hf0' w1 oj
              simp only [hr2]
              cases r2 with
              | error err => exact ⟨_, rfl⟩
              | ok u =>
                simp only
                obtain ⟨fp2, t1, t2, t3, t4, _, _⟩ := spread_spec
                  (fun j sub h h' res fp w o hp ho he => setParams_spec (depth := depth) (fuel := fuel) hT ho hp w o he)
                  valid [(n, d)] (by simp [Dict.Ok])
                  (fun n' d' hm => by
                    obtain ⟨rfl, rfl⟩ := Prod.mk.inj (List.mem_singleton.1 hm)
                    exact ⟨hpd, hod⟩) w1 o1 hi1
                  (fun n' d' j' hm hvj => hv n' j' hvj)
                  (h' := h2) (res := .ok ()) (by rw [spread]; simp only [hvn, hr2]; rfl)
                exact ihl h2 fp2 attrs' hl.2 (fun n d hm => hsub n d (by simp [hm])) t3 t1 t4 hv

end Verif.Est
