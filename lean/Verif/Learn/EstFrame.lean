import Verif.Learn.EstSet

/-!
# What `set_params` changes
-/

set_option autoImplicit false
set_option linter.unusedSectionVars false
set_option linter.unusedSimpArgs false

namespace Verif.Est

open Verif

variable {A C : Type}

theorem wf_set {T : Table A C} {h : Heap A C} (w : Wf T h) (i : Nat) {o : Obj A C} (ho : WfObj T o) :
    Wf T (h.set i o) := by
  intro x hx
  rcases List.mem_or_eq_of_mem_set hx with hx | rfl
  · exact w x hx
  · exact ho

theorem setAttr_spec {T : Table A C} (hT : T.Good) {depth i : Nat} {s : Slot A C} {n : String} {v : Val A}
    {h h' : Heap A C} (w : Wf T h) {fp : List Nat} (o : Own h [.ref i] fp) {ob : Obj A C} (hi : h[i]? = some ob)
    (hs : (T.slots ob.cls).get? n = some s) (hv : ∀ j, v ≠ .ref j) (e : setAttr T depth i s n v h = some h') :
    ∃ fp' v', Own h' [.ref i] fp' ∧ Grow h fp h' fp' ∧ Wf T h' ∧ h'[i]? = some ⟨ob.cls, ob.attrs.set n v'⟩ ∧
      Stored s v v' h.length ∧ ∀ x, x < h.length → x ≠ i → h'[x]? = h[x]? := by
  unfold setAttr at e
  cases hst : store (fun c h => newObj T depth c [] h) s v h with
  | none => rw [hst] at e; simp at e
  | some r =>
    obtain ⟨h1, v'⟩ := r
    have hmk : ∀ c h h' i, newObj T depth c [] h = some (h', i) → Fresh T h h' [.ref i] ∧ h.length ≤ i :=
      fun c h h' i e => ⟨(newObj_spec hT (by simp [Plain]) e).1, (newObj_spec hT (by simp [Plain]) e).2.1⟩
    obtain ⟨⟨⟨ext, rfl⟩, w1, fv, ov, lv⟩, st, nn⟩ := store_spec hmk hv hst
    have hil : i < h.length := (List.getElem?_eq_some_iff.1 hi).1
    have hi1 : (h ++ ext : Heap A C)[i]? = some ob := by rw [getElem?_ext _ hil, hi]
    simp only [hst, hi1, Option.some.injEq] at e
    subst e
    obtain ⟨ob', f, hi', rfl, of, hif⟩ := own_ref o
    rw [hi] at hi'
    cases hi'
    have hkeys := wf_get w hi
    have hn : ∃ u, ob.attrs.get? n = some u := by
      have := get?_keys _ _ hkeys.1 n
      rw [hs] at this
      exact Option.isSome_iff_exists.1 (by simpa using this)
    obtain ⟨u, hu⟩ := hn
    obtain ⟨f0, r, o0, d0, m0, _, p0⟩ := of.split _ _ _ hu
    have same : ∀ x, x < h.length → x ≠ i →
        ((h ++ ext : Heap A C).set i ⟨ob.cls, ob.attrs.set n v'⟩)[x]? = h[x]? := by
      intro x hx hne
      rw [List.getElem?_set_ne (Ne.symm hne), getElem?_ext _ hx]
    have hr : ∀ x ∈ r, x < h.length ∧ x ≠ i := fun x hx =>
      ⟨of.lt x ((m0 x).2 (.inr hx)), fun hxi => hif (hxi ▸ (m0 x).2 (.inr hx))⟩
    have ov' : Own ((h ++ ext : Heap A C).set i ⟨ob.cls, ob.attrs.set n v'⟩) [v'] fv := by
      refine ov.frame fun x hx => ?_
      have := lv x hx
      rw [List.getElem?_set_ne]
      omega
    obtain ⟨g, og, mg⟩ := p0 _ v' fv ov' (fun x hx => same x (hr x hx).1 (hr x hx).2)
      (fun x hx hxr => by have := lv x hx; have := (hr x hxr).1; omega)
    have hi2 : ((h ++ ext : Heap A C).set i ⟨ob.cls, ob.attrs.set n v'⟩)[i]? =
        some ⟨ob.cls, ob.attrs.set n v'⟩ := by
      rw [List.getElem?_set_self]
      simp; omega
    refine ⟨i :: g, v', own_of_ref hi2 og ?_, ⟨by simp, ?_, ?_⟩, ?_, hi2, st, same⟩
    · intro hx
      rcases (mg i).1 hx with hx | hx
      · have := lv i hx; omega
      · exact (hr i hx).2 rfl
    · intro x hx hxf
      exact same x hx fun hxi => hxf (by simp [hxi])
    · intro x hx
      rcases List.mem_cons.1 hx with rfl | hx
      · simp
      · rcases (mg x).1 hx with hx | hx
        · exact .inr (lv x hx)
        · exact .inl (by simp [(m0 x).2 (.inr hx)])
    · refine wf_set (w1 w) i ⟨?_, ?_⟩
      · rw [← hkeys.1]
        simp only
        rw [Dict.keys_set, if_pos]
        by_contra hc
        rw [← Dict.get?_none_iff, hu] at hc
        simp at hc
      · intro n' s' hs' ha
        simp only [Dict.get?_set]
        by_cases hnn : n' = n
        · subst hnn
          rw [hs] at hs'
          cases hs'
          simpa using nn ha
        · rw [if_neg hnn]
          exact hkeys.2 n' s' hs' ha

theorem gather_spec {T : Table A C} (hT : T.Good) {depth i : Nat} (c : C) (kw : Dict (Val A)) (hkw : kw.Ok)
    (hpl : Plain kw) {h h' : Heap A C} (w : Wf T h) {fp : List Nat} (o : Own h [.ref i] fp) {attrs : Dict (Val A)}
    (hi : h[i]? = some ⟨c, attrs⟩) (valid : Dict (Val A)) (nested : Dict (Dict (Val A)))
    {res : Except PyErr (Dict (Val A) × Dict (Dict (Val A)))}
    (e : gather T depth i (T.slots c) kw h valid nested = some (h', res)) :
    ∃ fp' attrs', Own h' [.ref i] fp' ∧ Grow h fp h' fp' ∧ Wf T h' ∧ h'[i]? = some ⟨c, attrs'⟩ ∧
      (∀ x, x < h.length → x ≠ i → h'[x]? = h[x]?) ∧
      (∀ n, (ownPart kw).get? n = Option.none → attrs'.get? n = attrs.get? n) ∧
      (∀ valid' nested', res = .ok (valid', nested') →
        nested' = nest nested kw ∧
        (∀ n, valid'.get? n = ((ownPart kw).get? n).or (valid.get? n)) ∧
        (∀ k v, (k, v) ∈ kw → ∃ s, (T.slots c).get? (partition k).1 = some s) ∧
        ∀ n v s, (ownPart kw).get? n = some v → (T.slots c).get? n = some s →
          ∃ v', attrs'.get? n = some v' ∧ Stored s v v' h.length) := by
  induction kw generalizing h fp attrs valid nested with
  | nil =>
    simp only [gather, Option.some.injEq, Prod.mk.injEq] at e
    obtain ⟨rfl, rfl⟩ := e
    refine ⟨fp, attrs, o, .refl _ _, w, hi, fun _ _ _ => rfl, fun _ _ => rfl, ?_⟩
    intro valid' nested' hr
    simp only [Except.ok.injEq, Prod.mk.injEq] at hr
    obtain ⟨rfl, rfl⟩ := hr
    refine ⟨rfl, ?_, ?_, ?_⟩ <;> simp [ownPart, Dict.get?]
  | cons x kw ih =>
    obtain ⟨k, v⟩ := x
    simp only [Dict.Ok, List.map_cons, List.nodup_cons] at hkw
    have hpl' : Plain kw := fun e he => hpl e (by simp [he])
    rw [gather] at e
    cases hs : (T.slots c).get? (partition k).1 with
    | none =>
      simp only [hs, Option.some.injEq, Prod.mk.injEq] at e
      obtain ⟨rfl, rfl⟩ := e
      refine ⟨fp, attrs, o, .refl _ _, w, hi, fun _ _ _ => rfl, fun _ _ => rfl, ?_⟩
      intro valid' nested' hr
      simp at hr
    | some s =>
      simp only [hs] at e
      cases hp : (partition k).2 with
      | some sub =>
        simp only [hp] at e
        have hown : ownPart ((k, v) :: kw) = ownPart kw := by simp [ownPart, hp]
        obtain ⟨fp', attrs', h1, h2, h3, h4, h5, h6, h7⟩ := ih hkw.2 hpl' w o hi _ _ e
        refine ⟨fp', attrs', h1, h2, h3, h4, h5, ?_, ?_⟩
        · rw [hown]; exact h6
        · intro valid' nested' hr
          obtain ⟨g1, g2, g3, g4⟩ := h7 valid' nested' hr
          rw [hown]
          refine ⟨?_, g2, ?_, g4⟩
          · rw [g1, nest, nest, List.foldl_cons]
            simp [nestOne, hp]
          · intro k' v' hm
            rcases List.mem_cons.1 hm with hm | hm
            · obtain ⟨rfl, rfl⟩ := Prod.mk.inj hm
              exact ⟨s, hs⟩
            · exact g3 k' v' hm
      | none =>
        simp only [hp] at e
        have hk : (partition k).1 = k := of_partition_none (by rw [← hp])
        rw [hk] at e hs
        have hown : ownPart ((k, v) :: kw) = (k, v) :: ownPart kw := by simp [ownPart, hp]
        have hnk : (ownPart kw).get? k = Option.none := by
          cases hg : (ownPart kw).get? k with
          | none => rfl
          | some u => exact absurd (List.mem_map.2 ⟨_, (ownPart_get? k u hg).1, rfl⟩) hkw.1
        cases ha : setAttr T depth i s k v h with
        | none => rw [ha] at e; simp at e
        | some h1 =>
          simp only [ha] at e
          obtain ⟨fp1, v1, o1, g1, w1, hi1, st1, sm1⟩ := setAttr_spec hT w o hi hs (hpl (k, v) (by simp)) ha
          obtain ⟨fp', attrs', h1', h2, h3, h4, h5, h6, h7⟩ := ih hkw.2 hpl' w1 o1 hi1 _ _ e
          refine ⟨fp', attrs', h1', g1.trans h2, h3, h4, ?_, ?_, ?_⟩
          · intro x hx hne
            rw [h5 x (Nat.lt_of_lt_of_le hx g1.le) hne, sm1 x hx hne]
          · intro n hn
            rw [hown, Dict.get?] at hn
            by_cases hkn : k = n
            · rw [if_pos hkn] at hn; simp at hn
            · rw [if_neg hkn] at hn
              rw [h6 n hn, Dict.get?_set_ne _ _ _ _ (Ne.symm hkn)]
          · intro valid' nested' hr
            obtain ⟨g1', g2, g3, g4⟩ := h7 valid' nested' hr
            rw [hown]
            refine ⟨?_, ?_, ?_, ?_⟩
            · rw [g1', nest, nest, List.foldl_cons]
              simp [nestOne, hp]
            · intro n
              rw [g2 n, Dict.get?_set, Dict.get?]
              by_cases hkn : k = n
              · subst hkn; simp [hnk]
              · rw [if_neg hkn, if_neg (Ne.symm hkn)]
            · intro k' v' hm
              rcases List.mem_cons.1 hm with hm | hm
              · obtain ⟨rfl, rfl⟩ := Prod.mk.inj hm
                rw [hk]
                exact ⟨s, hs⟩
              · exact g3 k' v' hm
            · intro n u s' hn hs'
              rw [Dict.get?] at hn
              by_cases hkn : k = n
              · subst hkn
                rw [hs] at hs'
                cases hs'
                simp only [if_true, Option.some.injEq] at hn
                subst hn
                refine ⟨v1, ?_, st1⟩
                rw [h6 k hnk, Dict.get?_set_self]
              · rw [if_neg hkn] at hn
                obtain ⟨v', hv', st'⟩ := g4 n u s' hn hs'
                exact ⟨v', hv', st'.mono g1.le⟩

/-- What a successful `set_params` does. -/
structure Law (T : Table A C) (h h' : Heap A C) (i : Nat) (kw : Dict (Val A)) : Prop where
  set : ∀ k v, (k, v) ∈ kw → ∃ s v', SlotAt T h i k s ∧ Look h' i k v' ∧ Stored s v v' h.length
  keep : ∀ k, (∀ e ∈ kw, e.1 ≠ k ∧ ∀ r, k ≠ join e.1 r) → ∀ v, Look h' i k v ↔ Look h i k v

/-- What any `set_params` does. -/
def Post (T : Table A C) (h : Heap A C) (fp : List Nat) (i : Nat) (kw : Dict (Val A)) (h' : Heap A C)
    (res : Except PyErr Unit) : Prop :=
  ∃ fp', Own h' [.ref i] fp' ∧ Grow h fp h' fp' ∧ Wf T h' ∧ (res = .ok () → Law T h h' i kw)

theorem spread_spec {T : Table A C} {rec : Nat → Dict (Val A) → Heap A C → Option (Heap A C × Except PyErr Unit)}
    (hrec : ∀ j sub h h' res fp, Wf T h → Own h [.ref j] fp → Plain sub → Dict.Ok sub →
      rec j sub h = some (h', res) → Post T h fp j sub h' res)
    {i : Nat} (valid : Dict (Val A)) (nested : Dict (Dict (Val A))) (hn : nested.Ok)
    (hsub : ∀ n d, (n, d) ∈ nested → Plain d ∧ d.Ok) {h h' : Heap A C} (w : Wf T h) {fp : List Nat}
    (o : Own h [.ref i] fp) {ob : Obj A C} (hi : h[i]? = some ob)
    (hv : ∀ n d j, (n, d) ∈ nested → valid.get? n = some (.ref j) → ob.attrs.get? n = some (.ref j))
    {res : Except PyErr Unit} (e : spread rec valid nested h = some (h', res)) :
    ∃ fp', Own h' [.ref i] fp' ∧ Grow h fp h' fp' ∧ Wf T h' ∧ h'[i]? = some ob ∧
      (res = .ok () → ∀ n d, (n, d) ∈ nested → ∃ j, ob.attrs.get? n = some (.ref j) ∧ Law T h h' j d) ∧
      (∀ n j, nested.get? n = Option.none → ob.attrs.get? n = some (.ref j) →
        ∀ k v, Look h' j k v ↔ Look h j k v) := by
  induction nested generalizing h fp with
  | nil =>
    simp only [spread, Option.some.injEq, Prod.mk.injEq] at e
    obtain ⟨rfl, rfl⟩ := e
    exact ⟨fp, o, .refl _ _, w, hi, by simp, fun _ _ _ _ _ _ => Iff.rfl⟩
  | cons x nested ih =>
    obtain ⟨n, d⟩ := x
    simp only [Dict.Ok, List.map_cons, List.nodup_cons] at hn
    have triv : ∀ err : PyErr, h' = h → res = .error err →
        ∃ fp', Own h' [.ref i] fp' ∧ Grow h fp h' fp' ∧ Wf T h' ∧ h'[i]? = some ob ∧
      (res = .ok () → ∀ n' d', (n', d') ∈ (n, d) :: nested → ∃ j, ob.attrs.get? n' = some (.ref j) ∧ Law T h h' j d') ∧
      (∀ n' j, Dict.get? ((n, d) :: nested) n' = Option.none → ob.attrs.get? n' = some (.ref j) →
        ∀ k v, Look h' j k v ↔ Look h j k v) := by
      rintro err rfl rfl
      exact ⟨fp, o, .refl _ _, w, hi, by simp, fun _ _ _ _ _ _ => Iff.rfl⟩
    rw [spread] at e
    cases hvn : valid.get? n with
    | none =>
      simp only [hvn, Option.some.injEq, Prod.mk.injEq] at e
      exact triv _ e.1.symm e.2.symm
    | some u =>
      cases u with
      | none =>
        simp only [hvn, Option.some.injEq, Prod.mk.injEq] at e
        exact triv _ e.1.symm e.2.symm
      | atom a =>
        simp only [hvn, Option.some.injEq, Prod.mk.injEq] at e
        exact triv _ e.1.symm e.2.symm
      | ref j =>
        simp only [hvn] at e
        have haj : ob.attrs.get? n = some (.ref j) := hv n d j (by simp) hvn
        cases hr : rec j d h with
        | none => rw [hr] at e; simp at e
        | some r =>
          obtain ⟨h1, r1⟩ := r
          obtain ⟨ob', f, hi', rfl, of, hif⟩ := own_ref o
          rw [hi] at hi'
          cases hi'
          obtain ⟨fj, rest, oj, dj, mj, sj, pj⟩ := of.split _ _ _ haj
          obtain ⟨hpd, hod⟩ := hsub n d (by simp)
          obtain ⟨fj', oj', gj, wj, lj⟩ := hrec j d h h1 r1 fj w oj hpd hod hr
          have hil : i < h.length := (List.getElem?_eq_some_iff.1 hi).1
          have hifj : i ∉ fj := fun hx => hif ((mj i).2 (.inl hx))
          have hi1 : h1[i]? = some ob := by rw [gj.same i hil hifj, hi]
          have hrest : ∀ x ∈ rest, h1[x]? = h[x]? := fun x hx =>
            gj.same x (of.lt x ((mj x).2 (.inr hx))) fun hxf => dj x hxf hx
          obtain ⟨f1, o1, m1⟩ := pj h1 (.ref j) fj' oj' hrest (fun x hx hxr => by
            rcases gj.sub x hx with h2 | h2
            · exact dj x h2 hxr
            · have := of.lt x ((mj x).2 (.inr hxr)); omega)
          rw [set_get? _ _ _ haj] at o1
          have hif1 : i ∉ f1 := by
            intro hx
            rcases (m1 i).1 hx with hx | hx
            · rcases gj.sub i hx with h2 | h2
              · exact hifj h2
              · omega
            · exact hif ((mj i).2 (.inr hx))
          have o1' := own_of_ref hi1 o1 hif1
          have g1 : Grow h (i :: f) h1 (i :: f1) := by
            refine ⟨gj.le, ?_, ?_⟩
            · intro x hx hxf
              exact gj.same x hx fun hxj => hxf (by simp [(mj x).2 (.inl hxj)])
            · intro x hx
              rcases List.mem_cons.1 hx with rfl | hx
              · simp
              · rcases (m1 x).1 hx with hx | hx
                · rcases gj.sub x hx with h2 | h2
                  · exact .inl (by simp [(mj x).2 (.inl h2)])
                  · exact .inr h2
                · exact .inl (by simp [(mj x).2 (.inr hx)])
          -- other parts are not changed by this one
          have other : ∀ n' j', n' ≠ n → ob.attrs.get? n' = some (.ref j') →
              ∃ g, Own h [.ref j'] g ∧ ∀ x ∈ g, h1[x]? = h[x]? := by
            intro n' j' hne ha'
            obtain ⟨g, og, mg⟩ := sj n' _ hne ha'
            exact ⟨g, og, fun x hx => hrest x (mg x hx)⟩
          simp only [hr] at e
          cases r1 with
          | error err =>
            simp only [Option.some.injEq, Prod.mk.injEq] at e
            obtain ⟨rfl, rfl⟩ := e
            refine ⟨i :: f1, o1', g1, wj, hi1, by simp, ?_⟩
            intro n' j' hn' ha'
            have hne : n' ≠ n := by
              rintro rfl
              simp [Dict.get?] at hn'
            obtain ⟨g, og, mg⟩ := other n' j' hne ha'
            exact look_frame og mg
          | ok u =>
            simp only at e
            obtain ⟨fp', t1, t2, t3, t4, t5, t6⟩ := ih hn.2 (fun n d hm => hsub n d (by simp [hm])) wj o1' hi1
              (fun n d j hm => hv n d j (by simp [hm])) e
            refine ⟨fp', t1, g1.trans t2, t3, t4, ?_, ?_⟩
            · intro hok n' d' hm
              rcases List.mem_cons.1 hm with hm' | hm'
              · obtain ⟨rfl, rfl⟩ := Prod.mk.inj hm'
                refine ⟨j, haj, ?_⟩
                have l1 := lj rfl
                have same := t6 n' j ((Dict.get?_none_iff nested n').2 hn.1) haj
                refine ⟨?_, ?_⟩
                · intro k v hkv
                  obtain ⟨s, v', a1, a2, a3⟩ := l1.set k v hkv
                  exact ⟨s, v', a1, (same k v').2 a2, a3⟩
                · intro k hk v
                  rw [same, l1.keep k hk v]
              · obtain ⟨j', ha', l1⟩ := t5 hok n' d' hm'
                refine ⟨j', ha', ?_⟩
                have hne : n' ≠ n := by
                  rintro rfl
                  exact hn.1 (List.mem_map.2 ⟨(n', d'), hm', rfl⟩)
                obtain ⟨g, og, mg⟩ := other n' j' hne ha'
                refine ⟨?_, ?_⟩
                · intro k v hkv
                  obtain ⟨s, v', a1, a2, a3⟩ := l1.set k v hkv
                  exact ⟨s, v', a1.frame (og.frame mg) fun x hx => (mg x hx).symm, a2, a3.mono gj.le⟩
                · intro k hk v
                  rw [l1.keep k hk v, look_frame og mg]
            · intro n' j' hn' ha' k v
              have hne : n' ≠ n := by
                rintro rfl
                simp [Dict.get?] at hn'
              obtain ⟨g, og, mg⟩ := other n' j' hne ha'
              rw [t6 n' j' (by rw [Dict.get?, if_neg (Ne.symm hne)] at hn'; exact hn') ha', look_frame og mg]

theorem join_assoc (a b c : String) : join a (join b c) = join (join a b) c := by
  simp [join]

theorem setParams_spec {T : Table A C} (hT : T.Good) {depth fuel i : Nat} {kw : Dict (Val A)} (hkw : kw.Ok)
    (hpl : Plain kw) {h h' : Heap A C} (w : Wf T h) {fp : List Nat} (o : Own h [.ref i] fp)
    {res : Except PyErr Unit} (e : setParams T depth fuel i kw h = some (h', res)) : Post T h fp i kw h' res := by
  induction fuel generalizing i kw h h' fp res with
  | zero => simp [setParams] at e
  | succ fuel ih =>
    rw [setParams] at e
    cases hemp : kw.isEmpty with
    | true =>
      simp only [hemp, if_true, Option.some.injEq, Prod.mk.injEq] at e
      obtain ⟨rfl, rfl⟩ := e
      obtain rfl : kw = [] := by simpa using hemp
      exact ⟨fp, o, .refl _ _, w, fun _ => ⟨by simp, fun _ _ _ => Iff.rfl⟩⟩
    | false =>
      obtain ⟨⟨c, attrs⟩, f, hi, rfl, of, hif⟩ := own_ref o
      simp only [hemp, Bool.false_eq_true, if_false, hi] at e
      cases hg : gather T depth i (T.slots c) kw h attrs [] with
      | none => rw [hg] at e; simp at e
      | some r =>
        obtain ⟨h1, r1⟩ := r
        obtain ⟨fp1, attrs', o1, g1, w1, hi1, sm1, keep1, ok1⟩ := gather_spec hT c kw hkw hpl w o hi _ _ hg
        simp only [hg] at e
        cases r1 with
        | error err =>
          simp only [Option.some.injEq, Prod.mk.injEq] at e
          obtain ⟨rfl, rfl⟩ := e
          exact ⟨fp1, o1, g1, w1, by simp⟩
        | ok p =>
          obtain ⟨valid, nested⟩ := p
          simp only at e
          obtain ⟨rfl, hval, hslots, hst⟩ := ok1 valid nested rfl
          obtain ⟨nok, nsub⟩ := nest_ok kw [] (by simp [Dict.Ok]) (by simp [Dict.get?])
          have hsub : ∀ n d, (n, d) ∈ nest [] kw → Plain d ∧ d.Ok := by
            intro n d hm
            have hd := Dict.get?_of_mem _ _ _ nok hm
            have hdo := nsub n d hd
            refine ⟨fun x hx j hxj => ?_, hdo⟩
            obtain ⟨k, _, hk⟩ := (nest_sub hkw hd x.1 x.2).1 (Dict.get?_of_mem _ _ _ hdo hx)
            exact hpl _ hk j hxj
          -- a part that gets arguments is not replaced
          have hvn : ∀ n j, valid.get? n = some (.ref j) →
              attrs.get? n = some (.ref j) ∧ attrs'.get? n = some (.ref j) ∧ (ownPart kw).get? n = Option.none := by
            intro n j hvj
            rw [hval] at hvj
            cases hon : (ownPart kw).get? n with
            | none =>
              rw [hon, Option.none_or] at hvj
              exact ⟨hvj, (keep1 n hon).trans hvj, rfl⟩
            | some u =>
              rw [hon, Option.some_or, Option.some.injEq] at hvj
              exact absurd hvj (hpl _ (ownPart_get? n u hon).1 j)
          obtain ⟨fp2, o2, g2, w2, hi2, law2, keep2⟩ := spread_spec
            (fun j sub h h' res fp w o hp ho he => ih ho hp w o he) valid (nest [] kw) nok hsub w1 o1 hi1
            (fun n d j _ hvj => (hvn n j hvj).2.1) e
          refine ⟨fp2, o2, g1.trans g2, w2, fun hres => ?_⟩
          replace law2 := law2 hres
          -- parts before and after the first loop
          have part : ∀ n j, attrs.get? n = some (.ref j) → ∃ g, Own h [.ref j] g ∧ ∀ x ∈ g, h1[x]? = h[x]? := by
            intro n j ha
            obtain ⟨fj, rest, oj, dj, mj, _⟩ := of.split _ _ _ ha
            exact ⟨fj, oj, fun x hx => sm1 x (oj.lt x hx) fun hxi => hif (hxi ▸ (mj x).2 (.inl hx))⟩
          -- a part that gets arguments has kept its place, since the second loop has succeeded
          have hcase : ∀ n, (ownPart kw).get? n = Option.none → ∀ d, (n, d) ∈ nest [] kw →
              ∃ j, attrs.get? n = some (.ref j) ∧ Law T h1 h' j d := by
            intro n hon d hm
            obtain ⟨j, hj, l⟩ := law2 n d hm
            exact ⟨j, by rw [← keep1 n hon]; exact hj, l⟩
          have hown : ∀ n d, (n, d) ∈ nest [] kw → (ownPart kw).get? n = Option.none := by
            intro n d hm
            cases hon : (ownPart kw).get? n with
            | none => rfl
            | some u =>
              exfalso
              -- the raw value is no estimator, so the second loop fails
              have hv : valid.get? n = some u := by rw [hval, hon, Option.some_or]
              have hu := hpl _ (ownPart_get? n u hon).1
              clear law2 keep2 hi2 w2 g2 o2 hcase part
              generalize nest [] kw = l at e hm
              clear hi1 w1 o1 g1 sm1 hg
              induction l generalizing h1 with
              | nil => simp at hm
              | cons y l ihl =>
                obtain ⟨n', d'⟩ := y
                rw [spread] at e
                cases hvn' : valid.get? n' with
                | none =>
                  simp only [hvn', Option.some.injEq, Prod.mk.injEq] at e
                  rw [hres] at e; simp at e
                | some u' =>
                  cases u' with
                  | none =>
                    simp only [hvn', Option.some.injEq, Prod.mk.injEq] at e
                    rw [hres] at e; simp at e
                  | atom a =>
                    simp only [hvn', Option.some.injEq, Prod.mk.injEq] at e
                    rw [hres] at e; simp at e
                  | ref j =>
                    simp only [hvn'] at e
                    rcases List.mem_cons.1 hm with hm' | hm'
                    · obtain ⟨rfl, rfl⟩ := Prod.mk.inj hm'
                      rw [hv, Option.some.injEq] at hvn'
                      exact hu j hvn'
                    · cases hr : setParams T depth fuel j d' h1 with
                      | none => rw [hr] at e; simp at e
                      | some r =>
                        obtain ⟨h2, r2⟩ := r
                        simp only [hr] at e
                        cases r2 with
                        | error err =>
                          simp only [Option.some.injEq, Prod.mk.injEq] at e
                          rw [hres] at e; simp at e
                        | ok u2 => exact ihl h2 e hm'
          refine ⟨?_, ?_⟩
          · intro k v hm
            obtain ⟨s, hs⟩ := hslots k v hm
            cases hp : (partition k).2 with
            | none =>
              have hk : partition k = ((partition k).1, Option.none) := by rw [← hp]
              have hkk := of_partition_none hk
              rw [hkk] at hs
              have hmo : (k, v) ∈ ownPart kw := by simp [ownPart, hm, hp]
              have hoo : (ownPart kw).Ok := by
                unfold Dict.Ok ownPart at *
                exact hkw.sublist (List.Sublist.map _ List.filter_sublist)
              obtain ⟨v', hv', st⟩ := hst k v s (Dict.get?_of_mem _ _ _ hoo hmo) hs
              refine ⟨s, v', .here hk hi (by rw [hkk]; exact hs), .here hk hi2 (by rw [hkk]; exact hv'), st⟩
            | some r =>
              have hk : partition k = ((partition k).1, some r) := by rw [← hp]
              obtain ⟨sub, hsb, hsr⟩ := nest_mem hkw hk hm
              have hms := Dict.get?_some_mem _ _ _ hsb
              have hon := hown _ _ hms
              obtain ⟨j, ha, l⟩ := hcase _ hon _ hms
              obtain ⟨s', v', a1, a2, a3⟩ := l.set r v (Dict.get?_some_mem _ _ _ hsr)
              obtain ⟨g, og, mg⟩ := part _ _ ha
              refine ⟨s', v', .there hk hi ha (a1.frame (og.frame mg) fun x hx => (mg x hx).symm),
                .there hk hi2 (by rw [keep1 _ hon]; exact ha) a2, a3.mono g1.le⟩
          · intro k hk v
            rw [look_iff, look_iff, hi, hi2]
            simp only [Option.some.injEq, exists_eq_left']
            cases hp : (partition k).2 with
            | none =>
              have hkk : (partition k).1 = k := of_partition_none (by rw [← hp])
              rw [hkk]
              have hon : (ownPart kw).get? k = Option.none := by
                cases hon : (ownPart kw).get? k with
                | none => rfl
                | some u => exact absurd rfl (hk _ (ownPart_get? k u hon).1).1
              rw [keep1 k hon]
              simp
            | some r =>
              have hkj : k = join (partition k).1 r := of_partition_some (by rw [← hp])
              have hon : (ownPart kw).get? (partition k).1 = Option.none := by
                cases hon : (ownPart kw).get? (partition k).1 with
                | none => rfl
                | some u => exact absurd hkj ((hk _ (ownPart_get? _ u hon).1).2 r)
              rw [keep1 _ hon]
              simp only [reduceCtorEq, false_and, Option.some.injEq, false_or]
              have key : ∀ j, attrs.get? (partition k).1 = some (.ref j) → (Look h' j r v ↔ Look h j r v) := by
                intro j ha
                obtain ⟨g, og, mg⟩ := part _ _ ha
                rw [← look_frame og mg]
                cases hnn : (nest [] kw).get? (partition k).1 with
                | none => exact keep2 _ j hnn (by rw [keep1 _ hon]; exact ha) r v
                | some d =>
                  obtain ⟨j', ha', l⟩ := hcase _ hon d (Dict.get?_some_mem _ _ _ hnn)
                  rw [ha] at ha'
                  simp only [Option.some.injEq, Val.ref.injEq] at ha'
                  subst ha'
                  refine l.keep r (fun x hx => ?_) v
                  obtain ⟨k', hp', hm'⟩ := (nest_sub hkw hnn x.1 x.2).1
                    (Dict.get?_of_mem _ _ _ (nsub _ _ hnn) hx)
                  have hk' := of_partition_some hp'
                  obtain ⟨n1, n2⟩ := hk _ hm'
                  refine ⟨fun hxr => n1 ?_, fun r' hr' => n2 r' ?_⟩
                  · simp only
                    rw [hk', hxr, ← hkj]
                  · simp only
                    rw [hk', ← join_assoc, ← hr', ← hkj]
              constructor
              · rintro ⟨r', j, rfl, ha, l⟩
                exact ⟨_, j, rfl, ha, (key j ha).1 l⟩
              · rintro ⟨r', j, rfl, ha, l⟩
                exact ⟨_, j, rfl, ha, (key j ha).2 l⟩

end Verif.Est
