import Verif.Learn.EstLemmas

/-!
# Lemmas about `get_params` and `set_params`
-/

set_option autoImplicit false
set_option linter.unusedSectionVars false
set_option linter.unusedSimpArgs false

namespace Verif.Est

open Verif

variable {A C : Type}

/-! ## `get_params` -/

theorem get?_map_join (d : Dict (Val A)) (n r : String) :
    Dict.get? (d.map fun p => (join n p.1, p.2)) (join n r) = d.get? r := by
  induction d with
  | nil => rfl
  | cons e d ih =>
    obtain ⟨k, v⟩ := e
    simp only [List.map_cons, Dict.get?]
    by_cases hk : k = r
    · subst hk; simp
    · rw [if_neg hk, if_neg fun h => hk (join_inj h), ih]

theorem get?_map_none (d : Dict (Val A)) (n k : String) (h : ∀ r, k ≠ join n r) :
    Dict.get? (d.map fun p => (join n p.1, p.2)) k = Option.none := by
  rw [Dict.get?_none_iff]
  simp only [List.map_map, List.mem_map, Function.comp_apply, not_exists, not_and]
  rintro e _ rfl
  exact h _ rfl

theorem ok_map_join (d : Dict (Val A)) (n : String) (h : d.Ok) :
    Dict.Ok (d.map fun p => (join n p.1, p.2)) := by
  unfold Dict.Ok at *
  have : ((d.map fun p => (join n p.1, p.2)).map Prod.fst) = (d.map Prod.fst).map (join n) := by simp
  rw [this]
  exact h.map fun _ _ h => join_inj h

/-- What a parameter with value `v` contributes. -/
def contrib (g : Nat → Option (Dict (Val A))) (v : Val A) : Option String → Option (Val A)
  | Option.none => some v
  | some r =>
    match v with
    | .ref j => (g j).bind fun d => d.get? r
    | _ => Option.none

theorem collect_spec (g : Nat → Option (Dict (Val A))) (hg : ∀ j d, g j = some d → d.Ok) (l : Dict (Val A))
    (hl : l.Ok) (hn : ∀ e ∈ l, Good e.1) (out d : Dict (Val A)) (ho : out.Ok) (e : collect g l out = some d) :
    d.Ok ∧ ∀ k, d.get? k = ((l.get? (partition k).1).bind fun v => contrib g v (partition k).2).or (out.get? k) := by
  induction l generalizing out with
  | nil =>
    simp only [collect, Option.some.injEq] at e
    subst e
    exact ⟨ho, by simp [Dict.get?]⟩
  | cons x l ih =>
    obtain ⟨n, v⟩ := x
    have hgn : Good n := hn (n, v) (by simp)
    simp only [Dict.Ok, List.map_cons, List.nodup_cons] at hl
    have hnl : Dict.get? l n = Option.none := (Dict.get?_none_iff l n).2 hl.1
    have key : ∀ (out' : Dict (Val A)) (k : String),
        (∀ k, out'.get? k = (if (partition k).1 = n then contrib g v (partition k).2 else Option.none).or (out.get? k)) →
        ((Dict.get? l (partition k).1).bind fun v => contrib g v (partition k).2).or (out'.get? k) =
        ((Dict.get? ((n, v) :: l) (partition k).1).bind fun v => contrib g v (partition k).2).or (out.get? k) := by
      intro out' k h'
      rw [h']
      by_cases hk : n = (partition k).1
      · rw [if_pos hk.symm, ← hk, hnl, Dict.get?, if_pos rfl]; simp
      · rw [if_neg (Ne.symm hk), Dict.get?, if_neg hk]; simp
    have good_iff : ∀ k, (k = n ↔ (partition k).1 = n ∧ (partition k).2 = Option.none) := by
      intro k
      constructor
      · rintro rfl; rw [partition_good hgn]; simp
      · rintro ⟨h1, h2⟩; rw [← of_partition_none (k := k) (n := (partition k).1) (by rw [← h2]), h1]
    cases v with
    | ref j =>
      rw [collect] at e
      cases hj : g j with
      | none => rw [hj] at e; simp at e
      | some dj =>
        simp only [hj] at e
        have hm := ok_map_join dj n (hg j dj hj)
        have ho' : Dict.Ok ((out.update (dj.map fun p => (join n p.1, p.2))).set n (.ref j)) :=
          Dict.ok_set _ _ _ (Dict.ok_update _ _ ho)
        obtain ⟨h1, h2⟩ := ih hl.2 (fun e he => hn e (by simp [he])) _ ho' e
        refine ⟨h1, fun k => ?_⟩
        rw [h2 k]
        refine key _ k fun k => ?_
        rw [Dict.get?_set]
        by_cases hk : k = n
        · have := (good_iff k).1 hk
          rw [if_pos hk, if_pos this.1, this.2]
          simp [contrib]
        · rw [if_neg hk, Dict.get?_update _ _ hm]
          by_cases hp : (partition k).1 = n
          · rw [if_pos hp]
            cases hr : (partition k).2 with
            | none => exact absurd ((good_iff k).2 ⟨hp, hr⟩) hk
            | some r =>
              have : k = join n r := of_partition_some (by rw [← hp, ← hr])
              simp only [contrib, hj, Option.bind_some]
              rw [this, get?_map_join]
          · rw [if_neg hp, get?_map_none]
            rintro r rfl
            rw [partition_join hgn] at hp
            exact hp rfl
    | none =>
      rw [collect] at e
      · obtain ⟨h1, h2⟩ := ih hl.2 (fun e he => hn e (by simp [he])) _ (Dict.ok_set _ _ _ ho) e
        refine ⟨h1, fun k => ?_⟩
        rw [h2 k]
        refine key _ k fun k => ?_
        rw [Dict.get?_set]
        by_cases hk : k = n
        · have := (good_iff k).1 hk
          rw [if_pos hk, if_pos this.1, this.2]
          simp [contrib]
        · rw [if_neg hk]
          by_cases hp : (partition k).1 = n
          · cases hr : (partition k).2 with
            | none => exact absurd ((good_iff k).2 ⟨hp, hr⟩) hk
            | some r => simp [hp, contrib]
          · simp [hp]
      · simp
    | atom a =>
      rw [collect] at e
      · obtain ⟨h1, h2⟩ := ih hl.2 (fun e he => hn e (by simp [he])) _ (Dict.ok_set _ _ _ ho) e
        refine ⟨h1, fun k => ?_⟩
        rw [h2 k]
        refine key _ k fun k => ?_
        rw [Dict.get?_set]
        by_cases hk : k = n
        · have := (good_iff k).1 hk
          rw [if_pos hk, if_pos this.1, this.2]
          simp [contrib]
        · rw [if_neg hk]
          by_cases hp : (partition k).1 = n
          · cases hr : (partition k).2 with
            | none => exact absurd ((good_iff k).2 ⟨hp, hr⟩) hk
            | some r => simp [hp, contrib]
          · simp [hp]
      · simp

theorem wf_names {T : Table A C} (hT : T.Good) {o : Obj A C} (w : WfObj T o) :
    o.attrs.Ok ∧ ∀ e ∈ o.attrs, Good e.1 := by
  refine ⟨?_, ?_⟩
  · have := hT.ok o.cls
    unfold Dict.Ok at *
    rw [w.1]; exact this
  · intro e he
    have : e.1 ∈ o.attrs.map Prod.fst := List.mem_map.2 ⟨e, he, rfl⟩
    rw [w.1] at this
    obtain ⟨x, hx, h2⟩ := List.mem_map.1 this
    rw [← h2]
    exact hT.good o.cls x.1 x.2 hx

theorem getParams_spec {T : Table A C} (hT : T.Good) {h : Heap A C} (w : Wf T h) {fuel i : Nat} {d : Dict (Val A)}
    (e : getParams fuel h i = some d) : d.Ok ∧ ∀ k v, d.get? k = some v ↔ Look h i k v := by
  induction fuel generalizing i d with
  | zero => simp [getParams] at e
  | succ fuel ih =>
    rw [getParams] at e
    cases hi : h[i]? with
    | none => rw [hi] at e; simp at e
    | some o =>
      simp only [hi] at e
      obtain ⟨h1, h2⟩ := wf_names hT (wf_get w hi)
      obtain ⟨h3, h4⟩ := collect_spec (getParams fuel h) (fun j d hj => (ih hj).1) o.attrs h1 h2 [] d
        (by simp [Dict.Ok]) e
      refine ⟨h3, fun k v => ?_⟩
      rw [h4 k, look_iff]
      simp only [Dict.get?, Option.or_none, hi, Option.some.injEq, exists_eq_left']
      cases ha : o.attrs.get? (partition k).1 with
      | none => simp
      | some u =>
        simp only [Option.bind_some, Option.some.injEq]
        cases hp : (partition k).2 with
        | none => simp [contrib]
        | some r =>
          cases u with
          | none => simp [contrib]
          | atom a => simp [contrib]
          | ref j =>
            -- every part has parameters, as `collect` succeeds
            have hex : ∃ dj, getParams fuel h j = some dj := by
              have hm := Dict.get?_some_mem _ _ _ ha
              clear h4 h3 h1 h2 ih
              generalize ([] : Dict (Val A)) = out at e
              generalize o.attrs = l at e hm
              induction l generalizing out with
              | nil => simp at hm
              | cons x l ihl =>
                obtain ⟨n, u⟩ := x
                rcases List.mem_cons.1 hm with hm' | hm'
                · obtain ⟨rfl, rfl⟩ := Prod.mk.inj hm'
                  rw [collect] at e
                  cases hj : getParams fuel h j with
                  | none => rw [hj] at e; simp at e
                  | some dj => exact ⟨dj, rfl⟩
                · cases u with
                  | ref j' =>
                    rw [collect] at e
                    cases hj : getParams fuel h j' with
                    | none => rw [hj] at e; simp at e
                    | some dj => simp only [hj] at e; exact ihl _ e hm'
                  | none => rw [collect] at e; exacts [ihl _ e hm', by simp]
                  | atom a => rw [collect] at e; exacts [ihl _ e hm', by simp]
            obtain ⟨dj, hj⟩ := hex
            simp only [contrib, hj, Option.bind_some, (ih hj).2 r v, Option.some.injEq, Val.ref.injEq,
              reduceCtorEq, false_and, false_or]
            constructor
            · intro l; exact ⟨r, j, rfl, rfl, l⟩
            · rintro ⟨r', j', h5, h6, l⟩; subst h5; subst h6; exact l

theorem collect_congr (g g' : Nat → Option (Dict (Val A))) (l : Dict (Val A))
    (h : ∀ n j, (n, Val.ref j) ∈ l → g j = g' j) (out : Dict (Val A)) : collect g l out = collect g' l out := by
  induction l generalizing out with
  | nil => rfl
  | cons x l ih =>
    obtain ⟨n, v⟩ := x
    have ih' := ih fun n j hm => h n j (by simp [hm])
    cases v with
    | ref j =>
      rw [collect, collect, h n j (by simp)]
      cases g' j with
      | none => rfl
      | some d => exact ih' _
    | none => rw [collect, collect]; exacts [ih' _, by simp, by simp]
    | atom a => rw [collect, collect]; exacts [ih' _, by simp, by simp]

theorem own_mem {h : Heap A C} (d : Dict (Val A)) {fp : List Nat} (o : Own h (d.map Prod.snd) fp) {n : String}
    {v : Val A} (hm : (n, v) ∈ d) : ∃ f, Own h [v] f ∧ (∀ x ∈ f, x ∈ fp) ∧ f.length ≤ fp.length := by
  have : v ∈ d.map Prod.snd := List.mem_map.2 ⟨_, hm, rfl⟩
  obtain ⟨a, b, hab⟩ := List.append_of_mem this
  rw [hab] at o
  obtain ⟨f1, g1, rfl, _, o2, _⟩ := (own_append _ _ _).1 o
  obtain ⟨f2, g2, rfl, o3, _, _⟩ := (own_cons _ _ _).1 o2
  exact ⟨f2, o3, fun x hx => by simp [hx], by simp; omega⟩

theorem getParams_frame {h h' : Heap A C} {i : Nat} {fp : List Nat} (o : Own h [.ref i] fp)
    (e : ∀ x ∈ fp, h'[x]? = h[x]?) (fuel : Nat) : getParams fuel h' i = getParams fuel h i := by
  induction fuel generalizing i fp with
  | zero => rfl
  | succ fuel ih =>
    obtain ⟨ob, f, hi, rfl, o1, _⟩ := own_ref o
    rw [getParams, getParams, (e i (by simp)).trans hi, hi]
    simp only
    refine collect_congr _ _ _ (fun n j hm => ?_) _
    obtain ⟨f2, o2, m2, _⟩ := own_mem _ o1 hm
    exact ih o2 fun x hx => e x (by simp [m2 x hx])

theorem collect_total (g : Nat → Option (Dict (Val A))) (l : Dict (Val A))
    (h : ∀ n j, (n, Val.ref j) ∈ l → ∃ d, g j = some d) (out : Dict (Val A)) : ∃ d, collect g l out = some d := by
  induction l generalizing out with
  | nil => exact ⟨out, rfl⟩
  | cons x l ih =>
    obtain ⟨n, v⟩ := x
    have ih' := ih fun n j hm => h n j (by simp [hm])
    cases v with
    | ref j =>
      obtain ⟨d, hd⟩ := h n j (by simp)
      rw [collect, hd]
      exact ih' _
    | none => rw [collect]; exacts [ih' _, by simp]
    | atom a => rw [collect]; exacts [ih' _, by simp]

theorem getParams_total {h : Heap A C} {i : Nat} {fp : List Nat} (o : Own h [.ref i] fp) {fuel : Nat}
    (hf : fp.length ≤ fuel) : ∃ d, getParams fuel h i = some d := by
  induction fuel generalizing i fp with
  | zero =>
    obtain ⟨ob, f, hi, rfl, o1, _⟩ := own_ref o
    simp at hf
  | succ fuel ih =>
    obtain ⟨ob, f, hi, rfl, o1, _⟩ := own_ref o
    rw [getParams, hi]
    refine collect_total _ _ (fun n j hm => ?_) _
    obtain ⟨f2, o2, _, l2⟩ := own_mem _ o1 hm
    simp only [List.length_cons] at hf
    exact ih o2 (by omega)

/-! ## The arguments of `set_params` -/

/-- The arguments for the estimator itself. -/
def ownPart (kw : Dict (Val A)) : Dict (Val A) := kw.filter fun e => (partition e.1).2.isNone

/-- One argument for a part. -/
def nestOne (nested : Dict (Dict (Val A))) (e : String × Val A) : Dict (Dict (Val A)) :=
  match (partition e.1).2 with
  | some sub => nested.set (partition e.1).1 (((nested.get? (partition e.1).1).getD []).set sub e.2)
  | Option.none => nested

/-- The arguments for the parts. -/
def nest (nested : Dict (Dict (Val A))) (kw : Dict (Val A)) : Dict (Dict (Val A)) := kw.foldl nestOne nested

/-- Argument `r` for part `n`. -/
def look2 (nested : Dict (Dict (Val A))) (n r : String) : Option (Val A) := (nested.get? n).bind fun d => d.get? r

theorem look2_nestOne (nested : Dict (Dict (Val A))) (e : String × Val A) (n r : String) :
    look2 (nestOne nested e) n r = if partition e.1 = (n, some r) then some e.2 else look2 nested n r := by
  unfold nestOne
  cases hp : (partition e.1).2 with
  | none => rw [if_neg]; intro h; rw [h] at hp; simp at hp
  | some sub =>
    have he : partition e.1 = ((partition e.1).1, some sub) := by rw [← hp]
    rw [he]
    simp only [look2, Dict.get?_set, Prod.mk.injEq, Option.some.injEq]
    by_cases hn : n = (partition e.1).1
    · subst hn
      simp only [if_true, Option.bind_some, Dict.get?_set, true_and]
      by_cases hr : r = sub
      · subst hr; simp
      · rw [if_neg hr, if_neg (Ne.symm hr)]
        cases nested.get? (partition e.1).1 <;> simp [Dict.get?]
    · rw [if_neg hn, if_neg fun h => hn h.1.symm]

theorem look2_nest (kw : Dict (Val A)) (hk : kw.Ok) (nested : Dict (Dict (Val A))) (n r : String) :
    look2 (nest nested kw) n r =
      (if partition (join n r) = (n, some r) then kw.get? (join n r) else Option.none).or (look2 nested n r) := by
  induction kw generalizing nested with
  | nil => simp [nest, Dict.get?]
  | cons e kw ih =>
    simp only [Dict.Ok, List.map_cons, List.nodup_cons] at hk
    have := ih hk.2 (nestOne nested e)
    rw [nest, List.foldl_cons]
    rw [nest] at this
    rw [this, look2_nestOne]
    obtain ⟨k, v⟩ := e
    by_cases hp : partition k = (n, some r)
    · have hkj := of_partition_some hp
      rw [if_pos hp, ← hkj, if_pos hp, if_pos hp, Dict.get?, if_pos rfl, (Dict.get?_none_iff kw k).2 hk.1]
      simp
    · rw [if_neg hp]
      by_cases hj : partition (join n r) = (n, some r)
      · rw [if_pos hj, if_pos hj, Dict.get?, if_neg]
        rintro rfl
        exact hp hj
      · rw [if_neg hj, if_neg hj]

theorem nest_ok (kw : Dict (Val A)) (nested : Dict (Dict (Val A))) (h : nested.Ok)
    (hs : ∀ n d, nested.get? n = some d → d.Ok) :
    (nest nested kw).Ok ∧ ∀ n d, (nest nested kw).get? n = some d → d.Ok := by
  induction kw generalizing nested with
  | nil => exact ⟨h, hs⟩
  | cons e kw ih =>
    rw [nest, List.foldl_cons]
    refine ih _ ?_ ?_
    · unfold nestOne
      cases (partition e.1).2 with
      | none => exact h
      | some sub => exact Dict.ok_set _ _ _ h
    · intro n d hd
      unfold nestOne at hd
      cases hp : (partition e.1).2 with
      | none => rw [hp] at hd; exact hs n d hd
      | some sub =>
        rw [hp] at hd
        simp only [Dict.get?_set] at hd
        by_cases hn : n = (partition e.1).1
        · rw [if_pos hn] at hd
          simp only [Option.some.injEq] at hd
          subst hd
          refine Dict.ok_set _ _ _ ?_
          cases hg : nested.get? (partition e.1).1 with
          | none => simp [Dict.Ok]
          | some d' => simpa using hs _ d' hg
        · rw [if_neg hn] at hd
          exact hs n d hd

/-- The arguments for part `n` are those with its name in front. -/
theorem nest_sub {kw : Dict (Val A)} (hk : kw.Ok) {n : String} {sub : Dict (Val A)}
    (h : (nest [] kw).get? n = some sub) (r : String) (v : Val A) :
    sub.get? r = some v ↔ ∃ k, partition k = (n, some r) ∧ (k, v) ∈ kw := by
  have h1 := look2_nest kw hk [] n r
  simp only [look2, h, Option.bind_some, Dict.get?, Option.bind_none, Option.or_none] at h1
  rw [h1]
  constructor
  · intro h2
    by_cases hj : partition (join n r) = (n, some r)
    · rw [if_pos hj] at h2
      exact ⟨_, hj, Dict.get?_some_mem _ _ _ h2⟩
    · rw [if_neg hj] at h2; simp at h2
  · rintro ⟨k, hp, hm⟩
    have := of_partition_some hp
    subst this
    rw [if_pos hp]
    exact Dict.get?_of_mem _ _ _ hk hm

theorem nest_mem {kw : Dict (Val A)} (hk : kw.Ok) {n r k : String} {v : Val A} (hp : partition k = (n, some r))
    (hm : (k, v) ∈ kw) : ∃ sub, (nest [] kw).get? n = some sub ∧ sub.get? r = some v := by
  have h1 := look2_nest kw hk [] n r
  have := of_partition_some hp
  subst this
  rw [if_pos hp, Dict.get?_of_mem _ _ _ hk hm] at h1
  simp only [look2, Option.some_or] at h1
  exact Option.bind_eq_some_iff.1 h1

theorem ownPart_get? {kw : Dict (Val A)} (n : String) (v : Val A) (h : (ownPart kw).get? n = some v) :
    (n, v) ∈ kw ∧ partition n = (n, Option.none) := by
  have := Dict.get?_some_mem _ _ _ h
  simp only [ownPart, List.mem_filter, Option.isNone_iff_eq_none] at this
  refine ⟨this.1, ?_⟩
  have h2 : partition n = ((partition n).1, Option.none) := by rw [← this.2]
  rw [of_partition_none h2] at h2
  exact h2

end Verif.Est
