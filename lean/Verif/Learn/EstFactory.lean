import Verif.Learn.EstProps

/-!
# C101: the models of the GUI
-/

set_option autoImplicit false
set_option linter.unusedSectionVars false
set_option linter.unusedSimpArgs false

namespace Verif.Est

open Verif

variable {A C : Type}

/-- Parameter `k` of the models of a class and their default parts, from the tables alone. -/
def slotOf (T : Table A C) : Nat → C → String → Option (Slot A C)
  | 0, _, _ => Option.none
  | depth + 1, c, k =>
    match (T.slots c).get? (partition k).1 with
    | Option.none => Option.none
    | some s =>
      match (partition k).2 with
      | Option.none => some s
      | some r =>
        match settle s s.init with
        | .obj c' => slotOf T depth c' r
        | _ => Option.none

theorem newObj_slotOf {T : Table A C} (hT : T.Good) {depth : Nat} {c : C} {h h' : Heap A C} {i : Nat}
    (e : newObj T depth c [] h = some (h', i)) (k : String) (sl : Slot A C) :
    SlotAt T h' i k sl ↔ slotOf T depth c k = some sl := by
  induction depth generalizing c h h' i k with
  | zero => simp [newObj] at e
  | succ depth ih =>
    have hg : Plain ([] : Dict (Val A)) := by simp [Plain]
    have hmk : ∀ c h h' i, newObj T depth c [] h = some (h', i) → Fresh T h h' [.ref i] ∧ h.length ≤ i :=
      fun c h h' i e => ⟨(newObj_spec hT (by simp [Plain]) e).1, (newObj_spec hT (by simp [Plain]) e).2.1⟩
    rw [newObj] at e
    cases hf : fill (fun c h => newObj T depth c [] h) [] (T.slots c) h with
    | none => rw [hf] at e; simp at e
    | some r =>
      obtain ⟨h1, attrs⟩ := r
      simp only [hf, Option.some.injEq, Prod.mk.injEq] at e
      obtain ⟨rfl, rfl⟩ := e
      have hi : (h1 ++ [⟨c, attrs⟩] : Heap A C)[h1.length]? = some ⟨c, attrs⟩ := by simp
      obtain ⟨_, ks, _⟩ := fill_spec hmk hg (T.slots c) (fun e he => hT.init c e.1 e.2 he) hf
      have hst := fill_static hmk hg (T.slots c) (fun e he => hT.init c e.1 e.2 he) hf
      rw [slotAt_iff, hi, slotOf]
      simp only [Option.some.injEq, exists_eq_left']
      cases hs : (T.slots c).get? (partition k).1 with
      | none =>
        have : attrs.get? (partition k).1 = Option.none := by
          have := get?_keys _ _ ks (partition k).1
          rw [hs] at this
          simpa using this
        simp [this]
      | some s =>
        obtain ⟨v', hv', hfl⟩ := hst _ s hs
        simp only [hv', Option.some.injEq]
        simp only [Dict.get?, Option.getD_none] at hfl
        cases hp : (partition k).2 with
        | none => simp
        | some r =>
          simp only [reduceCtorEq, false_and, Option.some.injEq, false_or]
          generalize settle s s.init = y at hfl
          cases y with
          | none =>
            simp only [Filled] at hfl
            subst hfl
            simp
          | atom a =>
            simp only [Filled] at hfl
            subst hfl
            simp
          | obj c' =>
            obtain ⟨h3, h2, j, ext, hm, rfl, rfl⟩ := hfl
            obtain ⟨⟨_, _, fp, oj, _⟩, _⟩ := newObj_spec hT (by simp [Plain]) hm
            have fr : ∀ x ∈ fp, (h2 ++ ext ++ [⟨c, attrs⟩] : Heap A C)[x]? = h2[x]? := by
              intro x hx
              have := oj.lt x hx
              rw [getElem?_ext _ (by simp; omega), getElem?_ext _ this]
            simp only [Val.ref.injEq]
            rw [← ih hm r]
            constructor
            · rintro ⟨r', j', rfl, rfl, l⟩
              exact l.frame (oj.frame fr) fun x hx => (fr x hx).symm
            · intro l
              exact ⟨r, j, rfl, rfl, l.frame oj fr⟩

theorem bound_keys (kw : Dict (Val A)) : ∃ N, ∀ e ∈ kw, e.1.toList.length < N := by
  induction kw with
  | nil => exact ⟨0, by simp⟩
  | cons e kw ih =>
    obtain ⟨N, hN⟩ := ih
    refine ⟨max N (e.1.toList.length + 1), ?_⟩
    intro x hx
    rcases List.mem_cons.1 hx with rfl | hx
    · omega
    · have := hN x hx; omega

theorem ok_filter {V : Type} {d : Dict V} (h : d.Ok) (p : String × V → Bool) : Dict.Ok (d.filter p) := by
  unfold Dict.Ok at *
  exact h.sublist (List.Sublist.map _ List.filter_sublist)

theorem default_ok (yes : A) : (defaultKwargs yes).Ok := by
  unfold Dict.Ok
  show ["beat_decisor__intermediate__save", "sinusoidal__intermediate__save"].Nodup
  decide +kernel

/-- **C101** (factory): for all arguments none of which is below another one, and whatever is in the memory,
`sample_factory` returns a new model of the class asked for; nothing that was there changes.  Every argument that is
a parameter of a new model of that class is stored; intermediate results are saved unless the arguments say
otherwise; arguments that are no parameters are ignored; all other parameters have their defaults. -/
theorem C101_factory (d : Defaults A) (hd : d.Ok) {depth : Nat} (hdep : 3 ≤ depth) (yes : A) (beatsdrop : Bool)
    (c : Cls) (hc : c = if beatsdrop then .sampleBeatsDROP else .sample)
    {kw : Dict (Val A)} (hkw : kw.Ok) (hpl : Plain kw) (hap : Apart (kw ++ defaultKwargs yes)) (h : Heap A Cls)
    (w : Wf (package d) h) :
    ∃ N, ∀ fuel, N ≤ fuel → ∃ h' i, sampleFactory (package d) depth fuel yes beatsdrop kw h = some (h', .ok i) ∧
      (∀ x, x < h.length → h'[x]? = h[x]?) ∧ (h'[i]?).map Obj.cls = some c ∧
      Wf (package d) h' ∧ (∃ f, Own h' [.ref i] f ∧ ∀ x ∈ f, h.length ≤ x) ∧
      ∀ n P, getParams n h' i = some P →
        (∀ k v s, (k, v) ∈ kw → slotOf (package d) depth c k = some s →
          ∃ v', P.get? k = some v' ∧ Stored s v v' h.length) ∧
        (∀ k ∈ ["beat_decisor__intermediate__save", "sinusoidal__intermediate__save"], kw.get? k = Option.none →
          (slotOf (package d) depth c k).isSome → P.get? k = some (.atom yes)) ∧
        ∀ k, (∀ e ∈ kw ++ defaultKwargs yes, (slotOf (package d) depth c e.1).isSome →
            e.1 ≠ k ∧ ∀ r, k ≠ join e.1 r) →
          ∀ x, (∃ v, P.get? k = some v ∧ kindOf h' v = some x) ↔ static (package d) depth c [] k = some x := by
  obtain ⟨hT, hr, hrank⟩ := C100_package d hd
  have hrk : ∀ c, rank c < depth := fun c => by have := hrank c; omega
  obtain ⟨⟨h1, i⟩, hn⟩ := newObj_total hr (hrk c) [] h
  have hempty : Plain ([] : Dict (Val A)) := by simp [Plain]
  obtain ⟨⟨⟨ext, he1⟩, w1, f, o, l⟩, li, attrs, hi1, _⟩ := newObj_spec hT hempty hn
  have w1 := w1 w
  -- the arguments with the defaults
  let add : Dict (Val A) := (defaultKwargs yes).filter fun e => !kw.has e.1
  have hadd : Dict.Ok add := ok_filter (default_ok yes) _
  let all : Dict (Val A) := kw.update add
  have hall : all.Ok := Dict.ok_update _ _ hkw
  have hget : ∀ k, all.get? k = (add.get? k).or (kw.get? k) := Dict.get?_update kw add hadd
  have hallmem : ∀ e ∈ all, e ∈ kw ++ defaultKwargs yes := by
    intro e he
    have h1 := Dict.get?_of_mem all e.1 e.2 hall he
    rw [hget] at h1
    cases h2 : add.get? e.1 with
    | some v =>
      rw [h2] at h1
      simp only [Option.some_or, Option.some.injEq] at h1
      have := Dict.get?_some_mem _ _ _ h2
      rw [h1] at this
      exact List.mem_append.2 (.inr (List.mem_of_mem_filter this))
    | none =>
      rw [h2] at h1
      simp only [Option.none_or] at h1
      exact List.mem_append.2 (.inl (Dict.get?_some_mem _ _ _ h1))
  have hkwall : ∀ e ∈ kw, e ∈ all := by
    intro e he
    have h1 := Dict.get?_of_mem kw e.1 e.2 hkw he
    refine Dict.get?_some_mem all e.1 e.2 ?_
    rw [hget]
    have : add.get? e.1 = Option.none := by
      cases h2 : add.get? e.1 with
      | none => rfl
      | some v =>
        have := (List.mem_filter.1 (Dict.get?_some_mem _ _ _ h2)).2
        simp [Dict.has, h1] at this
    rw [this, h1]
    rfl
  have hplall : Plain all := by
    intro e he j
    rcases List.mem_append.1 (hallmem e he) with h2 | h2
    · exact hpl e h2 j
    · simp only [defaultKwargs, List.mem_cons, List.not_mem_nil, or_false] at h2
      rcases h2 with rfl | rfl <;> simp
  obtain ⟨N0, hN0⟩ := bound_keys all
  refine ⟨max f.length (N0 + 1), fun fuel hfuel => ?_⟩
  obtain ⟨params, hps⟩ := getParams_total o (fuel := fuel) (by omega)
  obtain ⟨_, getps⟩ := getParams_spec hT w1 hps
  have hparam : ∀ k, params.has k = true ↔ (slotOf (package d) depth c k).isSome := by
    intro k
    rw [Dict.has_iff, Option.isSome_iff_exists]
    constructor
    · rintro ⟨v, hv⟩
      obtain ⟨s, hs⟩ := ((getps k v).1 hv).slot w1
      exact ⟨s, (newObj_slotOf hT hn k s).1 hs⟩
    · rintro ⟨s, hs⟩
      obtain ⟨v, hv⟩ := ((newObj_slotOf hT hn k s).2 hs).look w1
      exact ⟨v, (getps k v).2 hv⟩
  have hsubP : Plain (all.filter fun e => params.has e.1) := fun x hx => hplall x (List.mem_of_mem_filter hx)
  have hsubO := ok_filter hall fun e => params.has e.1
  obtain ⟨⟨h2, r2⟩, hs⟩ := setParams_total hT hr hrk hsubO hsubP (fuel := fuel)
    (fun x hx => by have := hN0 x (List.mem_of_mem_filter hx); omega) (by omega) w1 o
  have hapsub : Apart (all.filter fun e => params.has e.1) := fun e he e' he' =>
    hap e (hallmem e (List.mem_of_mem_filter he)) e' (hallmem e' (List.mem_of_mem_filter he'))
  have hok : r2 = .ok () := setParams_ok hT hsubO hsubP hapsub w1 o (fun e he => by
    obtain ⟨s, hs⟩ := Option.isSome_iff_exists.1 ((hparam e.1).1 (List.mem_filter.1 he).2)
    exact ⟨s, (newObj_slotOf hT hn e.1 s).2 hs⟩) hs
  subst hok
  obtain ⟨f2, o2, g2, w2, law⟩ := setParams_spec hT hsubO hsubP w1 o hs
  obtain ⟨_, cls⟩ := setParams_cls hT hs
  have law := law rfl
  have hle : h.length ≤ h1.length := by rw [he1]; simp
  refine ⟨h2, i, ?_, ?_, ?_, w2, ⟨f2, o2, ?_⟩, ?_⟩
  · unfold sampleFactory
    rw [← hc]
    simp only [hn, hps]
    have : setParams (package d) depth fuel i (List.filter (fun e => Dict.has params e.1)
        (kw.update ((defaultKwargs yes).filter fun e => !kw.has e.1))) h1 = some (h2, .ok ()) := hs
    rw [this]
  · intro x hx
    rw [g2.same x (by omega) fun hxf => by have := l x hxf; omega, he1, getElem?_ext _ hx]
  · have hil : i < h1.length := (List.getElem?_eq_some_iff.1 hi1).1
    rw [cls i hil, hi1]
    rfl
  · intro x hx
    rcases g2.sub x hx with h3 | h3
    · exact l x h3
    · omega
  · intro n P hP
    obtain ⟨_, getP⟩ := getParams_spec hT w2 hP
    refine ⟨?_, ?_, ?_⟩
    · intro k v s hk hsl
      have hm : (k, v) ∈ all.filter fun e => params.has e.1 :=
        List.mem_filter.2 ⟨hkwall _ hk, (hparam k).2 (by simp [hsl])⟩
      obtain ⟨s', v', a1, a2, a3⟩ := law.set k v hm
      have : s' = s := by
        have := (newObj_slotOf hT hn k s').1 a1
        rw [hsl] at this
        exact (Option.some.inj this).symm
      subst this
      exact ⟨v', (getP k v').2 a2, a3.mono hle⟩
    · intro k hk hno hsl
      have hka : (k, Val.atom yes) ∈ add := by
        refine List.mem_filter.2 ⟨?_, by simp [Dict.has, hno]⟩
        simp only [List.mem_cons, List.not_mem_nil, or_false] at hk
        rcases hk with rfl | rfl <;> simp [defaultKwargs]
      have hm : (k, Val.atom yes) ∈ all := by
        refine Dict.get?_some_mem all k _ ?_
        rw [hget, Dict.get?_of_mem add k _ hadd hka]
        rfl
      obtain ⟨s', v', a1, a2, a3⟩ := law.set k (.atom yes) (List.mem_filter.2 ⟨hm, (hparam k).2 hsl⟩)
      rw [(getP k v').2 a2]
      exact congrArg some a3
    · intro k hk x
      have keep := law.keep k fun y hy => by
        have hy' := List.mem_filter.1 hy
        exact hk y (hallmem y hy'.1) ((hparam y.1).1 hy'.2)
      have kinds : ∀ v, Look h1 i k v → Est.kindOf h2 v = Est.kindOf h1 v := by
        intro v lv
        cases v with
        | none => rfl
        | atom a => rfl
        | ref j =>
          have := cls j (o.lt j (lv.mem o j rfl))
          simp only [kindOf]
          cases q1 : h2[j]? <;> cases q2 : h1[j]? <;> simp_all
      rw [← newObj_static hT hempty hn k x]
      unfold Shows
      constructor
      · rintro ⟨v, hv, kv⟩
        have lv := (keep v).1 ((getP k v).1 hv)
        exact ⟨v, lv, by rw [← kinds v lv]; exact kv⟩
      · rintro ⟨v, lv, kv⟩
        exact ⟨v, (getP k v).2 ((keep v).2 lv), by rw [kinds v lv]; exact kv⟩

/-- Arguments for a model with BeatsDROP, one of which is no parameter; the memory contains another model. -/
example : ((newObj (package exD) 3 .sample [] []).bind fun r =>
    (sampleFactory (package exD) 3 9 1 true
        [("max_n_modes", .atom 4), ("beat_decisor__th", .atom 2), ("nonsense", .atom 3), ("sinusoidal__w", .none)] r.1).bind
      fun q => q.2.toOption.bind fun i => (getParams 9 q.1 i).map fun P =>
        (["max_n_modes", "beat_decisor__th", "nonsense", "sinusoidal__w", "sinusoidal__intermediate__save",
          "beat_decisor__intermediate__save", "sinusoidal__t"].map fun k => P.get? k)) =
    some [some (.atom 4), some (.atom 2), Option.none, some (.atom 1), some (.atom 1), some (.atom 1), some (.atom 0)] := by
  decide +kernel

/-- The hypotheses of C101_factory are met. -/
example : Apart ([("max_n_modes", .atom 4), ("beat_decisor__th", .atom 2), ("nonsense", .atom 3)] ++
    defaultKwargs (1 : Nat)) ∧ Wf (package exD) [] ∧ exD.Ok := by
  refine ⟨?_, fun o ho => by simp at ho, exD_ok⟩
  have key : ∀ e ∈ ["max_n_modes", "beat_decisor__th", "nonsense", "beat_decisor__intermediate__save",
      "sinusoidal__intermediate__save"], ∀ e' ∈ ["max_n_modes", "beat_decisor__th", "nonsense",
      "beat_decisor__intermediate__save", "sinusoidal__intermediate__save"],
      ¬ (e.toList ++ ['_', '_']) <+: e'.toList := by
    decide +kernel
  intro e he e' he' r hr
  have hm : ∀ x ∈ ([("max_n_modes", .atom 4), ("beat_decisor__th", .atom 2), ("nonsense", .atom 3)] ++
      defaultKwargs (1 : Nat) : Dict (Val Nat)), x.1 ∈ ["max_n_modes", "beat_decisor__th", "nonsense",
      "beat_decisor__intermediate__save", "sinusoidal__intermediate__save"] := by
    intro x hx
    exact List.mem_map_of_mem (f := Prod.fst) hx
  refine key _ (hm e he) _ (hm e' he') ?_
  rw [hr, join, String.toList_ofList]
  exact ⟨r.toList, by simp⟩

/-- If one argument is below another one, making the model may fail: with `None` for a part it does. -/
theorem factory_below : (sampleFactory (package exD) 3 9 1 false [("sinusoidal", .none)] []).map (fun q =>
    match q.2 with | .ok _ => Option.none | .error e => some e) = some (some .attributeError) := by
  decide +kernel

/-! ## Names that are parameters -/

/-- The default of a parameter, from the names. -/
def resolve : Nat → Cls → String → Option (Auto Cls)
  | 0, _, _ => Option.none
  | depth + 1, c, k =>
    match Dict.get? (parts c) (partition k).1 with
    | Option.none => Option.none
    | some a =>
      match (partition k).2 with
      | Option.none => some a
      | some r =>
        match a with
        | .part c' => resolve depth c' r
        | _ => Option.none

theorem get?_map {V W : Type} (g : V → W) (l : Dict V) (n : String) :
    Dict.get? (l.map fun e => (e.1, g e.2)) n = (Dict.get? l n).map g := by
  induction l with
  | nil => rfl
  | cons e l ih =>
    simp only [List.map_cons, Dict.get?]
    by_cases h : e.1 = n
    · simp [h]
    · simp only [if_neg h]; exact ih

theorem made_init (d : Defaults A) (c : Cls) : ∀ e ∈ slots d c, ∀ c', autoOf e.2 = .part c' → e.2.init = .none := by
  cases c with
  | linear =>
    intro e he c' h
    simp only [slots, List.mem_map] at he
    obtain ⟨x, _, rfl⟩ := he
    simp [autoOf] at h
  | _ => simp [slots, Defaults.plain, Defaults.value, made, autoOf]

theorem resolve_slotOf (d : Defaults A) (n depth : Nat) (hn : n ≤ depth) (c : Cls) (k : String) (a : Auto Cls)
    (e : resolve n c k = some a) : ∃ s, slotOf (package d) depth c k = some s ∧ autoOf s = a := by
  induction n generalizing depth c k with
  | zero => simp [resolve] at e
  | succ n ih =>
    obtain ⟨depth, rfl⟩ : ∃ q, depth = q + 1 := ⟨depth - 1, by omega⟩
    rw [resolve] at e
    rw [slotOf]
    by_cases hc : c = .linear
    · subst hc
      simp [parts, Dict.get?] at e
    · rw [← slots_parts d c hc, get?_map] at e
      have hsl : (package d).slots c = slots d c := rfl
      rw [hsl]
      cases hs : (slots d c).get? (partition k).1 with
      | none => rw [hs] at e; simp at e
      | some s =>
        simp only [hs, Option.map_some] at e
        cases hp : (partition k).2 with
        | none =>
          simp only [hp, Option.some.injEq] at e
          exact ⟨s, rfl, e⟩
        | some r =>
          simp only [hp] at e
          cases ha : autoOf s with
          | plain => simp [ha] at e
          | value => simp [ha] at e
          | part c' =>
            simp only [ha] at e
            have hin := made_init d c _ (Dict.get?_some_mem _ _ _ hs) c' ha
            have : settle s s.init = .obj c' := by
              rw [hin, settle]
              unfold autoOf at ha
              cases hau : s.auto with
              | none => rw [hau] at ha; cases ha
              | some q =>
                cases q with
                | value _ => rw [hau] at ha; cases ha
                | make c2 => rw [hau] at ha; cases ha; rfl
            simp only [this]
            exact ih depth (by omega) c' r e

end Verif.Est
