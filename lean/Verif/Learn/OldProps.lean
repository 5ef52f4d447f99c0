import Verif.Learn.OldLemmas
import Verif.Utils.DeprecatedProps
import Verif.Tracker.Model
import Mathlib.Data.Rat.Floor

/-!
# Deprecated names through the whole chain of models (C151)
-/

set_option autoImplicit false
set_option linter.unusedSectionVars false
set_option linter.unusedSimpArgs false

namespace Verif.Est

open Verif

variable {A C : Type}

/-! ## Programs -/

/-- The state after a call of a decorated constructor or method, which may raise. -/
def Call.runD (T : Table A C) (deco : Deco A C) (depth fuel : Nat) (s : Prog A C) : Call A C → Option (Prog A C)
  | .new c kw =>
    match constructD T deco depth fuel c kw s.heap with
    | Option.none => Option.none
    | some (h, .ok i) => some ⟨h, s.models ++ [i]⟩
    | some (h, .error _) => some ⟨h, s.models⟩
  | .set m kw =>
    match s.models[m]? with
    | Option.none => some s
    | some i =>
      match setParamsD T deco depth fuel i kw s.heap with
      | Option.none => Option.none
      | some (h, _) => some ⟨h, s.models⟩
  | .clone m =>
    match s.models[m]? with
    | Option.none => some s
    | some i =>
      match Est.clone T depth fuel i s.heap with
      | Option.none => Option.none
      | some (h, i) => some ⟨h, s.models ++ [i]⟩

/-- The arguments of a call can be given with the names of today: every argument has one, and no two have the same. -/
def Call.Renamable (T : Table A C) (R : Renaming C) (s : Prog A C) : Call A C → Prop
  | .new c kw => ∃ kwm, Today T R c kw kwm ∧ kwm.Ok
  | .set m kw => ∀ i c, s.models[m]? = some i → (s.heap[i]?).map Obj.cls = some c → ∃ kwm, Today T R c kw kwm ∧ kwm.Ok
  | .clone _ => True

/-- States that programs reach that use old names. -/
inductive ReachD (T : Table A C) (R : Renaming C) (deco : Deco A C) (depth : Nat) : Prog A C → Prop where
  | start : ReachD T R deco depth {}
  | step {s s' : Prog A C} {fuel : Nat} {c : Call A C} : ReachD T R deco depth s → c.Plain → c.Renamable T R s →
      c.runD T deco depth fuel s = some s' → ReachD T R deco depth s'

theorem today_plain {T : Table A C} {R : Renaming C} {c : C} {kw kwm kw' : Dict (Val A)} (f : Today T R c kw kwm)
    (p : kw'.Perm kwm) (h : Plain kw) : Plain kw' := by
  intro x hx j
  obtain ⟨y, hy, q⟩ := (forall₂_mem f).2 x (p.mem_iff.1 hx)
  rw [← q.1]
  exact h y hy j

theorem model_cls {T : Table A C} (hT : T.Good) {depth : Nat} (hd : 0 < depth) {s : Prog A C} (r : Reach T depth s)
    {m i : Nat} (hm : s.models[m]? = some i) : ∃ c, (s.heap[i]?).map Obj.cls = some c := by
  obtain ⟨f, of⟩ := Inv.model (r.inv hT hd) hm
  obtain ⟨ob, _, hi, _⟩ := own_ref of
  exact ⟨ob.cls, by rw [hi]; rfl⟩

/-- **C151** (`set_params`): for every model that a program has made and all arguments with old names, at any depth:
`set_params` does what it does with the names of today, in some order: the same memory and the same result or
exception.  So, `P` and `P'` being what `get_params` gives before and after: if it returns, every argument has been
stored in the parameter of today, and the parameters that are neither arguments nor below one are as before; if no
argument is below another one, it returns exactly if the names of today are parameters; else it raises `ValueError`
or `AttributeError`. -/
theorem C151_set {T : Table A C} (hT : T.Good) {R : Renaming C} {deco : Deco A C} (hR : R.Of deco) {depth fuel : Nat}
    (hd : 0 < depth) {s : Prog A C} (r : Reach T depth s) {m i : Nat} (hm : s.models[m]? = some i) {c : C}
    (hc : (s.heap[i]?).map Obj.cls = some c) {kw kwm : Dict (Val A)} (hkw : kw.Ok) (hpl : Plain kw)
    (f : Today T R c kw kwm) (okm : kwm.Ok) {h' : Heap A C} {res : Except PyErr Unit}
    (e : setParamsD T deco depth fuel i kw s.heap = some (h', res)) :
    (∃ kw', kw'.Perm kwm ∧ setParams T depth fuel i kw' s.heap = some (h', res)) ∧
    ∀ (n n' : Nat) (P P' : Dict (Val A)), getParams n s.heap i = some P → getParams n' h' i = some P' →
      (res = .ok () →
        (∀ k v, (k, v) ∈ kw → ∃ k' sl v', Modern T R c k k' ∧ SlotAt T s.heap i k' sl ∧ P.has k' = true ∧
          P'.get? k' = some v' ∧ Stored sl v v' s.heap.length) ∧
        ∀ k, Untouched kwm k → P'.get? k = P.get? k) ∧
      (Apart kwm → (res = .ok () ↔ ∀ e ∈ kwm, P.has e.1 = true)) ∧
      ∀ err, res = .error err → err = .valueError ∨ err = .attributeError := by
  obtain ⟨kw', hp, hs⟩ := setParams_sim hT hR (r.typed hT) hc hkw hpl f okm e
  refine ⟨⟨kw', hp, hs⟩, ?_⟩
  intro n n' P P' eP eP'
  obtain ⟨h1, h2, h3⟩ := C100_set hT hd r hm (ok_perm hp okm) (today_plain f hp hpl) hs eP eP'
  refine ⟨fun ho => ⟨?_, ?_⟩, ?_, h3⟩
  · intro k v hk
    obtain ⟨x, hx, q⟩ := (forall₂_mem f).1 _ hk
    obtain ⟨sl, v', a1, a2, a3, a4⟩ := (h1 ho).1 x.1 x.2 (hp.mem_iff.2 hx)
    have : v = x.2 := q.1
    exact ⟨x.1, sl, v', q.2, a1, a2, a3, this ▸ a4⟩
  · exact fun k hk => (h1 ho).2 k fun x hx => hk x (hp.mem_iff.1 hx)
  · intro ha
    rw [h2 ?_]
    · exact ⟨fun h x hx => h x (hp.mem_iff.2 hx), fun h x hx => h x (hp.mem_iff.1 hx)⟩
    · exact fun x hx y hy => ha x (hp.mem_iff.1 hx) y (hp.mem_iff.1 hy)

/-- **C151** (constructor): for all arguments with old names a constructor does what it does with the names of today,
in some order: the same memory and the same model or exception.  So if it returns, every argument has been stored in
the parameter of today (`None` gives the default, if it is a parameter of the class itself), and every parameter that
is neither an argument nor below one has its default. -/
theorem C151_new {T : Table A C} (hT : T.Good) {R : Renaming C} {deco : Deco A C} (hR : R.Of deco) {depth fuel : Nat}
    (hd : 0 < depth) {s : Prog A C} (r : Reach T depth s) (c : C) {kw kwm : Dict (Val A)} (hkw : kw.Ok)
    (hpl : Plain kw) (f : Today T R c kw kwm) (okm : kwm.Ok) {h' : Heap A C} {res : Except PyErr Nat}
    (e : constructD T deco depth fuel c kw s.heap = some (h', res)) :
    (∃ kw', kw'.Perm kwm ∧ construct T depth fuel c kw' s.heap = some (h', res)) ∧
    ∀ (i n : Nat) (P : Dict (Val A)), res = .ok i → getParams n h' i = some P →
      (∀ k v, (k, v) ∈ kw → ∃ k', Modern T R c k k' ∧ P.has k' = true ∧ (v ≠ .none → P.get? k' = some v) ∧
        ∀ sl, (T.slots c).get? k' = some sl → ∃ v', P.get? k' = some v' ∧ kindOf h' v' = some (settle sl v)) ∧
      ∀ k, Untouched kwm k → ∀ x, (∃ v, P.get? k = some v ∧ kindOf h' v = some x) ↔ static T depth c [] k = some x := by
  obtain ⟨kw', hp, hs⟩ := construct_sim hT hR (r.typed hT) hkw hpl f okm e
  refine ⟨⟨kw', hp, hs⟩, ?_⟩
  rintro i n P rfl eP
  obtain ⟨h1, h2⟩ := C100_new hT hd r c (ok_perm hp okm) (today_plain f hp hpl) hs eP
  refine ⟨?_, fun k hk => h2 k fun x hx => hk x (hp.mem_iff.1 hx)⟩
  intro k v hk
  obtain ⟨x, hx, q⟩ := (forall₂_mem f).1 _ hk
  obtain ⟨a1, a2, a3⟩ := h1 x.1 x.2 (hp.mem_iff.2 hx)
  have : v = x.2 := q.1
  rw [← this] at a2 a3
  exact ⟨x.1, q.2, a1, a2, a3⟩

/-- **C151** (programs): a program that uses old names reaches only states that a program with the names of today
reaches too; so what C100 says about those (models share nothing, and so on) holds for it. -/
theorem C151_programs {T : Table A C} (hT : T.Good) {R : Renaming C} {deco : Deco A C} (hR : R.Of deco) {depth : Nat}
    (hd : 0 < depth) {s : Prog A C} (r : ReachD T R deco depth s) : Reach T depth s := by
  induction r with
  | start => exact .start
  | @step s s' fuel c _ hc hn e ih =>
    cases c with
    | new c kw =>
      obtain ⟨kwm, f, okm⟩ := hn
      rw [Call.runD] at e
      cases hk : constructD T deco depth fuel c kw s.heap with
      | none => rw [hk] at e; simp at e
      | some q =>
        obtain ⟨h1, r1⟩ := q
        obtain ⟨kw', hp, hs⟩ := construct_sim hT hR (ih.typed hT) hc.1 hc.2 f okm hk
        refine .step (fuel := fuel) (c := .new c kw') ih ⟨ok_perm hp okm, today_plain f hp hc.2⟩ ?_
        rw [Call.run, hs]
        simp only [hk] at e
        exact e
    | set m kw =>
      rw [Call.runD] at e
      cases hm : s.models[m]? with
      | none =>
        refine .step (fuel := fuel) (c := .set m kw) ih hc ?_
        rw [Call.run, hm]
        simp only [hm] at e
        exact e
      | some i =>
        simp only [hm] at e
        obtain ⟨c, hcl⟩ := model_cls hT hd ih hm
        obtain ⟨kwm, f, okm⟩ := hn i c hm hcl
        cases hk : setParamsD T deco depth fuel i kw s.heap with
        | none => rw [hk] at e; simp at e
        | some q =>
          obtain ⟨h1, r1⟩ := q
          obtain ⟨kw', hp, hs⟩ := setParams_sim hT hR (ih.typed hT) hcl hc.1 hc.2 f okm hk
          refine .step (fuel := fuel) (c := .set m kw') ih ⟨ok_perm hp okm, today_plain f hp hc.2⟩ ?_
          rw [Call.run, hm]
          simp only [hs]
          simp only [hk] at e
          exact e
    | clone m => exact .step (fuel := fuel) (c := .clone m) ih trivial e

/-- **C151** (no endless recursion): calls with old names end, however deep the names are. -/
theorem C151_ends {T : Table A C} (hT : T.Good) {R : Renaming C} {deco : Deco A C} (hR : R.Of deco) {rk : C → Nat}
    (hr : Ranked T rk) {depth : Nat} (hd : ∀ c, rk c < depth) {s : Prog A C} (r : ReachD T R deco depth s)
    (hd0 : 0 < depth) (c : Call A C) (hc : c.Plain) (hn : c.Renamable T R s) :
    ∃ N, ∀ fuel, N ≤ fuel → ∃ s', c.runD T deco depth fuel s = some s' := by
  have r' := C151_programs hT hR hd0 r
  cases c with
  | new c kw =>
    obtain ⟨kwm, f, okm⟩ := hn
    refine ⟨rk c + 1, fun fuel hf => ?_⟩
    obtain ⟨⟨h1, r1⟩, hk⟩ := constructD_ends hT hR hr hd (r'.typed hT) (fuel := fuel) (by omega) hc.1 hc.2 f okm
    rw [Call.runD]
    simp only [hk]
    cases r1 <;> exact ⟨_, rfl⟩
  | set m kw =>
    cases hm : s.models[m]? with
    | none => exact ⟨0, fun fuel _ => ⟨s, by rw [Call.runD, hm]⟩⟩
    | some i =>
      obtain ⟨c, hcl⟩ := model_cls hT hd0 r' hm
      obtain ⟨kwm, f, okm⟩ := hn i c hm hcl
      refine ⟨rk c + 1, fun fuel hf => ?_⟩
      obtain ⟨⟨h1, r1⟩, hk⟩ := setParamsD_ends hT hR hr hd (r'.typed hT) hcl (fuel := fuel) (by omega) hc.1 hc.2 f okm
      rw [Call.runD, hm]
      simp only [hk]
      exact ⟨_, rfl⟩
  | clone m =>
    obtain ⟨N, hN⟩ := C100_ends hT hr hd r' hd0 (.clone m) trivial
    refine ⟨N, fun fuel hf => ?_⟩
    obtain ⟨s', h, -⟩ := hN fuel hf
    exact ⟨s', h⟩

/-! ## The names of the package -/

/-- Spec: the old names of `SinusoidalModel` that were only renamed. -/
def oldSinusoidal : List (String × String) :=
  [("max_n_sines", "tracker__max_n_sines"), ("min_sine_dur", "tracker__min_sine_dur"),
   ("freq_dev_offset", "tracker__freq_dev_offset"), ("freq_dev_slope", "tracker__freq_dev_slope"),
   ("save_intermediate", "intermediate__save"), ("fs", "tracker__fs"), ("h", "tracker__h")]

/-- Spec: the old names of `ModalModel`. -/
def oldModal : List (String × String) :=
  [("reverse", "tracker__reverse"), ("frequency_bounds", "tracker__frequency_bounds"),
   ("peak_threshold", "tracker__peak_threshold"), ("merge_strategy", "tracker__merge_strategy"),
   ("strip_t", "tracker__strip_t")] ++ oldSinusoidal

/-- Spec: the names of today.  `SAMPLE` and `SAMPLEBeatsDROP` had a parameter `sinusoidal_model`, now `sinusoidal`. -/
def packageNames : Renaming Cls where
  ren
    | .sample, k | .sampleBeatsDROP, k =>
      if Utils.startsWith k "sinusoidal_model" then "sinusoidal" ++ Utils.dropStr k 16 else k
    | .modalModel, k => (oldModal.lookup k).getD k
    | .sinusoidalModel, k => (oldSinusoidal.lookup k).getD k
    | _, k => k
  plain
    | .sample, k | .sampleBeatsDROP, k => Utils.startsWith k "sinusoidal_model_model" = false
    | .modalModel, k | .sinusoidalModel, k => k ≠ "safe_sine_len" ∧ k ≠ "sine_tracker_cls"
    | _, _ => True

/-- One renaming after the other. -/
def renL : List (String × String) → String → String
  | [], k => k
  | p :: m, k => renL m (if k = p.1 then p.2 else k)

theorem erase_absent {V : Type} (d : Dict V) (k : String) (h : k ∉ d.map Prod.fst) : d.erase k = d := by
  unfold Dict.erase
  rw [List.filter_eq_self]
  intro x hx
  simp only [Bool.not_eq_eq_eq_not, Bool.not_true, decide_eq_false_iff_not]
  rintro rfl
  exact h (List.mem_map.2 ⟨x, hx, rfl⟩)

theorem replace_perm {V : Type} (kw : Dict V) (ok : kw.Ok) {old new : String} (hne : old ≠ new) {v : V}
    (hv : kw.get? old = some v) (hn : new ∉ kw.map Prod.fst) :
    ((kw.erase old).set new v).Perm (kw.map fun e => (if e.1 = old then new else e.1, e.2)) := by
  have hn' : new ∉ (kw.erase old).map Prod.fst := by
    intro hm
    obtain ⟨x, hx, h⟩ := List.mem_map.1 hm
    exact hn (List.mem_map.2 ⟨x, List.mem_of_mem_filter hx, h⟩)
  rw [set_new _ _ _ hn']
  clear hn' hn
  induction kw with
  | nil => simp [Dict.get?] at hv
  | cons x kw ih =>
    obtain ⟨k, u⟩ := x
    simp only [Dict.Ok, List.map_cons, List.nodup_cons] at ok
    by_cases hk : k = old
    · subst hk
      rw [Dict.get?, if_pos rfl] at hv
      simp only [Option.some.injEq] at hv
      subst hv
      have h1 : Dict.erase ((k, u) :: kw) k = kw := by
        have := erase_absent kw k ok.1
        simpa [Dict.erase] using this
      have h2 : (kw.map fun e => (if e.1 = k then new else e.1, e.2)) = kw := by
        conv_rhs => rw [← List.map_id kw]
        refine List.map_congr_left fun e he => ?_
        rw [if_neg]
        · rfl
        · rintro rfl
          exact ok.1 (List.mem_map.2 ⟨e, he, rfl⟩)
      rw [h1, List.map_cons, h2]
      simp only [if_true]
      exact List.perm_append_singleton _ _
    · rw [Dict.get?, if_neg hk] at hv
      have h1 : Dict.erase ((k, u) :: kw) old = (k, u) :: Dict.erase kw old := by simp [Dict.erase, hk]
      rw [h1, List.map_cons, if_neg hk]
      exact (ih ok.2 hv).cons _

theorem loop_perm {V : Type} (d : Utils.Dep V) (hc : d.convert = none) (args : List V) (m : List (String × String))
    (hm : ∀ p ∈ m, p.1 ≠ p.2) (kw : Dict V) (ok : kw.Ok) (ok' : Dict.Ok (kw.map fun e => (renL m e.1, e.2))) :
    ∃ kw', (d.loop args (m.map fun p => (p.1, some p.2)) kw).2 = .ok kw' ∧
      kw'.Perm (kw.map fun e => (renL m e.1, e.2)) := by
  induction m generalizing kw with
  | nil => exact ⟨kw, rfl, by simp [renL]⟩
  | cons p m ih =>
    obtain ⟨old, new⟩ := p
    have hne : old ≠ new := hm (old, new) (by simp)
    have hm' : ∀ p ∈ m, p.1 ≠ p.2 := fun p hp => hm p (by simp [hp])
    simp only [List.map_cons, Utils.Dep.loop]
    cases hv : kw.get? old with
    | none =>
      have hno : ∀ e ∈ kw, e.1 ≠ old := by
        rintro e he rfl
        exact (Dict.get?_none_iff _ _).1 hv (List.mem_map.2 ⟨e, he, rfl⟩)
      have heq : (kw.map fun e => (renL ((old, new) :: m) e.1, e.2)) = kw.map fun e => (renL m e.1, e.2) := by
        refine List.map_congr_left fun e he => ?_
        rw [renL, if_neg (hno e he)]
      rw [heq] at ok' ⊢
      exact ih hm' kw ok ok'
    | some v =>
      simp only [hc]
      have hnew : new ∉ kw.map Prod.fst := by
        intro hmem
        obtain ⟨x, hx, hxn⟩ := List.mem_map.1 hmem
        have hold := Dict.get?_some_mem _ _ _ hv
        unfold Dict.Ok at ok'
        rw [List.map_map] at ok'
        have := List.inj_on_of_nodup_map ok' hx hold (by
          simp only [Function.comp_apply, renL, hxn, if_neg hne.symm, if_true])
        rw [this] at hxn
        exact hne hxn
      have hp := replace_perm kw ok hne hv hnew
      have heq : ((kw.map fun e => (if e.1 = old then new else e.1, e.2)).map fun e => (renL m e.1, e.2)) =
          kw.map fun e => (renL ((old, new) :: m) e.1, e.2) := by
        rw [List.map_map]
        rfl
      have hp2 := hp.map fun e => (renL m e.1, e.2)
      rw [heq] at hp2
      obtain ⟨kw', h1, h2⟩ := ih hm' _ (Dict.ok_set _ _ _ (Dict.ok_erase _ _ ok)) (ok_perm hp2 ok')
      exact ⟨kw', h1, h2.trans hp2⟩

/-- A decorator: a new name, or a converter. -/
def depOf {V : Type} (conv : String → List V → Dict V → Except PyErr (String × V)) (p : String × Option String) :
    Utils.Dep V :=
  match p.2 with
  | some new => Utils.rename p.1 new
  | Option.none => Utils.converting p.1 (conv p.1)

/-- What the decorators make of a name. -/
def renS : List (String × Option String) → String → String
  | [], k => k
  | (o, some n) :: m, k => renS m (if k = o then n else k)
  | (_, Option.none) :: m, k => renS m k

/-- No converter gets the name. -/
def avoid : List (String × Option String) → String → Prop
  | [], _ => True
  | (o, some n) :: m, k => avoid m (if k = o then n else k)
  | (o, Option.none) :: m, k => k ≠ o ∧ avoid m k

theorem stack_perm {V : Type} (conv : String → List V → Dict V → Except PyErr (String × V)) (args : List V)
    (m : List (String × Option String)) (hm : ∀ p ∈ m, some p.1 ≠ p.2) (kw : Dict V) (ok : kw.Ok)
    (ha : ∀ e ∈ kw, avoid m e.1) (ok' : Dict.Ok (kw.map fun e => (renS m e.1, e.2))) :
    ∃ kw', processAll args (m.map (depOf conv)) kw = .ok kw' ∧ kw'.Perm (kw.map fun e => (renS m e.1, e.2)) := by
  induction m generalizing kw with
  | nil => exact ⟨kw, rfl, by simp [renS]⟩
  | cons p m ih =>
    obtain ⟨old, new⟩ := p
    have hm' : ∀ p ∈ m, some p.1 ≠ p.2 := fun p hp => hm p (by simp [hp])
    cases new with
    | none =>
      have hno : kw.get? old = Option.none := by
        rw [Dict.get?_none_iff]
        intro hmem
        obtain ⟨x, hx, hxo⟩ := List.mem_map.1 hmem
        exact (ha x hx).1 hxo
      have h1 : ((Utils.converting old (conv old)).process args kw).2 = .ok kw := by
        simp [Utils.Dep.process, Utils.Dep.keyMap, Utils.converting, Utils.Dep.loop, hno]
      simp only [List.map_cons, processAll, depOf, h1]
      exact ih hm' kw ok (fun e he => (ha e he).2) ok'
    | some new =>
      have hne : old ≠ new := fun h => hm (old, some new) (by simp) (by rw [h])
      simp only [List.map_cons, processAll, depOf]
      have heq : ∀ e : String × V, (renS m (renL [(old, new)] e.1), e.2) = (renS ((old, some new) :: m) e.1, e.2) :=
        fun e => rfl
      have okr : Dict.Ok (kw.map fun e => (renL [(old, new)] e.1, e.2)) := by
        unfold Dict.Ok at *
        rw [List.map_map] at ok' ⊢
        have : (Prod.fst ∘ fun e : String × V => (renS ((old, some new) :: m) e.1, e.2)) =
            renS m ∘ (Prod.fst ∘ fun e : String × V => (renL [(old, new)] e.1, e.2)) := rfl
        rw [this, ← List.map_map] at ok'
        exact List.Nodup.of_map _ ok'
      obtain ⟨kw1, h1, h2⟩ := loop_perm (Utils.rename old new : Utils.Dep V) rfl args [(old, new)]
        (by simpa using hne) kw ok okr
      have h3 : ((Utils.rename old new : Utils.Dep V).process args kw).2 = .ok kw1 := h1
      simp only [h3]
      have hp := h2.map fun e => (renS m e.1, e.2)
      rw [List.map_map] at hp
      obtain ⟨kw', h4, h5⟩ := ih hm' kw1 (ok_perm h2 okr)
        (fun e he => by
          obtain ⟨x, hx, rfl⟩ := List.mem_map.1 (h2.mem_iff.1 he)
          exact ha x hx)
        (ok_perm hp ok')
      exact ⟨kw', h4, h5.trans hp⟩

theorem renS_other (m : List (String × Option String)) (k : String) (h : k ∉ m.map Prod.fst) :
    renS m k = k ∧ avoid m k := by
  induction m with
  | nil => exact ⟨rfl, trivial⟩
  | cons p m ih =>
    obtain ⟨o, n⟩ := p
    simp only [List.map_cons, List.mem_cons, not_or] at h
    obtain ⟨h1, h2⟩ := ih h.2
    cases n with
    | none => exact ⟨h1, h.1, h2⟩
    | some n =>
      simp only [renS, avoid, if_neg h.1]
      exact ⟨h1, h2⟩

/-- The decorators of `SinusoidalModel`. -/
def sinusoidalSteps : List (String × Option String) :=
  [("max_n_sines", some "tracker__max_n_sines"), ("min_sine_dur", some "tracker__min_sine_dur"),
   ("safe_sine_len", Option.none),
   ("freq_dev_offset", some "tracker__freq_dev_offset"), ("freq_dev_slope", some "tracker__freq_dev_slope"),
   ("sine_tracker_cls", Option.none),
   ("save_intermediate", some "intermediate__save"), ("fs", some "tracker__fs"), ("h", some "tracker__h")]

/-- The decorators of `ModalModel`, with those of `SinusoidalModel`. -/
def modalSteps : List (String × Option String) :=
  [("reverse", some "tracker__reverse"), ("frequency_bounds", some "tracker__frequency_bounds"),
   ("peak_threshold", some "tracker__peak_threshold"), ("merge_strategy", some "tracker__merge_strategy"),
   ("strip_t", some "tracker__strip_t")] ++ sinusoidalSteps

/-- The converters. -/
def convOf (D : Durations A) (o : String) : List (Val A) → Dict (Val A) → Except PyErr (String × Val A) :=
  if o = "safe_sine_len" then safeSineLenV D else sineTrackerClsV

theorem sinusoidalDeps_eq (D : Durations A) : sinusoidalDeps D = sinusoidalSteps.map (depOf (convOf D)) := by
  simp [sinusoidalDeps, sinusoidalSteps, depOf, convOf]

theorem modalDeps_eq (D : Durations A) : modalDeps ++ sinusoidalDeps D = modalSteps.map (depOf (convOf D)) := by
  rw [sinusoidalDeps_eq, modalSteps, List.map_append]
  simp [modalDeps, depOf]

theorem lookup_other (l : List (String × String)) (k : String) (h : k ∉ l.map Prod.fst) :
    (l.lookup k).getD k = k := by
  rw [List.lookup_eq_none_iff.2]
  · rfl
  · intro p hp
    simp only [beq_eq_false_iff_ne, ne_eq, bne_iff_ne]
    rintro rfl
    exact h (List.mem_map.2 ⟨p, hp, rfl⟩)

theorem sinusoidal_names (k : String) (h : k ≠ "safe_sine_len" ∧ k ≠ "sine_tracker_cls") :
    renS sinusoidalSteps k = (oldSinusoidal.lookup k).getD k ∧ avoid sinusoidalSteps k := by
  by_cases hk : k ∈ sinusoidalSteps.map Prod.fst
  · simp only [sinusoidalSteps, List.map_cons, List.map_nil, List.mem_cons, List.not_mem_nil, or_false, h.1, h.2,
      false_or] at hk
    rcases hk with rfl | rfl | rfl | rfl | rfl | rfl | rfl <;>
      exact ⟨by decide +kernel, by simp [sinusoidalSteps, avoid]⟩
  · obtain ⟨h1, h2⟩ := renS_other _ _ hk
    refine ⟨h1.trans (lookup_other _ _ fun hm => hk ?_).symm, h2⟩
    exact (by decide +kernel : ∀ x ∈ oldSinusoidal.map Prod.fst, x ∈ sinusoidalSteps.map Prod.fst) k hm

theorem modal_names (k : String) (h : k ≠ "safe_sine_len" ∧ k ≠ "sine_tracker_cls") :
    renS modalSteps k = (oldModal.lookup k).getD k ∧ avoid modalSteps k := by
  by_cases hk : k ∈ modalSteps.map Prod.fst
  · simp only [modalSteps, sinusoidalSteps, List.map_cons, List.map_nil, List.mem_cons, List.not_mem_nil, or_false, h.1,
      h.2, false_or, List.cons_append, List.nil_append] at hk
    rcases hk with rfl | rfl | rfl | rfl | rfl | rfl | rfl | rfl | rfl | rfl | rfl | rfl <;>
      exact ⟨by decide +kernel, by simp [modalSteps, sinusoidalSteps, avoid]⟩
  · obtain ⟨h1, h2⟩ := renS_other _ _ hk
    refine ⟨h1.trans (lookup_other _ _ fun hm => hk ?_).symm, h2⟩
    exact (by decide +kernel : ∀ x ∈ oldModal.map Prod.fst, x ∈ modalSteps.map Prod.fst) k hm

theorem lookup_again (l : List (String × String))
    (h : ∀ p ∈ l, (p.2 ≠ "safe_sine_len" ∧ p.2 ≠ "sine_tracker_cls") ∧ (l.lookup p.2).getD p.2 = p.2) (k : String)
    (hk : k ≠ "safe_sine_len" ∧ k ≠ "sine_tracker_cls") :
    ((l.lookup k).getD k ≠ "safe_sine_len" ∧ (l.lookup k).getD k ≠ "sine_tracker_cls") ∧
      (l.lookup ((l.lookup k).getD k)).getD ((l.lookup k).getD k) = (l.lookup k).getD k := by
  cases hl : l.lookup k with
  | none => simp only [Option.getD_none, hl]; exact ⟨hk, trivial⟩
  | some n =>
    obtain ⟨p, hp, hpn⟩ : ∃ p ∈ l, p.2 = n := by
      clear h
      induction l with
      | nil => simp at hl
      | cons q l ih =>
        rw [List.lookup_cons] at hl
        split at hl
        · simp only [Option.some.injEq] at hl
          exact ⟨q, by simp, hl⟩
        · obtain ⟨p, hp, h2⟩ := ih hl
          exact ⟨p, by simp [hp], h2⟩
    subst hpn
    exact h p hp

theorem renL_other (m : List (String × String)) (k : String) (h : k ∉ m.map Prod.fst) : renL m k = k := by
  induction m with
  | nil => rfl
  | cons p m ih =>
    simp only [List.map_cons, List.mem_cons, not_or] at h
    rw [renL, if_neg h.1]
    exact ih h.2

theorem renL_mem (m : List (String × String)) (g : String → String) (hg : ∀ p ∈ m, p.2 = g p.1)
    (hd : ∀ p ∈ m, p.2 ∉ m.map Prod.fst) (k : String) (h : k ∈ m.map Prod.fst) : renL m k = g k := by
  induction m with
  | nil => simp at h
  | cons p m ih =>
    simp only [List.map_cons, List.mem_cons] at h
    by_cases hk : k = p.1
    · rw [renL, if_pos hk, renL_other, hg p (by simp), hk]
      intro hm
      exact hd p (by simp) (by simp only [List.map_cons, List.mem_cons]; exact .inr hm)
    · rw [renL, if_neg hk]
      refine ih (fun q hq => hg q (by simp [hq])) (fun q hq hm => hd q (by simp [hq]) ?_) (h.resolve_left hk)
      simp only [List.map_cons, List.mem_cons]
      exact .inr hm

theorem prefix_gone {k : String} (h1 : Utils.startsWith k "sinusoidal_model" = true)
    (h2 : Utils.startsWith k "sinusoidal_model_model" = false) :
    Utils.startsWith ("sinusoidal" ++ Utils.dropStr k 16) "sinusoidal_model" = false := by
  obtain ⟨s, rfl⟩ := (Utils.startsWith_iff _ _).1 h1
  have hd : Utils.dropStr ("sinusoidal_model" ++ s) 16 = s := Utils.dropStr_append "sinusoidal_model" s
  rw [hd]
  by_contra hc
  rw [Bool.not_eq_false, Utils.startsWith_iff] at hc
  obtain ⟨t, ht⟩ := hc
  have e1 : "sinusoidal_model" ++ t = "sinusoidal" ++ ("_model" ++ t) := by
    rw [← String.append_assoc]
    rfl
  rw [e1] at ht
  have := Utils.append_left_inj' _ _ _ ht
  subst this
  have : Utils.startsWith ("sinusoidal_model" ++ ("_model" ++ t)) "sinusoidal_model_model" = true := by
    rw [Utils.startsWith_iff]
    exact ⟨t, by rw [← String.append_assoc]; rfl⟩
  rw [this] at h2
  simp at h2

theorem longer_prefix {k : String} (h : Utils.startsWith k "sinusoidal_model" = false) :
    Utils.startsWith k "sinusoidal_model_model" = false := by
  by_contra hc
  rw [Bool.not_eq_false, Utils.startsWith_iff] at hc
  obtain ⟨t, rfl⟩ := hc
  have : Utils.startsWith ("sinusoidal_model_model" ++ t) "sinusoidal_model" = true := by
    rw [Utils.startsWith_iff]
    exact ⟨"_model" ++ t, by rw [← String.append_assoc]; rfl⟩
  rw [this] at h
  simp at h

theorem sample_perm {V : Type} (args : List V) (kw : Dict V) (ok : kw.Ok)
    (hpl : ∀ e ∈ kw, Utils.startsWith e.1 "sinusoidal_model_model" = false)
    (ok' : Dict.Ok (kw.map fun e => (if Utils.startsWith e.1 "sinusoidal_model" then
      "sinusoidal" ++ Utils.dropStr e.1 16 else e.1, e.2))) :
    ∃ kw2, processAll args [Utils.renamePrefix "sinusoidal_model" "sinusoidal"] kw = .ok kw2 ∧
      kw2.Perm (kw.map fun e => (if Utils.startsWith e.1 "sinusoidal_model" then
        "sinusoidal" ++ Utils.dropStr e.1 16 else e.1, e.2)) := by
  let m : List (String × String) := (kw.filter fun e => Utils.startsWith e.1 "sinusoidal_model").map fun e =>
    (e.1, "sinusoidal" ++ Utils.dropStr e.1 16)
  have hm : ∀ p ∈ m, Utils.startsWith p.1 "sinusoidal_model" = true ∧ p.2 = "sinusoidal" ++ Utils.dropStr p.1 16 ∧
      Utils.startsWith p.2 "sinusoidal_model" = false := by
    intro p hp
    obtain ⟨e, he, rfl⟩ := List.mem_map.1 hp
    obtain ⟨h1, h2⟩ := List.mem_filter.1 he
    exact ⟨h2, rfl, prefix_gone h2 (hpl e h1)⟩
  have hfst : ∀ e ∈ kw, e.1 ∈ m.map Prod.fst ↔ Utils.startsWith e.1 "sinusoidal_model" = true := by
    intro e he
    constructor
    · intro h
      obtain ⟨p, hp, h2⟩ := List.mem_map.1 h
      rw [← h2]
      exact (hm p hp).1
    · intro h
      exact List.mem_map.2 ⟨_, List.mem_map.2 ⟨e, List.mem_filter.2 ⟨he, h⟩, rfl⟩, rfl⟩
  have heq : (kw.map fun e => (renL m e.1, e.2)) = kw.map fun e => (if Utils.startsWith e.1 "sinusoidal_model" then
      "sinusoidal" ++ Utils.dropStr e.1 16 else e.1, e.2) := by
    refine List.map_congr_left fun e he => ?_
    by_cases h : Utils.startsWith e.1 "sinusoidal_model" = true
    · rw [if_pos h, renL_mem m (fun k => "sinusoidal" ++ Utils.dropStr k 16) (fun p hp => (hm p hp).2.1) ?_ _
        ((hfst e he).2 h)]
      intro p hp hc
      obtain ⟨q, hq, h2⟩ := List.mem_map.1 hc
      have := (hm q hq).1
      rw [h2, (hm p hp).2.2] at this
      simp at this
    · rw [if_neg h, renL_other _ _ fun hc => h ((hfst e he).1 hc)]
  rw [← heq] at ok' ⊢
  obtain ⟨kw', h1, h2⟩ := loop_perm (Utils.renamePrefix "sinusoidal_model" "sinusoidal" : Utils.Dep V) rfl args m
    (fun p hp hc => by
      have h1 := (hm p hp).1
      rw [hc, (hm p hp).2.2] at h1
      simp at h1) kw ok ok'
  refine ⟨kw', ?_, h2⟩
  have hk : (Utils.renamePrefix "sinusoidal_model" "sinusoidal" : Utils.Dep V).keyMap kw =
      m.map fun p => (p.1, some p.2) := by
    simp only [Utils.Dep.keyMap, Utils.renamePrefix, if_true, m, List.map_map]
    rfl
  simp only [processAll, Utils.Dep.process, hk, h1]

/-- **C151** (decorators): the decorators of the package rename as the spec says, and their constructors and
`set_params` ends. -/
theorem C151_package (D : Durations A) : packageNames.Of (packageDeco D) := by
  have simple : ∀ c (kw : Dict (Val A)), packageDeps D c = [] → (∀ k, packageNames.ren c k = k) →
      ∃ kw2, packageDeco D c kw = .ok kw2 ∧ kw2.Perm (kw.map fun e => (packageNames.ren c e.1, e.2)) := by
    intro c kw h1 h2
    refine ⟨kw, by simp [packageDeco, h1, processAll], ?_⟩
    have : (kw.map fun e => (packageNames.ren c e.1, e.2)) = kw := by simp [h2]
    rw [this]
  have stack : ∀ (m : List (String × Option String)) (g : String → String),
      (∀ p ∈ m, some p.1 ≠ p.2) →
      (∀ k, k ≠ "safe_sine_len" ∧ k ≠ "sine_tracker_cls" → renS m k = g k ∧ avoid m k) →
      ∀ kw : Dict (Val A), kw.Ok → (∀ e ∈ kw, e.1 ≠ "safe_sine_len" ∧ e.1 ≠ "sine_tracker_cls") →
      Dict.Ok (kw.map fun e => (g e.1, e.2)) →
      ∃ kw2, processAll [.none] (m.map (depOf (convOf D))) kw = .ok kw2 ∧ kw2.Perm (kw.map fun e => (g e.1, e.2)) := by
    intro m g hm hg kw ok hpl ok'
    have heq : (kw.map fun e => (renS m e.1, e.2)) = kw.map fun e => (g e.1, e.2) :=
      List.map_congr_left fun e he => by rw [(hg e.1 (hpl e he)).1]
    rw [← heq] at ok' ⊢
    exact stack_perm _ _ m hm kw ok (fun e he => (hg e.1 (hpl e he)).2) ok'
  refine ⟨?_, ?_⟩
  · intro c kw ok hpl ok'
    cases c with
    | sample => exact sample_perm _ kw ok hpl ok'
    | sampleBeatsDROP => exact sample_perm _ kw ok hpl ok'
    | modalModel =>
      simp only [packageDeco, packageDeps, modalDeps_eq]
      exact stack modalSteps _ (by decide +kernel) modal_names kw ok hpl ok'
    | sinusoidalModel =>
      simp only [packageDeco, packageDeps, sinusoidalDeps_eq]
      exact stack sinusoidalSteps _ (by decide +kernel) sinusoidal_names kw ok hpl ok'
    | _ => exact simple _ kw rfl fun _ => rfl
  · intro c k hk
    have samp : Utils.startsWith k "sinusoidal_model_model" = false →
        Utils.startsWith (if Utils.startsWith k "sinusoidal_model" then "sinusoidal" ++ Utils.dropStr k 16 else k)
          "sinusoidal_model" = false := by
      intro h
      by_cases hs : Utils.startsWith k "sinusoidal_model" = true
      · rw [if_pos hs]; exact prefix_gone hs h
      · rw [if_neg hs]; simpa using hs
    cases c with
    | sample => exact ⟨longer_prefix (samp hk), by simp only [packageNames, samp hk]; rfl⟩
    | sampleBeatsDROP => exact ⟨longer_prefix (samp hk), by simp only [packageNames, samp hk]; rfl⟩
    | modalModel => exact lookup_again oldModal (by decide +kernel) k hk
    | sinusoidalModel => exact lookup_again oldSinusoidal (by decide +kernel) k hk
    | _ => exact ⟨trivial, rfl⟩

theorem join_old (k : String) : Utils.startsWith (join "sinusoidal_model" k) "sinusoidal_model" = true ∧
    Utils.startsWith (join "sinusoidal_model" k) "sinusoidal_model_model" = false ∧
    "sinusoidal" ++ Utils.dropStr (join "sinusoidal_model" k) 16 = join "sinusoidal" k := by
  have h : join "sinusoidal_model" k = "sinusoidal_model" ++ ("__" ++ k) := by
    apply String.toList_injective
    simp [join]
  refine ⟨?_, ?_, ?_⟩
  · rw [Utils.startsWith_iff]
    exact ⟨_, h⟩
  · simp [Utils.startsWith, join, List.isPrefixOf]
  · have hd : Utils.dropStr ("sinusoidal_model" ++ ("__" ++ k)) 16 = "__" ++ k :=
      Utils.dropStr_append "sinusoidal_model" _
    rw [h, hd]
    apply String.toList_injective
    simp [join]

theorem join_new (k : String) : ∀ n ∈ ["sinusoidal", "regressor", "beat_decisor", "beatsdrop", "freq_reduce",
    "max_n_modes", "regressor_k", "regressor_q"], Utils.startsWith (join n k) "sinusoidal_model" = false := by
  simp [Utils.startsWith, join, List.isPrefixOf]

/-- **C151** (names): the arguments of `SinusoidalModel` and `ModalModel` in the lists have the names of today that
are beside them; and any argument of `ModalModel` is an argument of `SAMPLE` and `SAMPLEBeatsDROP` after
`sinusoidal_model__` and after `sinusoidal__`, with the same parameter of today. -/
theorem C151_names (d : Defaults A) :
    (∀ p ∈ oldSinusoidal, Modern (package d) packageNames .sinusoidalModel p.1 p.2) ∧
    (∀ p ∈ oldModal, Modern (package d) packageNames .modalModel p.1 p.2) ∧
    ∀ c ∈ [Cls.sample, Cls.sampleBeatsDROP], Modern (package d) packageNames c "sinusoidal_model" "sinusoidal" ∧
      ∀ n ∈ ["sinusoidal_model", "sinusoidal"], ∀ k k', Modern (package d) packageNames .modalModel k k' →
        Modern (package d) packageNames c (join n k) (join "sinusoidal" k') := by
  have leaf : ∀ (c c' : Cls) (n r : String) (s : Slot A Cls), Good n → Good r → (slots d c).get? n = some s →
      s.auto = some (.make c') → (∀ k, packageNames.plain c' k ∧ packageNames.ren c' k = k) →
      Inner (package d) packageNames c (join n r) (join n r) := by
    intro c c' n r s hn hr hs ha hc
    refine .part (partition_join hn r) hs ha (hc r).1 ?_
    rw [(hc r).2]
    exact .own (partition_good hr)
  have lookS : ∀ p ∈ oldSinusoidal, packageNames.ren .sinusoidalModel p.1 = p.2 := by decide +kernel
  have lookM : ∀ p ∈ oldModal, packageNames.ren .modalModel p.1 = p.2 := by decide +kernel
  have shapeM : ∀ p ∈ oldModal, (p.1 ≠ "safe_sine_len" ∧ p.1 ≠ "sine_tracker_cls") ∧
      ((partition p.2).1 = "tracker" ∨ (partition p.2).1 = "intermediate") ∧
      ∃ r, (partition p.2).2 = some r ∧ Good r := by
    intro p hp
    simp only [oldModal, oldSinusoidal, List.mem_cons, List.not_mem_nil, or_false, List.cons_append,
      List.nil_append] at hp
    rcases hp with rfl | rfl | rfl | rfl | rfl | rfl | rfl | rfl | rfl | rfl | rfl | rfl <;>
      exact ⟨by decide +kernel, by decide +kernel, _, rfl, by decide +kernel⟩
  have inM : ∀ c : Cls, (∃ s c', (slots d c).get? "tracker" = some s ∧ s.auto = some (.make c') ∧
        (c' = .modalTracker ∨ c' = .sineTracker)) →
      (∃ s, (slots d c).get? "intermediate" = some s ∧ s.auto = some (.make .storage)) →
      ∀ p ∈ oldModal, Inner (package d) packageNames c p.2 p.2 := by
    intro c ⟨s, c', h1, h2, h3⟩ ⟨s', h4, h5⟩ p hp
    obtain ⟨-, hn, r, hr, hg⟩ := shapeM p hp
    rcases hn with hn | hn
    · have : partition p.2 = ("tracker", some r) := Prod.ext hn hr
      rw [of_partition_some this]
      refine leaf c c' _ _ s (by decide +kernel) hg h1 h2 ?_
      rcases h3 with rfl | rfl <;> exact fun _ => ⟨trivial, rfl⟩
    · have : partition p.2 = ("intermediate", some r) := Prod.ext hn hr
      rw [of_partition_some this]
      exact leaf c _ _ _ s' (by decide +kernel) hg h4 h5 fun _ => ⟨trivial, rfl⟩
  refine ⟨?_, ?_, ?_⟩
  · intro p hp
    have hp' : p ∈ oldModal := by simp only [oldModal, List.mem_append]; exact .inr hp
    refine ⟨(shapeM p hp').1, ?_⟩
    rw [lookS p hp]
    exact inM _ ⟨_, .sineTracker, rfl, rfl, .inr rfl⟩ ⟨_, rfl, rfl⟩ p hp'
  · intro p hp
    refine ⟨(shapeM p hp).1, ?_⟩
    rw [lookM p hp]
    exact inM _ ⟨_, .modalTracker, rfl, rfl, .inl rfl⟩ ⟨_, rfl, rfl⟩ p hp
  · intro c hc
    have hren : ∀ k, packageNames.ren c k =
        if Utils.startsWith k "sinusoidal_model" then "sinusoidal" ++ Utils.dropStr k 16 else k := by
      simp only [List.mem_cons, List.not_mem_nil, or_false] at hc
      rcases hc with rfl | rfl <;> exact fun _ => rfl
    have hpla : ∀ k, packageNames.plain c k ↔ Utils.startsWith k "sinusoidal_model_model" = false := by
      simp only [List.mem_cons, List.not_mem_nil, or_false] at hc
      rcases hc with rfl | rfl <;> exact fun _ => Iff.rfl
    have hs : ∃ s, (slots d c).get? "sinusoidal" = some s ∧ s.auto = some (.make .modalModel) := by
      simp only [List.mem_cons, List.not_mem_nil, or_false] at hc
      rcases hc with rfl | rfl <;> exact ⟨_, rfl, rfl⟩
    obtain ⟨s, hs, ha⟩ := hs
    refine ⟨⟨(hpla _).2 (by decide +kernel), ?_⟩, ?_⟩
    · rw [hren, if_pos (by decide +kernel)]
      have : "sinusoidal" ++ Utils.dropStr "sinusoidal_model" 16 = "sinusoidal" := by decide +kernel
      rw [this]
      exact .own (partition_good (by decide +kernel))
    · intro n hn k k' ⟨h1, h2⟩
      have goal : Inner (package d) packageNames c (join "sinusoidal" k) (join "sinusoidal" k') :=
        .part (partition_join (by decide +kernel) k) hs ha h1 h2
      simp only [List.mem_cons, List.not_mem_nil, or_false] at hn
      obtain ⟨o1, o2, o3⟩ := join_old k
      rcases hn with rfl | rfl
      · refine ⟨(hpla _).2 o2, ?_⟩
        rw [hren, if_pos o1, o3]
        exact goal
      · have hj := join_new k "sinusoidal" (by simp)
        refine ⟨(hpla _).2 (longer_prefix hj), ?_⟩
        rw [hren, if_neg (by rw [hj]; simp)]
        exact goal

/-- **C151** (names of today): the names that the parameters of a model have are not changed. -/
theorem C151_today (d : Defaults A) (hd : d.Ok) {depth : Nat} {s : Prog A Cls}
    (r : Reach (package d) depth s) {i : Nat} {k : String} {sl : Slot A Cls} (hk : SlotAt (package d) s.heap i k sl)
    {c : Cls} (hc : (s.heap[i]?).map Obj.cls = some c) : Modern (package d) packageNames c k k := by
  have typed := r.typed (C100_package d hd).1
  generalize s.heap = h at *
  have hn : ∀ (c : Cls) (n : String) (s : Slot A Cls), (slots d c).get? n = some s → c ≠ .linear →
      n ∈ (parts c).map Prod.fst := by
    intro c n s hs hl
    rw [← slots_parts d c hl]
    exact List.mem_map.2 ⟨_, List.mem_map.2 ⟨(n, s), Dict.get?_some_mem _ _ _ hs, rfl⟩, rfl⟩
  have c1 : ∀ n ∈ (parts .sample).map Prod.fst ++ (parts .sampleBeatsDROP).map Prod.fst,
      Utils.startsWith n "sinusoidal_model" = false ∧ n ∈ ["sinusoidal", "regressor", "beat_decisor", "beatsdrop",
        "freq_reduce", "max_n_modes", "regressor_k", "regressor_q"] := by decide +kernel
  have c2 : ∀ n ∈ (parts .modalModel).map Prod.fst, (n ≠ "safe_sine_len" ∧ n ≠ "sine_tracker_cls") ∧
      (oldModal.lookup n).getD n = n := by decide +kernel
  have c3 : ∀ n ∈ (parts .sinusoidalModel).map Prod.fst, (n ≠ "safe_sine_len" ∧ n ≠ "sine_tracker_cls") ∧
      (oldSinusoidal.lookup n).getD n = n := by decide +kernel
  have c4 : ∀ n ∈ "safe_sine_len" :: "sine_tracker_cls" :: (oldModal.map Prod.fst ++ oldSinusoidal.map Prod.fst),
      (partition n).2 = Option.none := by decide +kernel
  have samp : ∀ k : String, Utils.startsWith k "sinusoidal_model" = false →
      Utils.startsWith k "sinusoidal_model_model" = false ∧
        (if Utils.startsWith k "sinusoidal_model" then "sinusoidal" ++ Utils.dropStr k 16 else k) = k := by
    intro k h
    exact ⟨longer_prefix h, by rw [h]; rfl⟩
  have stay : ∀ (c : Cls) (n k : String) (s : Slot A Cls), (slots d c).get? n = some s →
      (k = n ∨ ∃ r, partition k = (n, some r)) → packageNames.plain c k ∧ packageNames.ren c k = k := by
    intro c n k s hs hk
    have other : ∀ l : List (String × String), l = oldModal ∨ l = oldSinusoidal → (∃ r, partition k = (n, some r)) →
        (k ≠ "safe_sine_len" ∧ k ≠ "sine_tracker_cls") ∧ (l.lookup k).getD k = k := by
      rintro l hl ⟨r, hr⟩
      have : ∀ x ∈ "safe_sine_len" :: "sine_tracker_cls" :: (oldModal.map Prod.fst ++ oldSinusoidal.map Prod.fst),
          k ≠ x := by
        rintro x hx rfl
        have := c4 k hx
        rw [hr] at this
        simp at this
      refine ⟨⟨this _ (by simp), this _ (by simp)⟩, lookup_other _ _ fun hm => this k ?_ rfl⟩
      rcases hl with rfl | rfl <;> simp only [List.mem_cons, List.mem_append]
      · exact .inr (.inr (.inl hm))
      · exact .inr (.inr (.inr hm))
    have smp : n ∈ (parts .sample).map Prod.fst ++ (parts .sampleBeatsDROP).map Prod.fst →
        Utils.startsWith k "sinusoidal_model" = false := by
      intro hm
      rcases hk with rfl | ⟨r, hr⟩
      · exact (c1 _ hm).1
      · rw [of_partition_some hr]
        exact join_new r n (c1 _ hm).2
    cases c with
    | sample => exact samp k (smp (List.mem_append.2 (.inl (hn _ _ _ hs (by simp)))))
    | sampleBeatsDROP => exact samp k (smp (List.mem_append.2 (.inr (hn _ _ _ hs (by simp)))))
    | modalModel =>
      rcases hk with rfl | hr
      · exact c2 _ (hn _ _ _ hs (by simp))
      · exact other _ (.inl rfl) hr
    | sinusoidalModel =>
      rcases hk with rfl | hr
      · exact c3 _ (hn _ _ _ hs (by simp))
      · exact other _ (.inr rfl) hr
    | _ => exact ⟨trivial, rfl⟩
  induction hk generalizing c with
  | @here i k n s o hp hi hs =>
    rw [hi] at hc
    simp only [Option.map_some, Option.some.injEq] at hc
    subst hc
    have hk := of_partition_none hp
    obtain ⟨p1, p2⟩ := stay _ n k s hs (.inl hk.symm)
    exact ⟨p1, by rw [p2]; exact .own hp⟩
  | @there i j k n r s o hp hi ha _ ih =>
    rw [hi] at hc
    simp only [Option.map_some, Option.some.injEq] at hc
    subst hc
    obtain ⟨s', c', t1, t2, t3⟩ := typed i o hi _ (Dict.get?_some_mem _ _ _ ha) j rfl
    obtain ⟨p1, p2⟩ := stay _ n k s' t1 (.inr ⟨r, hp⟩)
    obtain ⟨q1, q2⟩ := ih t3
    refine ⟨p1, ?_⟩
    rw [p2]
    have := Inner.part (T := package d) (R := packageNames) hp t1 t2 q1 q2
    rwa [← of_partition_some hp] at this

/-- **C151** (`SAMPLE`): a model made with one old name, which a user of an older version had, has its value in the
parameter of today and defaults elsewhere. -/
theorem C151_sample (d : Defaults A) (hd : d.Ok) (D : Durations A) {depth fuel : Nat} (hdep : 0 < depth)
    {s : Prog A Cls} (r : Reach (package d) depth s) {c : Cls} (hc : c = .sample ∨ c = .sampleBeatsDROP)
    {old new : String} (ho : (old, new) ∈ oldModal) {n : String} (hn : n = "sinusoidal_model" ∨ n = "sinusoidal")
    (a : A) {h' : Heap A Cls} {i : Nat}
    (e : constructD (package d) (packageDeco D) depth fuel c [(join n old, .atom a)] s.heap = some (h', .ok i))
    {m : Nat} {P : Dict (Val A)} (eP : getParams m h' i = some P) :
    P.get? (join "sinusoidal" new) = some (.atom a) ∧
    ∀ k, Untouched [(join "sinusoidal" new, Val.atom a)] k → ∀ x, (∃ v, P.get? k = some v ∧ kindOf h' v = some x) ↔
      static (package d) depth c [] k = some x := by
  have hm : Modern (package d) packageNames c (join n old) (join "sinusoidal" new) :=
    ((C151_names d).2.2 c (by rcases hc with rfl | rfl <;> simp)).2 n (by rcases hn with rfl | rfl <;> simp) _ _
      ((C151_names d).2.1 _ ho)
  obtain ⟨-, h2⟩ := C151_new (C100_package d hd).1 (C151_package D) hdep r c (kw := [(join n old, .atom a)])
    (kwm := [(join "sinusoidal" new, .atom a)]) (by simp [Dict.Ok]) (by intro x hx; simp at hx; simp [hx])
    (.cons ⟨rfl, hm⟩ .nil) (by simp [Dict.Ok]) e
  obtain ⟨h3, h4⟩ := h2 i m P rfl eP
  refine ⟨?_, h4⟩
  obtain ⟨k', g1, -, g3, -⟩ := h3 (join n old) (.atom a) (by simp)
  have : k' = join "sinusoidal" new := Inner.det g1.2 hm.2
  rw [← this]
  exact g3 (by simp)

/-! ## Examples -/

/-- Numbers for the examples; `-1` is not needed. -/
def exDur : Durations Nat where
  one := 1
  minusOne := 0
  max
    | .atom a, .atom b => .ok (.atom (Nat.max a b))
    | _, _ => .error .typeError

/-- A program with old names: a model, and `set_params` twice. -/
def exOld : List (Call Nat Cls) :=
  [.new .sample [("sinusoidal_model__reverse", .atom 5), ("max_n_modes", .atom 6), ("sinusoidal_model__n", .atom 7)],
   .set 0 [("sinusoidal__save_intermediate", .atom 8), ("sinusoidal_model__fs", .atom 9)],
   .set 0 [("sinusoidal__tracker__h", .atom 4)]]

/-- The state after calls. -/
def runOld (cs : List (Call Nat Cls)) (s : Prog Nat Cls) : Option (Prog Nat Cls) :=
  cs.foldlM (fun s c => c.runD (package exD) (packageDeco exDur) 3 9 s) s

/-- The values are where they belong. -/
example : (runOld exOld {}).map (fun s => s.models.map fun i =>
      ["sinusoidal__tracker__reverse", "max_n_modes", "sinusoidal__n", "sinusoidal__intermediate__save",
        "sinusoidal__tracker__fs", "sinusoidal__tracker__h", "sinusoidal__t"].map
          fun k => ((getParams 9 s.heap i).getD []).get? k) =
    some [[some (.atom 5), some (.atom 6), some (.atom 7), some (.atom 8), some (.atom 9), some (.atom 4),
      some (.atom 0)]] := by
  decide +kernel

/-- Its first call has names of today, so the hypotheses of C151_new, C151_programs, C151_ends are met. -/
example : ∃ kwm, Today (package exD) packageNames .sample
    [("sinusoidal_model__reverse", .atom 5), ("max_n_modes", .atom 6), ("sinusoidal_model__n", .atom 7)] kwm ∧
    kwm.Ok ∧ kwm.map Prod.fst = ["sinusoidal__tracker__reverse", "max_n_modes", "sinusoidal__n"] := by
  obtain ⟨-, h2, h3⟩ := C151_names exD
  obtain ⟨-, h4⟩ := h3 .sample (by simp)
  have hn : Modern (package exD) packageNames .modalModel "n" "n" := by
    refine ⟨show "n" ≠ "safe_sine_len" ∧ "n" ≠ "sine_tracker_cls" by decide +kernel, ?_⟩
    have : packageNames.ren .modalModel "n" = "n" := by decide +kernel
    rw [this]
    exact .own (partition_good (by decide +kernel))
  have hm : Modern (package exD) packageNames .sample "max_n_modes" "max_n_modes" := by
    refine ⟨show Utils.startsWith _ _ = false by decide +kernel, ?_⟩
    have : packageNames.ren .sample "max_n_modes" = "max_n_modes" := by decide +kernel
    rw [this]
    exact .own (partition_good (by decide +kernel))
  refine ⟨[("sinusoidal__tracker__reverse", .atom 5), ("max_n_modes", .atom 6), ("sinusoidal__n", .atom 7)],
    .cons ⟨rfl, ?_⟩ (.cons ⟨rfl, hm⟩ (.cons ⟨rfl, ?_⟩ .nil)), by unfold Dict.Ok; decide +kernel, rfl⟩
  · have := h4 "sinusoidal_model" (by simp) _ _ (h2 ("reverse", "tracker__reverse") (by simp [oldModal]))
    have e1 : join "sinusoidal_model" "reverse" = "sinusoidal_model__reverse" := by decide +kernel
    have e2 : join "sinusoidal" "tracker__reverse" = "sinusoidal__tracker__reverse" := by decide +kernel
    rwa [e1, e2] at this
  · have := h4 "sinusoidal_model" (by simp) _ _ hn
    have e1 : join "sinusoidal_model" "n" = "sinusoidal_model__n" := by decide +kernel
    have e2 : join "sinusoidal" "n" = "sinusoidal__n" := by decide +kernel
    rwa [e1, e2] at this

/-- All old names work, and names that are none raise. -/
example : (∀ p ∈ oldModal, ∀ n ∈ ["sinusoidal_model", "sinusoidal"], ∀ c ∈ [Cls.sample, Cls.sampleBeatsDROP],
      (runOld [.new c [(join n p.1, .atom 7)]] {}).map (fun s => s.models.map fun i =>
        ((getParams 9 s.heap i).getD []).get? (join "sinusoidal" p.2)) = some [some (.atom 7)]) ∧
    (runOld [.new .sample [("sinusoidal_model__strategy", .atom 7)]] {}).map (fun s => s.models.length) = some 0 := by
  decide +kernel

/-! ## `safe_sine_len` -/

/-- What the decorators make of `safe_sine_len` alone: at least `1`, also for `None`. -/
theorem safe_sine_len_alone (D : Durations A) (v : Val A) : packageDeco D .sinusoidalModel [("safe_sine_len", v)] =
    (D.max (match v with | .none => .atom D.minusOne | v => v) (.atom D.one)).map fun x =>
      [("tracker__min_sine_dur", x)] := by
  cases v with
  | none =>
    cases h : D.max (.atom D.minusOne) (.atom D.one) <;>
      simp [packageDeco, packageDeps, sinusoidalDeps, processAll, Utils.Dep.process, Utils.Dep.keyMap, Utils.rename,
        Utils.converting, Utils.Dep.loop, safeSineLenV, Dict.get?, Dict.has, Dict.erase, Dict.set, h, Except.map]
  | atom a =>
    cases h : D.max (.atom a) (.atom D.one) <;>
      simp [packageDeco, packageDeps, sinusoidalDeps, processAll, Utils.Dep.process, Utils.Dep.keyMap, Utils.rename,
        Utils.converting, Utils.Dep.loop, safeSineLenV, Dict.get?, Dict.has, Dict.erase, Dict.set, h, Except.map]
  | ref i =>
    cases h : D.max (.ref i) (.atom D.one) <;>
      simp [packageDeco, packageDeps, sinusoidalDeps, processAll, Utils.Dep.process, Utils.Dep.keyMap, Utils.rename,
        Utils.converting, Utils.Dep.loop, safeSineLenV, Dict.get?, Dict.has, Dict.erase, Dict.set, h, Except.map]

/-- `safe_sine_len` was a number of frames; as `min_sine_dur` it is a number of seconds: a track of `n` frames is not
kept if there is more than one frame in a second, as `n` seconds are required. -/
theorem safe_sine_len_seconds {K : Type} [Field K] [LinearOrder K] [IsStrictOrderedRing K] [FloorRing K]
    (c : Tracker.Cfg K) (n : Nat) (hn : 1 ≤ n) (hc : c.minSineDur = (n : K)) (hr : 1 < c.frameRate) :
    (n : K) * c.frameRate ≤ (c.minSineLen : K) ∧ (n : ℤ) < c.minSineLen := by
  have h1 : (n : K) * c.frameRate ≤ (c.minSineLen : K) := by
    rw [Tracker.Cfg.minSineLen, hc]
    exact (Int.le_ceil _).trans (by exact_mod_cast le_max_right _ _)
  refine ⟨h1, ?_⟩
  have : (0 : K) < n := by exact_mod_cast hn
  have : ((n : ℤ) : K) < (c.minSineLen : K) := by
    refine lt_of_lt_of_le ?_ h1
    push_cast
    nlinarith
  exact_mod_cast this

/-- With the defaults of `SineTracker` one frame becomes 89 frames. -/
example : (⟨44100, 500, 100, 1, 20, 1 / 100⟩ : Tracker.Cfg ℚ).minSineLen = 89 ∧
    1 < (⟨44100, 500, 100, 1, 20, 1 / 100⟩ : Tracker.Cfg ℚ).frameRate := by
  decide +kernel

end Verif.Est
