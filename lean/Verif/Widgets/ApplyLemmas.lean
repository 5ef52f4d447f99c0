import Mathlib.Data.Rat.Floor
import Mathlib.Tactic.Linarith
import Verif.Widgets.ApplyModel
import Verif.Widgets.ParseProps

/-!
# Lemmas on the settings tab: dictionaries, post-processing, entries
-/

set_option autoImplicit false
set_option linter.unusedSectionVars false
set_option linter.unusedSimpArgs false

namespace Verif.Widgets

open Verif

section dict
variable {V : Type}

theorem get?_part (keys : List String) (inside : Bool) (d : Dict V) (k : String) :
    (part keys inside d).get? k = if decide (k ∈ keys) = inside then d.get? k else none := by
  unfold part
  induction d with
  | nil => simp [Dict.get?]
  | cons e d ih =>
    obtain ⟨k', v⟩ := e
    by_cases hk : k' = k
    · subst hk
      by_cases hc : decide (k' ∈ keys) = inside
      · rw [List.filter_cons_of_pos (by simpa using hc)]
        simp [Dict.get?, hc]
      · rw [List.filter_cons_of_neg (by simpa using hc), ih]
        simp [hc]
    · by_cases hc : decide (k' ∈ keys) = inside
      · rw [List.filter_cons_of_pos (by simpa using hc)]
        simp only [Dict.get?, hk, if_false]
        exact ih
      · rw [List.filter_cons_of_neg (by simpa using hc), ih]
        simp [Dict.get?, hk]

theorem get?_cons (k' : String) (v : V) (d : Dict V) (k : String) :
    Dict.get? ((k', v) :: d) k = if k' = k then some v else d.get? k := rfl

theorem get?_nil (k : String) : Dict.get? ([] : Dict V) k = none := rfl

theorem keys_update (d e : Dict V) (h : ∀ k, k ∈ e.map Prod.fst → k ∈ d.map Prod.fst) :
    (d.update e).map Prod.fst = d.map Prod.fst := by
  unfold Dict.update
  induction e generalizing d with
  | nil => rfl
  | cons x e ih =>
    have hx := h x.1 (by simp)
    have hk : (d.set x.1 x.2).map Prod.fst = d.map Prod.fst := by
      rw [Dict.keys_set, if_pos hx]
    rw [List.foldl_cons, ih _ (by rw [hk]; intro k hk'; exact h k (by simp [hk'])), hk]

theorem mem_keys_iff (d : Dict V) (k : String) : k ∈ d.map Prod.fst ↔ ∃ v, d.get? k = some v := by
  have := Dict.get?_none_iff d k
  cases h : d.get? k with
  | none => simp [this.1 h]
  | some v =>
    simp only [Option.some.injEq, exists_eq', iff_true]
    by_contra hk
    rw [this.2 hk] at h
    cases h

theorem dict_ext {d e : Dict V} (hk : d.map Prod.fst = e.map Prod.fst) (ho : Dict.Ok d)
    (h : ∀ k ∈ d.map Prod.fst, d.get? k = e.get? k) : d = e := by
  induction d generalizing e with
  | nil =>
    cases e with
    | nil => rfl
    | cons _ _ => simp at hk
  | cons x d ih =>
    cases e with
    | nil => simp at hk
    | cons y e =>
      obtain ⟨k, v⟩ := x
      obtain ⟨k', v'⟩ := y
      simp only [List.map_cons, List.cons.injEq] at hk
      obtain ⟨rfl, hk⟩ := hk
      have h1 := h k (by simp)
      simp only [Dict.get?, if_true, Option.some.injEq] at h1
      subst h1
      simp only [Dict.Ok, List.map_cons, List.nodup_cons] at ho
      rw [ih hk ho.2 ?_]
      intro j hj
      have := h j (by simp [hj])
      have hne : k ≠ j := fun e => ho.1 (e ▸ hj)
      simpa [Dict.get?, hne] using this

end dict

variable {K W : Type} [Field K] [LinearOrder K] [IsStrictOrderedRing K] [FloorRing K]

/-! ### The loop for the window -/

theorem windowLoop_mono (gw : String → Int → Except PyErr W) : ∀ (fuel : Nat) (t : String) (s : Int)
    (r : Except PyErr (W × Int × String)), windowLoop gw fuel t s = some r →
    ∀ fuel', fuel ≤ fuel' → windowLoop gw fuel' t s = some r
  | 0, _, _, _, h, _, _ => by simp [windowLoop] at h
  | fuel + 1, t, s, r, h, 0, hf => by omega
  | fuel + 1, t, s, r, h, fuel' + 1, hf => by
    simp only [windowLoop] at h ⊢
    split at h
    · simpa using h
    · split at h <;> rename_i hs
      · rw [if_pos hs]; exact windowLoop_mono gw fuel _ _ r h fuel' (by omega)
      · rw [if_neg hs]; exact windowLoop_mono gw fuel _ _ r h fuel' (by omega)
    · exact h

theorem windowLoop_ok (gw : String → Int → Except PyErr W) : ∀ (fuel : Nat) (t : String) (s : Int)
    (w : W) (s' : Int) (t' : String), windowLoop gw fuel t s = some (.ok (w, s', t')) →
    gw t' s' = .ok w ∧ (t' = t ∨ t' = "blackman") ∧ (s' = s ∨ s' = 4096 ∧ s < 1)
  | 0, _, _, _, _, _, h => by simp [windowLoop] at h
  | fuel + 1, t, s, w, s', t', h => by
    simp only [windowLoop] at h
    split at h
    · rename_i w' hw
      simp only [Option.some.injEq, Except.ok.injEq, Prod.mk.injEq] at h
      obtain ⟨rfl, rfl, rfl⟩ := h
      exact ⟨hw, .inl rfl, .inl rfl⟩
    · split at h
      · rename_i hs
        obtain ⟨h1, h2, h3⟩ := windowLoop_ok gw fuel _ _ w s' t' h
        refine ⟨h1, h2, .inr ⟨?_, hs⟩⟩
        rcases h3 with h3 | ⟨h3, h4⟩ <;> omega
      · obtain ⟨h1, h2, h3⟩ := windowLoop_ok gw fuel _ _ w s' t' h
        exact ⟨h1, by tauto, h3⟩
    · cases h

/-! ### Post-processing -/

/-- The keys of the post-processing functions. -/
def special : List String :=
  ["parallel", "n_jobs", "sinusoidal__n", "wsize", "wtype", "smfb_0", "smfb_1", "gui_theme"]

/-- The pair of frequency bounds after `postprocess_fbound`. -/
def bounds (a b : Flt K) : Flt K × Flt K :=
  if b.lt a then (b, a) else if a.eq b then (.fin 20, .fin 16000) else (a, b)

/-- Updates of the settings by all post-processing functions. -/
def newSettings (env : Env K W) (p j : SVal K W) (n : Int) (r : W × Int × String) (a b : Flt K)
    (t : String) : Dict (SVal K W) :=
  [("parallel", p), ("n_jobs", j), ("sinusoidal__n", .int n), ("wsize", .int r.2.1),
    ("wtype", .str r.2.2), ("smfb_0", .flt (bounds a b).1), ("smfb_1", .flt (bounds a b).2),
    ("gui_theme", .str (if t ∈ env.themes then t else ""))]

/-- Updates of the parameters by all post-processing functions. -/
def newParams (p j : SVal K W) (n : Int) (r : W × Int × String) (a b : Flt K) : Dict (SVal K W) :=
  [("n_jobs", if p.truthy then j else .int 0), ("sinusoidal__n", .int n), ("sinusoidal__w", .win r.1),
    ("sinusoidal__tracker__frequency_bounds", .pair (bounds a b).1 (bounds a b).2)]

theorem params_get (d : Dict (SVal K W)) (p j : SVal K W) (n : Int) (r : W × Int × String)
    (q : Flt K × Flt K) (k : String) :
    ((part ["gui_theme"] false ((part ["smfb_0", "smfb_1"] false
      ((part ["sinusoidal__n", "wsize", "wtype"] false ((part ["parallel", "n_jobs"] false d).update
        [("n_jobs", if p.truthy then j else .int 0)])).update (windowUpdates n r).2)).update
      [("sinusoidal__tracker__frequency_bounds", .pair q.1 q.2)])).update []).get? k =
    (Dict.get? [("n_jobs", if p.truthy then j else .int 0), ("sinusoidal__n", .int n),
      ("sinusoidal__w", .win r.1), ("sinusoidal__tracker__frequency_bounds", .pair q.1 q.2)] k).or
      (if k ∈ special then none else d.get? k) := by
  rw [Dict.get?_update _ _ (by simp [Dict.Ok]), get?_part, Dict.get?_update _ _ (by simp [Dict.Ok]),
    get?_part, Dict.get?_update _ _ (by simp [Dict.Ok, windowUpdates]), get?_part,
    Dict.get?_update _ _ (by simp [Dict.Ok]), get?_part]
  generalize (if p.truthy then j else .int 0) = j'
  generalize d.get? k = x
  simp only [windowUpdates]
  rw [get?_nil, get?_cons, get?_cons, get?_cons, get?_cons, get?_nil]
  by_cases hk : k ∈ ["sinusoidal__w", "sinusoidal__tracker__frequency_bounds", "parallel", "n_jobs",
      "sinusoidal__n", "wsize", "wtype", "smfb_0", "smfb_1", "gui_theme"]
  · simp only [List.mem_cons, List.not_mem_nil, or_false] at hk
    rcases hk with rfl | rfl | rfl | rfl | rfl | rfl | rfl | rfl | rfl | rfl <;>
      simp [get?_cons, get?_nil, special]
  · simp only [List.mem_cons, List.not_mem_nil, or_false, not_or] at hk
    obtain ⟨k1, k2, k3, k4, k5, k6, k7, k8, k9, k10⟩ := hk
    simp [k1, k2, k3, k4, k5, k6, k7, k8, k9, k10, Ne.symm k1, Ne.symm k2, Ne.symm k4, Ne.symm k5,
      get?_cons, get?_nil, special]

theorem postAll_ok (env : Env K W) (fuel : Nat) (d : Dict (SVal K W)) (hd : Dict.Ok d)
    (p j sa sb : SVal K W) (n ws : Int) (wt t : String) (a b : Flt K) (r : W × Int × String)
    (h1 : d.get? "parallel" = some p) (h2 : d.get? "n_jobs" = some j)
    (h3 : d.get? "sinusoidal__n" = some (.int n)) (h4 : d.get? "wsize" = some (.int ws))
    (h5 : d.get? "wtype" = some (.str wt)) (h6 : d.get? "smfb_0" = some sa)
    (h7 : d.get? "smfb_1" = some sb) (ha : sa.num = some a) (hb : sb.num = some b)
    (h8 : d.get? "gui_theme" = some (.str t))
    (hw : windowLoop env.getWindow fuel wt (min ws n) = some (.ok r)) :
    ∃ S P, postAll (posts env fuel) d d = some (.ok (S, P)) ∧ Dict.Ok S ∧
      S.map Prod.fst = d.map Prod.fst ∧
      (∀ k, S.get? k = ((newSettings env p j n r a b t).get? k).or (d.get? k)) ∧
      (∀ k, P.get? k = ((newParams p j n r a b).get? k).or
        (if k ∈ special then none else d.get? k)) := by
  have mem : ∀ k v, d.get? k = some v → k ∈ d.map Prod.fst := fun k v h =>
    (mem_keys_iff d k).2 ⟨v, h⟩
  have e1 : ∀ kw : Dict (SVal K W), kw.get? "parallel" = some p → kw.get? "n_jobs" = some j →
      postJobs kw = .ok ([("parallel", p), ("n_jobs", j)],
        [("n_jobs", if p.truthy then j else .int 0)]) := by
    intro kw a b; simp only [postJobs, a, b]
  have e2 : ∀ kw : Dict (SVal K W), kw.get? "sinusoidal__n" = some (.int n) →
      kw.get? "wsize" = some (.int ws) → kw.get? "wtype" = some (.str wt) →
      postWindows env.getWindow fuel kw = some (.ok (windowUpdates n r)) := by
    intro kw a b c; simp only [postWindows, a, b, c, hw, Option.map_some, Except.map]
  have e3 : ∀ kw : Dict (SVal K W), kw.get? "smfb_0" = some sa → kw.get? "smfb_1" = some sb →
      postBounds kw = .ok ([("smfb_0", .flt (bounds a b).1), ("smfb_1", .flt (bounds a b).2)],
        [("sinusoidal__tracker__frequency_bounds", .pair (bounds a b).1 (bounds a b).2)]) := by
    intro kw x y; simp only [postBounds, x, y, Option.bind_some, ha, hb, bounds]
  have e4 : ∀ kw : Dict (SVal K W), kw.get? "gui_theme" = some (.str t) →
      postTheme env.themes kw = .ok ([("gui_theme", .str (if t ∈ env.themes then t else ""))], []) := by
    intro kw x; simp only [postTheme, x]
  unfold posts
  simp only [postAll]
  rw [e1 _ (by rw [get?_part]; simpa using h1) (by rw [get?_part]; simpa using h2)]
  simp only
  rw [e2 _ (by rw [get?_part, Dict.get?_update _ _ (by simp [Dict.Ok]), get?_part]; simpa [Dict.get?] using h3)
    (by rw [get?_part, Dict.get?_update _ _ (by simp [Dict.Ok]), get?_part]; simpa [Dict.get?] using h4)
    (by rw [get?_part, Dict.get?_update _ _ (by simp [Dict.Ok]), get?_part]; simpa [Dict.get?] using h5)]
  simp only
  rw [e3 _ (by
      rw [get?_part, Dict.get?_update _ _ (by simp [Dict.Ok, windowUpdates]), get?_part,
        Dict.get?_update _ _ (by simp [Dict.Ok]), get?_part]
      simpa [Dict.get?, windowUpdates] using h6) (by
      rw [get?_part, Dict.get?_update _ _ (by simp [Dict.Ok, windowUpdates]), get?_part,
        Dict.get?_update _ _ (by simp [Dict.Ok]), get?_part]
      simpa [Dict.get?, windowUpdates] using h7)]
  simp only
  rw [e4 _ (by
      rw [get?_part, Dict.get?_update _ _ (by simp [Dict.Ok]), get?_part,
        Dict.get?_update _ _ (by simp [Dict.Ok, windowUpdates]), get?_part,
        Dict.get?_update _ _ (by simp [Dict.Ok]), get?_part]
      simpa [Dict.get?, windowUpdates] using h8)]
  refine ⟨_, _, rfl, ?_, ?_, fun k => ?_, fun k => ?_⟩
  · exact Dict.ok_update _ _ (Dict.ok_update _ _ (Dict.ok_update _ _ (Dict.ok_update _ _ hd)))
  · have k1 : (d.update [("parallel", p), ("n_jobs", j)]).map Prod.fst = d.map Prod.fst := by
      apply keys_update
      simp only [List.map_cons, List.map_nil, List.mem_cons, List.not_mem_nil, or_false]
      rintro k (rfl | rfl)
      · exact mem _ _ h1
      · exact mem _ _ h2
    have k2 : ((d.update [("parallel", p), ("n_jobs", j)]).update (windowUpdates n r).1).map Prod.fst =
        d.map Prod.fst := by
      rw [keys_update _ _ ?_, k1]
      simp only [windowUpdates, List.map_cons, List.map_nil, List.mem_cons, List.not_mem_nil,
        or_false, k1]
      rintro k (rfl | rfl | rfl)
      · exact mem _ _ h3
      · exact mem _ _ h4
      · exact mem _ _ h5
    rw [keys_update _ _ ?_, keys_update _ _ ?_, k2]
    · rw [k2]
      simp only [List.map_cons, List.map_nil, List.mem_cons, List.not_mem_nil, or_false]
      rintro k (rfl | rfl)
      · exact mem _ _ h6
      · exact mem _ _ h7
    · rw [keys_update _ _ ?_, k2]
      · simp only [List.map_cons, List.map_nil, List.mem_cons, List.not_mem_nil, or_false]
        rintro k rfl
        exact mem _ _ h8
      · rw [k2]
        simp only [List.map_cons, List.map_nil, List.mem_cons, List.not_mem_nil, or_false]
        rintro k (rfl | rfl)
        · exact mem _ _ h6
        · exact mem _ _ h7
  · rw [Dict.get?_update _ _ (by simp [Dict.Ok]), Dict.get?_update _ _ (by simp [Dict.Ok]),
      Dict.get?_update _ _ (by simp [Dict.Ok, windowUpdates]),
      Dict.get?_update _ _ (by simp [Dict.Ok])]
    simp only [newSettings, Dict.get?, windowUpdates]
    by_cases k1 : "gui_theme" = k
    · subst k1; simp
    by_cases k2 : "smfb_0" = k
    · subst k2; simp
    by_cases k3 : "smfb_1" = k
    · subst k3; simp
    by_cases k4 : "sinusoidal__n" = k
    · subst k4; simp
    by_cases k5 : "wsize" = k
    · subst k5; simp
    by_cases k6 : "wtype" = k
    · subst k6; simp
    simp [k1, k2, k3, k4, k5, k6]
  · exact params_get d p j n r (bounds a b) k

/-! ### Reading and showing the entries -/

theorem readAll_ok (env : Env K W) (file : Dict (SVal K W)) (entries : Dict Raw) :
    ∀ (spec : List (String × Kind K)) (d : Dict (SVal K W)),
    readAll env file entries spec = .ok d →
    d.map Prod.fst = spec.map Prod.fst ∧
    ∀ k v, d.get? k = some v → ∃ kind raw v', kindOf spec k = some kind ∧ entries.get? k = some raw ∧
      getSetting env kind raw = .ok v' ∧ v = (file.get? k).getD v'
  | [], d, h => by
    simp only [readAll, Except.ok.injEq] at h
    subst h
    exact ⟨rfl, fun k v h => by simp [Dict.get?] at h⟩
  | (k0, kind) :: spec, d, h => by
    simp only [readAll] at h
    cases he : entries.get? k0 with
    | none => simp [he] at h
    | some raw =>
      simp only [he] at h
      cases hg : getSetting env kind raw with
      | error e => simp [hg] at h
      | ok v0 =>
        simp only [hg] at h
        cases hr : readAll env file entries spec with
        | error e => simp [hr] at h
        | ok d' =>
          simp only [hr, Except.ok.injEq] at h
          subst h
          obtain ⟨h1, h2⟩ := readAll_ok env file entries spec d' hr
          refine ⟨by simp [h1], fun k v hk => ?_⟩
          rw [get?_cons] at hk
          by_cases hkk : k0 = k
          · subst hkk
            rw [if_pos rfl] at hk
            exact ⟨kind, raw, v0, by simp [kindOf], he, hg, (Option.some.inj hk).symm⟩
          · rw [if_neg hkk] at hk
            obtain ⟨kd, rw', v', a, b, c, e⟩ := h2 k v hk
            refine ⟨kd, rw', v', ?_, b, c, e⟩
            simpa [kindOf, hkk] using a

/-- Reading succeeds with given values if each entry can be read. -/
theorem readAll_eq (env : Env K W) (file : Dict (SVal K W)) (entries : Dict Raw) :
    ∀ (spec : List (String × Kind K)) (d : Dict (SVal K W)), d.map Prod.fst = spec.map Prod.fst →
    (spec.map Prod.fst).Nodup →
    (∀ k kind v, kindOf spec k = some kind → d.get? k = some v →
      ∃ raw v', entries.get? k = some raw ∧ getSetting env kind raw = .ok v' ∧
        (file.get? k).getD v' = v) →
    readAll env file entries spec = .ok d
  | [], d, hk, _, _ => by
    cases d with
    | nil => rfl
    | cons _ _ => simp at hk
  | (k0, kind) :: spec, d, hk, hn, h => by
    cases d with
    | nil => simp at hk
    | cons x d =>
      obtain ⟨k1, v⟩ := x
      simp only [List.map_cons, List.cons.injEq] at hk
      obtain ⟨rfl, hk⟩ := hk
      simp only [List.map_cons, List.nodup_cons] at hn
      obtain ⟨raw, v', h1, h2, h3⟩ := h k1 kind v (by simp [kindOf]) (by simp [Dict.get?])
      have ih := readAll_eq env file entries spec d hk hn.2 (by
        intro k kd u a b
        have hne : k1 ≠ k := by
          rintro rfl
          exact hn.1 (hk ▸ (mem_keys_iff d k1).2 ⟨u, b⟩)
        exact h k kd u (by simpa [kindOf, hne] using a) (by rw [get?_cons, if_neg hne]; exact b))
      simp only [readAll, h1, h2, ih, h3]

theorem kindOf_some (spec : List (String × Kind K)) (k : String) (h : k ∈ spec.map Prod.fst) :
    ∃ kind, kindOf spec k = some kind := by
  unfold kindOf
  cases hf : spec.find? fun e => decide (e.1 = k) with
  | some e => exact ⟨e.2, rfl⟩
  | none =>
    simp only [List.find?_eq_none, decide_eq_true_eq] at hf
    obtain ⟨e, he, rfl⟩ := List.mem_map.1 h
    exact absurd rfl (hf e he)

theorem showAll_ok (env : Env K W) (spec : List (String × Kind K)) :
    ∀ (d : Dict (SVal K W)) (entries : Dict Raw), Dict.Ok d →
    (∀ k ∈ d.map Prod.fst, k ∈ spec.map Prod.fst) →
    ∃ es, showAll env spec d entries = (es, none) ∧
      (∀ k kind v, d.get? k = some v → kindOf spec k = some kind →
        es.get? k = some (setSetting env kind v)) ∧
      (∀ k, k ∉ d.map Prod.fst → es.get? k = entries.get? k) ∧
      ((∀ k ∈ d.map Prod.fst, k ∈ entries.map Prod.fst) →
        es.map Prod.fst = entries.map Prod.fst) ∧ (Dict.Ok entries → Dict.Ok es)
  | [], entries, _, _ => ⟨entries, rfl, by simp [Dict.get?], fun _ _ => rfl, fun _ => rfl, id⟩
  | (k0, v0) :: d, entries, ho, hm => by
    simp only [Dict.Ok, List.map_cons, List.nodup_cons] at ho
    obtain ⟨kind, hkind⟩ := kindOf_some spec k0 (hm k0 (by simp))
    obtain ⟨es, h1, h2, h3, h4, h5⟩ := showAll_ok env spec d (entries.set k0 (setSetting env kind v0))
      ho.2 (fun k hk => hm k (by simp [hk]))
    refine ⟨es, by simp only [showAll, hkind, h1], fun k kd v hv hkd => ?_, fun k hk => ?_,
      fun hs => ?_, fun h => h5 (Dict.ok_set _ _ _ h)⟩
    · rw [get?_cons] at hv
      by_cases hk : k0 = k
      · subst hk
        rw [if_pos rfl] at hv
        rw [hkind] at hkd
        rw [h3 _ ho.1, Dict.get?_set_self, Option.some.inj hv, Option.some.inj hkd]
      · rw [if_neg hk] at hv
        exact h2 k kd v hv hkd
    · simp only [List.map_cons, List.mem_cons, not_or] at hk
      rw [h3 k hk.2, Dict.get?_set_ne _ _ _ _ hk.1]
    · have hk : (entries.set k0 (setSetting env kind v0)).map Prod.fst = entries.map Prod.fst := by
        rw [Dict.keys_set, if_pos (hs k0 (by simp))]
      rw [h4 (by rw [hk]; exact fun k hk' => hs k (by simp [hk'])), hk]

end Verif.Widgets
