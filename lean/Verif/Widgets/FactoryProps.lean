import Verif.Learn.EstFactory
import Verif.Widgets.ApplyCbkProps
import Mathlib.Algebra.Order.Ring.Rat
import Mathlib.Data.Rat.Floor

/-!
# C101: from the settings tab to the model of the analysis
-/

set_option autoImplicit false
set_option linter.unusedSectionVars false
set_option linter.unusedSimpArgs false

namespace Verif.Widgets

open Verif Verif.Est

variable {K W : Type} [Field K] [LinearOrder K] [IsStrictOrderedRing K] [FloorRing K]

/-- A parameter of the analysis as an argument. -/
def asVal : SVal K W → Val (SVal K W)
  | .none => .none
  | v => .atom v

/-- What `**kwargs` of `sample_factory` are, `sample/widgets/sample.py:64-67`, in the call of
`sample/widgets/analysis.py:219-222`. -/
def factoryArgs (P : Dict (SVal K W)) (sr : Int) : Dict (Val (SVal K W)) :=
  ("sinusoidal__tracker__fs", .atom (.int sr)) ::
    (P.filter fun e => decide (e.1 ≠ "beatsdrop") && decide (e.1 ≠ "n_jobs")).map fun e => (e.1, asVal e.2)

/-- The call of `sample_factory` in `analysis_cbk`, `sample/widgets/analysis.py:219-222`; `P` is
`sample_object_kwargs`.  An argument given twice is a `TypeError`. -/
def makeModel (d : Defaults (SVal K W)) (depth fuel : Nat) (P : Dict (SVal K W)) (sr : Int) (h : Heap (SVal K W) Cls) :
    Option (Heap (SVal K W) Cls × Except PyErr Nat) :=
  if P.has "progressbar" || P.has "sinusoidal__tracker__fs" then some (h, .error .typeError)
  else
    sampleFactory (package d) depth fuel (.bool true)
      (match P.get? "beatsdrop" with | none => false | some v => v.truthy) (factoryArgs P sr) h

/-- Settings that are parameters of every model. -/
def plainKeys : List String :=
  ["max_n_modes", "sinusoidal__tracker__max_n_sines", "sinusoidal__tracker__h",
    "sinusoidal__tracker__freq_dev_offset", "sinusoidal__tracker__freq_dev_slope",
    "sinusoidal__tracker__peak_threshold", "sinusoidal__t", "sinusoidal__tracker__min_sine_dur",
    "sinusoidal__tracker__strip_t", "sinusoidal__tracker__reverse", "sinusoidal__padded"]

/-- Settings that are parameters of models with BeatsDROP. -/
def beatKeys : List String := ["beat_decisor__th", "beatsdrop__lpf"]

/-- All the arguments. -/
def argKeys : List String :=
  plainKeys ++ beatKeys ++ ["sinusoidal__tracker__fs", "sinusoidal__n", "sinusoidal__w",
    "sinusoidal__tracker__frequency_bounds"]

/-- `k` is below one of the names. -/
def below (l : List String) (k : String) : Bool := l.any fun n => (n.toList ++ ['_', '_']).isPrefixOf k.toList

theorem apart_of_keys {A : Type} (l : List String) (hl : ∀ k ∈ l, below l k = false) (kw : Dict (Val A))
    (hk : ∀ e ∈ kw, e.1 ∈ l) : Apart kw := by
  intro e he e' he' r hr
  have h1 := hl e'.1 (hk e' he')
  unfold below at h1
  rw [List.any_eq_false] at h1
  refine h1 e.1 (hk e he) ?_
  rw [hr, Est.join, String.toList_ofList, List.isPrefixOf_iff_prefix]
  exact ⟨r.toList, by simp⟩

theorem keys_apart : ∀ k ∈ argKeys ++ ["beat_decisor__intermediate__save", "sinusoidal__intermediate__save"],
    below (argKeys ++ ["beat_decisor__intermediate__save", "sinusoidal__intermediate__save"]) k = false := by
  decide +kernel

theorem keys_resolve (b : Bool) : ∀ k ∈ plainKeys ++ ["sinusoidal__tracker__fs", "sinusoidal__n",
    "sinusoidal__tracker__frequency_bounds", "sinusoidal__intermediate__save"],
    resolve 3 (if b then .sampleBeatsDROP else .sample) k = some .plain := by
  cases b <;> decide +kernel

theorem keys_window (b : Bool) : resolve 3 (if b then .sampleBeatsDROP else .sample) "sinusoidal__w" = some .value := by
  cases b <;> decide +kernel

theorem keys_beat : ∀ k ∈ beatKeys ++ ["beat_decisor__intermediate__save"],
    resolve 3 .sampleBeatsDROP k = some .plain := by
  decide +kernel

theorem params_keys {env : Env K W} {S P : Dict (SVal K W)} {n ws : Int} {wt th : String} {a b : Flt K}
    {p : Bool} {j : Int} {w : W} (sh : Shown env S P n ws wt th a b p j w) {k : String} {v : SVal K W}
    (hk : P.get? k = some v) : k = "beatsdrop" ∨ k = "n_jobs" ∨ k ∈ argKeys := by
  rw [sh.params] at hk
  cases h1 : (Dict.get? [("n_jobs", SVal.int (if p then j else 0)), ("sinusoidal__n", .int n),
    ("sinusoidal__w", .win w), ("sinusoidal__tracker__frequency_bounds", .pair a b)] k) with
  | some u =>
    have := List.mem_map_of_mem (f := Prod.fst) (Dict.get?_some_mem _ _ _ h1)
    simp only [List.map_cons, List.map_nil, List.mem_cons, List.not_mem_nil, or_false] at this
    rcases this with rfl | rfl | rfl | rfl <;> simp [argKeys]
  | none =>
    rw [h1] at hk
    simp only [Option.none_or] at hk
    split at hk
    · cases hk
    · rename_i hsp
      have : k ∈ S.map Prod.fst := List.mem_map.2 ⟨_, Dict.get?_some_mem _ _ _ hk, rfl⟩
      rw [sh.keys] at this
      simp only [table, List.map_cons, List.map_nil, List.mem_cons, List.not_mem_nil, or_false] at this
      simp only [special, List.mem_cons, List.not_mem_nil, or_false, not_or] at hsp
      simp only [argKeys, plainKeys, beatKeys, List.mem_append, List.mem_cons, List.not_mem_nil, or_false]
      tauto

theorem get?_factoryArgs {P : Dict (SVal K W)} (hP : P.Ok) {sr : Int} {k : String} {v : SVal K W} (hk : P.get? k = some v)
    (h1 : k ≠ "beatsdrop") (h2 : k ≠ "n_jobs") : (k, asVal v) ∈ factoryArgs P sr := by
  refine List.mem_cons_of_mem _ (List.mem_map.2 ⟨(k, v), List.mem_filter.2 ⟨Dict.get?_some_mem _ _ _ hk, ?_⟩, rfl⟩)
  simp [h1, h2]

/-- **C101** (from the settings to the model): with the parameters that the settings tab has stored (`Shown`,
C84), the analysis makes a model, whatever is in the memory and without changing it; it is a `SAMPLEBeatsDROP`
exactly if "beatsdrop" is checked, and its parameters are the settings shown: sample rate, FFT size, window,
frequency bounds and all the others; those of BeatsDROP if that is on; intermediate results are saved. -/
theorem C101_settings {env : Env K W} {S P : Dict (SVal K W)} {n ws : Int} {wt th : String} {a b : Flt K}
    {p : Bool} {j : Int} {w : W} (sh : Shown env S P n ws wt th a b p j w) (hP : P.Ok) (d : Defaults (SVal K W))
    (hd : d.Ok) {depth : Nat} (hdep : 3 ≤ depth) (sr : Int) (h : Heap (SVal K W) Cls) (hw : Wf (package d) h) :
    ∃ bd, S.get? "beatsdrop" = some (.bool bd) ∧ ∃ N, ∀ fuel, N ≤ fuel → ∃ h' i,
      makeModel d depth fuel P sr h = some (h', .ok i) ∧ (∀ x, x < h.length → h'[x]? = h[x]?) ∧
      (h'[i]?).map Obj.cls = some (if bd then .sampleBeatsDROP else .sample) ∧
      ∃ M, ∀ m, M ≤ m → ∃ Q, getParams m h' i = some Q ∧
        Q.get? "sinusoidal__tracker__fs" = some (.atom (.int sr)) ∧
        Q.get? "sinusoidal__n" = some (.atom (.int n)) ∧
        Q.get? "sinusoidal__w" = some (.atom (.win w)) ∧
        Q.get? "sinusoidal__tracker__frequency_bounds" = some (.atom (.pair a b)) ∧
        Q.get? "sinusoidal__intermediate__save" = some (.atom (.bool true)) ∧
        (∀ k ∈ plainKeys, ∃ v, S.get? k = some v ∧ Q.get? k = some (asVal v)) ∧
        (bd = true → Q.get? "beat_decisor__intermediate__save" = some (.atom (.bool true)) ∧
          ∀ k ∈ beatKeys, ∃ v, S.get? k = some v ∧ Q.get? k = some (asVal v)) := by
  obtain ⟨-, -, Pn, -, -, -, -, -, Pw, -, -, Pf, -, -, -, -, -, -, Po⟩ := C84_params env S P n ws wt th a b p j w sh
  -- BeatsDROP
  obtain ⟨bv, hbS, hbP⟩ := Po "beatsdrop" (by simp)
  have hst := sh.stable "beatsdrop" .check bv (by simp [kindOf, table]) hbS
  obtain ⟨bd, rfl⟩ : ∃ bd, bv = .bool bd := by
    unfold Stable at hst
    cases bv <;> simp [setSetting, getSetting] at hst
    exact ⟨_, rfl⟩
  refine ⟨bd, hbS, ?_⟩
  have hkeys : ∀ e ∈ factoryArgs P sr, e.1 ∈ argKeys := by
    intro e he
    rcases List.mem_cons.1 he with rfl | he
    · simp [argKeys]
    · obtain ⟨x, hx, rfl⟩ := List.mem_map.1 he
      have hx' := List.mem_filter.1 hx
      simp only [Bool.and_eq_true, decide_eq_true_eq] at hx'
      rcases params_keys sh (Dict.get?_of_mem P x.1 x.2 hP hx'.1) with h1 | h1 | h1
      · exact absurd h1 hx'.2.1
      · exact absurd h1 hx'.2.2
      · exact h1
  have hfs : P.get? "sinusoidal__tracker__fs" = none := by
    rw [sh.params]
    have : S.get? "sinusoidal__tracker__fs" = none := by
      rw [Dict.get?_none_iff, sh.keys]
      simp [table]
    simp [Dict.get?, this]
  have hpb : P.get? "progressbar" = none := by
    cases hq : P.get? "progressbar" with
    | none => rfl
    | some v =>
      have := params_keys sh hq
      exact absurd this (by decide +kernel)
  have hok : (factoryArgs P sr).Ok := by
    unfold Dict.Ok factoryArgs
    rw [List.map_cons, List.nodup_cons]
    refine ⟨?_, ?_⟩
    · intro hm
      obtain ⟨x, hx, hx1⟩ := List.mem_map.1 hm
      obtain ⟨y, hy, rfl⟩ := List.mem_map.1 hx
      have := Dict.get?_of_mem P y.1 y.2 hP (List.mem_of_mem_filter hy)
      simp only at hx1
      rw [hx1, hfs] at this
      cases this
    · rw [List.map_map]
      have := ok_filter hP fun e => decide (e.1 ≠ "beatsdrop") && decide (e.1 ≠ "n_jobs")
      unfold Dict.Ok at this
      exact this
  have hpl : Plain (factoryArgs P sr) := by
    intro e he i
    rcases List.mem_cons.1 he with rfl | he
    · simp
    · obtain ⟨x, _, rfl⟩ := List.mem_map.1 he
      cases x.2 <;> simp [asVal]
  have hap : Apart (factoryArgs P sr ++ defaultKwargs (.bool true)) := by
    refine apart_of_keys _ keys_apart _ fun e he => ?_
    rcases List.mem_append.1 he with he | he
    · exact List.mem_append.2 (.inl (hkeys e he))
    · simp only [defaultKwargs, List.mem_cons, List.not_mem_nil, or_false] at he
      rcases he with rfl | rfl <;> simp
  obtain ⟨N, hN⟩ := C101_factory d hd hdep (.bool true) bd _ rfl hok hpl hap h hw
  refine ⟨N, fun fuel hf => ?_⟩
  obtain ⟨h', i, e1, e2, e3, w', ⟨f, o, _⟩, e4⟩ := hN fuel hf
  refine ⟨h', i, ?_, e2, e3, f.length, fun m hm => ?_⟩
  · unfold makeModel
    simp only [Dict.has, hpb, hfs, Option.isSome_none, Bool.or_self, Bool.false_eq_true, if_false, hbP, SVal.truthy]
    exact e1
  · obtain ⟨Q, hQ⟩ := getParams_total o hm
    obtain ⟨q1, q2, _⟩ := e4 m Q hQ
    have nofl : ∀ k ∈ ["beat_decisor__intermediate__save", "sinusoidal__intermediate__save"],
        (factoryArgs P sr).get? k = none := by
      intro k hk
      rw [Dict.get?_none_iff]
      intro hm
      obtain ⟨e, he, rfl⟩ := List.mem_map.1 hm
      have := hkeys e he
      revert this hk
      generalize e.1 = z
      have : ∀ z ∈ ["beat_decisor__intermediate__save", "sinusoidal__intermediate__save"], z ∉ argKeys := by
        decide +kernel
      exact this z
    have some_of : ∀ k aut, resolve 3 (if bd then Cls.sampleBeatsDROP else .sample) k = some aut →
        ∃ s, slotOf (package d) depth (if bd then Cls.sampleBeatsDROP else .sample) k = some s ∧ autoOf s = aut :=
      fun k aut hr => resolve_slotOf d 3 depth hdep _ k aut hr
    have atomv : ∀ k v aut, (k, Val.atom v) ∈ factoryArgs P sr →
        resolve 3 (if bd then Cls.sampleBeatsDROP else .sample) k = some aut → Q.get? k = some (.atom v) := by
      intro k v aut hm hr
      obtain ⟨s, hs, _⟩ := some_of k aut hr
      obtain ⟨v', g1, g2⟩ := q1 k _ s hm hs
      rw [g1]
      exact congrArg some g2
    have anyv : ∀ k v, (k, asVal v) ∈ factoryArgs P sr →
        resolve 3 (if bd then Cls.sampleBeatsDROP else .sample) k = some .plain → Q.get? k = some (asVal v) := by
      intro k v hm hr
      obtain ⟨s, hs, ha⟩ := some_of k .plain hr
      obtain ⟨v', g1, g2⟩ := q1 k _ s hm hs
      rw [g1]
      have hau : s.auto = none := by
        unfold autoOf at ha
        cases hq : s.auto with
        | none => rfl
        | some q => cases q <;> simp [hq] at ha
      cases v <;> simp only [asVal, Stored, hau] at g2 ⊢ <;> exact congrArg some g2
    refine ⟨Q, hQ, ?_, ?_, ?_, ?_, ?_, ?_, ?_⟩
    · exact atomv _ _ .plain (by simp [factoryArgs]) (keys_resolve bd _ (by simp))
    · exact atomv _ _ .plain (get?_factoryArgs hP Pn (by decide +kernel) (by decide +kernel)) (keys_resolve bd _ (by simp))
    · exact atomv _ _ .value (get?_factoryArgs hP Pw (by decide +kernel) (by decide +kernel)) (keys_window bd)
    · exact atomv _ _ .plain (get?_factoryArgs hP Pf (by decide +kernel) (by decide +kernel)) (keys_resolve bd _ (by simp))
    · refine q2 _ (by simp) (nofl _ (by simp)) ?_
      obtain ⟨s, hs, _⟩ := some_of _ _ (keys_resolve bd "sinusoidal__intermediate__save" (by simp))
      rw [hs]; rfl
    · intro k hk
      obtain ⟨v, hv, hv'⟩ := Po k (by revert hk; simp only [plainKeys, List.mem_cons, List.not_mem_nil, or_false]; tauto)
      have hne : ∀ k ∈ plainKeys, k ≠ "beatsdrop" ∧ k ≠ "n_jobs" := by decide +kernel
      exact ⟨v, hv, anyv k v (get?_factoryArgs hP hv' (hne k hk).1 (hne k hk).2)
        (keys_resolve bd k (List.mem_append.2 (.inl hk)))⟩
    · rintro rfl
      refine ⟨?_, ?_⟩
      · refine q2 _ (by simp) (nofl _ (by simp)) ?_
        obtain ⟨s, hs, _⟩ := some_of _ _ (keys_beat "beat_decisor__intermediate__save" (by simp))
        rw [hs]; rfl
      · intro k hk
        obtain ⟨v, hv, hv'⟩ := Po k (by revert hk; simp only [beatKeys, List.mem_cons, List.not_mem_nil, or_false]; tauto)
        have hne : ∀ k ∈ beatKeys, k ≠ "beatsdrop" ∧ k ≠ "n_jobs" := by decide +kernel
        exact ⟨v, hv, anyv k v (get?_factoryArgs hP hv' (hne k hk).1 (hne k hk).2)
          (keys_beat k (List.mem_append.2 (.inl hk)))⟩

/-- Parameters of the settings tab and the model that the analysis makes of them. -/
example : ((makeModel (K := ℚ) (W := Unit) ⟨fun _ _ => .atom .none, fun _ _ => .none, []⟩ 3 9
      [("max_n_modes", .none), ("sinusoidal__n", .int 4096), ("beatsdrop", .bool true), ("n_jobs", .int 0),
       ("beatsdrop__lpf", .flt (.fin 12))] 44100 []).bind fun q => q.2.toOption.bind fun i =>
        (getParams 9 q.1 i).map fun Q => (["max_n_modes", "sinusoidal__n", "beatsdrop__lpf", "n_jobs",
          "sinusoidal__tracker__fs"].map fun k => Q.get? k)) =
    some [some .none, some (.atom (.int 4096)), some (.atom (.flt (.fin 12))), none, some (.atom (.int 44100))] := by
  decide +kernel

end Verif.Widgets
