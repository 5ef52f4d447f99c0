import Verif.Utils.DeprecatedModel
import Mathlib.Tactic.Common
import Mathlib.Data.List.Nodup

/-!
# Deprecated arguments (C31)
-/

set_option autoImplicit false
set_option linter.unusedSimpArgs false

namespace Verif.Utils

universe u v

variable {V : Type u} {R : Type v}

/-- Spec: the value that a stack of renamings (outermost first) gives to the name `k`: that of the
innermost renaming into `k` whose old name is given. -/
def winner (l : List (String × String)) (kw : Dict V) (k : String) : Option V :=
  match l with
  | [] => none
  | (old, new) :: l => (winner l kw k).or (if new = k then kw.get? old else none)

/-- Spec: one warning for each old name that is given, outermost first. -/
def givenWarnings (l : List (String × String)) (kw : Dict V) : List Warn :=
  (l.filter fun p => kw.has p.1).map fun p => (p.1, some p.2)

/-! ## Lemmas -/

theorem process_rename (old new : String) (args : List V) (kw : Dict V) :
    (rename old new : Dep V).process args kw =
      match kw.get? old with
      | none => ([], .ok kw)
      | some v => ([(old, some new)], .ok ((kw.erase old).set new v)) := by
  cases h : kw.get? old <;> simp [Dep.process, Dep.keyMap, rename, Dep.loop, Dep.warning, h]

theorem get?_replace (kw : Dict V) (old new k : String) (v : V) :
    Dict.get? ((kw.erase old).set new v) k
      = if k = new then some v else if k = old then none else kw.get? k := by
  rw [Dict.get?_set, Dict.get?_erase]

theorem decorate_ok (d : Dep V) (f : Fn V R) (args : List V) (kw kw' : Dict V) (ws : List Warn)
    (h : d.process args kw = (ws, .ok kw')) :
    d.decorate f args kw = (ws ++ (f args kw').1, (f args kw').2) := by
  simp [Dep.decorate, h]

theorem winner_congr (l : List (String × String)) (kw kw' : Dict V) (k : String)
    (h : ∀ p ∈ l, kw.get? p.1 = kw'.get? p.1) : winner l kw k = winner l kw' k := by
  induction l with
  | nil => rfl
  | cons p l ih =>
    obtain ⟨old, new⟩ := p
    simp only [winner]
    rw [ih fun q hq => h q (by simp [hq]), h (old, new) (by simp)]

theorem givenWarnings_congr (l : List (String × String)) (kw kw' : Dict V)
    (h : ∀ p ∈ l, kw.get? p.1 = kw'.get? p.1) : givenWarnings l kw = givenWarnings l kw' := by
  unfold givenWarnings
  congr 1
  apply List.filter_congr
  intro p hp
  simp [Dict.has, h p hp]

theorem winner_none_of_olds (l : List (String × String)) (kw : Dict V) (k : String)
    (h : k ∉ l.map Prod.snd) : winner l kw k = none := by
  induction l with
  | nil => rfl
  | cons p l ih =>
    obtain ⟨old, new⟩ := p
    simp only [List.map_cons, List.mem_cons, not_or] at h
    simp [winner, ih h.2, Ne.symm h.1]

theorem startsWith_iff (k p : String) : startsWith k p = true ↔ ∃ s, k = p ++ s := by
  unfold startsWith
  rw [List.isPrefixOf_iff_prefix]
  constructor
  · rintro ⟨t, ht⟩
    refine ⟨String.ofList t, ?_⟩
    apply String.toList_injective
    simp [← ht]
  · rintro ⟨s, rfl⟩
    exact ⟨s.toList, by simp⟩

theorem dropStr_append (p s : String) : dropStr (p ++ s) p.toList.length = s := by
  apply String.toList_injective
  simp [dropStr]

theorem append_left_inj' (p s t : String) (h : p ++ s = p ++ t) : s = t := by
  apply String.toList_injective
  have := congrArg String.toList h
  simpa using this

/-- The loop of one decorator over a key map is a stack of renamings. -/
theorem loop_eq_chain (d : Dep V) (hc : d.convert = none) (hw : d.warn = true) (f : Fn V R)
    (args : List V) (m : List (String × String)) (kw : Dict V) :
    ∃ ws kw', d.loop args (m.map fun p => (p.1, some p.2)) kw = (ws, .ok kw') ∧
      decorateAll (renames m) f args kw = (ws ++ (f args kw').1, (f args kw').2) := by
  induction m generalizing kw with
  | nil => exact ⟨[], kw, by simp [Dep.loop], by simp [renames, decorateAll]⟩
  | cons p m ih =>
    cases h : kw.get? p.1 with
    | none =>
      obtain ⟨ws, kw', e1, e2⟩ := ih kw
      refine ⟨ws, kw', ?_, ?_⟩
      · simp [Dep.loop, h, e1]
      · rw [← e2]
        simp [renames, decorateAll, Dep.decorate, process_rename, h]
    | some v =>
      obtain ⟨ws, kw', e1, e2⟩ := ih ((kw.erase p.1).set p.2 v)
      refine ⟨(p.1, some p.2) :: ws, kw', ?_, ?_⟩
      · simp [Dep.loop, h, hc, Dep.warning, hw, e1]
      · simp only [renames] at e2
        simp [renames, decorateAll, Dep.decorate, process_rename, h, e2]

theorem winner_of_mem (l : List (String × String)) (hnd : (l.map Prod.snd).Nodup) (kw : Dict V)
    (old new : String) (h : (old, new) ∈ l) : winner l kw new = kw.get? old := by
  induction l with
  | nil => simp at h
  | cons p l ih =>
    obtain ⟨o, n⟩ := p
    simp only [List.map_cons, List.nodup_cons] at hnd
    rcases List.mem_cons.1 h with h | h
    · obtain ⟨rfl, rfl⟩ := Prod.mk.inj h
      simp [winner, winner_none_of_olds l kw new hnd.1]
    · have hn : n ≠ new := by
        rintro rfl
        exact hnd.1 (List.mem_map.2 ⟨_, h, rfl⟩)
      simp [winner, hn, ih hnd.2 h]

/-! ## Theorems -/

/-- C31.  A renamed argument that is not given changes nothing and warns about nothing; if given
(as `v`), there is one warning, and the function is called with the new name bound to `v` — also
when the new name was given explicitly —, without the old name, with the same positional arguments
and with every other keyword argument unchanged. -/
theorem C31_rename (old new : String) (hne : old ≠ new) (f : Fn V R) (args : List V)
    (kw : Dict V) (hok : Dict.Ok kw) :
    (kw.get? old = none → (rename old new).decorate f args kw = f args kw) ∧
    (∀ v, kw.get? old = some v → ∃ kw' : Dict V,
      (rename old new).decorate f args kw
        = ((old, some new) :: (f args kw').1, (f args kw').2) ∧
      Dict.Ok kw' ∧ kw'.get? new = some v ∧ kw'.get? old = none ∧
      ∀ k, k ≠ old → k ≠ new → kw'.get? k = kw.get? k) := by
  constructor
  · intro h
    simp [Dep.decorate, process_rename, h]
  · intro v h
    refine ⟨(kw.erase old).set new v, ?_, Dict.ok_set _ _ _ (Dict.ok_erase _ _ hok), ?_, ?_, ?_⟩
    · simp [Dep.decorate, process_rename, h]
    · simp [get?_replace]
    · simp [get?_replace, hne]
    · intro k h1 h2
      simp [get?_replace, h1, h2]

/-- C31.  A stack of renamings with distinct old names, none of which is also a new name.  The
function is called once, with the same positional arguments; no old name is left; every other name
has the value of the innermost given old name that is renamed to it, else its own value; there is
exactly one warning for each old name that is given, in the order of the decorators, before those of
the function. -/
theorem C31_chain (l : List (String × String)) (hnd : (l.map Prod.fst).Nodup)
    (hdis : ∀ p ∈ l, ∀ q ∈ l, p.2 ≠ q.1) (f : Fn V R) (args : List V) (kw : Dict V)
    (hok : Dict.Ok kw) :
    ∃ kw' : Dict V, decorateAll (renames l) f args kw
        = (givenWarnings l kw ++ (f args kw').1, (f args kw').2) ∧
      Dict.Ok kw' ∧ (∀ k ∈ l.map Prod.fst, kw'.get? k = none) ∧
      ∀ k, k ∉ l.map Prod.fst → kw'.get? k = (winner l kw k).or (kw.get? k) := by
  induction l generalizing kw with
  | nil => exact ⟨kw, by simp [renames, decorateAll, givenWarnings], hok, by simp, by simp [winner]⟩
  | cons p l ih =>
    obtain ⟨old, new⟩ := p
    simp only [List.map_cons, List.nodup_cons] at hnd
    have hdis' : ∀ p ∈ l, ∀ q ∈ l, p.2 ≠ q.1 := fun p hp q hq =>
      hdis p (by simp [hp]) q (by simp [hq])
    have hnew : new ∉ l.map Prod.fst := by
      intro hm
      obtain ⟨q, hq, he⟩ := List.mem_map.1 hm
      exact hdis (old, new) (by simp) q (by simp [hq]) he.symm
    have hne : new ≠ old := hdis (old, new) (by simp) (old, new) (by simp)
    cases h : kw.get? old with
    | none =>
      obtain ⟨kw', e, ok', h1, h2⟩ := ih hnd.2 hdis' kw hok
      refine ⟨kw', ?_, ok', ?_, ?_⟩
      · have hw : givenWarnings ((old, new) :: l) kw = givenWarnings l kw := by
          simp [givenWarnings, Dict.has, h]
        rw [hw, ← e]
        simp [renames, decorateAll, Dep.decorate, process_rename, h]
      · intro k hk
        simp only [List.map_cons, List.mem_cons] at hk
        rcases hk with rfl | hk
        · rw [h2 _ hnd.1, h, Option.or_none]
          apply winner_none_of_olds
          intro hm
          obtain ⟨q, hq, he⟩ := List.mem_map.1 hm
          exact hdis q (by simp [hq]) (k, new) (by simp) he
        · exact h1 k hk
      · intro k hk
        simp only [List.map_cons, List.mem_cons, not_or] at hk
        rw [h2 k hk.2]
        simp [winner, h]
    | some v =>
      have hok' := Dict.ok_set _ new v (Dict.ok_erase kw old hok)
      obtain ⟨kw', e, ok', h1, h2⟩ := ih hnd.2 hdis' _ hok'
      have hsame : ∀ q ∈ l, Dict.get? ((kw.erase old).set new v) q.1 = kw.get? q.1 := by
        intro q hq
        rw [get?_replace]
        have a1 : q.1 ≠ new := fun he => hdis (old, new) (by simp) q (by simp [hq]) he.symm
        have a2 : q.1 ≠ old := fun he => hnd.1 (List.mem_map.2 ⟨q, hq, he⟩)
        simp [a1, a2]
      refine ⟨kw', ?_, ok', ?_, ?_⟩
      · have hw : givenWarnings ((old, new) :: l) kw
            = (old, some new) :: givenWarnings l ((kw.erase old).set new v) := by
          rw [givenWarnings_congr l _ _ hsame]
          simp [givenWarnings, Dict.has, h]
        rw [hw]
        simp only [renames, List.map_cons, decorateAll, Dep.decorate, process_rename, h]
        simp only [renames] at e
        rw [e]
        simp
      · intro k hk
        simp only [List.map_cons, List.mem_cons] at hk
        rcases hk with rfl | hk
        · rw [h2 _ hnd.1, get?_replace, if_neg hne.symm, if_pos rfl, Option.or_none]
          apply winner_none_of_olds
          intro hm
          obtain ⟨q, hq, he⟩ := List.mem_map.1 hm
          exact hdis q (by simp [hq]) (k, new) (by simp) he
        · exact h1 k hk
      · intro k hk
        simp only [List.map_cons, List.mem_cons, not_or] at hk
        rw [h2 k hk.2, winner_congr l _ _ k hsame, get?_replace]
        by_cases hkn : k = new
        · subst hkn
          simp [winner, h, Option.or_assoc]
        · simp [winner, hkn, Ne.symm hkn, hk.1]

/-- C31.  A stack as in `C31_chain` around a function that is itself decorated with the same stack
(`__init__` and `set_params`): nothing more is renamed and there is no second warning. -/
theorem C31_again (l : List (String × String)) (f : Fn V R)
    (args : List V) (kw : Dict V) (h : ∀ k ∈ l.map Prod.fst, kw.get? k = none) :
    decorateAll (renames l) f args kw = f args kw := by
  induction l with
  | nil => rfl
  | cons p l ih =>
    have h1 := h p.1 (by simp)
    simp only [renames, List.map_cons, decorateAll, Dep.decorate, process_rename, h1]
    simp only [renames] at ih
    rw [ih fun k hk => h k (by simp [hk])]
    simp

/-- C31.  Renaming a prefix: provided that no renamed key is itself one of the given keys with the
old prefix, for every suffix `s` the value given as `old ++ s` is received as `new ++ s` and no
longer as `old ++ s`; every other key keeps its value; and there is exactly one warning for each
given key with the old prefix. -/
theorem C31_prefix (old new : String) (f : Fn V R) (args : List V) (kw : Dict V)
    (hok : Dict.Ok kw)
    (hdis : ∀ s t, kw.has (old ++ s) = true → kw.has (old ++ t) = true → new ++ s ≠ old ++ t) :
    ∃ (ws : List Warn) (kw' : Dict V), (renamePrefix old new).decorate f args kw
        = (ws ++ (f args kw').1, (f args kw').2) ∧
      Dict.Ok kw' ∧
      (∀ s v, kw.get? (old ++ s) = some v →
        kw'.get? (new ++ s) = some v ∧ kw'.get? (old ++ s) = none) ∧
      (∀ k, (∀ s, kw.has (old ++ s) = true → k ≠ old ++ s ∧ k ≠ new ++ s) →
        kw'.get? k = kw.get? k) ∧
      ws.Nodup ∧ ∀ w, w ∈ ws ↔ ∃ s, kw.has (old ++ s) = true ∧ w = (old ++ s, some (new ++ s)) := by
  let m : List (String × String) := (kw.filter fun e => startsWith e.1 old).map fun e =>
    (e.1, new ++ dropStr e.1 old.toList.length)
  have hmem : ∀ p, p ∈ m ↔ ∃ s, kw.has (old ++ s) = true ∧ p = (old ++ s, new ++ s) := by
    intro p
    simp only [m, List.mem_map, List.mem_filter, startsWith_iff]
    constructor
    · rintro ⟨⟨k, v⟩, ⟨h1, s, hs⟩, rfl⟩
      simp only at hs
      subst hs
      refine ⟨s, ?_, by simp [dropStr_append]⟩
      exact (Dict.has_iff _ _).2 ⟨v, Dict.get?_of_mem kw _ v hok h1⟩
    · rintro ⟨s, h, rfl⟩
      obtain ⟨v, hv⟩ := (Dict.has_iff _ _).1 h
      exact ⟨(old ++ s, v), ⟨Dict.get?_some_mem kw _ v hv, s, rfl⟩, by simp [dropStr_append]⟩
  have hfst : (m.map Prod.fst).Nodup := by
    have : m.map Prod.fst = (kw.filter fun e => startsWith e.1 old).map Prod.fst := by
      simp [m]
    rw [this]
    exact List.Nodup.sublist (List.Sublist.map _ List.filter_sublist) hok
  have hnodup : m.Nodup := List.Nodup.of_map _ hfst
  have hsnd : (m.map Prod.snd).Nodup := by
    refine List.Nodup.map_on ?_ hnodup
    intro p hp q hq he
    obtain ⟨s, -, rfl⟩ := (hmem p).1 hp
    obtain ⟨t, -, rfl⟩ := (hmem q).1 hq
    have := append_left_inj' new s t he
    rw [this]
  have hdis' : ∀ p ∈ m, ∀ q ∈ m, p.2 ≠ q.1 := by
    intro p hp q hq
    obtain ⟨s, h1, rfl⟩ := (hmem p).1 hp
    obtain ⟨t, h2, rfl⟩ := (hmem q).1 hq
    exact hdis s t h1 h2
  obtain ⟨kw', e, ok', h1, h2⟩ := C31_chain m hfst hdis' f args kw hok
  have hall : ∀ p ∈ m, kw.has p.1 = true := by
    intro p hp
    obtain ⟨s, h, rfl⟩ := (hmem p).1 hp
    exact h
  have hws : givenWarnings m kw = m.map fun p => (p.1, some p.2) := by
    unfold givenWarnings
    rw [List.filter_eq_self.2 hall]
  have hfstof : ∀ k, k ∈ m.map Prod.fst ↔ ∃ s, kw.has (old ++ s) = true ∧ k = old ++ s := by
    intro k
    constructor
    · intro h
      obtain ⟨p, hp, rfl⟩ := List.mem_map.1 h
      obtain ⟨s, hs, rfl⟩ := (hmem p).1 hp
      exact ⟨s, hs, rfl⟩
    · rintro ⟨s, hs, rfl⟩
      exact List.mem_map.2 ⟨_, (hmem _).2 ⟨s, hs, rfl⟩, rfl⟩
  refine ⟨m.map fun p => (p.1, some p.2), kw', ?_, ok', ?_, ?_, ?_, ?_⟩
  · obtain ⟨ws, kw'', a1, a2⟩ := loop_eq_chain (renamePrefix old new : Dep V) rfl rfl f args m kw
    rw [hws] at e
    rw [← e, a2]
    apply decorate_ok
    rw [← a1]
    simp [Dep.process, Dep.keyMap, renamePrefix, m]
    rfl
  · intro s v hv
    have hh : kw.has (old ++ s) = true := (Dict.has_iff _ _).2 ⟨v, hv⟩
    have hmm := (hmem (old ++ s, new ++ s)).2 ⟨s, hh, rfl⟩
    constructor
    · rw [h2, winner_of_mem m hsnd kw _ _ hmm, hv]
      · simp
      · rw [hfstof]
        rintro ⟨t, ht, he⟩
        exact hdis s t hh ht he
    · exact h1 _ ((hfstof _).2 ⟨s, hh, rfl⟩)
  · intro k hk
    rw [h2, winner_none_of_olds, Option.none_or]
    · intro h
      obtain ⟨p, hp, rfl⟩ := List.mem_map.1 h
      obtain ⟨s, hs, rfl⟩ := (hmem p).1 hp
      exact (hk s hs).2 rfl
    · rw [hfstof]
      rintro ⟨s, hs, rfl⟩
      exact (hk s hs).1 rfl
  · refine List.Nodup.map ?_ hnodup
    rintro ⟨a, b⟩ ⟨c, d⟩ h
    simpa using h
  · intro w
    constructor
    · intro h
      obtain ⟨p, hp, rfl⟩ := List.mem_map.1 h
      obtain ⟨s, hs, rfl⟩ := (hmem p).1 hp
      exact ⟨s, hs, rfl⟩
    · rintro ⟨s, hs, rfl⟩
      exact List.mem_map.2 ⟨(old ++ s, new ++ s), (hmem _).2 ⟨s, hs, rfl⟩, rfl⟩

/-- C31.  Decorating without a new name raises ValueError, unless there is a converter and names
are not prefixes. -/
theorem C31_check (d : Dep V) :
    (d.check = .error .valueError ↔ d.newKey = none ∧ (d.isPrefix = true ∨ d.convert = none)) ∧
    (d.check = .ok () ∨ d.check = .error .valueError) := by
  obtain ⟨o, n, c, p, w⟩ := d
  cases n <;> cases p <;> cases c <;> simp [Dep.check]

/-- C31.  A converted argument: when it is not given nothing changes; when it is given, the
converter is called with all the arguments of the call, its error is the outcome of the call, and
otherwise the old name is replaced with the name and the value that it returns. -/
theorem C31_convert (old : String) (c : List V → Dict V → Except PyErr (String × V)) (f : Fn V R)
    (args : List V) (kw : Dict V) (hok : Dict.Ok kw) :
    (kw.get? old = none → (converting old c).decorate f args kw = f args kw) ∧
    (∀ v, kw.get? old = some v →
      (∀ e, c args kw = .error e → (converting old c).decorate f args kw = ([], .error e)) ∧
      (∀ k x, c args kw = .ok (k, x) → ∃ kw' : Dict V,
        (converting old c).decorate f args kw = ((old, some k) :: (f args kw').1, (f args kw').2) ∧
        Dict.Ok kw' ∧ kw'.get? k = some x ∧ (k ≠ old → kw'.get? old = none) ∧
        ∀ j, j ≠ old → j ≠ k → kw'.get? j = kw.get? j)) := by
  constructor
  · intro h
    simp [Dep.decorate, Dep.process, Dep.keyMap, converting, Dep.loop, h]
  · intro v h
    constructor
    · intro e he
      simp [Dep.decorate, Dep.process, Dep.keyMap, converting, Dep.loop, h, he]
    · intro k x he
      refine ⟨(kw.erase old).set k x, ?_, Dict.ok_set _ _ _ (Dict.ok_erase _ _ hok), ?_, ?_, ?_⟩
      · simp [Dep.decorate, Dep.process, Dep.keyMap, converting, Dep.loop, h, he, Dep.warning]
      · simp [get?_replace]
      · intro hk
        simp [get?_replace, Ne.symm hk]
      · intro j h1 h2
        simp [get?_replace, h1, h2]

/-! ## The stacks of the library -/

/-- The names renamed by the modal model (`sample/sms/mm.py:193-197`) and by the keyword remapper
(`sample/optimize.py:27-30`) meet the hypotheses of `C31_chain`. -/
theorem modalNames_ok : (modalNames.map Prod.fst).Nodup ∧
    ∀ p ∈ modalNames, ∀ q ∈ modalNames, p.2 ≠ q.1 := by decide +kernel

theorem remapperNames_ok : (remapperNames.map Prod.fst).Nodup ∧
    ∀ p ∈ remapperNames, ∀ q ∈ remapperNames, p.2 ≠ q.1 := by decide +kernel

/-- The plain renamings of `SinusoidalModel` (`sample/sms/sm.py:203-220`) but that of
`min_sine_dur`. -/
def sinusoidalNames : List (String × String) :=
  [("max_n_sines", "tracker__max_n_sines"), ("freq_dev_offset", "tracker__freq_dev_offset"),
   ("freq_dev_slope", "tracker__freq_dev_slope"), ("save_intermediate", "intermediate__save"),
   ("fs", "tracker__fs"), ("h", "tracker__h")]

/-- All deprecated names of `SinusoidalModel`, outermost first. -/
def sinusoidalOld : List String :=
  ["max_n_sines", "min_sine_dur", "safe_sine_len", "freq_dev_offset", "freq_dev_slope",
   "sine_tracker_cls", "save_intermediate", "fs", "h"]

theorem decorate_rename (old new : String) (hne : new ≠ old) (f : Fn V R) (args : List V)
    (kw : Dict V) (hok : Dict.Ok kw) : ∃ kw' : Dict V,
      (rename old new).decorate f args kw
        = ((if kw.has old then [(old, some new)] else []) ++ (f args kw').1, (f args kw').2) ∧
      Dict.Ok kw' ∧
      ∀ k, kw'.get? k = if k = new then (kw.get? old).or (kw.get? new)
        else if k = old then none else kw.get? k := by
  cases h : kw.get? old with
  | none =>
    refine ⟨kw, by simp [Dep.decorate, process_rename, h, Dict.has], hok, ?_⟩
    intro k
    by_cases h1 : k = new
    · simp [h1]
    · by_cases h2 : k = old
      · subst h2; simp [h1, h]
      · simp [h1, h2]
  | some v =>
    refine ⟨(kw.erase old).set new v, ?_, Dict.ok_set _ _ _ (Dict.ok_erase _ _ hok), ?_⟩
    · simp [Dep.decorate, process_rename, h, Dict.has]
    · intro k
      simp [get?_replace]

/-- C31.  Deprecated arguments of `SinusoidalModel` (constructor or `set_params` called with keyword
arguments only): the old names are received under the new ones and nothing else changes; the minimum
duration is the given one (under either name), raised to `safe_sine_len` if that is given; one
warning for each old name given.  `sine_tracker_cls` must not be given, see
`C31_sine_tracker_cls`. -/
theorem C31_sinusoidal (make : Val → Except PyErr Val) (f : Fn Val R) (self : Val) (kw : Dict Val)
    (hok : Dict.Ok kw) (hcls : kw.get? "sine_tracker_cls" = none) (hus : kw.get? "_" = none)
    (dur : Option Int)
    (hdur : (kw.get? "min_sine_dur").or (kw.get? "tracker__min_sine_dur") = dur.map Val.num)
    (safe : Option (Option Int))
    (hsafe : kw.get? "safe_sine_len" = safe.map fun s => s.elim Val.none Val.num) :
    ∃ (ws : List Warn) (kw' : Dict Val), decorateAll (sinusoidalStack make) f [self] kw
        = (ws ++ (f [self] kw').1, (f [self] kw').2) ∧
      Dict.Ok kw' ∧
      ws.map Prod.fst = sinusoidalOld.filter (fun k => kw.has k) ∧
      (∀ k ∈ sinusoidalOld, kw'.get? k = none) ∧
      (∀ p ∈ sinusoidalNames, kw'.get? p.2 = (kw.get? p.1).or (kw.get? p.2)) ∧
      kw'.get? "tracker__min_sine_dur"
        = (match safe with
          | none => dur.map Val.num
          | some s => some (Val.num (max (s.getD (-1)) (dur.getD 1)))) ∧
      (∀ k, k ∉ sinusoidalOld → k ≠ "tracker__min_sine_dur" → k ∉ sinusoidalNames.map Prod.snd →
        kw'.get? k = kw.get? k) := by
  obtain ⟨k1, e1, o1, g1⟩ := decorate_rename (R := R) "max_n_sines" "tracker__max_n_sines"
    (by decide) (decorateAll ((sinusoidalStack make).tail) f) [self] kw hok
  obtain ⟨k2, e2, o2, g2⟩ := decorate_rename (R := R) "min_sine_dur" "tracker__min_sine_dur"
    (by decide) (decorateAll ((sinusoidalStack make).tail.tail) f) [self] k1 o1
  have hc2 : k2.get? "sine_tracker_cls" = none := by simp [g2, g1, hcls]
  have hs2 : k2.get? "safe_sine_len" = safe.map fun s => s.elim Val.none Val.num := by
    simp [g2, g1, hsafe]
  have hu2 : k2.get? "_" = none := by simp [g2, g1, hus]
  have hd2 : k2.get? "tracker__min_sine_dur" = dur.map Val.num := by simp [g2, g1, hdur]
  -- the converter of `safe_sine_len`
  obtain ⟨w3, k3, e3, o3, g3, g3', hw3⟩ : ∃ (w3 : List Warn) (k3 : Dict Val),
      (converting "safe_sine_len" safeSineLen).decorate
          (decorateAll ((sinusoidalStack make).tail.tail.tail) f) [self] k2
        = (w3 ++ (decorateAll ((sinusoidalStack make).tail.tail.tail) f [self] k3).1,
          (decorateAll ((sinusoidalStack make).tail.tail.tail) f [self] k3).2) ∧
      Dict.Ok k3 ∧
      (∀ k, k ≠ "tracker__min_sine_dur" → k3.get? k = if k = "safe_sine_len" then none
        else k2.get? k) ∧
      k3.get? "tracker__min_sine_dur" = (match safe with
          | none => dur.map Val.num
          | some s => some (Val.num (max (s.getD (-1)) (dur.getD 1)))) ∧
      w3.map Prod.fst = if kw.has "safe_sine_len" then ["safe_sine_len"] else [] := by
    obtain ⟨c1, c2⟩ := C31_convert (R := R) "safe_sine_len" safeSineLen
      (decorateAll ((sinusoidalStack make).tail.tail.tail) f) [self] k2 o2
    cases safe with
    | none =>
      refine ⟨[], k2, ?_, o2, ?_, ?_, ?_⟩
      · rw [c1 (by simpa using hs2)]; simp
      · intro k hk
        by_cases h : k = "safe_sine_len"
        · subst h; simpa using hs2
        · simp [h]
      · simpa using hd2
      · simp at hsafe
        simp [Dict.has, hsafe]
    | some s =>
      have hs2' : k2.get? "safe_sine_len" = some (s.elim Val.none Val.num) := by simpa using hs2
      have hconv : safeSineLen [self] k2
          = .ok ("tracker__min_sine_dur", Val.num (max (s.getD (-1)) (dur.getD 1))) := by
        have hm : pyMax (Val.orMinusOne (s.elim Val.none Val.num))
            ((dur.map Val.num).getD (.num 1))
            = .ok (Val.num (max (s.getD (-1)) (dur.getD 1))) := by
          cases s <;> cases dur <;> simp [pyMax, Val.orMinusOne] <;> (try split) <;> omega
        simp only [safeSineLen, Dict.has, hu2, hs2', hd2, hm]
        rfl
      obtain ⟨k3, e3, o3, a1, a2, a3⟩ := (c2 _ hs2').2 _ _ hconv
      refine ⟨[("safe_sine_len", some "tracker__min_sine_dur")], k3, by simpa using e3, o3, ?_,
        ?_, ?_⟩
      · intro k hk
        by_cases h : k = "safe_sine_len"
        · subst h; simpa using a2 (by decide)
        · simp [h, a3 k h hk]
      · simpa using a1
      · simp at hsafe
        simp [Dict.has, hsafe]
  obtain ⟨k4, e4, o4, g4⟩ := decorate_rename (R := R) "freq_dev_offset" "tracker__freq_dev_offset"
    (by decide) (decorateAll ((sinusoidalStack make).tail.tail.tail.tail) f) [self] k3 o3
  obtain ⟨k5, e5, o5, g5⟩ := decorate_rename (R := R) "freq_dev_slope" "tracker__freq_dev_slope"
    (by decide) (decorateAll ((sinusoidalStack make).tail.tail.tail.tail.tail) f) [self] k4 o4
  have hc5 : k5.get? "sine_tracker_cls" = none := by
    simp [g5, g4, g3, hc2]
  have e6 := (C31_convert (R := R) "sine_tracker_cls" (sineTrackerCls make)
    (decorateAll ((sinusoidalStack make).tail.tail.tail.tail.tail.tail) f) [self] k5 o5).1 hc5
  obtain ⟨k7, e7, o7, g7⟩ := decorate_rename (R := R) "save_intermediate" "intermediate__save"
    (by decide) (decorateAll ((sinusoidalStack make).tail.tail.tail.tail.tail.tail.tail) f)
    [self] k5 o5
  obtain ⟨k8, e8, o8, g8⟩ := decorate_rename (R := R) "fs" "tracker__fs"
    (by decide) (decorateAll ((sinusoidalStack make).tail.tail.tail.tail.tail.tail.tail.tail) f)
    [self] k7 o7
  obtain ⟨k9, e9, o9, g9⟩ := decorate_rename (R := R) "h" "tracker__h"
    (by decide) (decorateAll [] f) [self] k8 o8
  have h1 : k1.has "min_sine_dur" = kw.has "min_sine_dur" := by simp [Dict.has, g1]
  have h4 : k3.has "freq_dev_offset" = kw.has "freq_dev_offset" := by
    simp [Dict.has, g3, g2, g1]
  have h5 : k4.has "freq_dev_slope" = kw.has "freq_dev_slope" := by
    simp [Dict.has, g4, g3, g2, g1]
  have h7 : k5.has "save_intermediate" = kw.has "save_intermediate" := by
    simp [Dict.has, g5, g4, g3, g2, g1]
  have h8 : k7.has "fs" = kw.has "fs" := by
    simp [Dict.has, g7, g5, g4, g3, g2, g1]
  have h9 : k8.has "h" = kw.has "h" := by
    simp [Dict.has, g8, g7, g5, g4, g3, g2, g1]
  rw [h1] at e2
  rw [h4] at e4
  rw [h5] at e5
  rw [h7] at e7
  rw [h8] at e8
  rw [h9] at e9
  have E9 : decorateAll ((sinusoidalStack make).tail.tail.tail.tail.tail.tail.tail.tail) f [self] k8
    = _ := e9
  have E8 : decorateAll ((sinusoidalStack make).tail.tail.tail.tail.tail.tail.tail) f [self] k7
    = _ := e8
  have E7 : decorateAll ((sinusoidalStack make).tail.tail.tail.tail.tail.tail) f [self] k5
    = _ := e7
  have E6 : decorateAll ((sinusoidalStack make).tail.tail.tail.tail.tail) f [self] k5 = _ := e6
  have E5 : decorateAll ((sinusoidalStack make).tail.tail.tail.tail) f [self] k4 = _ := e5
  have E4 : decorateAll ((sinusoidalStack make).tail.tail.tail) f [self] k3 = _ := e4
  have E3 : decorateAll ((sinusoidalStack make).tail.tail) f [self] k2 = _ := e3
  have E2 : decorateAll ((sinusoidalStack make).tail) f [self] k1 = _ := e2
  have E1 : decorateAll (sinusoidalStack make) f [self] kw = _ := e1
  have E0 : decorateAll [] f [self] k9 = f [self] k9 := rfl
  refine ⟨(if kw.has "max_n_sines" then [("max_n_sines", some "tracker__max_n_sines")] else []) ++
    ((if kw.has "min_sine_dur" then [("min_sine_dur", some "tracker__min_sine_dur")] else []) ++
    (w3 ++
    ((if kw.has "freq_dev_offset" then [("freq_dev_offset", some "tracker__freq_dev_offset")]
      else []) ++
    ((if kw.has "freq_dev_slope" then [("freq_dev_slope", some "tracker__freq_dev_slope")]
      else []) ++
    ((if kw.has "save_intermediate" then [("save_intermediate", some "intermediate__save")]
      else []) ++
    ((if kw.has "fs" then [("fs", some "tracker__fs")] else []) ++
    (if kw.has "h" then [("h", some "tracker__h")] else []))))))), k9, ?_, o9, ?_, ?_, ?_, ?_, ?_⟩
  · rw [E1, E2, E3, E4, E5, E6, E7, E8, E9, E0]
    simp only [List.append_assoc]
  · have hcls' : kw.has "sine_tracker_cls" = false := by simp [Dict.has, hcls]
    simp only [List.map_append, hw3, sinusoidalOld, List.filter_cons, hcls', List.filter_nil]
    cases kw.has "max_n_sines" <;> cases kw.has "min_sine_dur" <;> cases kw.has "safe_sine_len" <;>
      cases kw.has "freq_dev_offset" <;> cases kw.has "freq_dev_slope" <;>
      cases kw.has "save_intermediate" <;> cases kw.has "fs" <;> cases kw.has "h" <;> rfl
  · simp [sinusoidalOld, g9, g8, g7, g5, g4, g3, g2, g1, hcls]
  · simp [sinusoidalNames, g9, g8, g7, g5, g4, g3, g2, g1]
  · cases safe <;> simpa [g9, g8, g7, g5, g4] using g3'
  · intro k n1 n2 n3
    simp only [sinusoidalOld, sinusoidalNames, List.map_cons, List.map_nil, List.mem_cons,
      List.not_mem_nil, or_false, not_or] at n1 n3
    simp [g9, g8, g7, g5, g4, g3 k n2, g2, g1, n1, n2, n3]

/-- C31, what does not work: `sine_tracker_cls` always raises TypeError, since the converter gets
the positional `self` and the keyword under the same name; so does `safe_sine_len` together with any
further positional argument. -/
theorem C31_sine_tracker_cls (make : Val → Except PyErr Val) (f : Fn Val R) (self : Val)
    (args : List Val) (kw : Dict Val) (hcls : kw.has "sine_tracker_cls" = true) :
    (converting "sine_tracker_cls" (sineTrackerCls make)).decorate f (self :: args) kw
      = ([], .error .typeError) := by
  obtain ⟨v, hv⟩ := (Dict.has_iff _ _).1 hcls
  cases args <;>
    simp [Dep.decorate, Dep.process, Dep.keyMap, converting, Dep.loop, hv, sineTrackerCls, hcls]

theorem C31_safe_sine_len_positional (f : Fn Val R) (self a : Val)
    (args : List Val) (kw : Dict Val) (h : kw.has "safe_sine_len" = true) :
    (converting "safe_sine_len" safeSineLen).decorate f (self :: a :: args) kw
      = ([], .error .typeError) := by
  obtain ⟨v, hv⟩ := (Dict.has_iff _ _).1 h
  simp [Dep.decorate, Dep.process, Dep.keyMap, converting, Dep.loop, hv, safeSineLen]

/-! ## Examples -/

/-- The function that returns the keyword arguments it is called with. -/
def echo : Fn Val (Dict Val) := fun _ kw => ([], .ok kw)

-- hypotheses of `C31_chain` and `C31_rename`, with two old names given and one explicit new name
example : ((decorateAll (renames modalNames) echo [.obj 0]
      [("strip_t", .num 3), ("n", .num 8), ("reverse", .num 1), ("tracker__reverse", .num 0)]).1,
    (decorateAll (renames modalNames) echo [.obj 0]
      [("strip_t", .num 3), ("n", .num 8), ("reverse", .num 1),
        ("tracker__reverse", .num 0)]).2.toOption)
    = ([("reverse", some "tracker__reverse"), ("strip_t", some "tracker__strip_t")],
      some [("n", .num 8), ("tracker__reverse", .num 1), ("tracker__strip_t", .num 3)]) := by
  decide +kernel

-- a prefix
example : ((decorateAll sampleStack echo [.obj 0]
      [("sinusoidal_model__n", .num 8), ("x", .none), ("sinusoidal_model", .obj 3)]).1,
    (decorateAll sampleStack echo [.obj 0]
      [("sinusoidal_model__n", .num 8), ("x", .none), ("sinusoidal_model", .obj 3)]).2.toOption)
    = ([("sinusoidal_model__n", some "sinusoidal__n"), ("sinusoidal_model", some "sinusoidal")],
      some [("x", .none), ("sinusoidal__n", .num 8), ("sinusoidal", .obj 3)]) := by
  decide +kernel

-- the hypothesis of `C31_prefix` is needed: here the value of `aab` is lost
example : (((renamePrefix "a" "aa").decorate echo [] [("ab", .num 1), ("aab", .num 2)]).2.toOption)
    = some [("aaab", .num 1)] := by
  decide +kernel

-- the stack of `SinusoidalModel`, with all kinds of arguments
example : ((decorateAll (sinusoidalStack .ok) echo [.obj 0]
      [("safe_sine_len", .num 5), ("h", .num 64), ("min_sine_dur", .num 3), ("w", .obj 1)]).1,
    (decorateAll (sinusoidalStack .ok) echo [.obj 0]
      [("safe_sine_len", .num 5), ("h", .num 64), ("min_sine_dur", .num 3),
        ("w", .obj 1)]).2.toOption)
    = ([("min_sine_dur", some "tracker__min_sine_dur"),
        ("safe_sine_len", some "tracker__min_sine_dur"), ("h", some "tracker__h")],
      some [("w", .obj 1), ("tracker__min_sine_dur", .num 5), ("tracker__h", .num 64)]) := by
  decide +kernel

end Verif.Utils
