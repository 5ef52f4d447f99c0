import Verif.Utils.WarningsModel
import Mathlib.Tactic.Common
import Mathlib.Data.List.Nodup

/-!
# Warning filters (C35), default keywords (C36), function variants (C70), signatures (C71) and
operators (C72)
-/

set_option autoImplicit false
set_option linter.unusedSimpArgs false

namespace Verif.Utils

universe u v

variable {V : Type u} {R : Type v}

/-! ## C35 -/

/-- Spec: the call is filtered: there is no toggle, or the toggle argument (else its default value)
is true. -/
def Active (c : WarnCfg V) (truthy : V → Bool) (kw : Dict V) : Prop :=
  ∀ key dflt, c.toggle = some (key, dflt) →
    (∀ v, kw.get? key = some v → truthy v = true) ∧ (kw.get? key = none → truthy dflt = true)

/-- Spec: `kw'` is `kw` without the toggle argument. -/
def Stripped (c : WarnCfg V) (kw kw' : Dict V) : Prop :=
  ∀ k, kw'.get? k = if c.toggle.map Prod.fst = some k then none else kw.get? k

theorem active_iff (c : WarnCfg V) (truthy : V → Bool) (kw : Dict V) (t : String × V)
    (ht : c.toggle = some t) : Active c truthy kw ↔ truthy (popDefault kw t).1 = true := by
  unfold Active popDefault
  rw [ht]
  obtain ⟨key, dflt⟩ := t
  cases h : kw.get? key with
  | none => simp [h]
  | some v => simp [h]

theorem stripped_pop (c : WarnCfg V) (kw : Dict V) (t : String × V) (ht : c.toggle = some t) :
    Stripped c kw (popDefault kw t).2 := by
  intro k
  simp only [popDefault, ht, Option.map_some, Dict.get?_erase, Option.some.injEq, eq_comm]

/-- C35.  A call that is not filtered is exactly the call of the function without the toggle
argument: the state of the warnings is not touched by the decorator. -/
theorem C35_off (c : WarnCfg V) (truthy : V → Bool) (f : WFn V R) (args : List V) (kw : Dict V)
    (w : World) (h : ¬ Active c truthy kw) :
    ∃ kw', Stripped c kw kw' ∧ c.decorate truthy f args kw w = f args kw' w := by
  cases ht : c.toggle with
  | none => exact absurd (by intro key dflt h'; rw [ht] at h'; cases h') h
  | some t =>
    refine ⟨_, stripped_pop c kw t ht, ?_⟩
    rw [active_iff c truthy kw t ht] at h
    simp [WarnCfg.decorate, ht, h]

/-- C35.  A filtered call calls the function once, without the toggle argument, in a state `w₁`
where the new filter is the first one and the other filters have kept their order (with
`append=True` it is in the list); whatever the function does and whether it returns or raises, the
outcome is that of the function and the filters and the destination of messages are those before the
call. -/
theorem C35_on (c : WarnCfg V) (truthy : V → Bool) (f : WFn V R) (args : List V) (kw : Dict V)
    (w : World) (h : Active c truthy kw) :
    ∃ kw' w₁, Stripped c kw kw' ∧
      (c.append = false → w₁.filters.head? = some c.filter ∧
        (w₁.filters.filter fun g => !decide (g = c.filter)).Sublist w.filters ∧
        ∀ g ∈ w.filters, g ∈ w₁.filters) ∧
      (c.append = true → c.filter ∈ w₁.filters ∧ w.filters <+: w₁.filters) ∧
      (c.decorate truthy f args kw w).2 = (f args kw' w₁).2 ∧
      (c.decorate truthy f args kw w).1.filters = w.filters ∧
      (c.decorate truthy f args kw w).1.dest = w.dest ∧
      (c.decorate truthy f args kw w).1.records = (f args kw' w₁).1.records ∧
      (c.decorate truthy f args kw w).1.traces = (f args kw' w₁).1.traces := by
  have key : ∀ kw', Stripped c kw kw' →
      c.decorate truthy f args kw w = c.filtered f args kw' w → _ := fun kw' hs he => by
    let w₁ := (enterCatch c.record w).1
    let w₂ := { w₁ with filters := simplefilter c.filter c.append w₁.filters }
    let w₃ : World := if c.traced then { w₂ with traces := w₂.traces ++ [(enterCatch c.record w).2] }
      else w₂
    have hf1 : w₁.filters = w.filters := by
      simp only [w₁, enterCatch]; split <;> rfl
    have hf3 : w₃.filters = simplefilter c.filter c.append w.filters := by
      simp only [w₃, w₂]; split <;> simp [hf1]
    have hrun : c.filtered f args kw' w = (exitCatch w (f args kw' w₃).1, (f args kw' w₃).2) := rfl
    refine (⟨kw', w₃, hs, ?_, ?_, ?_, ?_, ?_, ?_, ?_⟩ : ∃ kw' w₁, Stripped c kw kw' ∧
      (c.append = false → w₁.filters.head? = some c.filter ∧
        (w₁.filters.filter fun g => !decide (g = c.filter)).Sublist w.filters ∧
        ∀ g ∈ w.filters, g ∈ w₁.filters) ∧
      (c.append = true → c.filter ∈ w₁.filters ∧ w.filters <+: w₁.filters) ∧
      (c.decorate truthy f args kw w).2 = (f args kw' w₁).2 ∧
      (c.decorate truthy f args kw w).1.filters = w.filters ∧
      (c.decorate truthy f args kw w).1.dest = w.dest ∧
      (c.decorate truthy f args kw w).1.records = (f args kw' w₁).1.records ∧
      (c.decorate truthy f args kw w).1.traces = (f args kw' w₁).1.traces)
    · intro ha
      rw [hf3, simplefilter, ha]
      refine ⟨by simp, ?_, ?_⟩
      · simp only [Bool.false_eq_true, if_false, List.filter_cons, decide_true, Bool.not_true]
        exact List.filter_sublist.trans List.erase_sublist
      · intro g hg
        by_cases hgc : g = c.filter
        · simp [hgc]
        · simp [List.mem_erase_of_ne hgc, hg]
    · intro ha
      rw [hf3, simplefilter, ha]
      by_cases hm : c.filter ∈ w.filters
      · simp [hm]
      · simp [hm]
    · rw [he, hrun]
    · rw [he, hrun]; rfl
    · rw [he, hrun]; rfl
    · rw [he, hrun]; rfl
    · rw [he, hrun]; rfl
  cases ht : c.toggle with
  | none =>
    refine key kw ?_ (by simp [WarnCfg.decorate, ht])
    intro k
    simp [ht]
  | some t =>
    refine key _ (stripped_pop c kw t ht) ?_
    rw [active_iff c truthy kw t ht] at h
    simp [WarnCfg.decorate, ht, h]

/-- One call in a history: a decorator, a function and the arguments. -/
structure WCall (V : Type u) (R : Type v) where
  cfg : WarnCfg V
  fn : WFn V R
  args : List V
  kw : Dict V

/-- The state after a history of calls whose errors are caught by the caller. -/
def runCalls (truthy : V → Bool) (l : List (WCall V R)) (w : World) : World :=
  l.foldl (fun w c => (c.cfg.decorate truthy c.fn c.args c.kw w).1) w

/-- C35.  After any history of decorated calls, the filters and the destination are those before it,
provided only that the functions that are run unfiltered leave them alone. -/
theorem C35_history (truthy : V → Bool) (l : List (WCall V R)) (w : World)
    (h : ∀ c ∈ l, Active c.cfg truthy c.kw ∨
      ∀ args kw w, (c.fn args kw w).1.filters = w.filters ∧ (c.fn args kw w).1.dest = w.dest) :
    (runCalls truthy l w).filters = w.filters ∧ (runCalls truthy l w).dest = w.dest := by
  unfold runCalls
  induction l generalizing w with
  | nil => exact ⟨rfl, rfl⟩
  | cons c l ih =>
    have hstep : (c.cfg.decorate truthy c.fn c.args c.kw w).1.filters = w.filters ∧
        (c.cfg.decorate truthy c.fn c.args c.kw w).1.dest = w.dest := by
      by_cases ha : Active c.cfg truthy c.kw
      · obtain ⟨_, _, _, _, _, _, h1, h2, _⟩ := C35_on c.cfg truthy c.fn c.args c.kw w ha
        exact ⟨h1, h2⟩
      · obtain ⟨kw', _, he⟩ := C35_off c.cfg truthy c.fn c.args c.kw w ha
        rw [he]
        exact (h c (by simp)).resolve_left ha _ _ _
    obtain ⟨i1, i2⟩ := ih (c.cfg.decorate truthy c.fn c.args c.kw w).1
      fun d hd => h d (by simp [hd])
    rw [List.foldl_cons]
    exact ⟨i1.trans hstep.1, i2.trans hstep.2⟩

/-! ## C36 -/

theorem get?_fillDefaults (d defaults : Dict V) (hok : Dict.Ok defaults) (k : String) :
    (fillDefaults d defaults).get? k = (d.get? k).or (defaults.get? k) := by
  unfold fillDefaults
  induction defaults generalizing d with
  | nil => simp [Dict.get?]
  | cons x l ih =>
    obtain ⟨k', v'⟩ := x
    simp only [Dict.Ok, List.map_cons, List.nodup_cons] at hok
    rw [List.foldl_cons, ih _ hok.2, Dict.get?_set]
    by_cases h : k = k'
    · subst h
      have := (Dict.get?_none_iff l k).2 hok.1
      cases hd : d.get? k <;> simp [Dict.get?, this, hd]
    · simp [h, Dict.get?, Ne.symm h]

theorem ok_fillDefaults (d defaults : Dict V) (hok : Dict.Ok d) :
    Dict.Ok (fillDefaults d defaults) := by
  unfold fillDefaults
  induction defaults generalizing d with
  | nil => exact hok
  | cons x l ih => exact ih _ (Dict.ok_set _ _ _ hok)

/-- C36.  `default_kws(d, **defaults)` returns a new dictionary that has for each key the value of
`d` if `d` has the key, else the default; every dictionary that was there is unchanged, `d`
included. -/
theorem C36_default_kws (h : Heap V) (d : Option Nat) (defaults : Dict V) (hok : Dict.Ok defaults)
    (hd : defaults.has "d" = false) (hr : ∀ r, d = some r → r < h.length) :
    ∃ (h' : Heap V) (r : Nat) (x : Dict V), defaultKws h d defaults = (h', .ok r) ∧
      h[r]? = none ∧ h'[r]? = some x ∧
      (∀ (i : Nat), i < h.length → h'[i]? = h[i]?) ∧
      ∀ k, x.get? k = ((d.bind fun i => h[i]?).bind fun y => y.get? k).or (defaults.get? k) := by
  cases d with
  | none =>
    refine ⟨h ++ [fillDefaults [] defaults], h.length, fillDefaults [] defaults, ?_, ?_, ?_, ?_, ?_⟩
    · simp [defaultKws, hd]
    · simp
    · simp
    · intro i hi
      simp [List.getElem?_append_left hi]
    · intro k
      rw [get?_fillDefaults _ _ hok]
      simp [Dict.get?]
  | some r =>
    have hlt := hr r rfl
    refine ⟨h ++ [fillDefaults h[r] defaults], h.length, fillDefaults h[r] defaults,
      ?_, ?_, ?_, ?_, ?_⟩
    · simp [defaultKws, hd, hlt]
    · simp
    · simp
    · intro i hi
      simp [List.getElem?_append_left hi]
    · intro k
      rw [get?_fillDefaults _ _ hok]
      simp [hlt]

/-- C36.  A default named like the parameter `d` is a TypeError. -/
theorem C36_clash (h : Heap V) (d : Option Nat) (defaults : Dict V)
    (hd : defaults.has "d" = true) : defaultKws h d defaults = (h, .error .typeError) := by
  simp [defaultKws, hd]

/-- Operations of a history: calls of `default_kws`, and assignments to dictionary objects. -/
inductive KOp (V : Type u) where
  | default (d : Option Nat) (defaults : Dict V)
  | assign (r : Nat) (k : String) (v : V)

/-- One operation on the memory. -/
def KOp.run : KOp V → Heap V → Heap V
  | .default d defaults, h => (defaultKws h d defaults).1
  | .assign r k v, h => h.modify r fun d => d.set k v

/-- Spec: the value of an object after the assignments to it. -/
def assigned (r : Nat) (l : List (KOp V)) (d : Dict V) : Dict V :=
  l.foldl (fun d op => match op with
    | .assign r' k v => if r' = r then d.set k v else d
    | .default _ _ => d) d

/-- C36.  In every history of calls of `default_kws` and of assignments to dictionaries (those
returned by the calls included), an existing dictionary changes only by the assignments to it. -/
theorem C36_history (l : List (KOp V)) (h : Heap V) (r : Nat) (d : Dict V) (hr : h[r]? = some d) :
    (l.foldl (fun h op => op.run h) h)[r]? = some (assigned r l d) := by
  induction l generalizing h d with
  | nil => simpa [assigned] using hr
  | cons op l ih =>
    obtain ⟨hlt, he⟩ := List.getElem?_eq_some_iff.1 hr
    cases op with
    | default d' defaults =>
      rw [List.foldl_cons]
      have : ((KOp.default d' defaults).run h)[r]? = some d := by
        simp only [KOp.run, defaultKws]
        split
        · exact hr
        · split
          · rw [List.getElem?_append_left hlt]; exact hr
          · split
            · exact hr
            · rw [List.getElem?_append_left hlt]; exact hr
      simpa [assigned] using ih _ d this
    | assign r' k v =>
      rw [List.foldl_cons]
      have : ((KOp.assign r' k v).run h)[r]? = some (if r' = r then d.set k v else d) := by
        simp only [KOp.run, List.getElem?_modify, hr]
        split <;> simp
      simpa [assigned] using ih _ _ this

/-! ## C70 -/

variable {F : Type u}

/-- Spec: the function last registered under `k`. -/
def lastRegistered (k : String) (l : List (String × F)) : Option F :=
  (l.reverse.find? fun e => e.1 = k).map Prod.snd

theorem registered_get? (l : List (String × F)) (m : Variants F) (k : String) :
    (l.foldl (fun m e => m.register e.1 e.2) m).dict.get? k
      = (lastRegistered k l).or (m.dict.get? k) := by
  induction l generalizing m with
  | nil => simp [lastRegistered]
  | cons e l ih =>
    rw [List.foldl_cons, ih]
    simp only [lastRegistered, List.reverse_cons, List.find?_append, Variants.register,
      Dict.get?_set]
    cases h : l.reverse.find? fun e => decide (e.1 = k) with
    | some x => simp
    | none =>
      by_cases hk : e.1 = k
      · simp [hk]
      · simp [hk, Ne.symm hk]

theorem registered_key (l : List (String × F)) (m : Variants F) :
    (l.foldl (fun m e => m.register e.1 e.2) m).key = m.key ∧
    (l.foldl (fun m e => m.register e.1 e.2) m).default = m.default := by
  induction l generalizing m with
  | nil => exact ⟨rfl, rfl⟩
  | cons e l ih => exact ih (m.register e.1 e.2)

/-- C70.  A call of a function with variants, after any history of registrations: let the option be
the value of the keyword argument `key`, or `default` if it is not given.  If a function has been
registered under the option (the decorated function itself counts as registered first, under
`this`), the last one is called, without the option and with all other keyword arguments; otherwise
ValueError is raised. -/
theorem C70_variants {V : Type v} (func : F) (key default : String) (this : Option String)
    (regs : List (String × F)) (kw : Dict (VVal V)) :
    let m := regs.foldl (fun m e => m.register e.1 e.2) (withVariants func key default this)
    let all := (this.toList.map fun k => (k, func)) ++ regs
    (∀ opt f, (kw.get? key = some (.str opt) ∨ (kw.get? key = none ∧ opt = default)) →
      lastRegistered opt all = some f →
      ∃ kw', m.call kw = .ok (f, kw') ∧ kw'.get? key = none ∧
        ∀ k, k ≠ key → kw'.get? k = kw.get? k) ∧
    (∀ opt, (kw.get? key = some (.str opt) ∨ (kw.get? key = none ∧ opt = default)) →
      lastRegistered opt all = none → m.call kw = .error .valueError) ∧
    (∀ v, kw.get? key = some (.other v) → m.call kw = .error .valueError) := by
  intro m all
  have hk : m.key = key := (registered_key regs _).1
  have hdef : m.default = default := (registered_key regs _).2
  have hget : ∀ k, m.dict.get? k = lastRegistered k all := by
    intro k
    simp only [m]
    rw [registered_get?]
    cases this with
    | none => simp [all, withVariants, Dict.get?]
    | some t =>
      simp only [all, withVariants, lastRegistered, Option.toList_some, List.map_cons, List.map_nil,
        List.cons_append, List.nil_append, List.reverse_cons, List.find?_append]
      cases h : regs.reverse.find? fun e => decide (e.1 = k) with
      | some x => simp
      | none =>
        by_cases htk : t = k <;> simp [Dict.get?, htk]
  have hopt : ∀ opt, (kw.get? key = some (.str opt) ∨ (kw.get? key = none ∧ opt = default)) →
      m.option kw = .str opt := by
    intro opt h
    rcases h with h | ⟨h, rfl⟩
    · simp [Variants.option, hk, h]
    · simp [Variants.option, hk, h, hdef]
  refine ⟨?_, ?_, ?_⟩
  · intro opt f h hf
    refine ⟨kw.erase key, ?_, Dict.get?_erase_self _ _, fun k hne => Dict.get?_erase_ne _ _ _ hne⟩
    simp [Variants.call, hopt opt h, hget, hf, hk]
  · intro opt h hf
    simp [Variants.call, hopt opt h, hget, hf]
  · intro v h
    have : m.option kw = .other v := by simp [Variants.option, hk, h]
    simp [Variants.call, this]

/-! ## C71 -/

/-- Positional kinds. -/
def Kind.positional : Kind → Bool
  | .posOnly => true
  | .posOrKw => true
  | _ => false

/-- Spec: what `inspect.Signature` demands of a list of parameters (kinds in order, distinct names,
no positional parameter without default after one with a default), and that there is at most one
`**kwargs`. -/
structure ValidSig (l : List Param) : Prop where
  order : l.Pairwise fun a b => a.kind.rank ≤ b.kind.rank
  names : (l.map Param.name).Nodup
  defaults : l.Pairwise fun a b =>
    a.kind.positional = true → b.kind.positional = true → a.hasDefault = true → b.hasDefault = true
  one : l.Pairwise fun a b => ¬ (a.kind = .varKw ∧ b.kind = .varKw)

theorem rank_le_four (k : Kind) : k.rank ≤ 4 := by cases k <;> simp [Kind.rank]

theorem rank_lt_four (k : Kind) (h : k ≠ .varKw) : k.rank ≤ 3 := by
  cases k <;> simp_all [Kind.rank]

theorem insertIdx_length_append {α : Type*} (a b : List α) (x : α) :
    (a ++ b).insertIdx a.length x = a ++ x :: b := by
  induction a with
  | nil => rfl
  | cons y a ih => simp [ih]

/-- C71.  `add_keyword_arg` makes a valid signature out of a valid one: the new parameter is
keyword-only, it is the only one of its name, it comes last but for `**kwargs`, and the other
parameters are kept in order. -/
theorem C71_add_keyword_arg (l : List Param) (name : String) (hasDefault : Bool)
    (h : ValidSig l) :
    ValidSig (addKeywordArg l name hasDefault) ∧
    ∃ pre post, addKeywordArg l name hasDefault = pre ++ ⟨name, .kwOnly, hasDefault⟩ :: post ∧
      pre ++ post = (l.filter fun p => !decide (p.name = name)) ∧
      (∀ p ∈ pre, p.kind ≠ .varKw) ∧ (∀ p ∈ post, p.kind = .varKw) := by
  have hsub : (l.filter fun p => !decide (p.name = name)).Sublist l := List.filter_sublist
  have hfil : ∀ p ∈ l.filter fun p => !decide (p.name = name), p.name ≠ name := by
    intro p hp
    simpa using (List.mem_filter.1 hp).2
  generalize hl' : (l.filter fun p => !decide (p.name = name)) = l' at hsub hfil
  have hord := h.order.sublist hsub
  have hnam := h.names.sublist (hsub.map Param.name)
  have hdef := h.defaults.sublist hsub
  have hone := h.one.sublist hsub
  have hex : ∃ pre post, addKeywordArg l name hasDefault = pre ++ ⟨name, .kwOnly, hasDefault⟩ :: post ∧
      pre ++ post = l' ∧ (∀ p ∈ pre, p.kind ≠ .varKw) ∧ (∀ p ∈ post, p.kind = .varKw) := by
    unfold addKeywordArg
    rw [hl']
    rcases List.eq_nil_or_concat l' with rfl | ⟨init, last, rfl⟩
    · exact ⟨[], [], by simp, by simp, by simp, by simp⟩
    · simp only [List.concat_eq_append] at *
      rw [List.pairwise_append] at hord hone
      by_cases hk : last.kind = .varKw
      · refine ⟨init, [last], ?_, rfl, ?_, by simpa using hk⟩
        · simp only [List.getLast?_concat, hk, if_true, List.length_append, List.length_cons,
            List.length_nil, Nat.zero_add, Nat.add_sub_cancel]
          exact insertIdx_length_append _ _ _
        · intro p hp hpk
          exact hone.2.2 p hp last (by simp) ⟨hpk, hk⟩
      · refine ⟨init ++ [last], [], ?_, by simp, ?_, by simp⟩
        · simp only [List.getLast?_concat, hk, if_false]
          exact List.insertIdx_length_self
        · intro p hp
          rcases List.mem_append.1 hp with hp | hp
          · intro hpk
            have h1 := hord.2.2 p hp last (by simp)
            have h2 := rank_lt_four _ hk
            rw [hpk] at h1
            simp [Kind.rank] at h1 h2
            omega
          · simp only [List.mem_singleton] at hp
            subst hp; exact hk
  refine ⟨?_, hex⟩
  obtain ⟨pre, post, he, hpp, hpre, hpost⟩ := hex
  rw [he]
  subst hpp
  rw [List.pairwise_append] at hord hdef hone
  constructor
  · rw [List.pairwise_append, List.pairwise_cons]
    refine ⟨hord.1, ⟨?_, hord.2.1⟩, ?_⟩
    · intro b hb
      rw [hpost b hb]; simp [Kind.rank]
    · intro a ha b hb
      rcases List.mem_cons.1 hb with rfl | hb
      · exact rank_lt_four _ (hpre a ha)
      · exact hord.2.2 a ha b hb
  · rw [List.map_append, List.map_cons, List.nodup_middle, List.nodup_cons, ← List.map_append]
    refine ⟨?_, hnam⟩
    intro hm
    obtain ⟨p, hp, hn⟩ := List.mem_map.1 hm
    exact hfil p hp hn
  · rw [List.pairwise_append, List.pairwise_cons]
    refine ⟨hdef.1, ⟨?_, hdef.2.1⟩, ?_⟩
    · intro b hb h1
      simp [Kind.positional] at h1
    · intro a ha b hb
      rcases List.mem_cons.1 hb with rfl | hb
      · intro _ h2
        simp [Kind.positional] at h2
      · exact hdef.2.2 a ha b hb
  · rw [List.pairwise_append, List.pairwise_cons]
    refine ⟨hone.1, ⟨?_, hone.2.1⟩, ?_⟩
    · intro b hb h1
      simp at h1
    · intro a ha b hb
      rcases List.mem_cons.1 hb with rfl | hb
      · simp
      · exact hone.2.2 a ha b hb

/-! ## C72 -/

/-- The results of a history of attribute reads. -/
def OpCache.reads (inNumpy : String → Bool) : OpCache → List String → List (Except PyErr Nat)
  | _, [] => []
  | c, k :: l => (c.getattr inNumpy k).2 :: OpCache.reads inNumpy (c.getattr inNumpy k).1 l

/-- The cache only holds operators made, one per name. -/
def OpCache.Ok (c : OpCache) : Prop :=
  (∀ k o, c.d.get? k = some o → o < c.made) ∧
  (∀ j k o, c.d.get? j = some o → c.d.get? k = some o → j = k)

theorem OpCache.ok_getattr (inNumpy : String → Bool) (c : OpCache) (k : String) (h : c.Ok) :
    (c.getattr inNumpy k).1.Ok ∧
    (∀ j o, c.d.get? j = some o → (c.getattr inNumpy k).1.d.get? j = some o) ∧
    (∀ o, (c.getattr inNumpy k).2 = .ok o → (c.getattr inNumpy k).1.d.get? k = some o) := by
  unfold OpCache.getattr
  cases hk : c.d.get? k with
  | some o => exact ⟨h, fun _ _ h => h, by simpa using hk⟩
  | none =>
    by_cases hn : inNumpy k = true
    · simp only [hn, if_true]
      refine ⟨⟨?_, ?_⟩, ?_, ?_⟩
      · intro j o hj
        rw [Dict.get?_set] at hj
        split at hj
        · simp only [Option.some.injEq] at hj; simp only; omega
        · have := h.1 j o hj; simp only; omega
      · intro i j o hi hj
        rw [Dict.get?_set] at hi hj
        split at hi <;> split at hj
        · simp_all
        · have := h.1 j o hj; simp only [Option.some.injEq] at hi; omega
        · have := h.1 i o hi; simp only [Option.some.injEq] at hj; omega
        · exact h.2 i j o hi hj
      · intro j o hj
        rw [Dict.get?_set]
        split
        · rename_i he; subst he; simp [hk] at hj
        · exact hj
      · intro o ho
        simp only [Except.ok.injEq] at ho
        rw [Dict.get?_set_self, ho]
    · simp only [hn]
      exact ⟨h, fun _ _ h => h, by simp⟩

theorem OpCache.reads_spec (inNumpy : String → Bool) (l : List String) (c : OpCache) (h : c.Ok) :
    ∃ c' : OpCache, c'.Ok ∧ (∀ j o, c.d.get? j = some o → c'.d.get? j = some o) ∧
      (c.reads inNumpy l).length = l.length ∧
      ∀ (i : Nat) k o, l[i]? = some k → (c.reads inNumpy l)[i]? = some (.ok o) →
        c'.d.get? k = some o := by
  induction l generalizing c with
  | nil => exact ⟨c, h, fun _ _ h => h, rfl, by simp⟩
  | cons k l ih =>
    obtain ⟨h1, h2, h3⟩ := OpCache.ok_getattr inNumpy c k h
    obtain ⟨c', a1, a2, a3, a4⟩ := ih _ h1
    refine ⟨c', a1, fun j o hj => a2 j o (h2 j o hj), by simp [reads, a3], ?_⟩
    intro i j o hi ho
    cases i with
    | zero =>
      simp only [reads, List.getElem?_cons_zero, Option.some.injEq] at hi ho
      subst hi
      exact a2 _ _ (h3 o ho)
    | succ i =>
      simp only [reads, List.getElem?_cons_succ] at hi ho
      exact a4 i j o hi ho

/-- C72.  In every history of reads of attributes of a new `Numpy2Paragraph`, two successful reads
give the same operator object if and only if they are for the same name; a read fails (with
AttributeError) if and only if NumPy has no such name. -/
theorem C72_operators (inNumpy : String → Bool) (l : List String) (i j : Nat) (k k' : String)
    (hi : l[i]? = some k) (hj : l[j]? = some k') :
    let r := OpCache.reads inNumpy ⟨[], 0⟩ l
    (inNumpy k = false → r[i]? = some (.error .attributeError)) ∧
    (inNumpy k = true → inNumpy k' = true →
      ∃ o o', r[i]? = some (.ok o) ∧ r[j]? = some (.ok o') ∧ (o = o' ↔ k = k')) := by
  have hok : OpCache.Ok ⟨[], 0⟩ := ⟨by simp [Dict.get?], by simp [Dict.get?]⟩
  -- which reads fail
  have hres : ∀ (l : List String) (c : OpCache), (∀ j o, c.d.get? j = some o → inNumpy j = true) →
      ∀ (i : Nat) k, l[i]? = some k →
      (inNumpy k = false → (c.reads inNumpy l)[i]? = some (.error .attributeError)) ∧
      (inNumpy k = true → ∃ o, (c.reads inNumpy l)[i]? = some (.ok o)) := by
    intro l
    induction l with
    | nil => intro c _ i k hi; simp at hi
    | cons x l ih =>
      intro c hc i k hi
      have hc' : ∀ j o, (c.getattr inNumpy x).1.d.get? j = some o → inNumpy j = true := by
        intro j o hj
        unfold OpCache.getattr at hj
        cases hx : c.d.get? x with
        | some y => rw [hx] at hj; exact hc j o hj
        | none =>
          rw [hx] at hj
          by_cases hn : inNumpy x = true
          · simp only [hn, if_true, Dict.get?_set] at hj
            split at hj
            · rename_i he; rw [he]; exact hn
            · exact hc j o hj
          · simp only [hn] at hj
            exact hc j o hj
      cases i with
      | zero =>
        simp only [List.getElem?_cons_zero, Option.some.injEq] at hi
        subst hi
        simp only [OpCache.reads, List.getElem?_cons_zero, OpCache.getattr]
        constructor
        · intro hn
          cases hx : c.d.get? x with
          | some y => have := hc x y hx; simp [hn] at this
          | none => simp [hn]
        · intro hn
          cases hx : c.d.get? x with
          | some y => exact ⟨y, rfl⟩
          | none => exact ⟨c.made, by simp [hn]⟩
      | succ i =>
        simp only [List.getElem?_cons_succ] at hi
        simpa [OpCache.reads] using ih _ hc' i k hi
  intro r
  have hempty : ∀ j o, Dict.get? (⟨[], 0⟩ : OpCache).d j = some o → inNumpy j = true := by
    simp [Dict.get?]
  refine ⟨(hres l _ hempty i k hi).1, ?_⟩
  intro h1 h2
  obtain ⟨o, ho⟩ := (hres l _ hempty i k hi).2 h1
  obtain ⟨o', ho'⟩ := (hres l _ hempty j k' hj).2 h2
  obtain ⟨c', a1, -, -, a4⟩ := OpCache.reads_spec inNumpy l ⟨[], 0⟩ hok
  have b1 := a4 i k o hi ho
  have b2 := a4 j k' o' hj ho'
  refine ⟨o, o', ho, ho', ?_, ?_⟩
  · rintro rfl
    exact a1.2 k k' o b1 b2
  · rintro rfl
    rw [b1] at b2
    exact Option.some.inj b2

/-! ## Examples -/

/-- A function that changes the filters and raises if it gets the argument `bad`. -/
def meddler : WFn Bool (List Filter) := fun _ kw w =>
  ({ w with filters := [] }, if kw.has "bad" then .error .valueError else .ok w.filters)

/-- The decorator of `SAMPLE.fit`, `sample/sample.py:158-160`. -/
def fitFilter : WarnCfg Bool :=
  ⟨false, false, some ("ignore_warnings", true), ⟨"ignore", "RuntimeWarning", 0⟩, false⟩

example : let w : World := ⟨[⟨"error", "Warning", 0⟩], none, [], []⟩
    ((fitFilter.decorate id meddler [] [("bad", true)] w).1,
      (fitFilter.decorate id meddler [] [] w).2.toOption,
      (fitFilter.decorate id meddler [] [("ignore_warnings", false)] w).1)
    = (w, some [⟨"ignore", "RuntimeWarning", 0⟩, ⟨"error", "Warning", 0⟩],
      { w with filters := [] }) := by
  decide +kernel

example : ((defaultKws [[("a", 0), ("b", 0)]] (some 0) [("a", 1), ("c", 2)]).1,
      (defaultKws [[("a", 0), ("b", 0)]] (some 0) [("a", 1), ("c", 2)]).2.toOption)
    = ([[("a", 0), ("b", 0)], [("a", 0), ("b", 0), ("c", 2)]], some 1) := by
  decide +kernel

-- `normalize`: default and explicit option, an unknown one, and a replaced variant
example :
    let m := [("rms", 1), ("range", 2), ("rms", 3)].foldl (fun m e => m.register e.1 e.2)
      (withVariants 0 "mode" "peak" (some "peak"))
    (((m.call (V := Nat) []).toOption.map Prod.fst),
      ((m.call (V := Nat) [("mode", .str "rms")]).toOption.map Prod.fst),
      ((m.call (V := Nat) [("mode", .str "none")]).toOption.map Prod.fst))
    = (some 0, some 3, none) := by
  decide +kernel

example : addKeywordArg [⟨"self", .posOrKw, false⟩, ⟨"n", .posOrKw, true⟩, ⟨"kw", .varKw, false⟩] "n"
    true = [⟨"self", .posOrKw, false⟩, ⟨"n", .kwOnly, true⟩, ⟨"kw", .varKw, false⟩] := by
  decide +kernel

example : (OpCache.reads (fun k => k != "foo") ⟨[], 0⟩ ["add", "foo", "sin", "add"]).map
    Except.toOption = [some 0, none, some 1, some 0] := by
  decide +kernel

end Verif.Utils
