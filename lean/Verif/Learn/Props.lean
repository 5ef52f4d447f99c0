import Verif.Learn.Lemmas

/-!
# Properties of optional storages and default properties (C32, C33)
-/

set_option autoImplicit false
universe u

namespace Verif.Learn

variable {V : Type u}

/-! ## C32 -/

/-- C32: after any history of a new storage, a key holds exactly the values written to it while
`save` was on and since the last reset, in order or at the given positions with `None` in the holes;
a key never written raises `KeyError`. -/
theorem C32_history (save : Bool) (ops : List (Op V)) (hn : NonnegIndices ops) (key : String) :
    ((Storage.init save).run ops).getitem key =
      if writes key save ops = [] then .error .keyError
      else .ok ((writes key save ops).foldl put []) := by
  unfold Storage.getitem
  rw [run_get key ops hn]
  have h : (((Storage.init save : Storage V).cache.getD []).get? key) = none := rfl
  rw [h]
  simp only [ite_self, Option.getD_none]
  have hs : (Storage.init save : Storage V).save = save := rfl
  rw [hs]
  split
  · rename_i l hl
    split at hl
    · simp at hl
    · rename_i h1
      rw [if_neg h1]
      simp only [Option.some.injEq] at hl
      rw [← hl]
  · rename_i hl
    split at hl
    · rename_i h1; rw [if_pos h1]
    · simp at hl

/-- C32: plain appends to an active storage: each key has its values in order. -/
theorem C32_appends (kvs : List (String × V)) (key : String) (h : key ∈ kvs.map Prod.fst) :
    ((Storage.init true).run (kvs.map fun kv => Op.append kv.1 kv.2 none)).getitem key =
      .ok ((kvs.filter fun kv => kv.1 = key).map fun kv => some kv.2) := by
  have hn : NonnegIndices (kvs.map fun kv => (Op.append kv.1 kv.2 none : Op V)) := by
    intro o ho
    obtain ⟨kv, _, rfl⟩ := List.mem_map.1 ho
    trivial
  have hr : ∀ l : List (String × V),
      hasReset (l.map fun kv => (Op.append kv.1 kv.2 none : Op V)) = false := by
    intro l
    simp [hasReset]
  have hw : ∀ l : List (String × V),
      writes key true (l.map fun kv => (Op.append kv.1 kv.2 none : Op V)) =
        (l.filter fun kv => kv.1 = key).map fun kv => (kv.2, none) := by
    intro l
    induction l with
    | nil => rfl
    | cons kv l ih =>
      rw [List.map_cons, writes_append, hr l, ih]
      by_cases hk : kv.1 = key <;> simp [hk]
  have hf : ∀ (l : List V) (acc : List (Option V)),
      (l.map fun v => ((v, none) : V × Option Nat)).foldl put acc = acc ++ l.map some := by
    intro l
    induction l with
    | nil => simp
    | cons v l ih => intro acc; simp [put, ih]
  rw [C32_history true _ hn key, hw]
  have hne : (kvs.filter fun kv => kv.1 = key) ≠ [] := by
    obtain ⟨kv, h1, h2⟩ := List.mem_map.1 h
    intro he
    have : kv ∈ kvs.filter fun kv => kv.1 = key := List.mem_filter.2 ⟨h1, by simp [h2]⟩
    rw [he] at this
    simp at this
  rw [if_neg (by simpa using hne)]
  have := hf ((kvs.filter fun kv => kv.1 = key).map Prod.snd) []
  rw [List.map_map, List.nil_append, List.map_map] at this
  exact congrArg Except.ok this

/-- C32: an inactive storage never stores anything, and `append` returns its value. -/
theorem C32_off (s : Storage V) (h : s.save = false) (key : String) (v : V) (i : Option Int) :
    s.append key v i = (s, .ok v) :=
  append_off s key v i h

/-- C32: `append` returns its value, active or not, unless the index is negative. -/
theorem C32_returns (s : Storage V) (key : String) (v : V) (i : Option Int)
    (hi : ∀ j, i = some j → 0 ≤ j) : (s.append key v i).2 = .ok v := by
  cases h : s.save with
  | true => exact (append_on s key v i h hi).1
  | false => rw [append_off s key v i h]

/-- C32: a negative index counts from the end, and is an `IndexError` beyond the beginning; other
keys are not touched. -/
theorem C32_negative (s : Storage V) (hs : s.save = true) (key : String) (v : V) (l : List (Option V))
    (hl : s.getitem key = .ok l) (n : Nat) (hn : 0 < n) :
    (n ≤ l.length → (s.append key v (some (-(n : Int)))).2 = .ok v ∧
      (s.append key v (some (-(n : Int)))).1.getitem key = .ok (l.set (l.length - n) (some v))) ∧
    (l.length < n → (s.append key v (some (-(n : Int)))).2 = .error .indexError ∧
      (s.append key v (some (-(n : Int)))).1.getitem key = .ok l) ∧
    ∀ k, k ≠ key → (s.append key v (some (-(n : Int)))).1.getitem k = s.getitem k := by
  have hg : (s.cache.getD []).get? key = some l := by
    unfold Storage.getitem at hl
    split at hl
    · rename_i l' h'; rw [h']; simpa using hl
    · simp at hl
  have hh : (s.cache.getD []).has key = true := (Dict.has_iff _ _).2 ⟨l, hg⟩
  have h0 : ¬ (l.length : Int) ≤ -(n : Int) := by omega
  have hneg : (-(n : Int)) < 0 := by omega
  have e : s.append key v (some (-(n : Int))) =
      if n ≤ l.length then
        ({ s with cache := some ((s.cache.getD []).set key (l.set (l.length - n) (some v))) }, .ok v)
      else ({ s with cache := some ((s.cache.getD []).set key l) }, .error .indexError) := by
    unfold Storage.append
    simp only [hs, if_true, hh, hg, Option.getD_some, if_neg h0]
    unfold listAssign
    simp only [if_pos hneg]
    by_cases hc : n ≤ l.length
    · rw [if_pos hc, if_neg (by omega)]
      have : (-(n : Int) + l.length).toNat = l.length - n := by omega
      rw [this]
    · rw [if_neg hc, if_pos (by omega)]
  refine ⟨?_, ?_, ?_⟩
  · intro hc
    rw [e, if_pos hc]
    simp [Storage.getitem, Dict.get?_set_self]
  · intro hc
    rw [e, if_neg (by omega)]
    simp [Storage.getitem, Dict.get?_set_self]
  · intro k hk
    rw [e]
    split <;> simp [Storage.getitem, Dict.get?_set_ne _ _ _ _ hk]

/-- C32: reset empties the storage and keeps the switch. -/
theorem C32_reset (s : Storage V) (key : String) :
    s.reset.getitem key = .error .keyError ∧ s.reset.getState = [] ∧ s.reset.save = s.save :=
  ⟨rfl, rfl, rfl⟩

/-- Writes with a hole, a reset and a switched-off period. -/
example : (((Storage.init true).run [.append "a" 9 none, .reset, .append "a" 1 (some 2),
      .append "b" 5 none, .setSave false, .append "a" 7 none, .setSave true,
      .append "a" 3 none, .append "a" 4 (some 0)]).getitem "a").toOption =
    some [some 4, none, some 1, some 3] := by decide

example : NonnegIndices ([.append "a" 1 (some 2), .append "a" 3 none] : List (Op Nat)) := by
  intro o ho
  fin_cases ho <;> simp

/-! ## C33 -/

/-- C33: in any program, after an assignment of `v` to the default property `p` of the object `o`,
and until the next assignment to that property of that object, reads give `v` or, if the defaulter
of the property rejects `v`, a new object: one that did not exist before and is stored nowhere
else. -/
theorem C33_set_get (acts₁ acts₂ : List Act) (p o : Nat) (v : Val) (n : String) (f : Fdef)
    (hv : ValidActs World.empty acts₁)
    (hp : (World.empty.run acts₁).props[p]? = some (n, f))
    (hno : NoAssign ((World.empty.run acts₁).step (.set p o v)) p o acts₂) :
    (f o v = false →
      (((World.empty.run acts₁).step (.set p o v)).run acts₂).get p o = .ok v) ∧
    (f o v = true → ∃ id,
      (((World.empty.run acts₁).step (.set p o v)).run acts₂).get p o = .ok (.ref id) ∧
      ¬ (Val.ref id).Exists (World.empty.run acts₁) ∧
      (Val.ref id).Exists ((World.empty.run acts₁).step (.set p o v)) ∧
      ∀ o' n', (World.empty.run acts₁).attrs o' n' ≠ some (.ref id)) := by
  set s := World.empty.run acts₁ with hs
  have hinv : WInv s := winv_run acts₁ _ (by intro o n id h; simp [World.empty] at h) hv
  have hlt : p < s.props.length := by
    by_contra h
    rw [List.getElem?_eq_none (by omega)] at hp
    simp at hp
  have h1 := step_name s (.set p o v) p hlt
  have h2 := run_attr p o n acts₂ (s.step (.set p o v)) h1.2 (by rw [h1.1, hp]; rfl) hno
  have hget : ∀ w, (s.step (.set p o v)).attrs o n = some w →
      ((s.step (.set p o v)).run acts₂).get p o = .ok w := by
    intro w hw
    obtain ⟨g1, g2⟩ := h2
    simp only [Option.map_eq_some_iff] at g1
    obtain ⟨⟨n', f'⟩, g3, rfl⟩ := g1
    unfold World.get
    rw [g3]
    simp only
    rw [g2, hw]
  constructor
  · intro hf
    apply hget
    simp [World.step, World.set, hp, hf, setattr]
  · intro hf
    refine ⟨s.next, ?_, ?_, ?_, ?_⟩
    · apply hget
      simp [World.step, World.set, hp, hf, setattr]
    · simp [Val.Exists]
    · simp [World.step, World.set, hp, hf, Val.Exists]
    · intro o' n' h
      exact absurd (hinv o' n' _ h) (lt_irrefl _)

/-- C33: the default of the package rejects exactly `None`. -/
theorem C33_default_defaulter (o : Nat) (v : Val) :
    (chooseFdef none o v = true ↔ v = .none) ∧ chooseFdef (some none) o v = false := by
  simp [chooseFdef, defaultFdef, constantFdef]

/-- C33: a property that was never assigned on an object raises `AttributeError`. -/
theorem C33_unset (acts : List Act) (p o : Nat) (n : String) (f : Fdef)
    (hp : (World.empty.run acts).props[p]? = some (n, f))
    (hno : ∀ pre a post, acts = pre ++ a :: post → ∀ q v g, a = .set q o v →
        (World.empty.run pre).props[q]? ≠ some (n, g)) :
    (World.empty.run acts).get p o = .error .attributeError := by
  unfold World.get
  rw [hp]
  simp only
  rw [run_absent o n acts World.empty rfl hno]

/-- C33: names that could collide are rejected, and nothing is defined; all other names are
accepted, and the new property stores under its own name. -/
theorem C33_names (s : World) (name fnName : Option String) (fdef : Option (Option Fdef)) :
    ((name.or fnName = none ∨ name.or fnName = some "<lambda>" ∨ name.or fnName = some "_") →
      s.define name fnName fdef = (s, .error .valueError)) ∧
    (∀ m, name.or fnName = some m → m ≠ "<lambda>" → m ≠ "_" →
      (s.define name fnName fdef).2 = .ok s.props.length ∧
      (s.define name fnName fdef).1.props[s.props.length]? =
        some ("_default_property_" ++ m, chooseFdef fdef)) := by
  constructor
  · rintro (h | h | h) <;> simp [World.define, h, forbidden]
  · intro m h h1 h2
    simp [World.define, h, forbidden, h1, h2]

/-- C33: distinct names give distinct places, so that properties with distinct names never meet
(`Assigns` in `C33_set_get` is about the place). -/
theorem C33_distinct (m m' : String) (h : m ≠ m') :
    "_default_property_" ++ m ≠ "_default_property_" ++ m' := by
  intro e
  apply h
  have := congrArg String.toList e
  simp only [String.toList_append, List.append_cancel_left_eq] at this
  exact String.toList_inj.1 this

/-- Two objects whose property is set to `None` get different objects, an explicit value is kept,
and reads are stable. -/
example :
    let acts : List Act := [.new, .new, .define none (some "member") none, .set 0 0 .none,
      .set 0 1 .none]
    ((World.empty.run acts).get 0 0).toOption = some (.ref 2) ∧
    ((World.empty.run acts).get 0 1).toOption = some (.ref 3) ∧
    ((World.empty.run (acts ++ [.set 0 1 (.ref 0)])).get 0 1).toOption = some (.ref 0) ∧
    ((World.empty.run (acts ++ [.set 0 1 (.ref 0)])).get 0 0).toOption = some (.ref 2) ∧
    ValidActs World.empty acts := by
  refine ⟨by decide, by decide, by decide, by decide, ?_⟩
  simp [ValidActs, Val.Exists]

end Verif.Learn
