import Verif.Utils.AttrModel
import Mathlib.Data.List.Basic
import Mathlib.Tactic.Common

/-!
# C110: attributes of filterbanks and beats
-/

set_option autoImplicit false
set_option linter.unusedSectionVars false
set_option linter.unusedSimpArgs false

namespace Verif.Attr

variable {F V N X : Type}

theorem gather_spec (get : F → String → Option V) (key : String) (l : List F) (vs : List V) :
    gather get key l = some vs ↔ l.map (fun f => get f key) = vs.map some := by
  induction l generalizing vs with
  | nil => cases vs <;> simp [gather]
  | cons f l ih =>
    unfold gather
    cases hf : get f key with
    | none => cases vs <;> simp [hf]
    | some v =>
      cases hg : gather get key l with
      | none =>
        simp only [reduceCtorEq, List.map_cons, hf, false_iff]
        intro h
        cases vs with
        | nil => simp at h
        | cons w ws =>
          simp only [List.map_cons, List.cons.injEq] at h
          have := (ih ws).2 h.2
          rw [hg] at this
          simp at this
      | some ws =>
        have h1 := (ih ws).1 hg
        cases vs with
        | nil => simp
        | cons w vs =>
          simp only [Option.some.injEq, List.cons.injEq, List.map_cons, hf]
          constructor
          · rintro ⟨rfl, rfl⟩; exact ⟨rfl, h1⟩
          · rintro ⟨rfl, h⟩
            refine ⟨rfl, ?_⟩
            have := (ih vs).2 h
            rw [hg, Option.some.injEq] at this
            exact this

/-- **C110.** An attribute of a filterbank that neither it nor its class has is the tuple of that attribute of each
filter, in order; if a filter does not have it, it is an `AttributeError`.  The lookup ends. -/
theorem C110_bank (get : F → String → Option V) (own : String → Option V) (fs : List F) (key : String)
    (hk : key ≠ "_filters") (ho : own key = none) (ho' : own "_filters" = none) (fuel : Nat) (hf : 2 ≤ fuel) :
    ((∀ f ∈ fs, (get f key).isSome) →
      ∃ vs, bankGet get ⟨some fs, own⟩ fuel key = some (.ok (.tuple vs)) ∧ fs.map (fun f => get f key) = vs.map some) ∧
    ((∃ f ∈ fs, get f key = none) → bankGet get ⟨some fs, own⟩ fuel key = some (.error .attributeError)) := by
  obtain ⟨n, rfl⟩ : ∃ n, fuel = n + 2 := ⟨fuel - 2, by omega⟩
  have h1 : bankGet get ⟨some fs, own⟩ (n + 1) "_filters" = some (.ok (.filters fs)) := by
    simp [bankGet]
  have h2 : bankGet get ⟨some fs, own⟩ (n + 2) key =
      match gather get key fs with
      | some vs => some (.ok (.tuple vs))
      | none => some (.error .attributeError) := by
    rw [bankGet]
    simp only [hk, if_false, ho, h1]
    cases gather get key fs <;> rfl
  refine ⟨?_, ?_⟩
  · intro h
    have : ∃ vs : List V, fs.map (fun f => get f key) = vs.map some := by
      clear h2 h1
      induction fs with
      | nil => exact ⟨[], rfl⟩
      | cons f fs ih =>
        obtain ⟨vs, hvs⟩ := ih fun f hf => h f (List.mem_cons_of_mem _ hf)
        obtain ⟨v, hv⟩ := Option.isSome_iff_exists.1 (h f (by simp))
        exact ⟨v :: vs, by simp [hvs, hv]⟩
    obtain ⟨vs, hvs⟩ := this
    refine ⟨vs, ?_, hvs⟩
    rw [h2, (gather_spec get key fs vs).2 hvs]
  · rintro ⟨f, hf, hn⟩
    rw [h2]
    cases hg : gather get key fs with
    | none => rfl
    | some vs =>
      have := (gather_spec get key fs vs).1 hg
      have hm : get f key ∈ fs.map fun f => get f key := List.mem_map_of_mem (f := fun f => get f key) hf
      rw [this, hn] at hm
      simp at hm

/-- **C110.** The filters themselves: from either end; `IndexError` beyond. -/
theorem C110_items (own : String → Option V) (fs : List F) (i : Int) :
    (∀ k : Nat, i = k → ∀ f, bankItem (V := V) ⟨some fs, own⟩ i = .ok f ↔ fs[k]? = some f) ∧
    (∀ k : Nat, i = -(k + 1) → ∀ f, bankItem (V := V) ⟨some fs, own⟩ i = .ok f ↔ fs.reverse[k]? = some f) := by
  constructor
  · rintro k rfl f
    simp only [bankItem, Int.natCast_nonneg, if_true, Int.toNat_natCast, getE]
    cases fs[k]? <;> simp
  · rintro k rfl f
    have hneg : ¬ (0 : Int) ≤ -(k + 1) := by omega
    simp only [bankItem, hneg, if_false]
    by_cases hk : k < fs.length
    · have h1 : -(fs.length : Int) ≤ -(k + 1) := by omega
      simp only [h1, if_true]
      have h2 : (-((k : Int) + 1) + fs.length).toNat = fs.length - 1 - k := by omega
      rw [h2, List.getElem?_reverse hk]
      simp only [getE]
      cases fs[fs.length - 1 - k]? <;> simp
    · have h1 : ¬ -(fs.length : Int) ≤ -(k + 1) := by omega
      simp only [h1, if_false]
      rw [List.getElem?_eq_none (by simp; omega)]
      simp

/-- **C110.** Before `__init__` has stored the filters, or the graph of a beat, every lookup of a missing attribute is
an endless recursion. -/
theorem C110_endless (get : F → String → Option V) (own : String → Option V) (key : String) (ho : own key = none) (fuel : Nat) :
    (own "_filters" = none → bankGet get ⟨none, own⟩ fuel key = none) ∧
    (own "_graph" = none → beatGet (N := N) ⟨none, own⟩ fuel key = none) := by
  constructor
  · intro ho'
    induction fuel generalizing key with
    | zero => rfl
    | succ n ih =>
      rw [bankGet]
      simp only [ite_self, ho, ih "_filters" ho']
  · intro ho'
    induction fuel generalizing key with
    | zero => rfl
    | succ n ih =>
      rw [beatGet]
      simp only [ite_self, ho, ih "_graph" ho']

/-- **C110.** The methods of a beat: for each of its varNames, and for no other name that it does not have
itself, there is a function that computes it; other names raise `AttributeError`. -/
theorem C110_beat (own : String → Option V) (g : List (String × N)) (key : String) (hk : key ≠ "_graph")
    (ho : own key = none) (ho' : own "_graph" = none) (fuel : Nat) (hf : 2 ≤ fuel) :
    (key ∈ varNames g → beatGet ⟨some g, own⟩ fuel key = some (.ok (.compute key))) ∧
    (key ∉ varNames g → beatGet ⟨some g, own⟩ fuel key = some (.error .attributeError)) := by
  obtain ⟨n, rfl⟩ : ∃ n, fuel = n + 2 := ⟨fuel - 2, by omega⟩
  have h1 : beatGet (V := V) ⟨some g, own⟩ (n + 1) "_graph" = some (.ok (.graph g)) := by simp [beatGet]
  have h2 : beatGet ⟨some g, own⟩ (n + 2) key =
      if (g.any fun e => e.1 == key) then some (.ok (.compute key)) else some (.error .attributeError) := by
    rw [beatGet]
    simp only [hk, if_false, ho, h1]
  have h3 : (g.any fun e => e.1 == key) = true ↔ key ∈ varNames g := by
    simp [varNames, List.any_eq_true]
  rw [h2]
  exact ⟨fun h => by rw [if_pos (h3.2 h)], fun h => by rw [if_neg (fun hc => h (h3.1 hc))]⟩

theorem nodes_spec (g : List (String × N)) (ks : List String) (l : List N) :
    nodes g ks = .ok l ↔ ks.map (fun k => g.lookup k) = l.map some := by
  induction ks generalizing l with
  | nil => cases l <;> simp [nodes]
  | cons k ks ih =>
    unfold nodes
    cases hk : g.lookup k with
    | none => cases l <;> simp [hk]
    | some n =>
      cases hg : nodes g ks with
      | error e =>
        simp only [reduceCtorEq, List.map_cons, hk, false_iff]
        intro h
        cases l with
        | nil => simp at h
        | cons w ws =>
          simp only [List.map_cons, List.cons.injEq] at h
          have := (ih ws).2 h.2
          rw [hg] at this
          simp at this
      | ok ws =>
        have h1 := (ih ws).1 hg
        cases l with
        | nil => simp
        | cons w l =>
          simp only [Except.ok.injEq, List.cons.injEq, List.map_cons, hk, Option.some.injEq]
          constructor
          · rintro ⟨rfl, rfl⟩; exact ⟨rfl, h1⟩
          · rintro ⟨rfl, h⟩
            have := (ih l).2 h
            rw [hg, Except.ok.injEq] at this
            exact ⟨rfl, this⟩

theorem nodes_error (g : List (String × N)) (ks : List String) (e : PyErr) (h : nodes g ks = .error e) :
    e = .keyError ∧ ∃ k ∈ ks, g.lookup k = none := by
  induction ks with
  | nil => simp [nodes] at h
  | cons k ks ih =>
    unfold nodes at h
    cases hk : g.lookup k with
    | none =>
      rw [hk] at h
      simp only [Except.error.injEq] at h
      exact ⟨h.symm, k, by simp, hk⟩
    | some n =>
      rw [hk] at h
      cases hg : nodes g ks with
      | error e' =>
        rw [hg] at h
        simp only [Except.error.injEq] at h
        subst h
        obtain ⟨h1, k', h2, h3⟩ := ih hg
        exact ⟨h1, k', List.mem_cons_of_mem _ h2, h3⟩
      | ok l => rw [hg] at h; simp at h

theorem lookup_none (g : List (String × N)) (k : String) : g.lookup k = none ↔ k ∉ varNames g := by
  induction g with
  | nil => simp [varNames]
  | cons e g ih =>
    obtain ⟨a, n⟩ := e
    rw [List.lookup_cons]
    by_cases h : k = a
    · subst h; simp [varNames]
    · have hb : (k == a) = false := by simpa using h
      rw [hb]
      simp only [ih, varNames, List.map_cons, List.mem_cons, h, false_or]

/-- **C110.** Computing several varNames at once gives the values that computing each of them gives, in the order
asked for, repeated ones included; if one of the names is no variable it is a `KeyError`, and nothing else can
fail. -/
theorem C110_compute (g : List (String × N)) (value : N → X) (ks : List String) :
    ((∀ k ∈ ks, k ∈ varNames g) → ∃ l, computeList g value ks = .ok l ∧ l.length = ks.length ∧
      ∀ (i : Nat) (k : String), ks[i]? = some k → ∃ x, computeOne g value k = .ok x ∧ l[i]? = some x) ∧
    ((∃ k ∈ ks, k ∉ varNames g) → computeList g value ks = .error .keyError) ∧
    (∀ k n, g.lookup k = some n → computeOne g value k = .ok (value n)) ∧
    (∀ k, k ∉ varNames g → computeOne g value k = .error .keyError) := by
  have one : ∀ k n, g.lookup k = some n → computeOne g value k = .ok (value n) := by
    intro k n h
    simp [computeOne, computeList, nodes, h, getE]
  refine ⟨?_, ?_, one, ?_⟩
  · intro h
    cases hn : nodes g ks with
    | error e =>
      obtain ⟨-, k, hk, hl⟩ := nodes_error g ks e hn
      exact absurd (h k hk) ((lookup_none g k).1 hl)
    | ok ns =>
      have hs := (nodes_spec g ks ns).1 hn
      have hlen : ks.length = ns.length := by simpa using congrArg List.length hs
      refine ⟨ns.map value, by simp [computeList, hn], by simp [hlen], ?_⟩
      intro i k hi
      have h1 : (ks.map fun k => g.lookup k)[i]? = some (g.lookup k) := by simp [hi]
      rw [hs, List.getElem?_map] at h1
      cases hni : ns[i]? with
      | none => rw [hni] at h1; simp at h1
      | some n =>
        rw [hni] at h1
        simp only [Option.map_some, Option.some.injEq] at h1
        exact ⟨value n, one k n h1.symm, by simp [hni]⟩
  · rintro ⟨k, hk, hkn⟩
    cases hn : nodes g ks with
    | error e =>
      obtain ⟨rfl, -⟩ := nodes_error g ks e hn
      simp [computeList, hn]
    | ok ns =>
      have hs := (nodes_spec g ks ns).1 hn
      have hm : g.lookup k ∈ ks.map fun k => g.lookup k := List.mem_map_of_mem (f := fun k => g.lookup k) hk
      rw [hs, (lookup_none g k).2 hkn] at hm
      simp at hm
  · intro k hk
    simp [computeOne, computeList, nodes, (lookup_none g k).2 hk]

/-! ## Cases -/

/-- A filterbank without filters has every attribute. -/
theorem empty_bank (get : F → String → Option V) (key : String) (hk : key ≠ "_filters") :
    bankGet get ⟨some [], fun _ => none⟩ 2 key = some (.ok (.tuple [])) := by
  simp [bankGet, hk, gather]

/-- Two filters with frequencies. -/
example : ∃ vs, bankGet (fun (f : Nat) k => if k = "f" then some (10 * f) else none) ⟨some [1, 2], fun _ => none⟩ 2 "f" =
    some (.ok (.tuple vs)) ∧ vs = [10, 20] := ⟨_, rfl, rfl⟩

/-- Two varNames. -/
example : (computeList [("t", 1), ("a0", 2)] (10 * ·) ["a0", "t", "a0"]).toOption = some [20, 10, 20] := by
  decide +kernel

end Verif.Attr
