import Verif.Learn.Spec
import Mathlib.Tactic

set_option autoImplicit false
set_option linter.unusedSimpArgs false
universe u

namespace Verif.Learn

variable {V : Type u}

/-- What a key's list is (empty if absent). -/
def Storage.listOf (s : Storage V) (key : String) : List (Option V) :=
  ((s.cache.getD []).get? key).getD []

theorem append_save (s : Storage V) (k : String) (v : V) (i : Option Int) :
    (s.append k v i).1.save = s.save := by
  unfold Storage.append
  split
  · split
    · rfl
    · dsimp only
      split <;> rfl
  · rfl

theorem listAssign_put (l : List (Option V)) (i : Int) (v : V) (hi : 0 ≤ i) :
    listAssign (if (l.length : Int) ≤ i then
        l ++ List.replicate (i + 1 - l.length).toNat none else l) i v =
      .ok (put l (v, some i.toNat)) := by
  obtain ⟨n, rfl⟩ := Int.eq_ofNat_of_zero_le hi
  have h3 : ¬ ((n : Int) < 0) := by omega
  unfold listAssign put
  simp only [Int.toNat_natCast, if_neg h3]
  by_cases h : n < l.length
  · have h1 : ¬ (l.length : Int) ≤ (n : Int) := by omega
    rw [if_neg h1, if_neg (by omega), if_pos h]
  · have h1 : (l.length : Int) ≤ (n : Int) := by omega
    have e : ((n : Int) + 1 - l.length).toNat = (n - l.length) + 1 := by omega
    have hl : ((l ++ List.replicate (n - l.length + 1) (none : Option V)).length : Int) = n + 1 := by
      simp; omega
    rw [if_pos h1, e, if_neg (by omega), if_neg h, List.replicate_succ', ← List.append_assoc,
      List.set_append_right _ _ (by simp; omega)]
    congr 2
    have : n - (l ++ List.replicate (n - l.length) (none : Option V)).length = 0 := by
      simp; omega
    rw [this]
    rfl

/-- The list of the key after a successful kind of append. -/
theorem append_on (s : Storage V) (k : String) (v : V) (i : Option Int) (hs : s.save = true)
    (hi : ∀ j, i = some j → 0 ≤ j) :
    (s.append k v i).2 = .ok v ∧
    (s.append k v i).1.cache.isSome = true ∧
    (∀ key, (((s.append k v i).1.cache.getD []).get? key) =
      if key = k then some (put (s.listOf k) (v, i.map Int.toNat))
      else (s.cache.getD []).get? key) := by
  have hl : ((if (s.cache.getD []).has k then s.cache.getD [] else
      (s.cache.getD []).set k []).get? k).getD [] = s.listOf k := by
    unfold Storage.listOf
    split
    · rfl
    · rename_i h
      rw [Dict.get?_set_self]
      have : (s.cache.getD []).get? k = none := by
        cases h2 : (s.cache.getD []).get? k with
        | none => rfl
        | some v => exact absurd ((Dict.has_iff _ _).2 ⟨v, h2⟩) h
      simp [this]
  have hd : ∀ key, key ≠ k → (if (s.cache.getD []).has k then s.cache.getD [] else
      (s.cache.getD []).set k []).get? key = (s.cache.getD []).get? key := by
    intro key hk
    split
    · rfl
    · exact Dict.get?_set_ne _ _ _ _ hk
  unfold Storage.append
  rw [if_pos hs]
  cases i with
  | none =>
    simp only [hl, Option.isSome_some, Option.getD_some, Option.map_none, true_and]
    intro key
    rw [Dict.get?_set]
    split
    · rfl
    · rename_i h; exact hd key h
  | some j =>
    simp only [hl]
    rw [listAssign_put _ _ _ (hi j rfl)]
    simp only [Option.isSome_some, Option.getD_some, true_and, Option.map_some]
    intro key
    rw [Dict.get?_set]
    split
    · rfl
    · rename_i h; exact hd key h

theorem append_off (s : Storage V) (k : String) (v : V) (i : Option Int) (hs : s.save = false) :
    s.append k v i = (s, .ok v) := by
  unfold Storage.append
  simp [hs]

theorem run_save (ops : List (Op V)) : ∀ s : Storage V, (∀ o ∈ ops, ∀ b, o ≠ .setSave b) →
    (s.run ops).save = s.save := by
  induction ops with
  | nil => intro s _; rfl
  | cons o ops ih =>
    intro s h
    have hrun : s.run (o :: ops) = (s.step o).run ops := rfl
    rw [hrun, ih _ (fun o ho => h o (List.mem_cons_of_mem _ ho))]
    cases o with
    | append k v i => exact append_save s k v i
    | reset => rfl
    | setSave b => exact absurd rfl (h _ List.mem_cons_self b)

/-- There is a reset in the history. -/
def hasReset (ops : List (Op V)) : Bool :=
  ops.any (fun o => match o with | .reset => true | _ => false)

theorem writes_append (key k : String) (on : Bool) (v : V) (i : Option Int) (ops : List (Op V)) :
    writes key on (.append k v i :: ops) =
      if hasReset ops then writes key on ops
      else if on ∧ k = key then (v, i.map Int.toNat) :: writes key on ops
      else writes key on ops := rfl

/-- Entry of a key after a history, from any state. -/
theorem run_get (key : String) (ops : List (Op V)) (hn : NonnegIndices ops) :
    ∀ s : Storage V, ((s.run ops).cache.getD []).get? key =
      let start := if hasReset ops then none else (s.cache.getD []).get? key
      if writes key s.save ops = [] then start
      else some ((writes key s.save ops).foldl put (start.getD [])) := by
  induction ops with
  | nil => intro s; simp [Storage.run, writes, hasReset]
  | cons o ops ih =>
    intro s
    have hn' : NonnegIndices ops := fun o ho => hn o (List.mem_cons_of_mem _ ho)
    have hrun : s.run (o :: ops) = (s.step o).run ops := rfl
    rw [hrun, ih hn']
    cases o with
    | append k v i =>
      have hr : hasReset (Op.append k v i :: ops) = hasReset ops := by simp [hasReset]
      have hs : (s.step (.append k v i)).save = s.save := append_save s k v i
      rw [hr, hs, writes_append]
      by_cases h : hasReset ops
      · simp [h]
      · simp only [h, Bool.false_eq_true, if_false]
        by_cases hsv : s.save = true
        · have hi : ∀ j, i = some j → 0 ≤ j := by
            rintro j rfl
            exact hn _ List.mem_cons_self
          obtain ⟨_, _, h3⟩ := append_on s k v i hsv hi
          have h3' := h3 key
          simp only [Storage.step]
          rw [h3']
          by_cases hk : k = key
          · subst hk
            simp only [if_true, hsv, and_self, Storage.listOf, Option.getD_some, reduceCtorEq, if_false,
              List.foldl_cons]
            split
            · rename_i e; rw [e]; rfl
            · rfl
          · have hk' : key ≠ k := fun e => hk e.symm
            simp [hsv, hk, hk']
        · have hsv' : s.save = false := by simpa using hsv
          simp [hsv', Storage.step, append_off s k v i hsv']
    | reset =>
      have hr : hasReset (Op.reset :: ops : List (Op V)) = true := by simp [hasReset]
      have hw : writes key s.save (.reset :: ops) = writes key s.save ops := rfl
      rw [hr, hw]
      simp only [Storage.step, Storage.reset, Option.getD_none, if_true]
      simp only [Dict.get?, ite_self]
      rfl
    | setSave b =>
      have hr : hasReset (Op.setSave b :: ops) = hasReset ops := by simp [hasReset]
      have hw : writes key s.save (.setSave b :: ops) = writes key b ops := rfl
      rw [hr, hw]
      rfl

/-! ## default properties -/

theorem step_name (s : World) (a : Act) (p : Nat) (hp : p < s.props.length) :
    (((s.step a).props[p]?).map Prod.fst) = (s.props[p]?).map Prod.fst ∧
      p < (s.step a).props.length := by
  cases a with
  | new => exact ⟨rfl, hp⟩
  | define n fn f =>
    simp only [World.step, World.define]
    split
    · exact ⟨rfl, hp⟩
    · simp only [List.length_append]
      rw [List.getElem?_append_left hp]
      exact ⟨rfl, by omega⟩
  | defaulter q f =>
    simp only [World.step, World.defaulter]
    split
    · exact ⟨rfl, hp⟩
    · rename_i n g h
      simp only [List.length_set]
      refine ⟨?_, hp⟩
      rw [List.getElem?_set]
      split
      · rename_i e
        subst e
        rw [h]
        simp [hp]
      · rfl
  | get => exact ⟨rfl, hp⟩
  | set q o v =>
    simp only [World.step, World.set]
    split
    · exact ⟨rfl, hp⟩
    · split <;> exact ⟨rfl, hp⟩

theorem step_attr (s : World) (a : Act) (o : Nat) (n : String)
    (h : ∀ q v f, a = .set q o v → s.props[q]? ≠ some (n, f)) :
    (s.step a).attrs o n = s.attrs o n := by
  cases a with
  | new => rfl
  | define m fn f =>
    simp only [World.step, World.define]
    split <;> rfl
  | defaulter q f =>
    simp only [World.step, World.defaulter]
    split <;> rfl
  | get => rfl
  | set q o' v =>
    simp only [World.step, World.set]
    split
    · rfl
    · rename_i m f hq
      have hne : ¬ (o = o' ∧ n = m) := by
        rintro ⟨rfl, rfl⟩
        exact h q v f rfl hq
      split <;> simp [setattr, hne]

theorem step_next (s : World) (a : Act) : s.next ≤ (s.step a).next := by
  cases a with
  | new => simp [World.step]
  | define m fn f => simp only [World.step, World.define]; split <;> simp
  | defaulter q f => simp only [World.step, World.defaulter]; split <;> simp
  | get => simp [World.step]
  | set q o' v => simp only [World.step, World.set]; split <;> [simp; (split <;> simp)]

/-- Attributes survive actions that do not assign them. -/
theorem run_attr (p o : Nat) (n : String) (acts : List Act) :
    ∀ s : World, p < s.props.length → (s.props[p]?).map Prod.fst = some n → NoAssign s p o acts →
      ((s.run acts).props[p]?).map Prod.fst = some n ∧ (s.run acts).attrs o n = s.attrs o n := by
  induction acts with
  | nil => intro s _ h _; exact ⟨h, rfl⟩
  | cons a as ih =>
    intro s hp h hno
    obtain ⟨h1, h2⟩ := hno
    obtain ⟨g1, g2⟩ := step_name s a p hp
    obtain ⟨i1, i2⟩ := ih (s.step a) g2 (by rw [g1, h]) h2
    have hrun : s.run (a :: as) = (s.step a).run as := rfl
    rw [hrun]
    refine ⟨i1, ?_⟩
    rw [i2]
    apply step_attr
    intro q v f hq hc
    exact h1 ⟨q, v, hq, by rw [hc, h]; rfl⟩

/-- All stored references are to existing objects. -/
def WInv (s : World) : Prop := ∀ o n id, s.attrs o n = some (.ref id) → id < s.next

theorem winv_step (s : World) (a : Act) (hi : WInv s)
    (hv : match a with | .set _ _ v => v.Exists s | _ => True) : WInv (s.step a) := by
  intro o n id h
  cases a with
  | new => exact Nat.lt_succ_of_lt (hi o n id h)
  | define m fn f =>
    have hb := step_next s (.define m fn f)
    rw [step_attr s (.define m fn f) o n (by simp)] at h
    exact lt_of_lt_of_le (hi o n id h) hb
  | defaulter q f =>
    have hb := step_next s (.defaulter q f)
    rw [step_attr s (.defaulter q f) o n (by simp)] at h
    exact lt_of_lt_of_le (hi o n id h) hb
  | get => exact hi o n id h
  | set q o' v =>
    simp only [World.step, World.set] at h ⊢
    split at h
    · exact hi o n id h
    · split at h
      · simp only [setattr] at h
        rename_i hf
        simp only [hf, if_true]
        split at h
        · simp at h; omega
        · exact Nat.lt_succ_of_lt (hi o n id h)
      · rename_i hf
        simp only [hf, Bool.false_eq_true, if_false]
        simp only [setattr] at h
        split at h
        · simp at h; subst h; exact hv
        · exact hi o n id h

theorem winv_run (acts : List Act) : ∀ s : World, WInv s → ValidActs s acts →
    WInv (s.run acts) := by
  induction acts with
  | nil => intro s h _; exact h
  | cons a as ih =>
    intro s h hv
    exact ih (s.step a) (winv_step s a h hv.1) hv.2

/-- In an execution without any assignment to a name, the attribute is absent. -/
theorem run_absent (o : Nat) (n : String) (acts : List Act) :
    ∀ s : World, s.attrs o n = none →
      (∀ pre a post, acts = pre ++ a :: post → ∀ q v f, a = .set q o v →
        (s.run pre).props[q]? ≠ some (n, f)) →
      (s.run acts).attrs o n = none := by
  induction acts with
  | nil => intro s h _; exact h
  | cons a as ih =>
    intro s h hno
    have hrun : s.run (a :: as) = (s.step a).run as := rfl
    rw [hrun]
    apply ih
    · rw [step_attr s a o n (fun q v f hq => hno [] a as rfl q v f hq), h]
    · intro pre b post e q v f hb
      exact hno (a :: pre) b post (by rw [e]; rfl) q v f hb

end Verif.Learn
