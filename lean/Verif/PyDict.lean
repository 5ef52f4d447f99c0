/-!
# Python dictionaries with string keys

Insertion-ordered association lists.  `set` overwrites in place or appends, as `d[k] = v` does.
-/

set_option autoImplicit false
universe u

namespace Verif

/-- A `dict` with string keys, in insertion order. -/
abbrev Dict (V : Type u) := List (String × V)

namespace Dict

variable {V : Type u}

/-- `d.get(k)`. -/
def get? (d : Dict V) (k : String) : Option V :=
  match d with
  | [] => none
  | (k', v) :: d => if k' = k then some v else get? d k

/-- `k in d`. -/
def has (d : Dict V) (k : String) : Bool := (get? d k).isSome

/-- `d[k] = v`. -/
def set (d : Dict V) (k : String) (v : V) : Dict V :=
  match d with
  | [] => [(k, v)]
  | (k', v') :: d => if k' = k then (k', v) :: d else (k', v') :: set d k v

/-- `d.pop(k, None)` without the result (all entries, so that it is right for any list). -/
def erase (d : Dict V) (k : String) : Dict V := d.filter fun e => !decide (e.1 = k)

/-- `d.update(e)`: assign all entries of `e`, in order. -/
def update (d e : Dict V) : Dict V := e.foldl (fun d kv => d.set kv.1 kv.2) d

/-- The keys are distinct, as in every Python dictionary. -/
def Ok (d : Dict V) : Prop := (d.map Prod.fst).Nodup

theorem get?_set_self (d : Dict V) (k : String) (v : V) : (d.set k v).get? k = some v := by
  induction d with
  | nil => simp [set, get?]
  | cons e d ih =>
    obtain ⟨k', v'⟩ := e
    by_cases h : k' = k
    · simp [set, get?, h]
    · simp [set, get?, h, ih]

theorem get?_set_ne (d : Dict V) (k j : String) (v : V) (h : j ≠ k) :
    (d.set k v).get? j = d.get? j := by
  induction d with
  | nil => simp [set, get?, Ne.symm h]
  | cons e d ih =>
    obtain ⟨k', v'⟩ := e
    by_cases hk : k' = k
    · subst hk; simp [set, get?, Ne.symm h]
    · by_cases hj : k' = j
      · subst hj; simp [set, get?, h]
      · simp [set, get?, hk, hj, ih]

theorem get?_set (d : Dict V) (k j : String) (v : V) :
    (d.set k v).get? j = if j = k then some v else d.get? j := by
  by_cases h : j = k
  · subst h; simp [get?_set_self]
  · simp [h, get?_set_ne]

theorem get?_erase_self (d : Dict V) (k : String) : (d.erase k).get? k = none := by
  induction d with
  | nil => simp [erase, get?]
  | cons e d ih =>
    obtain ⟨k', v'⟩ := e
    by_cases h : k' = k
    · subst h; simpa [erase] using ih
    · simp only [erase] at ih ⊢
      simp [h, get?, ih]

theorem get?_erase_ne (d : Dict V) (k j : String) (h : j ≠ k) :
    (d.erase k).get? j = d.get? j := by
  induction d with
  | nil => simp [erase, get?]
  | cons e d ih =>
    obtain ⟨k', v'⟩ := e
    simp only [erase] at ih ⊢
    by_cases hk : k' = k
    · subst hk; simp [get?, ih, Ne.symm h]
    · by_cases hj : k' = j
      · subst hj; simp [get?, hk]
      · simp [get?, hk, hj, ih]

theorem get?_erase (d : Dict V) (k j : String) :
    (d.erase k).get? j = if j = k then none else d.get? j := by
  by_cases h : j = k
  · subst h; simp [get?_erase_self]
  · simp [h, get?_erase_ne]

theorem get?_append (d e : Dict V) (k : String) :
    (d ++ e : Dict V).get? k = (d.get? k).or (e.get? k) := by
  induction d with
  | nil => simp [get?]
  | cons x d ih =>
    obtain ⟨k', v'⟩ := x
    by_cases h : k' = k
    · simp [get?, h]
    · simp only [List.cons_append, get?, h, if_false, ih]

theorem get?_none_iff (d : Dict V) (k : String) :
    d.get? k = none ↔ k ∉ d.map Prod.fst := by
  induction d with
  | nil => simp [get?]
  | cons x d ih =>
    obtain ⟨k', v'⟩ := x
    by_cases h : k' = k
    · subst h; simp [get?]
    · simp [get?, h, ih, Ne.symm h]

theorem get?_some_mem (d : Dict V) (k : String) (v : V) (h : d.get? k = some v) : (k, v) ∈ d := by
  induction d with
  | nil => simp [get?] at h
  | cons x d ih =>
    obtain ⟨k', v'⟩ := x
    by_cases hk : k' = k
    · subst hk; simp [get?] at h; simp [h]
    · simp [get?, hk] at h; simp [ih h]

theorem get?_of_mem (d : Dict V) (k : String) (v : V) (ok : Ok d) (h : (k, v) ∈ d) :
    d.get? k = some v := by
  induction d with
  | nil => simp at h
  | cons x d ih =>
    obtain ⟨k', v'⟩ := x
    simp only [Ok, List.map_cons, List.nodup_cons] at ok
    rcases List.mem_cons.1 h with h | h
    · obtain ⟨rfl, rfl⟩ := Prod.mk.inj h; simp [get?]
    · have : k' ≠ k := by
        rintro rfl
        exact ok.1 (List.mem_map.2 ⟨_, h, rfl⟩)
      simp [get?, this, ih ok.2 h]

theorem keys_set (d : Dict V) (k : String) (v : V) :
    (d.set k v).map Prod.fst = if k ∈ d.map Prod.fst then d.map Prod.fst
      else d.map Prod.fst ++ [k] := by
  induction d with
  | nil => simp [set]
  | cons x d ih =>
    obtain ⟨k', v'⟩ := x
    by_cases h : k' = k
    · subst h; simp [set]
    · simp only [set, h, if_false, List.map_cons, ih, List.mem_cons, Ne.symm h, false_or]
      split <;> simp

theorem ok_set (d : Dict V) (k : String) (v : V) (h : Ok d) : Ok (d.set k v) := by
  unfold Ok at *
  rw [keys_set]
  split
  · exact h
  · rename_i hk
    rw [List.nodup_append]
    refine ⟨h, by simp, ?_⟩
    intro a ha b hb
    simp only [List.mem_singleton] at hb
    subst hb
    rintro rfl
    exact hk ha

theorem ok_erase (d : Dict V) (k : String) (h : Ok d) : Ok (d.erase k) := by
  unfold Ok erase at *
  exact h.sublist (List.Sublist.map _ List.filter_sublist)

theorem get?_update (d e : Dict V) (he : Ok e) (k : String) :
    (d.update e).get? k = (e.get? k).or (d.get? k) := by
  unfold update
  induction e generalizing d with
  | nil => simp [get?]
  | cons x e ih =>
    obtain ⟨k', v'⟩ := x
    simp only [Ok, List.map_cons, List.nodup_cons] at he
    simp only [List.foldl_cons]
    rw [ih _ he.2, get?_set]
    by_cases h : k' = k
    · subst h
      have := (get?_none_iff e k').2 he.1
      simp [get?, this]
    · simp [get?, h, Ne.symm h]

theorem ok_update (d e : Dict V) (h : Ok d) : Ok (d.update e) := by
  unfold update
  induction e generalizing d with
  | nil => simpa using h
  | cons x e ih => simpa using ih _ (ok_set d x.1 x.2 h)

theorem has_iff (d : Dict V) (k : String) : d.has k = true ↔ ∃ v, d.get? k = some v := by
  unfold has
  cases d.get? k <;> simp

end Dict
end Verif
