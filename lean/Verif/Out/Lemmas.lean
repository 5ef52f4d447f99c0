import Mathlib.Data.List.GetD
import Verif.Out.Spec

/-!
# Lemmas about functions with an `out` argument
-/

set_option autoImplicit false
set_option linter.unusedSectionVars false
set_option linter.unusedSimpArgs false

namespace Verif.Out

variable {C : Type}

/-- The calls of a body on variables that are all different arrays. -/
def sem : (Var → List C) → Prog C → Except PyErr (Var → List C)
  | e, [] => .ok e
  | e, s :: p =>
    match s.op (s.args.map e) with
    | .error x => .error x
    | .ok a => sem (fun v => if v = s.dst then a else e v) p

/-- The initial values of the variables; `x` for the others. -/
def init (xs : List (List C)) : Var → List C
  | .arg i => xs.getD i []
  | _ => []

/-- The result of a body on separate arrays. -/
def semOut (xs : List (List C)) (p : Prog C) : Except PyErr (List C) :=
  match sem (init xs) p with
  | .error e => .error e
  | .ok e => .ok (e .out)

/-- Bindings that keep the variables apart, except `out` and the arguments in `shared`. -/
structure Apart (shared : List Nat) (n : Nat) (b : Binding) : Prop where
  tmp_inj : ∀ i j, b (.tmp i) = b (.tmp j) → i = j
  tmp_out : ∀ i, b (.tmp i) ≠ b .out
  tmp_arg : ∀ i j, j < n → b (.tmp i) ≠ b (.arg j)
  out_arg : ∀ j, j < n → j ∉ shared → b .out ≠ b (.arg j)

/-- Whether all arguments read by a body are among the first `n`. -/
def arity (n : Nat) (p : Prog C) : Bool :=
  p.all fun s => s.args.all fun v => match v with
    | .arg i => decide (i < n)
    | _ => true

/-- Agreement of the memory with the values of the variables that may still be read. -/
def Agree (shared : List Nat) (n : Nat) (b : Binding) (w : List Var) (m : Mem C)
    (e : Var → List C) : Prop :=
  (∀ v ∈ w, m (b v) = e v) ∧
  ∀ i, i < n → (i ∉ shared ∨ Var.out ∉ w) → m (b (.arg i)) = e (.arg i)

theorem run_sem {shared : List Nat} {n : Nat} {b : Binding} (hb : Apart shared n b) :
    ∀ (p : Prog C) (w : List Var) (m : Mem C) (e : Var → List C),
      (∀ i, Var.arg i ∉ w) → ok shared w p = true → arity n p = true → Agree shared n b w m e →
      match sem e p with
      | .error x => run b m p = .error x
      | .ok e' => ∃ m', run b m p = .ok m' ∧
          (∀ v, (v ∈ w ∨ v ∈ p.map Stmt.dst) → m' (b v) = e' v) ∧
          (∀ r, (∀ v ∈ p.map Stmt.dst, b v ≠ r) → m' r = m r)
  | [], w, m, e, _, _, _, ha => by
    simp only [sem, run]
    exact ⟨m, rfl, fun v hv => ha.1 v (by simpa using hv), fun _ _ => rfl⟩
  | s :: p, w, m, e, hw, hok, har, ha => by
    simp only [ok, Bool.and_eq_true, List.all_eq_true] at hok
    obtain ⟨⟨hdst, hargs⟩, hok⟩ := hok
    simp only [arity, List.all_cons, Bool.and_eq_true] at har
    have hvals : (s.args.map fun v => m (b v)) = s.args.map e := by
      apply List.map_congr_left
      intro v hv
      have h1 := hargs v hv
      have h2 := List.all_eq_true.1 har.1 v hv
      cases v with
      | arg i =>
        simp at h1 h2
        exact ha.2 i h2 (by by_cases hi : i ∈ shared <;> simp [hi] at h1 ⊢; exact h1)
      | out => exact ha.1 _ (by simpa using h1)
      | tmp i => exact ha.1 _ (by simpa using h1)
    have hd : ∀ i, s.dst ≠ .arg i := by
      intro i hi
      rw [hi] at hdst
      simp at hdst
    simp only [sem, run, exec, hvals]
    cases hs : s.op (s.args.map e) with
    | error x => simp
    | ok a =>
      simp only
      have ha' : Agree shared n b (s.dst :: w) (m.write (b s.dst) a)
          (fun v => if v = s.dst then a else e v) := by
        constructor
        · intro v hv
          by_cases hvd : v = s.dst
          · simp [hvd, Mem.write]
          · have hvw : v ∈ w := by
              rcases List.mem_cons.1 hv with h | h
              · exact absurd h hvd
              · exact h
            have hne : b v ≠ b s.dst := by
              intro heq
              cases v with
              | arg i => exact hw i hvw
              | out =>
                cases hsd : s.dst with
                | arg i => exact hd i hsd
                | out => exact hvd hsd.symm
                | tmp i => exact hb.tmp_out i (by rw [hsd] at heq; exact heq.symm)
              | tmp j =>
                cases hsd : s.dst with
                | arg i => exact hd i hsd
                | out => exact hb.tmp_out j (by rw [hsd] at heq; exact heq)
                | tmp i =>
                  rw [hsd] at heq
                  exact hvd (by rw [hsd, hb.tmp_inj _ _ heq])
            simp [hvd, Mem.write, hne, ha.1 v hvw]
        · intro i hi hsh
          have hne : b (.arg i) ≠ b s.dst := by
            intro heq
            cases hsd : s.dst with
            | arg i => exact hd i hsd
            | out =>
              rw [hsd] at heq hsh
              rcases hsh with h | h
              · exact hb.out_arg i hi h heq.symm
              · exact h (by simp)
            | tmp j =>
              rw [hsd] at heq
              exact hb.tmp_arg j i hi heq.symm
          have : Var.arg i ≠ s.dst := fun h => hd i h.symm
          simp only [Mem.write, hne, if_false, this]
          exact ha.2 i hi (hsh.imp id fun h hmem => h (List.mem_cons_of_mem _ hmem))
      have hw' : ∀ i, Var.arg i ∉ s.dst :: w := by
        intro i hi
        rcases List.mem_cons.1 hi with h | h
        · exact hd i h.symm
        · exact hw i h
      have ih := run_sem hb p (s.dst :: w) _ _ hw' hok har.2 ha'
      cases hsem : sem (fun v => if v = s.dst then a else e v) p with
      | error x => rw [hsem] at ih; exact ih
      | ok e' =>
        rw [hsem] at ih
        obtain ⟨m', h1, h2, h3⟩ := ih
        refine ⟨m', h1, ?_, ?_⟩
        · intro v hv
          apply h2
          simp only [List.map_cons, List.mem_cons] at hv ⊢
          tauto
        · intro r hr
          rw [h3 r (fun v hv => hr v (by simp at hv ⊢; right; exact hv))]
          simp [Mem.write, (hr s.dst (by simp)).symm]

theorem apart_bindOf {shared : List Nat} {args : List Nat} {o base : Nat}
    (hargs : ∀ a ∈ args, a < base) (ho : o < base)
    (hsh : ∀ (i : Nat), args[i]? = some o → i ∈ shared) :
    Apart shared args.length (bindOf args o base) := by
  constructor
  · intro i j h
    simp only [bindOf] at h
    omega
  · intro i h
    simp only [bindOf] at h
    omega
  · intro i j hj h
    simp only [bindOf] at h
    have : args.getD j 0 ∈ args := by
      rw [List.getD_eq_getElem _ _ hj]
      exact List.getElem_mem hj
    have := hargs _ this
    omega
  · intro j hj hns h
    simp only [bindOf] at h
    refine hns (hsh j ?_)
    rw [h, List.getD_eq_getElem _ _ hj, List.getElem?_eq_getElem hj]

/-- A body that passes the reading-order check computes what it computes on separate arrays. -/
theorem computes_of_ok {p : Prog C} {nt n : Nat} {shared : List Nat}
    {f : List (List C) → Except PyErr (List C)}
    (hok : ok shared [] p = true) (har : arity n p = true)
    (hout : Var.out ∈ p.map Stmt.dst)
    (hdst : ∀ v ∈ p.map Stmt.dst, v = .out ∨ ∃ i, i < nt ∧ v = .tmp i)
    (hf : ∀ xs : List (List C), xs.length = n → semOut xs p = f xs) :
    Computes p nt n shared f := by
  intro h args out hlen hargs hrout hsh hshape
  rw [← hf (args.map h.mem) (by simp [hlen])]
  have hshapes : shapes h args out = true := by
    unfold shapes
    cases out with
    | none => rfl
    | some r =>
      cases args with
      | nil => rfl
      | cons a l => simpa using hshape r a rfl (by simp)
  -- the array used for `out`
  obtain ⟨o, base, ho, hbs, hobase, hnb, hoarg, hro, hrn⟩ : ∃ o base,
      outRef h out = o ∧ baseRef h out = base ∧ o < base ∧ h.next ≤ base ∧
      (∀ (i : Nat), args[i]? = some o → i ∈ shared) ∧ (∀ r, out = some r → o = r) ∧
      (out = none → h.next ≤ o) := by
    cases out with
    | none =>
      refine ⟨h.next, h.next + 1, rfl, rfl, by omega, by omega, ?_, by simp, by simp⟩
      intro i hi
      have := hargs _ (List.mem_of_getElem? hi)
      omega
    | some r =>
      exact ⟨r, h.next, rfl, rfl, hrout r rfl, Nat.le_refl _, fun i hi => hsh r rfl i hi, by simp, by simp⟩
  have hb := apart_bindOf (shared := shared) (args := args) (o := o) (base := base)
    (fun a ha => Nat.lt_of_lt_of_le (hargs a ha) hnb) hobase hoarg
  have hag : Agree shared args.length (bindOf args o base) [] h.mem (init (args.map h.mem)) := by
    refine ⟨by simp, ?_⟩
    intro i hi _
    simp only [bindOf, init]
    rw [List.getD_eq_getElem _ _ hi, List.getD_eq_getElem _ _ (by simpa using hi),
      List.getElem_map]
  have key := run_sem hb p [] h.mem (init (args.map h.mem)) (by simp) hok (by rw [hlen]; exact har)
    hag
  unfold numpyOut
  simp only [ho, hbs, hshapes, if_true, semOut]
  cases hs : sem (init (args.map h.mem)) p with
  | error x =>
    rw [hs] at key
    simp only at key ⊢
    rw [key]
  | ok e' =>
    rw [hs] at key
    obtain ⟨m', h1, h2, h3⟩ := key
    simp only [h1]
    refine ⟨_, _, rfl, ?_, hro, hrn, ?_, ?_, ?_⟩
    · exact h2 .out (Or.inr hout)
    · simp only; omega
    · simp only; omega
    · intro i hi hne
      apply h3
      intro v hv
      rcases hdst v hv with rfl | ⟨j, _, rfl⟩
      · simp only [bindOf]
        intro heq
        cases hc : out with
        | none => have := hrn hc; omega
        | some r => exact hne (by rw [hc, ← heq, hro r hc])
      · simp only [bindOf]
        omega

/-- The value of a call without `out`. -/
theorem ret_of_computes {p : Prog C} {nt n : Nat} {shared : List Nat}
    {f : List (List C) → Except PyErr (List C)} (hc : Computes p nt n shared f)
    (xs : List (List C)) (hx : xs.length = n) : ret p nt xs = f xs := by
  have := hc ⟨fun i => xs.getD i [], xs.length⟩ (List.range xs.length) none (by simpa using hx)
    (by simp) (by simp) (by simp) (by simp)
  have hm : (List.range xs.length).map (fun i => xs.getD i []) = xs := by
    apply List.ext_getElem
    · simp
    · intro i h1 h2
      simp [List.getElem?_eq_getElem h2]
  rw [hm] at this
  unfold ret
  cases hfx : f xs with
  | error e =>
    rw [hfx] at this
    simp only at this
    rw [this]
  | ok a =>
    rw [hfx] at this
    obtain ⟨h', r, h1, h2, _⟩ := this
    simp only [h1, h2]

end Verif.Out
