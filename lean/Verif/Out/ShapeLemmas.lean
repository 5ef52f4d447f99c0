import Verif.Out.ShapeModel
import Verif.Out.Lemmas

/-!
# Lemmas about broadcasting in functions with an `out` argument
-/

set_option autoImplicit false
set_option linter.unusedSectionVars false
set_option linter.unusedSimpArgs false

namespace Verif.Out.Nd

variable {C : Type}

theorem fits_refl : ∀ s : List Nat, fits s s = true
  | [] => rfl
  | a :: s => by simp [fits, fits_refl s]

theorem fits_length : ∀ {s T : List Nat}, fits s T = true → s.length ≤ T.length
  | [], _, _ => by simp
  | _ :: _, [], h => by simp [fits] at h
  | a :: s, b :: T, h => by
    simp only [fits, Bool.and_eq_true] at h
    simpa using fits_length h.2

theorem proj_proj : ∀ {s D : List Nat} (i : List Nat), fits s D = true → D.length ≤ i.length →
    proj s (proj D i) = proj s i
  | [], _, _, _, _ => by simp [proj]
  | _ :: _, [], _, h, _ => by simp [fits] at h
  | a :: s, b :: D, [], _, hl => by simp at hl
  | a :: s, b :: D, k :: i, h, hl => by
    simp only [fits, Bool.and_eq_true, Bool.or_eq_true, decide_eq_true_eq] at h
    have ih := proj_proj (s := s) (D := D) i h.2 (by simpa using hl)
    simp only [proj] at ih ⊢
    simp only [List.zipWith_cons_cons, ih, List.cons.injEq, and_true]
    rcases h.1 with h1 | h1
    · simp [h1]
    · subst h1
      by_cases h2 : a = 1 <;> simp [h2]

/-- The calls of a body that work entry by entry. -/
def Elem (p : Prog C) : Prop :=
  ∀ s ∈ p, ∀ cs : List C, cs.length = s.args.length → ∃ c, s.op (cs.map fun c => [c]) = .ok [c]

theorem elem_cons {s : Stmt C} {p : Prog C} (h : Elem (s :: p)) : Elem p :=
  fun t ht => h t (List.mem_cons_of_mem _ ht)

/-- All operands of a body fit. -/
def Fit (b : Binding) (m : Mem C) (p : Prog C) : Prop :=
  ∀ s ∈ p, ∀ v ∈ s.args, fits (m (b v)).shape (m (b s.dst)).shape = true

theorem exec_shape {b : Binding} {m m' : Mem C} {s : Stmt C} (h : exec b m s = .ok m') (r : Nat) :
    (m' r).shape = (m r).shape := by
  unfold exec at h
  simp only at h
  split at h
  · injection h with h
    subst h
    simp only [Mem.write]
    split
    · rename_i hr; subst hr; rfl
    · rfl
  · simp at h

theorem exec_other {b : Binding} {m m' : Mem C} {s : Stmt C} (h : exec b m s = .ok m') (r : Nat)
    (hr : b s.dst ≠ r) : m' r = m r := by
  unfold exec at h
  simp only at h
  split at h
  · injection h with h
    subst h
    simp only [Mem.write, hr.symm, if_false]
  · simp at h

theorem run_fit {b : Binding} : ∀ (p : Prog C) (m : Mem C), Fit b m p →
    ∃ m', run b m p = .ok m' ∧ (∀ r, (m' r).shape = (m r).shape) ∧
      ∀ r, (∀ v ∈ p.map Stmt.dst, b v ≠ r) → m' r = m r
  | [], m, _ => ⟨m, rfl, fun _ => rfl, fun _ _ => rfl⟩
  | s :: p, m, hf => by
    have h0 : s.args.all (fun v => fits (m (b v)).shape (m (b s.dst)).shape) = true :=
      List.all_eq_true.2 fun v hv => hf s (by simp) v hv
    obtain ⟨m1, h1⟩ : ∃ m1, exec b m s = .ok m1 := by
      unfold exec
      simp only [h0, if_true]
      exact ⟨_, rfl⟩
    have hs := exec_shape h1
    have hf1 : Fit b m1 p := by
      intro t ht v hv
      rw [hs, hs]
      exact hf t (List.mem_cons_of_mem _ ht) v hv
    obtain ⟨m', h2, h3, h4⟩ := run_fit p m1 hf1
    refine ⟨m', by simp only [run, h1, h2], fun r => by rw [h3, hs], ?_⟩
    intro r hr
    rw [h4 r (fun v hv => hr v (by simp only [List.map_cons, List.mem_cons]; exact Or.inr hv)),
      exec_other h1 r (hr s.dst (by simp))]

theorem run_unfit {b : Binding} : ∀ (p : Prog C) (m : Mem C),
    (∃ s ∈ p, ∃ v ∈ s.args, fits (m (b v)).shape (m (b s.dst)).shape = false) →
    run b m p = .error .valueError
  | [], m, h => by simp at h
  | s :: p, m, h => by
    by_cases h0 : s.args.all (fun v => fits (m (b v)).shape (m (b s.dst)).shape) = true
    · obtain ⟨m1, h1⟩ : ∃ m1, exec b m s = .ok m1 := by
        unfold exec
        simp only [h0, if_true]
        exact ⟨_, rfl⟩
      have hs := exec_shape h1
      simp only [run, h1]
      apply run_unfit p m1
      obtain ⟨t, ht, v, hv, hx⟩ := h
      rcases List.mem_cons.1 ht with rfl | ht
      · rw [List.all_eq_true] at h0
        rw [h0 v hv] at hx
        simp at hx
      · exact ⟨t, ht, v, hv, by rw [hs, hs]; exact hx⟩
    · have h1 : exec b m s = .error .valueError := by
        unfold exec
        simp only [h0]
        rfl
      simp only [run, h1]

/-- Agreement of the entries at an index with the variables that may still be read. -/
def Agree (shared : List Nat) (n : Nat) (b : Binding) (w : List Var) (m : Mem C) (i : List Nat)
    (e : Var → List C) : Prop :=
  (∀ v ∈ w, e v = [(m (b v)).get i]) ∧
  ∀ j, j < n → (j ∉ shared ∨ Var.out ∉ w) → e (.arg j) = [(m (b (.arg j))).get i]

theorem run_sem {shared : List Nat} {n : Nat} {b : Binding} (hb : Apart shared n b) (i : List Nat) :
    ∀ (p : Prog C) (w : List Var) (m m' : Mem C) (e : Var → List C),
      (∀ j, Var.arg j ∉ w) → ok shared w p = true → arity n p = true → Elem p → Fit b m p →
      (∀ s ∈ p, (m (b s.dst)).shape.length ≤ i.length) →
      Agree shared n b w m i e → run b m p = .ok m' →
      ∃ e', sem e p = .ok e' ∧
        ∀ v, (v ∈ w ∨ v ∈ p.map Stmt.dst) → e' v = [(m' (b v)).get i]
  | [], w, m, m', e, _, _, _, _, _, _, ha, hr => by
    simp only [run, Except.ok.injEq] at hr
    subst hr
    exact ⟨e, rfl, fun v hv => ha.1 v (by simpa using hv)⟩
  | s :: p, w, m, m', e, hw, hok, har, hel, hfit, hlen, ha, hr => by
    simp only [ok, Bool.and_eq_true, List.all_eq_true] at hok
    obtain ⟨⟨hdst, hargs⟩, hok⟩ := hok
    simp only [arity, List.all_cons, Bool.and_eq_true] at har
    have hvals : s.args.map e = (s.args.map fun v => (m (b v)).get i).map fun c => [c] := by
      rw [List.map_map]
      apply List.map_congr_left
      intro v hv
      have h1 := hargs v hv
      have h2 := List.all_eq_true.1 har.1 v hv
      cases v with
      | arg j =>
        simp at h1 h2
        exact ha.2 j h2 (by by_cases hi : j ∈ shared <;> simp [hi] at h1 ⊢; exact h1)
      | out => exact ha.1 _ (by simpa using h1)
      | tmp j => exact ha.1 _ (by simpa using h1)
    have hd : ∀ j, s.dst ≠ .arg j := by
      intro j hj
      rw [hj] at hdst
      simp at hdst
    obtain ⟨c, hop⟩ := hel s (by simp) (s.args.map fun v => (m (b v)).get i) (by simp)
    have h0 : s.args.all (fun v => fits (m (b v)).shape (m (b s.dst)).shape) = true :=
      List.all_eq_true.2 fun v hv => hfit s (by simp) v hv
    have hD : (m (b s.dst)).shape.length ≤ i.length := hlen s (by simp)
    obtain ⟨m1, h1, hm1⟩ : ∃ m1, exec b m s = .ok m1 ∧
        (m1 (b s.dst)).get i = c := by
      unfold exec
      simp only [h0, if_true]
      refine ⟨_, rfl, ?_⟩
      simp only [Mem.write, if_true, Arr.get]
      have hv2 : (s.args.map fun v => [(m (b v)).val (proj (m (b v)).shape
          (proj (m (b s.dst)).shape i))]) =
          (s.args.map fun v => (m (b v)).get i).map fun c => [c] := by
        rw [List.map_map]
        apply List.map_congr_left
        intro v hv
        simp only [Function.comp, Arr.get]
        rw [proj_proj i (hfit s (by simp) v hv) hD]
      rw [hv2, hop]
    have hs := exec_shape h1
    simp only [run, h1] at hr
    simp only [sem, hvals, hop]
    have ha' : Agree shared n b (s.dst :: w) m1 i
        (fun v => if v = s.dst then [c] else e v) := by
      constructor
      · intro v hv
        by_cases hvd : v = s.dst
        · simp [hvd, hm1]
        · have hvw : v ∈ w := by
            rcases List.mem_cons.1 hv with h | h
            · exact absurd h hvd
            · exact h
          have hne : b s.dst ≠ b v := by
            intro heq
            cases v with
            | arg j => exact hw j hvw
            | out =>
              cases hsd : s.dst with
              | arg j => exact hd j hsd
              | out => exact hvd hsd.symm
              | tmp j => exact hb.tmp_out j (by rw [hsd] at heq; exact heq)
            | tmp j =>
              cases hsd : s.dst with
              | arg k => exact hd k hsd
              | out => exact hb.tmp_out j (by rw [hsd] at heq; exact heq.symm)
              | tmp k =>
                rw [hsd] at heq
                exact hvd (by rw [hsd, hb.tmp_inj _ _ heq])
          simp only [hvd, if_false]
          rw [ha.1 v hvw, exec_other h1 _ hne]
      · intro j hj hsh
        have hne : b s.dst ≠ b (.arg j) := by
          intro heq
          cases hsd : s.dst with
          | arg k => exact hd k hsd
          | out =>
            rw [hsd] at heq hsh
            rcases hsh with h | h
            · exact hb.out_arg j hj h heq
            · exact h (by simp)
          | tmp k =>
            rw [hsd] at heq
            exact hb.tmp_arg k j hj heq
        have : Var.arg j ≠ s.dst := fun h => hd j h.symm
        simp only [this, if_false]
        rw [ha.2 j hj (hsh.imp id fun h hmem => h (List.mem_cons_of_mem _ hmem)),
          exec_other h1 _ hne]
    have hw' : ∀ j, Var.arg j ∉ s.dst :: w := by
      intro j hj
      rcases List.mem_cons.1 hj with h | h
      · exact hd j h.symm
      · exact hw j h
    have hfit1 : Fit b m1 p := by
      intro t ht v hv
      rw [hs, hs]
      exact hfit t (List.mem_cons_of_mem _ ht) v hv
    obtain ⟨e', he, hv⟩ := run_sem hb i p (s.dst :: w) m1 m' _ hw' hok har.2 (elem_cons hel) hfit1
      (fun t ht => by rw [hs]; exact hlen t (List.mem_cons_of_mem _ ht)) ha' hr
    refine ⟨e', he, fun v hv' => hv v ?_⟩
    simp only [List.map_cons, List.mem_cons] at hv' ⊢
    tauto

end Verif.Out.Nd
