import Mathlib.Tactic.IntervalCases
import Verif.Out.ShapeLemmas
import Verif.Out.Props

/-!
# Shapes, broadcasting and scalars in functions with an `out` argument
-/

set_option autoImplicit false
set_option linter.unusedSectionVars false
set_option linter.unusedSimpArgs false

namespace Verif.Out.Nd

variable {C : Type}

/-! ## Specification -/

/-- The indices of an array of shape `T` (both innermost axis first). -/
def Index (T i : List Nat) : Prop := List.Forall₂ (fun k n => k < n) i T

/-- The shape of a result. -/
def Res.shape (h : Heap C) : Res C → List Nat
  | .scalar _ => []
  | .array r => (h.mem r).shape

/-- The entry of a result. -/
def Res.entry (h : Heap C) : Res C → List Nat → C
  | .scalar c, _ => c
  | .array r, i => (h.mem r).val i

/-- Whose shape a variable has: that of an argument, or (`none`) that of `out`. -/
def own (like : Nat → Option Nat) : Var → Option Nat
  | .arg k => some k
  | .out => none
  | .tmp k => like k

/-- Bodies that work entry by entry: reading order and number of arguments as in `C34`, and arrays
with the shape of an argument are computed from that argument alone, while every argument is used in
computing an array with the shape of `out`. -/
structure Good (p : Prog C) (nt n : Nat) (shared : List Nat) (like : Nat → Option Nat) : Prop where
  order : ok shared [] p = true
  arity : Out.arity n p = true
  out_written : Var.out ∈ p.map Stmt.dst
  dst : ∀ v ∈ p.map Stmt.dst, v = .out ∨ ∃ k, k < nt ∧ v = .tmp k
  tmps : ∀ s ∈ p, ∀ k, Var.tmp k ∈ s.args → k < nt
  elem : Elem p
  like_arg : ∀ k, k < nt → ∀ j, like k = some j → j < n
  own_only : ∀ s ∈ p, ∀ j, own like s.dst = some j → ∀ v ∈ s.args, own like v = some j
  used : ∀ j, j < n → ∃ s ∈ p, own like s.dst = none ∧ ∃ v ∈ s.args, own like v = some j

/-! ## Preparations -/

theorem proj_index {T i : List Nat} (h : Index T i) : proj T i = i := by
  unfold Index at h
  induction h with
  | nil => rfl
  | cons hab _ ih =>
    simp only [proj] at ih ⊢
    simp only [List.zipWith_cons_cons, ih, List.cons.injEq, and_true]
    split <;> omega

theorem index_length {T i : List Nat} (h : Index T i) : i.length = T.length := h.length_eq

/-- The memory before the body is run. -/
def start (h : Heap C) (args : List Nat) (a : Nat) (nt : Nat) (like : Nat → Option Nat)
    (out : Option Nat) : Mem C :=
  alloc (h.mem.reshape (outRef h out) (outShape h a out)) args (baseRef h out) nt like
    (outShape h a out)

theorem start_old (h : Heap C) (args : List Nat) (a nt : Nat) (like : Nat → Option Nat)
    (out : Option Nat) (hout : ∀ r, out = some r → r < h.next) (r : Nat) (hr : r < h.next) :
    start h args a nt like out r = h.mem r := by
  unfold start alloc
  cases out with
  | none =>
    have h1 : ¬ (baseRef h none ≤ r ∧ r < baseRef h none + nt) := by
      simp only [baseRef, Option.isNone_none, if_true]; omega
    have h2 : r ≠ outRef h none := by simp only [outRef, Option.getD_none]; omega
    rw [if_neg h1]
    simp only [Mem.reshape, Mem.write, h2, if_false]
  | some o =>
    have := hout o rfl
    simp only [baseRef, outRef, outShape, Mem.reshape, Mem.write, Option.isNone_some,
      Option.getD_some, Bool.false_eq_true, if_false]
    rw [if_neg (by omega)]
    by_cases hro : r = o
    · subst hro; simp
    · simp [hro]

theorem start_out (h : Heap C) (args : List Nat) (a nt : Nat) (like : Nat → Option Nat)
    (out : Option Nat) (hout : ∀ r, out = some r → r < h.next) :
    (start h args a nt like out (outRef h out)).shape = outShape h a out := by
  unfold start alloc
  cases out with
  | none =>
    simp only [baseRef, outRef, outShape, Mem.reshape, Mem.write, Option.isNone_none, if_true,
      Option.getD_none]
    rw [if_neg (by omega)]
  | some o =>
    have := hout o rfl
    simp only [baseRef, outRef, outShape, Mem.reshape, Mem.write, Option.isNone_some,
      Option.getD_some, Bool.false_eq_true, if_false]
    rw [if_neg (by omega)]
    simp

theorem out_lt_base (h : Heap C) (out : Option Nat) (hout : ∀ r, out = some r → r < h.next) :
    outRef h out < baseRef h out ∧ h.next ≤ baseRef h out := by
  cases out with
  | none => simp [outRef, baseRef]
  | some o => have := hout o rfl; simp [outRef, baseRef, this]

/-- The shape of every variable of a call. -/
theorem start_shape (h : Heap C) (args : List Nat) (a nt : Nat) (like : Nat → Option Nat)
    (out : Option Nat) (hargs : ∀ x ∈ args, x < h.next) (hout : ∀ r, out = some r → r < h.next)
    (hlike : ∀ k, k < nt → ∀ j, like k = some j → j < args.length)
    (v : Var) (hv : match v with
      | .arg j => j < args.length
      | .out => True
      | .tmp k => k < nt) :
    (start h args a nt like out (bindOf args (outRef h out) (baseRef h out) v)).shape =
      match own like v with
      | some j => (h.mem (args.getD j 0)).shape
      | none => outShape h a out := by
  have hget : ∀ j, j < args.length → args.getD j 0 < h.next := by
    intro j hj
    rw [List.getD_eq_getElem _ _ hj]
    exact hargs _ (List.getElem_mem hj)
  cases v with
  | arg j =>
    simp only [bindOf, own]
    rw [start_old h args a nt like out hout _ (hget j hv)]
  | out =>
    simp only [bindOf, own]
    exact start_out h args a nt like out hout
  | tmp k =>
    simp only at hv
    simp only [bindOf, own]
    have hk := hlike k hv
    have hlt := out_lt_base h out hout
    unfold start alloc
    rw [if_pos ⟨by omega, by omega⟩]
    simp only [Nat.add_sub_cancel_left]
    cases hl : like k with
    | none => rfl
    | some j =>
      simp only
      have hj := hget j (hk j hl)
      unfold Mem.reshape Mem.write
      by_cases hjo : args.getD j 0 = outRef h out
      · rw [if_pos hjo]
        cases out with
        | none => simp [outRef] at hjo; simp at hj; omega
        | some o => simp [outRef, outShape] at hjo ⊢; rw [hjo]
      · rw [if_neg hjo]

theorem var_ok {p : Prog C} {nt n : Nat} {shared : List Nat} {like : Nat → Option Nat}
    (hp : Good p nt n shared like) {s : Stmt C} (hs : s ∈ p) :
    (∀ v ∈ s.args, match v with
      | .arg j => j < n
      | .out => True
      | .tmp k => k < nt) ∧
    (match s.dst with
      | .arg j => j < n
      | .out => True
      | .tmp k => k < nt) := by
  constructor
  · intro v hv
    have h1 := List.all_eq_true.1 (List.all_eq_true.1 hp.arity s hs) v hv
    cases v with
    | arg j => simpa using h1
    | out => trivial
    | tmp k => exact hp.tmps s hs k hv
  · rcases hp.dst s.dst (List.mem_map_of_mem hs) with h | ⟨k, hk, h⟩ <;> rw [h]
    · trivial
    · exact hk

/-! ## The property -/

/-- **C160**, what fitting means: not more axes, and every axis has the same length as the axis of
the result at the same place (from the innermost on) or length 1. -/
theorem C160_fits : ∀ s T : List Nat, fits s T = true ↔
    s.length ≤ T.length ∧ ∀ (k : Nat) (a : Nat), s[k]? = some a → a = 1 ∨ T[k]? = some a
  | [], T => by simp [fits]
  | a :: s, [] => by simp [fits]
  | a :: s, b :: T => by
    simp only [fits, Bool.and_eq_true, Bool.or_eq_true, decide_eq_true_eq, C160_fits s T,
      List.length_cons]
    constructor
    · rintro ⟨h1, h2, h3⟩
      refine ⟨by omega, ?_⟩
      intro k c hk
      cases k with
      | zero =>
        simp only [List.getElem?_cons_zero, Option.some.injEq] at hk ⊢
        subst hk
        rcases h1 with h | h
        · exact Or.inl h
        · exact Or.inr h.symm
      | succ k => simpa using h3 k c (by simpa using hk)
    · rintro ⟨h1, h2⟩
      refine ⟨?_, by omega, ?_⟩
      · have := h2 0 a rfl
        simp only [List.getElem?_cons_zero, Option.some.injEq] at this
        rcases this with h | h
        · exact Or.inl h
        · exact Or.inr h.symm
      · intro k c hk
        simpa using h2 (k + 1) c (by simpa using hk)

/-- **C160**, which entry of an argument is used for an index of the result: the same index, with
the additional outer axes dropped and 0 for the axes of length 1. -/
theorem C160_entry (x : Arr C) (T i : List Nat) (hf : fits x.shape T = true) (hi : Index T i) :
    ∃ j : List Nat, x.get i = x.val j ∧ Index x.shape j ∧
      ∀ (k : Nat) (a : Nat), x.shape[k]? = some a → j[k]? = if a = 1 then some 0 else i[k]? := by
  refine ⟨proj x.shape i, rfl, ?_, ?_⟩
  · generalize x.shape = s at hf
    induction s generalizing T i with
    | nil => simp [proj, Index]
    | cons a s ih =>
      cases hi with
      | nil => simp [fits] at hf
      | cons hkb hrest =>
        simp only [fits, Bool.and_eq_true, Bool.or_eq_true, decide_eq_true_eq] at hf
        simp only [proj, List.zipWith_cons_cons]
        refine List.Forall₂.cons ?_ (ih _ _ hrest hf.2)
        split <;> omega
  · intro k a hk
    have hl := fits_length hf
    have hl2 := index_length hi
    have hk2 := (List.getElem?_eq_some_iff.1 hk).1
    simp only [proj, List.getElem?_zipWith, hk]
    rw [List.getElem?_eq_getElem (by omega)]
    by_cases ha : a = 1 <;> simp [ha]

/-- **C160**: the result of a function decorated with `numpy_out` for arrays of any shape.  All
arguments have to fit the shape of `out`, or that of the first argument if there is no `out`.  Then
the call succeeds; the result has that shape; every entry is what the function computes for the
corresponding entries of the (broadcast) arguments, as they were before the call; it is a scalar
exactly if the first argument is 0-d and there is no `out`; the array `out` is returned if it is
given and a new array otherwise; no other array has changed. -/
theorem C160_result {p : Prog C} {nt n : Nat} {shared : List Nat} {like : Nat → Option Nat}
    {f : List (List C) → Except PyErr (List C)}
    (hp : Good p nt n shared like) (hc : Computes p nt n shared f)
    (h : Heap C) (a : Nat) (l : List Nat) (out : Option Nat) (hlen : (a :: l).length = n)
    (hargs : ∀ x ∈ a :: l, x < h.next) (hout : ∀ r, out = some r → r < h.next)
    (hsh : ∀ r, out = some r → ∀ (i : Nat), (a :: l)[i]? = some r → i ∈ shared)
    (T : List Nat) (hT : T = (h.mem (out.getD a)).shape)
    (hfit : ∀ x ∈ a :: l, fits (h.mem x).shape T = true) :
    ∃ h' r, numpyOut p nt like h (a :: l) out = .ok (h', r) ∧
      r.shape h' = T ∧
      (∀ i, Index T i → f ((a :: l).map fun x => [(h.mem x).get i]) = .ok [r.entry h' i]) ∧
      ((∃ c, r = .scalar c) ↔ out = none ∧ (h.mem a).shape = []) ∧
      (∀ o, out = some o → r = .array o) ∧
      (out = none → ∀ x, r = .array x → h.next ≤ x ∧ x < h'.next) ∧ h.next ≤ h'.next ∧
      ∀ x, x < h.next → out ≠ some x → h'.mem x = h.mem x := by
  have hTo : outShape h a out = T := hT.symm
  have hb := out_lt_base h out hout
  set args := a :: l with hargsdef
  have hoarg : ∀ (i : Nat), args[i]? = some (outRef h out) → i ∈ shared := by
    intro i hi
    cases out with
    | none =>
      have := hargs _ (List.mem_of_getElem? hi)
      simp [outRef] at this
    | some r => exact hsh r rfl i hi
  have hap := apart_bindOf (shared := shared) (args := args) (o := outRef h out)
    (base := baseRef h out) (fun x hx => Nat.lt_of_lt_of_le (hargs x hx) hb.2) hb.1 hoarg
  have hshape := start_shape h args a nt like out hargs hout
    (fun k hk j hj => by rw [hlen]; exact hp.like_arg k hk j hj)
  have hvar := fun {s : Stmt C} (hs : s ∈ p) => var_ok hp hs
  rw [← hlen] at hvar
  have hmem : ∀ j, j < args.length → args.getD j 0 ∈ args := by
    intro j hj
    rw [List.getD_eq_getElem _ _ hj]
    exact List.getElem_mem hj
  have hFit : Fit (bindOf args (outRef h out) (baseRef h out)) (start h args a nt like out) p := by
    intro s hs v hv
    have hv1 := (hvar hs).1 v hv
    rw [hshape v hv1, hshape s.dst (hvar hs).2, hTo]
    cases hd : own like s.dst with
    | some j =>
      rw [hp.own_only s hs j hd v hv]
      exact fits_refl _
    | none =>
      cases hw : own like v with
      | none => exact fits_refl _
      | some j =>
        refine hfit _ (hmem j ?_)
        cases v with
        | arg k => simp only [own, Option.some.injEq] at hw; subst hw; exact hv1
        | out => simp [own] at hw
        | tmp k => rw [hlen]; exact hp.like_arg k hv1 j hw
  obtain ⟨m', hrun, hms, hmo⟩ := run_fit p _ hFit
  have hms_out : (m' (outRef h out)).shape = T := by
    rw [hms, start_out h args a nt like out hout, hTo]
  have hval : ∀ i, Index T i → f (args.map fun x => [(h.mem x).get i]) =
      .ok [(m' (outRef h out)).val i] := by
    intro i hi
    have hil := index_length hi
    have hsem : ∃ e', sem (init (args.map fun x => [(h.mem x).get i])) p = .ok e' ∧
        ∀ v, (v ∈ ([] : List Var) ∨ v ∈ p.map Stmt.dst) →
          e' v = [(m' (bindOf args (outRef h out) (baseRef h out) v)).get i] := by
      refine run_sem hap i p [] _ m' _ (by simp) hp.order (by rw [hlen]; exact hp.arity) hp.elem
        hFit ?_ ⟨by simp, ?_⟩ hrun
      · intro s hs
        rw [hshape s.dst (hvar hs).2, hil]
        cases hd : own like s.dst with
        | none => rw [hTo]
        | some j =>
          apply fits_length
          refine hfit _ (hmem j ?_)
          have h2 := (hvar hs).2
          cases hsd : s.dst with
          | arg k => rw [hsd] at hd h2; simp only [own, Option.some.injEq] at hd; subst hd; exact h2
          | out => rw [hsd] at hd; simp [own] at hd
          | tmp k =>
            rw [hsd] at hd h2
            rw [hlen]; exact hp.like_arg k h2 j hd
      · intro j hj _
        simp only [init, bindOf]
        rw [start_old h args a nt like out hout _ (hargs _ (hmem j hj)),
          List.getD_eq_getElem _ _ (by simpa using hj), List.getElem_map,
          List.getD_eq_getElem _ _ hj]
    obtain ⟨e', he, hv⟩ := hsem
    have hret := ret_of_computes hc (args.map fun x => [(h.mem x).get i]) (by simpa using hlen)
    have hret2 := ret_of_computes
      (computes_of_ok (f := fun xs => semOut xs p) hp.order hp.arity hp.out_written hp.dst
        (fun _ _ => rfl)) (args.map fun x => [(h.mem x).get i]) (by simpa using hlen)
    rw [← hret, hret2]
    simp only [semOut, he]
    rw [hv .out (Or.inr hp.out_written)]
    simp only [bindOf, Arr.get, hms_out, proj_index hi]
  have hnum : numpyOut p nt like h args out = .ok (⟨m', baseRef h out + nt⟩,
      if out.isNone ∧ T = [] then .scalar ((m' (outRef h out)).val [])
      else .array (outRef h out)) := by
    rw [hargsdef]
    unfold numpyOut
    simp only [start, hTo] at hrun
    simp only [hTo]
    rw [← hargsdef, hrun]
  refine ⟨_, _, hnum, ?_, ?_, ?_, ?_, ?_, by simp only; omega, ?_⟩
  · by_cases hc : out.isNone ∧ T = []
    · rw [if_pos hc, hc.2]; rfl
    · rw [if_neg hc]; exact hms_out
  · intro i hi
    by_cases hc : out.isNone ∧ T = []
    · rw [if_pos hc, hval i hi]
      have : i = [] := by
        have := index_length hi
        rw [hc.2] at this
        simpa using this
      subst this
      rfl
    · rw [if_neg hc, hval i hi]; rfl
  · constructor
    · rintro ⟨c, hc⟩
      by_cases hc' : out.isNone ∧ T = []
      · have ho : out = none := by simpa using hc'.1
        subst ho
        exact ⟨rfl, by rw [hT] at hc'; exact hc'.2⟩
      · rw [if_neg hc'] at hc; simp at hc
    · rintro ⟨ho, ha⟩
      subst ho
      have : T = [] := by rw [hT]; exact ha
      exact ⟨_, if_pos ⟨rfl, this⟩⟩
  · intro o ho
    subst ho
    simp [outRef]
  · intro ho x hx
    subst ho
    by_cases hc' : (none : Option Nat).isNone ∧ T = []
    · rw [if_pos hc'] at hx; simp at hx
    · rw [if_neg hc'] at hx
      injection hx with hx
      subst hx
      simp only [outRef, baseRef, Option.getD_none, Option.isNone_none, if_true]
      omega
  · intro x hx hne
    simp only
    rw [hmo x ?_, start_old h args a nt like out hout x hx]
    intro v hv
    rcases hp.dst v hv with rfl | ⟨k, _, rfl⟩
    · simp only [bindOf]
      intro heq
      cases out with
      | none => simp [outRef] at heq; omega
      | some r => exact hne (by simp [outRef] at heq; rw [heq])
    · simp only [bindOf]
      omega

/-- **C160**: if an argument does not fit the shape of `out` (or that of the first argument, without
`out`) the call raises `ValueError`. -/
theorem C160_mismatch {p : Prog C} {nt n : Nat} {shared : List Nat} {like : Nat → Option Nat}
    (hp : Good p nt n shared like)
    (h : Heap C) (a : Nat) (l : List Nat) (out : Option Nat) (hlen : (a :: l).length = n)
    (hargs : ∀ x ∈ a :: l, x < h.next) (hout : ∀ r, out = some r → r < h.next)
    (T : List Nat) (hT : T = (h.mem (out.getD a)).shape)
    (hfit : ∃ x ∈ a :: l, fits (h.mem x).shape T = false) :
    numpyOut p nt like h (a :: l) out = .error .valueError := by
  have hTo : outShape h a out = T := hT.symm
  set args := a :: l with hargsdef
  have hshape := start_shape h args a nt like out hargs hout
    (fun k hk j hj => by rw [hlen]; exact hp.like_arg k hk j hj)
  have hvar := fun {s : Stmt C} (hs : s ∈ p) => var_ok hp hs
  rw [← hlen] at hvar
  obtain ⟨x, hx, hxf⟩ := hfit
  obtain ⟨j, hj, rfl⟩ := List.getElem_of_mem hx
  obtain ⟨s, hs, hd, v, hv, hvo⟩ := hp.used j (by rw [← hlen]; exact hj)
  have hrun := run_unfit (b := bindOf args (outRef h out) (baseRef h out)) p
    (start h args a nt like out) ⟨s, hs, v, hv, by
      rw [hshape v ((hvar hs).1 v hv), hshape s.dst (hvar hs).2, hd, hvo, hTo]
      simp only
      rw [List.getD_eq_getElem _ _ hj]
      exact hxf⟩
  rw [hargsdef]
  unfold numpyOut
  simp only [start, hTo] at hrun
  simp only [hTo]
  rw [← hargsdef, hrun]

/-- **C160**: a call without positional array argument (all given by keyword) raises
`IndexError`. -/
theorem C160_keywords (p : Prog C) (nt : Nat) (like : Nat → Option Nat) (h : Heap C)
    (out : Option Nat) : numpyOut p nt like h [] out = .error .indexError := rfl

/-! ## The functions -/

/-- The functions that work entry by entry (all of `C34` but the three normalisations and the
functions that are composed of several calls): body, number of allocated arrays, number of array
arguments, arguments that may be `out`, shapes of the allocated arrays, and the formula. -/
inductive Fn : Prog Cell → Nat → Nat → List Nat → (Nat → Option Nat) →
    (List (List Cell) → Except PyErr (List Cell)) → Prop where
  | db2a : Fn db2a 0 1 [0] likeOut (pw1 fun d => some ((10 : ℝ) ^ (d / 20)))
  | a2db : Fn a2dbFloorless 0 1 [0] likeOut (pw1 Dsp.a2dbFloorless)
  | a2dbFloor : Fn a2dbFloored 0 2 [0, 1] likeOut (pw2 Dsp.a2dbFloored)
  | a2dbFloorDb : Fn a2dbFloorDb 1 2 [0, 1] floorLike
      (pw2 fun a f => Dsp.a2dbFloored a ((10 : ℝ) ^ (f / 20)))
  | bin2f (nfft fs : ℝ) : Fn (bin2f nfft fs) 0 1 [0] likeOut (pw1 fun b => some (b * (fs / nfft)))
  | barkZ : Fn hz2barkZwicker 1 1 [0] likeOut (pw1 fun f => some (barkZ f))
  | barkT : Fn hz2barkTraunmuller 1 1 [0] likeOut (pw1 barkT)
  | barkW : Fn hz2barkWang 0 1 [0] likeOut (pw1 fun f => some (barkW f))
  | hzT : Fn bark2hzTraunmuller 1 1 [0] likeOut (pw1 hzT)
  | hzW : Fn bark2hzWang 0 1 [0] likeOut (pw1 fun b => some (hzW b))
  | mel : Fn hz2mel 0 1 [0] likeOut (pw1 mel)
  | hzMel : Fn mel2hz 0 1 [0] likeOut (pw1 fun m => some (hzMel m))
  | melFant : Fn hz2melFant 0 1 [0] likeOut (pw1 melFant)
  | hzFant : Fn mel2hzFant 0 1 [0] likeOut (pw1 fun m => some (hzFant m))
  | erb : Fn erb 1 1 [0] likeOut (pw1 fun f => some (erbQ f))
  | erbLinear : Fn erbLinear 0 1 [0] likeOut (pw1 fun f => some (erbL f))
  | cams : Fn hz2cams 1 1 [0] likeOut (pw1 camsQ)
  | camsLinear : Fn hz2camsLinear 0 1 [0] likeOut (pw1 camsL)
  | hzCams : Fn cams2hz 1 1 [0] likeOut (pw1 hzQ)
  | hzCamsLinear : Fn cams2hzLinear 0 1 [0] likeOut (pw1 fun c => some (hzL c))
  | aWeight : Fn aWeighting 2 1 [0] likeOut (pw1 fun f => some (aWeight f))
  | envelope (n : ℕ) (tc b : ℝ) (hn : 1 ≤ n) :
      Fn (envelope n tc b) 2 1 [0] envelopeLike (pw1 fun t => some (gammatone n tc b t))
  | hinge (a k q : ℝ) :
      Fn (hingeFunction a k q) 0 1 [0] likeOut (pw1 fun x => some (k * min x a + q))
  | hwr (th : ℝ) : Fn (hwr th) 0 1 [0] likeOut (pw1 fun v => some (max v th))
  | energy : Fn modalEnergy 0 2 [0] likeOut (pw2 fun a d => some (a ^ 2 * d / 4))
  | decay (a d : ℝ) : Fn (exponentialDecay a d) 0 1 [0] likeOut
      (pw1 fun t => some (a * Real.exp (-(2 / d) * t)))
  | decayDt (a d : ℝ) : Fn (exponentialDecayDt a d) 0 1 [0] likeOut
      (pw1 fun t => some (-(2 / d) * (a * Real.exp (-(2 / d) * t))))
  | semisum : Fn semisum 0 2 [0, 1] likeOut (pw2 fun a b => some ((a + b) / 2))
  | semidiff : Fn semidiff 0 2 [0, 1] likeOut (pw2 fun a b => some ((a - b) / 2))

theorem elem_nil : Elem ([] : Prog C) := by intro s hs; simp at hs

theorem elem_un {p : Prog C} (d : Var) (f : C → C) (a : Var) (h : Elem p) :
    Elem (un d f a :: p) := by
  intro s hs
  rcases List.mem_cons.1 hs with rfl | hs
  · intro cs hcs
    obtain ⟨c, rfl⟩ := List.length_eq_one_iff.1 hcs
    exact ⟨f c, rfl⟩
  · exact h s hs

theorem elem_bin {p : Prog C} (d : Var) (f : C → C → C) (a b : Var) (h : Elem p) :
    Elem (bin d f a b :: p) := by
  intro s hs
  rcases List.mem_cons.1 hs with rfl | hs
  · intro cs hcs
    obtain ⟨c, e, rfl⟩ := List.length_eq_two.1 hcs
    exact ⟨f c e, rfl⟩
  · exact h s hs

theorem elem_rename {p : Prog C} (g : Var → Var) (h : Elem p) : Elem (p.rename g) := by
  intro s hs
  obtain ⟨t, ht, rfl⟩ := List.mem_map.1 hs
  intro cs hcs
  exact h t ht cs (by simpa using hcs)

theorem elem_append {p q : Prog C} (hp : Elem p) (hq : Elem q) : Elem (p ++ q) := by
  intro s hs
  rcases List.mem_append.1 hs with h | h
  · exact hp s h
  · exact hq s h

set_option hygiene false in
macro "ndfn" defs:Lean.Parser.Tactic.simpLemma,* : tactic => `(tactic| (
  refine ⟨by simp [$defs,*, ok, un, bin, Prog.rename],
    by simp [$defs,*, Out.arity, un, bin, Prog.rename],
    by simp [$defs,*, un, bin, Prog.rename], by simp [$defs,*, un, bin, Prog.rename],
    by simp [$defs,*, un, bin, Prog.rename], ?_,
    by simp [likeOut, envelopeLike, floorLike],
    by simp [$defs,*, un, bin, Prog.rename, own, likeOut, envelopeLike, floorLike],
    by intro j hj
       interval_cases j <;>
         simp [$defs,*, un, bin, Prog.rename, own, likeOut, envelopeLike, floorLike]⟩
  repeat first
    | exact elem_nil
    | apply elem_un
    | apply elem_bin
    | apply elem_rename
    | apply elem_append))

theorem good_db2a :
    Good (C := Cell) Out.db2a 0 1 [0] likeOut := by
  ndfn Out.db2a

theorem good_a2db :
    Good (C := Cell) a2dbFloorless 0 1 [0] likeOut := by
  ndfn a2dbFloorless

theorem good_a2dbFloor :
    Good (C := Cell) a2dbFloored 0 2 [0, 1] likeOut := by
  ndfn a2dbFloored, a2dbFloorless

theorem good_a2dbFloorDb :
    Good (C := Cell) Out.a2dbFloorDb 1 2 [0, 1] floorLike := by
  ndfn Out.a2dbFloorDb, a2dbFloored, a2dbFloorless, Out.db2a

theorem good_bin2f (nfft fs : ℝ) :
    Good (C := Cell) (Out.bin2f nfft fs) 0 1 [0] likeOut := by
  ndfn Out.bin2f

theorem good_barkZ :
    Good (C := Cell) hz2barkZwicker 1 1 [0] likeOut := by
  ndfn hz2barkZwicker

theorem good_barkT :
    Good (C := Cell) hz2barkTraunmuller 1 1 [0] likeOut := by
  ndfn hz2barkTraunmuller

theorem good_barkW :
    Good (C := Cell) hz2barkWang 0 1 [0] likeOut := by
  ndfn hz2barkWang

theorem good_hzT :
    Good (C := Cell) bark2hzTraunmuller 1 1 [0] likeOut := by
  ndfn bark2hzTraunmuller

theorem good_hzW :
    Good (C := Cell) bark2hzWang 0 1 [0] likeOut := by
  ndfn bark2hzWang

theorem good_mel :
    Good (C := Cell) hz2mel 0 1 [0] likeOut := by
  ndfn hz2mel

theorem good_hzMel :
    Good (C := Cell) mel2hz 0 1 [0] likeOut := by
  ndfn mel2hz

theorem good_melFant :
    Good (C := Cell) hz2melFant 0 1 [0] likeOut := by
  ndfn hz2melFant

theorem good_hzFant :
    Good (C := Cell) mel2hzFant 0 1 [0] likeOut := by
  ndfn mel2hzFant

theorem good_erb :
    Good (C := Cell) Out.erb 1 1 [0] likeOut := by
  ndfn Out.erb

theorem good_erbLinear :
    Good (C := Cell) Out.erbLinear 0 1 [0] likeOut := by
  ndfn Out.erbLinear

theorem good_cams :
    Good (C := Cell) hz2cams 1 1 [0] likeOut := by
  ndfn hz2cams

theorem good_camsLinear :
    Good (C := Cell) hz2camsLinear 0 1 [0] likeOut := by
  ndfn hz2camsLinear

theorem good_hzCams :
    Good (C := Cell) cams2hz 1 1 [0] likeOut := by
  ndfn cams2hz

theorem good_hzCamsLinear :
    Good (C := Cell) cams2hzLinear 0 1 [0] likeOut := by
  ndfn cams2hzLinear

theorem good_aWeight :
    Good (C := Cell) aWeighting 2 1 [0] likeOut := by
  ndfn aWeighting

theorem good_envelope (n : ℕ) (tc b : ℝ) (hn : 1 ≤ n) :
    Good (C := Cell) (Out.envelope n tc b) 2 1 [0] envelopeLike := by
  ndfn Out.envelope

theorem good_hinge (a k q : ℝ) :
    Good (C := Cell) (hingeFunction a k q) 0 1 [0] likeOut := by
  ndfn hingeFunction

theorem good_hwr (th : ℝ) :
    Good (C := Cell) (Out.hwr th) 0 1 [0] likeOut := by
  ndfn Out.hwr

theorem good_energy :
    Good (C := Cell) modalEnergy 0 2 [0] likeOut := by
  ndfn modalEnergy

theorem good_decay (a d : ℝ) :
    Good (C := Cell) (exponentialDecay a d) 0 1 [0] likeOut := by
  ndfn exponentialDecay

theorem good_decayDt (a d : ℝ) :
    Good (C := Cell) (exponentialDecayDt a d) 0 1 [0] likeOut := by
  ndfn exponentialDecayDt, exponentialDecay

theorem good_semisum :
    Good (C := Cell) Out.semisum 0 2 [0, 1] likeOut := by
  ndfn Out.semisum

theorem good_semidiff :
    Good (C := Cell) Out.semidiff 0 2 [0, 1] likeOut := by
  ndfn Out.semidiff

/-- **C160**: every function of the list works entry by entry and computes its formula. -/
theorem C160_functions {p : Prog Cell} {nt n : Nat} {sh : List Nat} {like : Nat → Option Nat}
    {f : List (List Cell) → Except PyErr (List Cell)} (h : Fn p nt n sh like f) :
    Good p nt n sh like ∧ Computes p nt n sh f := by
  cases h
  case db2a => exact ⟨good_db2a, C34_db2a⟩
  case a2db => exact ⟨good_a2db, C34_a2db⟩
  case a2dbFloor => exact ⟨good_a2dbFloor, C34_a2db_floor⟩
  case a2dbFloorDb => exact ⟨good_a2dbFloorDb, C34_a2db_floor_db⟩
  case bin2f nfft fs => exact ⟨good_bin2f nfft fs, C34_bin2f nfft fs⟩
  case barkZ => exact ⟨good_barkZ, C34_hz2bark_zwicker⟩
  case barkT => exact ⟨good_barkT, C34_hz2bark_traunmuller⟩
  case barkW => exact ⟨good_barkW, C34_hz2bark_wang⟩
  case hzT => exact ⟨good_hzT, C34_bark2hz_traunmuller⟩
  case hzW => exact ⟨good_hzW, C34_bark2hz_wang⟩
  case mel => exact ⟨good_mel, C34_hz2mel⟩
  case hzMel => exact ⟨good_hzMel, C34_mel2hz⟩
  case melFant => exact ⟨good_melFant, C34_hz2mel_fant⟩
  case hzFant => exact ⟨good_hzFant, C34_mel2hz_fant⟩
  case erb => exact ⟨good_erb, C34_erb⟩
  case erbLinear => exact ⟨good_erbLinear, C34_erb_linear⟩
  case cams => exact ⟨good_cams, C34_hz2cams⟩
  case camsLinear => exact ⟨good_camsLinear, C34_hz2cams_linear⟩
  case hzCams => exact ⟨good_hzCams, C34_cams2hz⟩
  case hzCamsLinear => exact ⟨good_hzCamsLinear, C34_cams2hz_linear⟩
  case aWeight => exact ⟨good_aWeight, C34_a_weighting⟩
  case envelope k tc b hn => exact ⟨good_envelope k tc b hn, C34_envelope k tc b hn⟩
  case hinge a k q => exact ⟨good_hinge a k q, C34_hinge a k q⟩
  case hwr th => exact ⟨good_hwr th, C34_hwr th⟩
  case energy => exact ⟨good_energy, C34_modal_energy⟩
  case decay a d => exact ⟨good_decay a d, C34_exponential_decay a d⟩
  case decayDt a d => exact ⟨good_decayDt a d, C34_exponential_decay_dt a d⟩
  case semisum => exact ⟨good_semisum, C34_semisum⟩
  case semidiff => exact ⟨good_semidiff, C34_semidiff⟩

/-- **C160**, one array argument without `out`: every function succeeds on an array of any shape and
returns a new array of that shape (a scalar for a scalar) with its formula at every entry; the
argument is left as it is. -/
theorem C160_one {p : Prog Cell} {nt : Nat} {sh : List Nat} {like : Nat → Option Nat}
    {g : ℝ → Cell} (hF : Fn p nt 1 sh like (pw1 g)) (h : Heap Cell) (a : Nat) (ha : a < h.next) :
    ∃ h' r, numpyOut p nt like h [a] none = .ok (h', r) ∧ r.shape h' = (h.mem a).shape ∧
      (∀ i, Index (h.mem a).shape i → r.entry h' i = ((h.mem a).val i).bind g) ∧
      ((∃ c, r = .scalar c) ↔ (h.mem a).shape = []) ∧ h'.mem a = h.mem a := by
  obtain ⟨hp, hc⟩ := C160_functions hF
  obtain ⟨h', r, h1, h2, h3, h4, _, _, _, h5⟩ := C160_result hp hc h a [] none rfl (by simpa using ha)
    (by simp) (by simp) _ rfl (by simp [fits_refl])
  refine ⟨h', r, h1, h2, ?_, by simpa using h4, h5 a ha (by simp)⟩
  intro i hi
  have := h3 i hi
  simp only [pw1, List.map_cons, List.map_nil, Except.ok.injEq, List.cons.injEq, and_true] at this
  rw [← this]
  simp only [Arr.get, proj_index hi]

/-- **C160**, two array arguments without `out`: the call succeeds exactly if the second argument
fits the shape of the *first*, and raises `ValueError` otherwise; broadcasting is in one direction
only. -/
theorem C160_two {p : Prog Cell} {nt : Nat} {sh : List Nat} {like : Nat → Option Nat}
    {g : ℝ → ℝ → Cell} (hF : Fn p nt 2 sh like (pw2 g)) (h : Heap Cell) (a d : Nat)
    (ha : a < h.next) (hd : d < h.next) :
    if fits (h.mem d).shape (h.mem a).shape then
      ∃ h' r, numpyOut p nt like h [a, d] none = .ok (h', r) ∧ r.shape h' = (h.mem a).shape ∧
        (∀ i, Index (h.mem a).shape i → r.entry h' i =
          ((h.mem a).val i).bind fun x => ((h.mem d).get i).bind fun y => g x y) ∧
        ((∃ c, r = .scalar c) ↔ (h.mem a).shape = []) ∧
        h'.mem a = h.mem a ∧ h'.mem d = h.mem d
    else numpyOut p nt like h [a, d] none = .error .valueError := by
  obtain ⟨hp, hc⟩ := C160_functions hF
  by_cases hf : fits (h.mem d).shape (h.mem a).shape = true
  · rw [if_pos hf]
    obtain ⟨h', r, h1, h2, h3, h4, _, _, _, h5⟩ := C160_result hp hc h a [d] none rfl
      (by simp [ha, hd]) (by simp) (by simp) _ rfl (by simp [fits_refl, hf])
    refine ⟨h', r, h1, h2, ?_, by simpa using h4, h5 a ha (by simp), h5 d hd (by simp)⟩
    intro i hi
    have := h3 i hi
    simp only [pw2, List.map_cons, List.map_nil, List.length_cons, List.length_nil, if_true,
      List.zipWith_cons_cons, List.zipWith_nil_left, Except.ok.injEq, List.cons.injEq,
      and_true] at this
    rw [← this]
    simp only [Arr.get, proj_index hi]
  · rw [if_neg hf]
    exact C160_mismatch hp h a [d] none rfl (by simp [ha, hd]) (by simp) _ rfl
      ⟨d, by simp, by simpa using hf⟩

/-- **C160**: two arguments can be exchanged only if they have the same shape. -/
theorem fits_antisymm : ∀ {s T : List Nat}, fits s T = true → fits T s = true → s = T
  | [], [], _, _ => rfl
  | [], _ :: _, _, h => by simp [fits] at h
  | _ :: _, [], h, _ => by simp [fits] at h
  | a :: s, b :: T, h1, h2 => by
    simp only [fits, Bool.and_eq_true, Bool.or_eq_true, decide_eq_true_eq] at h1 h2
    rw [fits_antisymm h1.2 h2.2]
    congr 1
    omega

/-- **C160** (finding): although the semisum is symmetric, `semisum(x, y)` and `semisum(y, x)`
both succeed only if `x` and `y` have the same shape; a scalar is accepted as second argument only. -/
theorem C160_order (h : Heap Cell) (a d : Nat) (ha : a < h.next) (hd : d < h.next) :
    ((∃ q, numpyOut semisum 0 likeOut h [a, d] none = .ok q) ∧
      ∃ q, numpyOut semisum 0 likeOut h [d, a] none = .ok q) ↔
    (h.mem a).shape = (h.mem d).shape := by
  have h1 := C160_two Fn.semisum h a d ha hd
  have h2 := C160_two Fn.semisum h d a hd ha
  constructor
  · rintro ⟨⟨q1, hq1⟩, q2, hq2⟩
    by_cases f1 : fits (h.mem d).shape (h.mem a).shape = true
    · by_cases f2 : fits (h.mem a).shape (h.mem d).shape = true
      · exact fits_antisymm f2 f1
      · rw [if_neg f2, hq2] at h2; simp at h2
    · rw [if_neg f1, hq1] at h1; simp at h1
  · intro he
    rw [he] at h1 h2
    simp only [fits_refl, if_true] at h1 h2
    obtain ⟨_, _, h1, _⟩ := h1
    obtain ⟨_, _, h2, _⟩ := h2
    exact ⟨⟨_, h1⟩, _, h2⟩

/-! ## `GammatoneFilter.wavefun` -/

/-- **C160** (finding): `GammatoneFilter.wavefun` raises `TypeError` for a scalar time without
`out`, for every filter. -/
theorem C160_wavefun_scalar (n : ℕ) (f tc b phi : ℝ) (hn : 1 ≤ n) (h : Heap Cell) (t : Nat)
    (ht : t < h.next) (hs : (h.mem t).shape = []) :
    wavefun n f tc b phi h t none = .error .typeError := by
  obtain ⟨h', r, h1, _, _, h4, _⟩ := C160_one (Fn.envelope n tc b hn) h t ht
  obtain ⟨c, rfl⟩ := h4.2 hs
  unfold wavefun
  rw [h1]

/-- **C160**: otherwise it returns the impulse response at every entry of an array of any shape,
also when it is broadcast into a larger `out`. -/
theorem C160_wavefun (n : ℕ) (f tc b phi : ℝ) (hn : 1 ≤ n) (h : Heap Cell) (t : Nat)
    (out : Option Nat) (ht : t < h.next) (hout : ∀ r, out = some r → r < h.next ∧ r ≠ t)
    (T : List Nat) (hT : T = (h.mem (out.getD t)).shape)
    (hsc : out = none → (h.mem t).shape ≠ [])
    (hfit : fits (h.mem t).shape T = true) :
    ∃ h' r, wavefun n f tc b phi h t out = .ok (h', .array r) ∧ (h'.mem r).shape = T ∧
      (∀ i, Index T i → (h'.mem r).val i = ((h.mem t).get i).map fun x =>
        gammatone n tc b x * Real.cos (2 * Real.pi * f * x + phi)) ∧
      (∀ o, out = some o → r = o) ∧ (out = none → h.next ≤ r) ∧
      ∀ x, x < h.next → out ≠ some x → h'.mem x = h.mem x := by
  obtain ⟨hp, hc⟩ := C160_functions (Fn.envelope n tc b hn)
  obtain ⟨h1, q, hq, hqs, hqv, hqsc, hqo, hqn, hnx, hold⟩ := C160_result hp hc h t [] out rfl
    (by simpa using ht) (fun r hr => (hout r hr).1)
    (fun r hr i hi => by
      have hm := List.mem_of_getElem? hi
      simp at hm
      exact absurd hm (hout r hr).2) T hT (by simpa using hfit)
  obtain ⟨r, rfl⟩ : ∃ r, q = .array r := by
    cases q with
    | array r => exact ⟨r, rfl⟩
    | scalar c =>
      obtain ⟨ho, hs⟩ := hqsc.1 ⟨c, rfl⟩
      exact absurd hs (hsc ho)
  simp only [Res.shape] at hqs
  have hro : ∀ o, out = some o → r = o := fun o ho => by simpa using hqo o ho
  have hrn : out = none → h.next ≤ r := fun ho => (hqn ho r rfl).1
  have hr1 : r < h1.next := by
    cases hoc : out with
    | none => exact (hqn hoc r rfl).2
    | some o => have := hro o hoc; have := (hout o hoc).1; omega
  have hrt : r ≠ t := by
    cases hoc : out with
    | none => have := hrn hoc; omega
    | some o => rw [hro o hoc]; exact (hout o hoc).2
  have htm : h1.mem t = h.mem t := hold t ht (fun he => (hout t he).2 rfl)
  set m0 := alloc h1.mem [t] h1.next 1 likeOut (h1.mem r).shape with hm0
  have hold0 : ∀ x, x < h1.next → m0 x = h1.mem x := by
    intro x hx
    rw [hm0]
    unfold alloc
    rw [if_neg (by omega)]
  have htmp : (m0 h1.next).shape = T := by
    rw [hm0]
    unfold alloc
    rw [if_pos (by omega)]
    simpa [likeOut] using hqs
  have hb := apart_bindOf (shared := []) (args := [t]) (o := r) (base := h1.next)
    (by simp; omega) hr1 (by
      intro i hi
      have hm := List.mem_of_getElem? hi
      simp at hm
      exact absurd hm hrt)
  have s_arg : (m0 (bindOf [t] r h1.next (.arg 0))).shape = (h.mem t).shape := by
    simp only [bindOf, List.getD_cons_zero]
    rw [hold0 t (by omega), htm]
  have s_out : (m0 (bindOf [t] r h1.next .out)).shape = T := by
    simp only [bindOf]
    rw [hold0 r hr1, hqs]
  have s_tmp : (m0 (bindOf [t] r h1.next (.tmp 0))).shape = T := by
    simp only [bindOf]
    exact htmp
  have hFit : Fit (bindOf [t] r h1.next) m0 (oscillate f phi) := by
    intro s hs v hv
    simp only [oscillate, List.mem_cons, List.not_mem_nil, or_false] at hs
    rcases hs with rfl | rfl | rfl | rfl
    · simp only [un, List.mem_singleton] at hv ⊢
      subst hv
      rw [s_arg, s_tmp]; exact hfit
    · simp only [un, List.mem_singleton] at hv ⊢
      subst hv
      rw [s_tmp]; exact fits_refl _
    · simp only [un, List.mem_singleton] at hv ⊢
      subst hv
      rw [s_tmp]; exact fits_refl _
    · simp only [bin, List.mem_cons, List.not_mem_nil, or_false] at hv ⊢
      rcases hv with rfl | rfl
      · exact fits_refl _
      · rw [s_tmp, s_out]; exact fits_refl _
  obtain ⟨m', hrun, hms, hmo⟩ := run_fit (oscillate f phi) m0 hFit
  refine ⟨⟨m', h1.next + 1⟩, r, ?_, ?_, ?_, hro, hrn, ?_⟩
  · unfold wavefun
    rw [hq]
    simp only
    rw [← hm0, hrun]
  · simp only
    rw [hms, hold0 r hr1, hqs]
  · intro i hi
    have hil := index_length hi
    obtain ⟨e', he, hv⟩ := run_sem hb i (oscillate f phi) [.out] m0 m'
      (fun v => [(m0 (bindOf [t] r h1.next v)).get i]) (by simp)
      (by simp [oscillate, ok, un, bin]) (by simp [oscillate, arity, un, bin])
      (elem_un _ _ _ (elem_un _ _ _ (elem_un _ _ _ (elem_bin _ _ _ _ elem_nil)))) hFit
      (by
        intro s hs
        simp only [oscillate, List.mem_cons, List.not_mem_nil, or_false] at hs
        rcases hs with rfl | rfl | rfl | rfl
        · simp only [un]; rw [s_tmp, hil]
        · simp only [un]; rw [s_tmp, hil]
        · simp only [un]; rw [s_tmp, hil]
        · simp only [bin]; rw [s_out, hil])
      ⟨fun v _ => rfl, fun j _ _ => rfl⟩ hrun
    have hfin := hv .out (by simp)
    have e1 : (m0 (bindOf [t] r h1.next (.arg 0))).get i = (h.mem t).get i := by
      simp only [bindOf, List.getD_cons_zero]
      rw [hold0 t (by omega), htm]
    have e2 : (m0 (bindOf [t] r h1.next .out)).get i =
        ((h.mem t).get i).bind fun x => some (gammatone n tc b x) := by
      simp only [bindOf]
      rw [hold0 r hr1]
      have := hqv i hi
      simp only [pw1, List.map_cons, List.map_nil, Except.ok.injEq, List.cons.injEq, and_true,
        Res.entry] at this
      rw [this]
      simp only [Arr.get, hqs, proj_index hi]
    simp only [oscillate, sem, un, bin, List.map_cons, List.map_nil, if_true, reduceCtorEq,
      if_false, List.length_cons, List.length_nil, List.zipWith_cons_cons, List.zipWith_nil_left,
      Except.ok.injEq, e1, e2] at he
    subst he
    simp only [if_true, List.cons.injEq, and_true, bindOf] at hfin
    have hg : (m' r).get i = (m' r).val i := by
      unfold Arr.get
      rw [hms, hold0 r hr1, hqs, proj_index hi]
    rw [← hg, ← hfin]
    cases (h.mem t).get i <;> simp [op2]
  · intro x hx hne
    simp only
    rw [hmo x ?_, hold0 x (by omega), hold x hx hne]
    intro v hv
    have hv' : v = .tmp 0 ∨ v = .out := by
      simp only [oscillate, un, bin, List.map_cons, List.map_nil, List.mem_cons, List.not_mem_nil,
        or_false] at hv
      tauto
    rcases hv' with rfl | rfl
    · simp only [bindOf]; omega
    · simp only [bindOf]
      intro heq
      cases hoc : out with
      | none => have := hrn hoc; omega
      | some o => exact hne (by rw [hoc, ← heq, hro o hoc])

/-- **C160**: times that do not fit `out` are refused with `ValueError`. -/
theorem C160_wavefun_mismatch (n : ℕ) (f tc b phi : ℝ) (hn : 1 ≤ n) (h : Heap Cell) (t o : Nat)
    (ht : t < h.next) (ho : o < h.next) (hfit : fits (h.mem t).shape (h.mem o).shape = false) :
    wavefun n f tc b phi h t (some o) = .error .valueError := by
  have := C160_mismatch (C160_functions (Fn.envelope n tc b hn)).1 h t [] (some o) rfl
    (by simpa using ht) (by simpa using ho) _ rfl ⟨t, by simp, hfit⟩
  unfold wavefun
  rw [this]

/-! ## Cases -/

/-- A 2 by 3 array `x` and a row of 3 entries `y`; a scalar `z`. -/
noncomputable def exHeap : Heap Cell :=
  ⟨fun r => if r = 0 then ⟨[3, 2], fun i => some (i.getD 0 0 + 10 * i.getD 1 0)⟩
    else if r = 1 then ⟨[3], fun i => some (100 * (i.getD 0 0))⟩ else ⟨[], fun _ => some 7⟩, 3⟩

/-- `semisum(x, y)`: the row is repeated. -/
example : ∃ h' r, numpyOut semisum 0 likeOut exHeap [0, 1] none = .ok (h', r) ∧
    r.shape h' = [3, 2] ∧ r.entry h' [2, 1] = some 106 := by
  have h := C160_two Fn.semisum exHeap 0 1 (by simp [exHeap]) (by simp [exHeap])
  rw [if_pos (by decide)] at h
  obtain ⟨h', r, h1, h2, h3, _⟩ := h
  refine ⟨h', r, h1, h2, ?_⟩
  rw [h3 [2, 1] (by simp [exHeap, Index])]
  simp [exHeap, Arr.get, proj]
  norm_num

/-- `semisum(y, x)` fails, and so does `semisum(z, x)`. -/
example : numpyOut semisum 0 likeOut exHeap [1, 0] none = .error .valueError ∧
    numpyOut semisum 0 likeOut exHeap [2, 0] none = .error .valueError := by
  have h1 := C160_two Fn.semisum exHeap 1 0 (by simp [exHeap]) (by simp [exHeap])
  have h2 := C160_two Fn.semisum exHeap 2 0 (by simp [exHeap]) (by simp [exHeap])
  rw [if_neg (by decide)] at h1
  rw [if_neg (by decide)] at h2
  exact ⟨h1, h2⟩

/-- `hz2mel` of a scalar is a scalar. -/
example : ∃ h' c, numpyOut hz2mel 0 likeOut exHeap [2] none = .ok (h', .scalar c) := by
  obtain ⟨h', r, h1, _, _, h4, _⟩ := C160_one Fn.mel exHeap 2 (by simp [exHeap])
  obtain ⟨c, rfl⟩ := h4.2 (by simp [exHeap])
  exact ⟨h', c, h1⟩

/-- The impulse response of a row of times, written into a 2 by 3 array. -/
example : ∃ h' r, wavefun (1 : ℕ) 1 0 1 0 exHeap 1 (some 0) = .ok (h', .array r) ∧
    (h'.mem r).shape = [3, 2] := by
  obtain ⟨h', r, h1, h2, _⟩ := C160_wavefun 1 1 0 1 0 (by simp) exHeap 1 (some 0)
    (by simp [exHeap]) (by simp [exHeap]) [3, 2] (by simp [exHeap]) (by simp) (by decide)
  exact ⟨h', r, h1, h2⟩

end Verif.Out.Nd
