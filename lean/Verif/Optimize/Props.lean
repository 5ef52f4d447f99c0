import Verif.Optimize.Model
import Verif.Utils.DeprecatedProps
import Mathlib.Tactic.Linarith
import Mathlib.Tactic.Ring
import Mathlib.Tactic.NormNum
import Mathlib.Data.Rat.Floor
import Mathlib.Data.List.TakeWhile

/-!
# The keyword remapper (C29), the optimiser (C30) and its progress callback (C66)
-/

set_option autoImplicit false
set_option linter.unusedSectionVars false
set_option linter.unusedSimpArgs false

namespace Verif.Optimize

open Verif.Utils

variable {K : Type} [Field K] [LinearOrder K] [IsStrictOrderedRing K] [FloorRing K]

/-! ## Lemmas -/

theorem get?_restOf (kw : Dict (RVal K)) (k : String) :
    (restOf kw).get? k = if k ∈ remapParams then none else kw.get? k := by
  unfold restOf
  generalize remapParams = l
  induction l generalizing kw with
  | nil => simp
  | cons a l ih =>
    rw [List.foldl_cons, ih, Dict.get?_erase]
    by_cases h1 : k ∈ l <;> by_cases h2 : k = a <;> simp [h1, h2]

theorem ok_restOf (kw : Dict (RVal K)) (hok : Dict.Ok kw) : Dict.Ok (restOf kw) := by
  unfold restOf
  generalize remapParams = l
  induction l generalizing kw with
  | nil => exact hok
  | cons a l ih => exact ih _ (Dict.ok_erase _ _ hok)

theorem remapN_spec (logn : RVal K) (kw r : Dict (RVal K)) (hok : Dict.Ok kw)
    (h : remapN logn kw = .ok r) :
    Dict.Ok r ∧ (∀ k, k ≠ "sinusoidal__n" → r.get? k = kw.get? k) ∧
    (∀ v, kw.get? "sinusoidal__n" = some v → r.get? "sinusoidal__n" = some v) ∧
    (logn = .none → r.get? "sinusoidal__n" = kw.get? "sinusoidal__n") ∧
    (logn ≠ .none → kw.get? "sinusoidal__n" = none →
      ∃ k : Nat, logn = .int k ∧ r.get? "sinusoidal__n" = some (.int (2 ^ k))) := by
  by_cases hl : logn = .none
  · subst hl
    simp only [remapN, Except.ok.injEq] at h
    subst h
    exact ⟨hok, fun _ _ => rfl, fun _ h => h, fun _ => rfl, fun h => absurd rfl h⟩
  · have he : remapN logn kw = if kw.has "sinusoidal__n" then .ok kw
        else match shift logn with
          | .ok n => .ok (kw.set "sinusoidal__n" n)
          | .error e => .error e := by
      cases logn <;> first | exact absurd rfl hl | rfl
    rw [he] at h
    cases hn : kw.get? "sinusoidal__n" with
    | some v =>
      simp only [Dict.has, hn, Option.isSome_some, if_true, Except.ok.injEq] at h
      subst h
      exact ⟨hok, fun _ _ => rfl, fun w hw => hn.trans hw, fun h => absurd h hl, fun _ h => by simp at h⟩
    | none =>
      simp only [Dict.has, hn, Option.isSome_none, Bool.false_eq_true, if_false] at h
      cases logn with
      | int n =>
        by_cases h0 : 0 ≤ n
        · simp only [shift, h0, if_true, Except.ok.injEq] at h
          subst h
          refine ⟨Dict.ok_set _ _ _ hok, fun k hk => Dict.get?_set_ne _ _ _ _ hk, by simp,
            fun h => absurd h hl, fun _ _ => ⟨n.toNat, ?_, ?_⟩⟩
          · congr 1; omega
          · rw [Dict.get?_set_self]
        · simp [shift, h0] at h
      | none => exact absurd rfl hl
      | num x => simp [shift] at h
      | str s => simp [shift] at h
      | arr m => simp [shift] at h
      | obj i => simp [shift] at h

theorem remapW_spec (env : Env K) (wtype wsize : RVal K) (kw r : Dict (RVal K)) (hok : Dict.Ok kw)
    (h : remapW env wtype wsize kw = .ok r) :
    Dict.Ok r ∧ (∀ k, k ≠ "sinusoidal__w" → r.get? k = kw.get? k) ∧
    (∀ v, kw.get? "sinusoidal__w" = some v → r.get? "sinusoidal__w" = some v) ∧
    (kw.get? "sinusoidal__w" = none → ∃ (m : Nat) (nv : RVal K) (n q : K),
      fftOf env kw = .ok nv ∧ nv.toNum = .ok n ∧ wsize.toNum = .ok q ∧
      r.get? "sinusoidal__w" = some (.arr m) ∧ (m : Int) = truncInt (n * q)) := by
  unfold remapW at h
  cases hw : kw.get? "sinusoidal__w" with
  | some v =>
    simp only [Dict.has, hw, Option.isSome_some, if_true, Except.ok.injEq] at h
    subst h
    exact ⟨hok, fun _ _ => rfl, fun w hw' => hw.trans hw', by simp⟩
  | none =>
    simp only [Dict.has, hw, Option.isSome_none, Bool.false_eq_true, if_false] at h
    cases ha : env.accepts kw with
    | error e => simp [fftSize, ha, bind, Except.bind] at h
    | ok u =>
      cases h1 : fftOf env kw with
      | error e => simp [fftSize, ha, h1, bind, Except.bind] at h
      | ok nv =>
        cases h2 : nv.toNum with
        | error e => simp [fftSize, ha, h1, h2, bind, Except.bind] at h
        | ok n =>
          cases h3 : wsize.toNum with
          | error e => simp [fftSize, ha, h1, h2, h3, bind, Except.bind] at h
          | ok q =>
            cases h4 : getWindow env wtype (truncInt (n * q)) with
            | error e => simp [fftSize, ha, h1, h2, h3, h4, bind, Except.bind] at h
            | ok w =>
              simp only [fftSize, ha, h1, h2, h3, h4, bind, Except.bind, pure, Except.pure,
                Except.ok.injEq] at h
              subst h
              refine ⟨Dict.ok_set _ _ _ hok, fun k hk => Dict.get?_set_ne _ _ _ _ hk, by simp,
                fun _ => ?_⟩
              unfold getWindow at h4
              cases wtype with
              | str s =>
                simp only at h4
                split at h4
                · rename_i hc
                  simp only [Except.ok.injEq] at h4
                  refine ⟨(truncInt (n * q)).toNat, nv, n, q, rfl, h2, rfl, ?_, ?_⟩
                  · rw [Dict.get?_set_self, ← h4]
                  · omega
                · cases h4
              | none => cases h4
              | int n => cases h4
              | num n => cases h4
              | arr n => cases h4
              | obj n => cases h4

theorem remapH_spec (env : Env K) (overlap : RVal K) (kw r : Dict (RVal K)) (hok : Dict.Ok kw)
    (h : remapH env overlap kw = .ok r) :
    Dict.Ok r ∧ (∀ k, k ≠ "sinusoidal__tracker__h" → r.get? k = kw.get? k) ∧
    (∀ v, kw.get? "sinusoidal__tracker__h" = some v →
      r.get? "sinusoidal__tracker__h" = some v) ∧
    (kw.get? "sinusoidal__tracker__h" = none → ∃ (m : Nat) (o : K),
      windowOf env kw = .ok m ∧ overlap.toNum = .ok o ∧
      r.get? "sinusoidal__tracker__h" = some (.int (hopSize o m))) := by
  unfold remapH at h
  cases hw : kw.get? "sinusoidal__tracker__h" with
  | some v =>
    simp only [Dict.has, hw, Option.isSome_some, if_true, Except.ok.injEq] at h
    subst h
    exact ⟨hok, fun _ _ => rfl, fun w hw' => hw.trans hw', by simp⟩
  | none =>
    simp only [Dict.has, hw, Option.isSome_none, Bool.false_eq_true, if_false] at h
    cases ha : env.accepts kw with
    | error e => simp [windowSize, ha, bind, Except.bind] at h
    | ok u =>
      cases h1 : windowOf env kw with
      | error e => simp [windowSize, ha, h1, bind, Except.bind] at h
      | ok m =>
        cases h2 : overlap.toNum with
        | error e => simp [windowSize, ha, h1, h2, bind, Except.bind] at h
        | ok o =>
          simp only [windowSize, ha, h1, h2, bind, Except.bind, pure, Except.pure,
            Except.ok.injEq] at h
          subst h
          exact ⟨Dict.ok_set _ _ _ hok, fun k hk => Dict.get?_set_ne _ _ _ _ hk, by simp,
            fun _ => ⟨m, o, rfl, rfl, Dict.get?_set_self _ _ _⟩⟩

theorem windowOf_congr (env : Env K) (a b : Dict (RVal K))
    (h1 : a.get? "sinusoidal__w" = b.get? "sinusoidal__w")
    (h2 : a.get? "sinusoidal" = b.get? "sinusoidal") : windowOf env a = windowOf env b := by
  unfold windowOf; rw [h1, h2]

theorem fftOf_congr (env : Env K) (a b : Dict (RVal K))
    (h1 : a.get? "sinusoidal__n" = b.get? "sinusoidal__n")
    (h2 : a.get? "sinusoidal" = b.get? "sinusoidal") : fftOf env a = fftOf env b := by
  unfold fftOf; rw [h1, h2]

/-! ## C29 -/

/-- C29.  Whenever the remapper returns: (1) its own parameters are gone and every other argument
given is kept, the explicit FFT size, window and hop size included; nothing else is added but those
three; (2) a missing FFT size is `2 ^ log_n` if `log_n` is given (then a natural number), and stays
missing otherwise; (3) a missing window gets the size of the integer part of the fraction of the
effective FFT size (so at most the FFT size for a fraction between 0 and 1); (4) a missing hop size
is between 1 and the size of the effective window, for every overlap and every non-empty window, and
for an overlap between 0 and 1 it is the integer part of `(1 - overlap) * size`, but at least 1. -/
theorem C29_remapper (env : Env K) (kw r : Dict (RVal K)) (hok : Dict.Ok kw)
    (h : remapperCore env kw = .ok r) :
    Dict.Ok r ∧
    (∀ k, k ∈ remapParams → r.get? k = none) ∧
    (∀ k v, k ∉ remapParams → kw.get? k = some v → r.get? k = some v) ∧
    (∀ k, k ∉ remapParams → k ≠ "sinusoidal__n" → k ≠ "sinusoidal__w" →
      k ≠ "sinusoidal__tracker__h" → r.get? k = kw.get? k) ∧
    (kw.get? "sinusoidal__n" = none →
      ((kw.get? "sinusoidal__log_n").getD .none = .none → r.get? "sinusoidal__n" = none) ∧
      ∀ v, kw.get? "sinusoidal__log_n" = some v → v ≠ .none →
        ∃ k : Nat, v = .int k ∧ r.get? "sinusoidal__n" = some (.int (2 ^ k))) ∧
    (kw.get? "sinusoidal__w" = none → ∃ (m : Nat) (nv : RVal K) (n q : K),
      r.get? "sinusoidal__w" = some (.arr m) ∧ fftOf env r = .ok nv ∧ nv.toNum = .ok n ∧
      ((kw.get? "sinusoidal__wsize").getD (.num 1)).toNum = .ok q ∧
      (0 ≤ n → 0 ≤ q → (m : K) ≤ n * q ∧ n * q < m + 1) ∧
      (0 ≤ n → 0 ≤ q → q ≤ 1 → (m : K) ≤ n)) ∧
    (kw.get? "sinusoidal__tracker__h" = none → ∃ (hop : Int) (m : Nat) (o : K),
      r.get? "sinusoidal__tracker__h" = some (.int hop) ∧ windowOf env r = .ok m ∧
      ((kw.get? "sinusoidal__overlap").getD (.num (1 / 2))).toNum = .ok o ∧
      1 ≤ hop ∧ (1 ≤ m → hop ≤ m) ∧ (0 ≤ o → o ≤ 1 → hop = max ⌊(1 - o) * (m : K)⌋ 1)) := by
  unfold remapperCore at h
  simp only [bind, Except.bind] at h
  cases hn : remapN ((kw.get? "sinusoidal__log_n").getD .none) (restOf kw) with
  | error e => rw [hn] at h; cases h
  | ok k1 =>
    rw [hn] at h
    simp only at h
    cases hw : remapW env ((kw.get? "sinusoidal__wtype").getD (.str "hamming"))
        ((kw.get? "sinusoidal__wsize").getD (.num 1)) k1 with
    | error e => rw [hw] at h; cases h
    | ok k2 =>
      rw [hw] at h
      simp only at h
      obtain ⟨o1, a1, b1, c1, d1⟩ := remapN_spec _ _ _ (ok_restOf kw hok) hn
      obtain ⟨o2, a2, b2, c2⟩ := remapW_spec env _ _ _ _ o1 hw
      obtain ⟨o3, a3, b3, c3⟩ := remapH_spec env _ _ _ o2 h
      have hother : ∀ k, k ∉ remapParams → k ≠ "sinusoidal__n" → k ≠ "sinusoidal__w" →
          k ≠ "sinusoidal__tracker__h" → r.get? k = kw.get? k := by
        intro k n0 n1 n2 n3
        rw [a3 k n3, a2 k n2, a1 k n1, get?_restOf, if_neg n0]
      have hN : ∀ v, kw.get? "sinusoidal__n" = v → (restOf kw).get? "sinusoidal__n" = v := by
        intro v hv
        rw [get?_restOf, if_neg (by decide), hv]
      have hrn : r.get? "sinusoidal__n" = k1.get? "sinusoidal__n" := by
        rw [a3 _ (by decide), a2 _ (by decide)]
      have hrw : r.get? "sinusoidal__w" = k2.get? "sinusoidal__w" := a3 _ (by decide)
      have hrs : r.get? "sinusoidal" = kw.get? "sinusoidal" :=
        hother _ (by decide) (by decide) (by decide) (by decide)
      have hW : kw.get? "sinusoidal__w" = k1.get? "sinusoidal__w" := by
        rw [a1 _ (by decide), get?_restOf, if_neg (by decide)]
      have hH : kw.get? "sinusoidal__tracker__h" = k2.get? "sinusoidal__tracker__h" := by
        rw [a2 _ (by decide), a1 _ (by decide), get?_restOf, if_neg (by decide)]
      refine ⟨o3, ?_, ?_, hother, ?_, ?_, ?_⟩
      · intro k hk
        have n1 : k ≠ "sinusoidal__n" := by rintro rfl; revert hk; decide
        have n2 : k ≠ "sinusoidal__w" := by rintro rfl; revert hk; decide
        have n3 : k ≠ "sinusoidal__tracker__h" := by rintro rfl; revert hk; decide
        rw [a3 k n3, a2 k n2, a1 k n1, get?_restOf, if_pos hk]
      · intro k v hk hv
        by_cases n1 : k = "sinusoidal__n"
        · subst n1
          rw [hrn]
          exact b1 v (hN _ hv)
        · by_cases n2 : k = "sinusoidal__w"
          · subst n2
            rw [hrw]
            exact b2 v (hW.symm.trans hv)
          · by_cases n3 : k = "sinusoidal__tracker__h"
            · subst n3
              exact b3 v (hH.symm.trans hv)
            · rw [hother k hk n1 n2 n3, hv]
      · intro h0
        refine ⟨fun hl => ?_, fun v hv hne => ?_⟩
        · rw [hrn, c1 hl, hN _ h0]
        · rw [hrn]
          rw [hv] at d1
          exact d1 hne (hN _ h0)
      · intro h0
        obtain ⟨m, nv, n, q, f1, f2, f3, f4, f5⟩ := c2 (hW.symm.trans h0)
        have hbound : 0 ≤ n → 0 ≤ q → (m : K) ≤ n * q ∧ n * q < m + 1 := by
          intro p1 p2
          have hm : (m : Int) = ⌊n * q⌋ := by
            rw [f5, truncInt, if_pos (mul_nonneg p1 p2)]
          have e1 := Int.floor_le (n * q)
          have e2 := Int.lt_floor_add_one (n * q)
          rw [← hm] at e1 e2
          exact ⟨by exact_mod_cast e1, by exact_mod_cast e2⟩
        refine ⟨m, nv, n, q, hrw.trans f4, ?_, f2, f3, hbound, ?_⟩
        · rw [← f1]
          apply fftOf_congr
          · exact hrn
          · rw [hrs, a1 _ (by decide), get?_restOf, if_neg (by decide)]
        · intro p1 p2 p3
          have := (hbound p1 p2).1
          nlinarith
      · intro h0
        obtain ⟨m, o, f1, f2, f3⟩ := c3 (hH.symm.trans h0)
        refine ⟨hopSize o m, m, o, f3, ?_, f2, ?_, ?_, ?_⟩
        · rw [← f1]
          apply windowOf_congr
          · exact hrw
          · rw [a3 _ (by decide)]
        · exact le_max_right _ _
        · intro hm
          unfold hopSize
          apply max_le
          · exact min_le_right _ _
          · exact_mod_cast hm
        · intro p1 p2
          have hm0 : (0 : K) ≤ (m : K) := Nat.cast_nonneg m
          have hnn : 0 ≤ (1 - o) * (m : K) := mul_nonneg (by linarith) hm0
          unfold hopSize truncInt
          rw [if_pos hnn]
          congr 1
          apply min_eq_left
          have : (1 - o) * (m : K) ≤ m := by nlinarith
          have h2 : ⌊(1 - o) * (m : K)⌋ ≤ ⌊((m : Int) : K)⌋ := Int.floor_le_floor (by exact_mod_cast this)
          simpa using h2

/-- C29.  The deprecated names of the remapper's parameters work like the new ones. -/
theorem C29_deprecated (env : Env K) (kw : Dict (RVal K)) (hok : Dict.Ok kw) :
    ∃ kw' : Dict (RVal K),
      remapper env [] kw = (givenWarnings remapperNames kw, remapperCore env kw') ∧
      Dict.Ok kw' ∧ (∀ p ∈ remapperNames, kw'.get? p.1 = none ∧
        kw'.get? p.2 = (kw.get? p.1).or (kw.get? p.2)) ∧
      ∀ k, k ∉ remapperNames.map Prod.fst → k ∉ remapperNames.map Prod.snd →
        kw'.get? k = kw.get? k := by
  obtain ⟨kw', e, ok', h1, h2⟩ := C31_chain remapperNames remapperNames_ok.1 remapperNames_ok.2
    (remapperEntry env) [] kw hok
  refine ⟨kw', ?_, ok', ?_, ?_⟩
  · rw [remapper, e]
    simp [remapperEntry, mergeKw, bind, Except.bind]
  · intro p hp
    refine ⟨h1 _ (List.mem_map.2 ⟨p, hp, rfl⟩), ?_⟩
    have hnot : p.2 ∉ remapperNames.map Prod.fst := by
      intro hm
      obtain ⟨q, hq, he⟩ := List.mem_map.1 hm
      exact remapperNames_ok.2 p hp q hq he.symm
    rw [h2 _ hnot, winner_of_mem remapperNames (by decide +kernel) kw p.1 p.2 hp]
  · intro k n1 n2
    rw [h2 k n1, winner_none_of_olds _ _ _ n2]
    simp

/-! ## C30 -/

section C30

variable {V M Ω : Type}

/-- Spec: the named point: coordinate `i` under the name of dimension `i`, the fixed arguments under
their own names, nothing else. -/
def NamedPoint (dims : List String) (args : List V) (kw full : Dict V) : Prop :=
  (∀ (i : Nat) k, dims[i]? = some k → full.get? k = args[i]?) ∧
  ∀ k, k ∉ dims → full.get? k = kw.get? k

theorem get?_zip (dims : List String) (hnd : dims.Nodup) (args : List V)
    (hlen : args.length = dims.length) :
    (∀ (i : Nat) k, dims[i]? = some k → (Dict.get? (dims.zip args) k) = args[i]?) ∧
    (∀ k, k ∉ dims → Dict.get? (dims.zip args) k = none) := by
  induction dims generalizing args with
  | nil => simp [Dict.get?]
  | cons d dims ih =>
    cases args with
    | nil => simp at hlen
    | cons a args =>
      simp only [List.nodup_cons] at hnd
      obtain ⟨h1, h2⟩ := ih hnd.2 args (by simpa using hlen)
      constructor
      · intro i k hi
        cases i with
        | zero =>
          simp only [List.getElem?_cons_zero, Option.some.injEq] at hi
          subst hi
          simp [Dict.get?]
        | succ i =>
          simp only [List.getElem?_cons_succ] at hi
          have hne : d ≠ k := by
            rintro rfl
            exact hnd.1 (List.mem_of_getElem? hi)
          simpa [Dict.get?, hne] using h1 i k hi
      · intro k hk
        simp only [List.mem_cons, not_or] at hk
        simpa [Dict.get?, Ne.symm hk.1] using h2 k hk.2

theorem any_zip (dims : List String) (args : List V) (kw : Dict V)
    (hlen : args.length = dims.length) :
    ((dims.zip args).any fun e => kw.has e.1) = dims.any fun d => kw.has d := by
  induction dims generalizing args with
  | nil => simp
  | cons d dims ih =>
    cases args with
    | nil => simp at hlen
    | cons a args => simp [ih args (by simpa using hlen)]

/-- C30.  The keyword arguments of a point.  A wrong number of coordinates is a ValueError; a fixed
argument with the name of a dimension is a TypeError; otherwise the remapper gets exactly the named
point, and its outcome is the outcome. -/
theorem C30_kwargs (o : Optimizer V M) (args : List V) (kw : Dict V) (hnd : o.dims.Nodup) :
    (args.length ≠ o.dims.length → o.kwargs args kw = .error .valueError) ∧
    ∀ f, o.remap = some f → args.length = o.dims.length →
      ((∃ d ∈ o.dims, kw.has d = true) → o.kwargs args kw = .error .typeError) ∧
      ((∀ d ∈ o.dims, kw.has d = false) →
        ∃ full, NamedPoint o.dims args kw full ∧ o.kwargs args kw = f full) := by
  refine ⟨fun h => by simp [Optimizer.kwargs, h], fun f hf hlen => ⟨?_, ?_⟩⟩
  · rintro ⟨d, hd, hk⟩
    have : ((o.dims.zip args).any fun e => kw.has e.1) = true := by
      rw [any_zip _ _ _ hlen, List.any_eq_true]
      exact ⟨d, hd, hk⟩
    simp [Optimizer.kwargs, hlen, hf, mergeKw, this]
  · intro h
    have : ((o.dims.zip args).any fun e => kw.has e.1) = false := by
      rw [any_zip _ _ _ hlen, List.any_eq_false]
      intro d hd
      simp [h d hd]
    obtain ⟨h1, h2⟩ := get?_zip o.dims hnd args hlen
    refine ⟨o.dims.zip args ++ kw, ⟨?_, ?_⟩, ?_⟩
    · intro i k hi
      rw [Dict.get?_append, h1 i k hi]
      have hlt : i < args.length := by
        rw [hlen]
        exact (List.getElem?_eq_some_iff.1 hi).1
      rw [List.getElem?_eq_getElem hlt]
      simp
    · intro k hk
      rw [Dict.get?_append, h2 k hk, Option.none_or]
    · simp only [Optimizer.kwargs, hlen, hf, mergeKw, this]
      simp

/-- C30, a limit of the code: without a remapper the coordinates are dropped, so that the loss is
the same at all points. -/
theorem C30_no_remap (ops : Ops K V M Ω) (o : Optimizer V M) (hr : o.remap = none) (x : List K)
    (fs : K) (fsv : V) (args args' : List V) (ω : Ω) (h : args.length = args'.length) :
    o.loss ops x fs fsv args [] ω = o.loss ops x fs fsv args' [] ω := by
  simp [Optimizer.loss, Optimizer.configured, Optimizer.kwargs, hr, h]

theorem foldl_max_spec (l : List K) (a : K) :
    (l.foldl max a = a ∨ l.foldl max a ∈ l) ∧ a ≤ l.foldl max a ∧ ∀ b ∈ l, b ≤ l.foldl max a := by
  induction l generalizing a with
  | nil => simp
  | cons b l ih =>
    obtain ⟨h1, h2, h3⟩ := ih (max a b)
    rw [List.foldl_cons]
    refine ⟨?_, le_trans (le_max_left _ _) h2, ?_⟩
    · rcases h1 with h1 | h1
      · rw [h1]
        rcases max_choice a b with h | h
        · exact Or.inl h
        · right; rw [h]; simp
      · right; simp [h1]
    · intro c hc
      rcases List.mem_cons.1 hc with rfl | hc
      · exact le_trans (le_max_right _ _) h2
      · exact h3 c hc

theorem peak_spec (x : List K) (p : K) (h : peak x = .ok p) :
    (∃ a ∈ x, |a| = p) ∧ ∀ a ∈ x, |a| ≤ p := by
  cases x with
  | nil => simp [peak] at h
  | cons a l =>
    simp only [peak, List.map_cons, Except.ok.injEq] at h
    obtain ⟨h1, h2, h3⟩ := foldl_max_spec (l.map fun a => |a|) |a|
    rw [h] at h1 h2 h3
    refine ⟨?_, ?_⟩
    · rcases h1 with h1 | h1
      · exact ⟨a, by simp, h1.symm⟩
      · obtain ⟨b, hb, he⟩ := List.mem_map.1 h1
        exact ⟨b, by simp [hb], he⟩
    · intro b hb
      rcases List.mem_cons.1 hb with rfl | hb
      · exact h2
      · exact h3 _ (List.mem_map.2 ⟨b, hb, rfl⟩)

/-- C30.  The value of the loss at a point: the remapper is called on the named point with the
sample rate; a clone of the model is configured with the result and fitted on the target; the
resynthesis at the times of the target's samples is compared to the target, after clipping if asked
for: the clipped sound has the same length, no sample exceeds the peak of the target, and samples
within the peak are unchanged. -/
theorem C30_loss (ops : Ops K V M Ω) (o : Optimizer V M) (hnd : o.dims.Nodup)
    (f : Dict V → Except PyErr (Dict V)) (hf : o.remap = some f) (x : List K) (fs : K) (fsv : V)
    (args : List V) (ω : Ω) (v : K) (h : o.loss ops x fs fsv args [] ω = .ok v) :
    args.length = o.dims.length ∧ "sinusoidal__tracker__fs" ∉ o.dims ∧
    ∃ full kw m m' y y', NamedPoint o.dims args [("sinusoidal__tracker__fs", fsv)] full ∧
      f full = .ok kw ∧ ops.setParams (ops.clone o.model) kw = .ok m ∧ ops.fit m x [] = .ok m' ∧
      ops.predict m' (times x.length fs) ω = .ok y ∧ ops.lossFn x y' = .ok v ∧
      (o.clip = false → y' = y) ∧
      (o.clip = true → y'.length = y.length ∧
        (∀ b ∈ y', ∃ a ∈ x, |b| ≤ |a|) ∧
        ∀ (i : Nat) b, y[i]? = some b → (∃ a ∈ x, |b| ≤ |a|) → y'[i]? = some b) := by
  unfold Optimizer.loss at h
  simp only [bind, Except.bind] at h
  cases hc : o.configured ops args [] fsv with
  | error e => rw [hc] at h; cases h
  | ok m =>
    rw [hc] at h
    simp only at h
    cases hfit : ops.fit m x [] with
    | error e => rw [hfit] at h; cases h
    | ok m' =>
      rw [hfit] at h
      simp only at h
      cases hp : ops.predict m' (times x.length fs) ω with
      | error e => rw [hp] at h; cases h
      | ok y =>
        rw [hp] at h
        simp only at h
        -- the configuration
        unfold Optimizer.configured at hc
        simp only [bind, Except.bind, mergeKw, List.any_nil, Bool.false_eq_true, if_false,
          List.nil_append] at hc
        obtain ⟨k1, k2⟩ := C30_kwargs o args [("sinusoidal__tracker__fs", fsv)] hnd
        by_cases hlen : args.length = o.dims.length
        · obtain ⟨c1, c2⟩ := k2 f hf hlen
          by_cases hcl : "sinusoidal__tracker__fs" ∈ o.dims
          · rw [c1 ⟨_, hcl, by simp [Dict.has, Dict.get?]⟩] at hc
            cases hc
          · obtain ⟨full, g1, g2⟩ := c2 (by
              intro d hd
              have : "sinusoidal__tracker__fs" ≠ d := by rintro rfl; exact hcl hd
              simp [Dict.has, Dict.get?, this])
            rw [g2] at hc
            cases hff : f full with
            | error e => rw [hff] at hc; cases hc
            | ok kw =>
              rw [hff] at hc
              simp only at hc
              refine ⟨hlen, hcl, full, kw, m, m', y, ?_⟩
              unfold Optimizer.compare at h
              cases hcp : o.clip with
              | false =>
                rw [hcp] at h
                simp only [Bool.false_eq_true, if_false] at h
                exact ⟨y, g1, hff, hc, hfit, hp, h, fun _ => rfl, by simp⟩
              | true =>
                rw [hcp] at h
                simp only [if_true, bind, Except.bind] at h
                cases hpk : peak x with
                | error e => rw [hpk] at h; cases h
                | ok p =>
                  rw [hpk] at h
                  simp only at h
                  obtain ⟨⟨a, ha, hap⟩, hb⟩ := peak_spec x p hpk
                  have hp0 : 0 ≤ p := hap ▸ abs_nonneg a
                  refine ⟨clipTo p y, g1, hff, hc, hfit, hp, h, by simp, fun _ => ⟨?_, ?_, ?_⟩⟩
                  · simp [clipTo]
                  · intro b hbm
                    obtain ⟨c, -, rfl⟩ := List.mem_map.1 hbm
                    refine ⟨a, ha, ?_⟩
                    rw [hap, abs_le]
                    exact ⟨le_min (le_max_right _ _) (by linarith), min_le_right _ _⟩
                  · rintro i b hi ⟨a', ha', hle⟩
                    have hbp : |b| ≤ p := le_trans hle (hb a' ha')
                    rw [abs_le] at hbp
                    simp only [clipTo, List.getElem?_map, hi, Option.map_some, Option.some.injEq]
                    rw [max_eq_left hbp.1, min_eq_left hbp.2]
        · rw [k1 hlen] at hc
          cases hc

/-- C30.  The result of the minimisation, whatever the minimiser does: the returned model is
configured from the returned point exactly as in the evaluation of the loss there and fitted on the
target; without arguments for `fit`, the loss at the returned point is the loss of the resynthesis
by the returned model itself. -/
theorem C30_minimize (ops : Ops K V M Ω) (o : Optimizer V M)
    (skopt : (List V → Ω → Except PyErr K) → Nat → Dict (MVal K V) → World →
      World × Except PyErr (Result K V))
    (x : List K) (fs : K) (fsv : V) (state : Option (Result K V)) (ignoreWarnings : Bool)
    (fitKw : Option (Dict V)) (kw : Dict (MVal K V)) (w : World) (m : M) (res : Result K V)
    (h : (o.gpMinimize ops skopt x fs fsv state ignoreWarnings fitKw kw w).2 = .ok (m, res)) :
    (∃ m₀, o.configured ops res.x [] fsv = .ok m₀ ∧ ops.fit m₀ x (fitKw.getD []) = .ok m) ∧
    (fitKw = none → ∀ ω, o.loss ops x fs fsv res.x [] ω =
      match ops.predict m (times x.length fs) ω with
      | .ok y => o.compare ops x y
      | .error e => .error e) := by
  unfold Optimizer.gpMinimize at h
  simp only [bind, Except.bind] at h
  split at h
  · cases h
  · rename_i r hr
    split at h
    · cases h
    · rename_i m₀ hm₀
      split at h
      · cases h
      · rename_i m₁ hm₁
        simp only [pure, Except.pure, Except.ok.injEq, Prod.mk.injEq] at h
        obtain ⟨rfl, rfl⟩ := h
        have hm₁' : ops.fit m₀ x (fitKw.getD []) = .ok m₁ := by
          simpa [fillDefaults] using hm₁
        refine ⟨⟨m₀, hm₀, hm₁'⟩, ?_⟩
        rintro rfl ω
        simp only [Option.getD_none] at hm₁'
        simp only [Optimizer.loss, hm₀, hm₁', bind, Except.bind]
        cases ops.predict m₁ (times x.length fs) ω <;> rfl

/-- C30.  The minimiser gets the loss, the dimensions, and the caller's keyword arguments; with a
previous state, its points and values are the initial ones unless the caller gives initial points or
values; during the minimisation the first warning filter ignores all warnings if asked for, and the
filters are restored afterwards whatever happens. -/
theorem C30_call (ops : Ops K V M Ω) (o : Optimizer V M)
    (skopt : (List V → Ω → Except PyErr K) → Nat → Dict (MVal K V) → World →
      World × Except PyErr (Result K V))
    (x : List K) (fs : K) (fsv : V) (state : Option (Result K V)) (ignoreWarnings : Bool)
    (fitKw : Option (Dict V)) (kw : Dict (MVal K V)) (w : World) :
    ∃ kw' w₁,
      (∀ s, state = some s → kw.has "x0" = false → kw.has "y0" = false →
        kw'.get? "x0" = some (.points s.xIters) ∧ kw'.get? "y0" = some (.values s.funcVals) ∧
        ∀ k, k ≠ "x0" → k ≠ "y0" → kw'.get? k = kw.get? k) ∧
      ((state = none ∨ kw.has "x0" = true ∨ kw.has "y0" = true) → kw' = kw) ∧
      (ignoreWarnings = true → w₁.filters.head? = some ⟨"ignore", "Warning", 0⟩) ∧
      (ignoreWarnings = false → w₁ = w) ∧
      (∀ e, (skopt (fun args ω => o.loss ops x fs fsv args [] ω) o.dims.length kw' w₁).2 = .error e →
        (o.gpMinimize ops skopt x fs fsv state ignoreWarnings fitKw kw w).2 = .error e) ∧
      (∀ m res, (o.gpMinimize ops skopt x fs fsv state ignoreWarnings fitKw kw w).2 = .ok (m, res) →
        (skopt (fun args ω => o.loss ops x fs fsv args [] ω) o.dims.length kw' w₁).2 = .ok res) ∧
      (o.gpMinimize ops skopt x fs fsv state ignoreWarnings fitKw kw w).1.filters = w.filters := by
  let w₁ := if ignoreWarnings then
    { w with filters := simplefilter ⟨"ignore", "Warning", 0⟩ false w.filters } else w
  refine ⟨minimizeKw state kw, w₁, ?_, ?_, ?_, ?_, ?_, ?_, rfl⟩
  · rintro s rfl h1 h2
    simp only [minimizeKw, h1, h2, Bool.or_self, Bool.false_eq_true, if_false]
    refine ⟨?_, Dict.get?_set_self _ _ _, ?_⟩
    · rw [Dict.get?_set_ne _ _ _ _ (by decide), Dict.get?_set_self]
    · intro k n1 n2
      rw [Dict.get?_set_ne _ _ _ _ n2, Dict.get?_set_ne _ _ _ _ n1]
  · intro h
    cases state with
    | none => rfl
    | some s =>
      rcases h with h | h | h
      · cases h
      · simp [minimizeKw, h]
      · simp [minimizeKw, h]
  · intro h
    simp [w₁, h, simplefilter]
  · intro h
    simp [w₁, h]
  · intro e he
    simp only [Optimizer.gpMinimize, w₁] at he ⊢
    rw [he]
    rfl
  · intro m res hm
    simp only [Optimizer.gpMinimize, w₁, bind, Except.bind] at hm ⊢
    split at hm
    · cases hm
    · rename_i r hr
      split at hm
      · cases hm
      · split at hm
        · cases hm
        · simp only [pure, Except.pure, Except.ok.injEq, Prod.mk.injEq] at hm
          rw [hr, hm.2]

/-- C30, what does not work: the deprecated argument `sample_fn` always raises TypeError with the
default remapper. -/
theorem C30_sample_fn (env : Env K) (kwDict : Nat) :
    sampleFnKwargs env kwDict = .error .typeError := by
  have h : ∀ p ∈ remapperNames, Dict.get? ([] : Dict (RVal K)) p.1 = none := by
    intro p _; rfl
  unfold sampleFnKwargs remapper
  rw [C31_again _ _ _ _ (by intro k _; rfl)]
  simp [remapperEntry, remapParams, mergeKw, Dict.has, Dict.get?, bind, Except.bind, remapperCore,
    remapN, restOf, Dict.erase, shift]

end C30

/-! ## C66 -/

/-- The use of a callback: calls by the minimiser and resets. -/
inductive CbOp where
  | call
  | reset
  deriving DecidableEq, Repr

/-- One operation; an error leaves the state unchanged (it is proved not to occur). -/
def CbOp.run : CbOp → Callback → Except PyErr Callback
  | .call, c => c.call
  | .reset, c => .ok c.reset

/-- A history of operations. -/
def runOps : List CbOp → Callback → Except PyErr Callback
  | [], c => .ok c
  | op :: l, c =>
    match op.run c with
    | .ok c => runOps l c
    | .error e => .error e

/-- Spec: the number of calls since the last reset. -/
def callsSince (l : List CbOp) : Nat :=
  (l.reverse.takeWhile fun op => decide (op = .call)).length

/-- What is known after a history with `k` calls since the last reset, from a new callback; the
bars `old` were there before. -/
structure CbInv (nCalls nInitial : Nat) (old : List Bar) (k : Nat) (c : Callback) : Prop where
  n1 : c.nCalls = nCalls
  n2 : c.nInitial = nInitial
  bars : ∃ closed cur, c.bars = old ++ closed ++ cur ∧ (∀ b ∈ closed, b.isOpen = false) ∧
    ((k = 0 ∧ cur = [] ∧ c.i = none ∧ c.tqdm = none) ∨
     (0 < k ∧ c.i = some k ∧ c.tqdm = some (old ++ closed).length ∧
       cur = [⟨nCalls, k, true, some (if k ≤ nInitial then "randomize" else "minimize")⟩]))

theorem CbInv.call (nCalls nInitial : Nat) (old : List Bar) (k : Nat) (c : Callback)
    (h : CbInv nCalls nInitial old k c) :
    ∃ c', c.call = .ok c' ∧ CbInv nCalls nInitial old (k + 1) c' := by
  obtain ⟨n1, n2, closed, cur, hb, hc, hcase⟩ := h
  rcases hcase with ⟨rfl, rfl, hi, ht⟩ | ⟨hk, hi, ht, hcur⟩
  · simp only [List.append_nil] at hb
    refine ⟨⟨nCalls, nInitial, some 1, some (old ++ closed).length, old ++ closed ++
      [⟨nCalls, 1, true, some (if 1 ≤ nInitial then "randomize" else "minimize")⟩]⟩, ?_, ?_⟩
    · have hs : c.started = false := by simp [Callback.started, hi, ht]
      simp only [Callback.call, hs, Bool.false_eq_true, if_false, Callback.start, Nat.zero_add]
      have hm : ∀ (f : Bar → Bar) (b : Bar), (c.bars ++ [b]).modify c.bars.length f
          = c.bars ++ [f b] := by
        intro f b
        rw [List.modify_eq_set_getElem?]
        simp
      rw [hm, hb, n1, n2]
    · exact ⟨rfl, rfl, closed, _, rfl, hc, Or.inr ⟨by omega, rfl, rfl, rfl⟩⟩
  · refine ⟨⟨nCalls, nInitial, some (k + 1), some (old ++ closed).length, old ++ closed ++
      [⟨nCalls, k + 1, true, some (if k + 1 ≤ nInitial then "randomize" else "minimize")⟩]⟩, ?_, ?_⟩
    · have hs : c.started = true := by simp [Callback.started, hi]
      simp only [Callback.call, hs, if_true, hi, ht]
      have hm : ∀ (f : Bar → Bar) (l : List Bar) (b : Bar), (l ++ [b]).modify l.length f
          = l ++ [f b] := by
        intro f l b
        rw [List.modify_eq_set_getElem?]
        simp
      rw [hb, hcur, hm, n1, n2]
    · exact ⟨rfl, rfl, closed, _, rfl, hc, Or.inr ⟨by omega, rfl, rfl, rfl⟩⟩

theorem CbInv.reset (nCalls nInitial : Nat) (old : List Bar) (k : Nat) (c : Callback)
    (h : CbInv nCalls nInitial old k c) : CbInv nCalls nInitial old 0 c.reset := by
  obtain ⟨n1, n2, closed, cur, hb, hc, hcase⟩ := h
  rcases hcase with ⟨rfl, rfl, hi, ht⟩ | ⟨hk, hi, ht, hcur⟩
  · refine ⟨n1, n2, closed, [], ?_, hc, Or.inl ⟨rfl, rfl, rfl, rfl⟩⟩
    simp [Callback.reset, ht, hb]
  · refine ⟨n1, n2, closed ++ cur.map fun b => { b with isOpen := false }, [], ?_, ?_,
      Or.inl ⟨rfl, rfl, rfl, rfl⟩⟩
    · simp only [Callback.reset, ht]
      rw [hb, hcur, List.modify_eq_set_getElem?]
      simp
    · intro b hbm
      rcases List.mem_append.1 hbm with hbm | hbm
      · exact hc b hbm
      · obtain ⟨b', -, rfl⟩ := List.mem_map.1 hbm
        rfl

/-- C66.  After every history of calls and resets of a new progress callback no error has occurred;
all bars it made are closed, but the current one if there have been calls since the last reset; the
current bar counts exactly these calls, has the given total, and shows the stage "randomize" as long
as they are at most the number of initial points and "minimize" after that. -/
theorem C66_callback (nCalls nInitial : Nat) (old : List Bar) (l : List CbOp) :
    ∃ c closed cur, runOps l (Callback.new nCalls nInitial old) = .ok c ∧
      c.bars = old ++ closed ++ cur ∧ (∀ b ∈ closed, b.isOpen = false) ∧
      (callsSince l = 0 → cur = []) ∧
      (0 < callsSince l → cur = [⟨nCalls, callsSince l, true,
        some (if callsSince l ≤ nInitial then "randomize" else "minimize")⟩]) := by
  have hrun : ∀ (l : List CbOp) k c, CbInv nCalls nInitial old k c →
      ∃ c', runOps l c = .ok c' ∧
        CbInv nCalls nInitial old (if CbOp.reset ∈ l then callsSince l else k + l.length) c' := by
    intro l
    induction l with
    | nil => intro k c h; exact ⟨c, rfl, by simpa [callsSince] using h⟩
    | cons op l ih =>
      intro k c h
      have hcs : ∀ op, callsSince (op :: l) = if CbOp.reset ∈ l then callsSince l
          else if op = .call then l.length + 1 else l.length := by
        intro op
        unfold callsSince
        rw [List.reverse_cons, List.takeWhile_append]
        by_cases hr : CbOp.reset ∈ l
        · rw [if_pos hr, if_neg]
          intro hlen
          have hall : l.reverse.takeWhile (fun op => decide (op = CbOp.call)) = l.reverse := by
            have := List.takeWhile_prefix (l := l.reverse) fun op => decide (op = CbOp.call)
            exact this.eq_of_length hlen
          have := List.takeWhile_eq_self_iff.1 hall CbOp.reset (by simpa using hr)
          simp at this
        · have hall : l.reverse.takeWhile (fun op => decide (op = CbOp.call)) = l.reverse := by
            rw [List.takeWhile_eq_self_iff]
            intro a ha
            cases a with
            | call => simp
            | reset => exact absurd (by simpa using ha) hr
          rw [if_neg hr, hall]
          cases op <;> simp
      cases op with
      | call =>
        obtain ⟨c', e, h'⟩ := CbInv.call _ _ _ _ _ h
        obtain ⟨c'', e2, h2⟩ := ih (k + 1) c' h'
        refine ⟨c'', by simp [runOps, CbOp.run, e, e2], ?_⟩
        by_cases hr : CbOp.reset ∈ l
        · simpa [hr, hcs] using h2
        · simp only [hr, if_false] at h2
          have hne : ¬ CbOp.reset ∈ (CbOp.call :: l) := by simp [hr]
          rw [if_neg hne]
          have : k + (CbOp.call :: l).length = k + 1 + l.length := by simp; omega
          rw [this]; exact h2
      | reset =>
        obtain ⟨c'', e2, h2⟩ := ih 0 c.reset (CbInv.reset _ _ _ _ _ h)
        refine ⟨c'', by simp [runOps, CbOp.run, e2], ?_⟩
        rw [if_pos (by simp), hcs]
        by_cases hr : CbOp.reset ∈ l
        · simpa [hr] using h2
        · simpa [hr] using h2
  have h0 : CbInv nCalls nInitial old 0 (Callback.new nCalls nInitial old) :=
    ⟨rfl, rfl, [], [], by simp [Callback.new], by simp, Or.inl ⟨rfl, rfl, rfl, rfl⟩⟩
  obtain ⟨c, e, -, -, closed, cur, hb, hc, hcase⟩ := hrun l 0 _ h0
  have hk : (if CbOp.reset ∈ l then callsSince l else 0 + l.length) = callsSince l := by
    by_cases hr : CbOp.reset ∈ l
    · simp [hr]
    · simp only [hr, if_false, Nat.zero_add, callsSince]
      have : l.reverse.takeWhile (fun op => decide (op = CbOp.call)) = l.reverse := by
        rw [List.takeWhile_eq_self_iff]
        intro a ha
        cases a with
        | call => simp
        | reset => exact absurd (by simpa using ha) hr
      rw [this]; simp
  rw [hk] at hcase
  refine ⟨c, closed, cur, e, hb, hc, ?_, ?_⟩
  · intro h
    rcases hcase with ⟨-, h2, -⟩ | ⟨h1, -⟩
    · exact h2
    · omega
  · intro h
    rcases hcase with ⟨h1, -⟩ | ⟨-, -, -, h2⟩
    · omega
    · exact h2

/-- C66, a limit of the code: `start` on a started callback replaces the bar without closing the old
one. -/
theorem C66_start_twice (nCalls nInitial : Nat) :
    ((Callback.new nCalls nInitial []).start.start.reset).bars
      = [⟨nCalls, 0, true, none⟩, ⟨nCalls, 0, false, none⟩] := by
  rfl

/-! ## Examples -/

/-- Everything is accepted; objects have FFT size 1024 and windows of 600 samples. -/
def exEnv : Env ℚ := ⟨fun _ => 1024, fun _ => 600, fun _ => .ok (), fun s => s == "hamming"⟩

-- FFT size, window and hop from the three parameters, one of them under its old name
example : ((remapper exEnv [] [("sinusoidal_model__log_n", .int 10), ("sinusoidal__wsize", .num (3/5)),
      ("sinusoidal__overlap", .num (3/4)), ("max_n_modes", .int 8)]).2.toOption)
    = some [("max_n_modes", .int 8), ("sinusoidal__n", .int 1024), ("sinusoidal__w", .arr 614),
      ("sinusoidal__tracker__h", .int 153)] := by
  decide +kernel

-- an overlap larger than 1 still gives a hop of 1, and a given window is kept
example : ((remapper exEnv [] [("sinusoidal__w", .arr 100), ("sinusoidal__overlap", .num 7)]).2.toOption)
    = some [("sinusoidal__w", .arr 100), ("sinusoidal__tracker__h", .int 1)] := by
  decide +kernel

/-- A toy set of operations: the model is a number `g`; `set_params` adds the arguments, `fit` does
nothing, the resynthesis is constant. -/
def exOps : Ops ℚ ℚ ℚ Unit where
  clone := id
  setParams := fun g kw => .ok (g + (kw.map Prod.snd).sum)
  fit := fun g _ _ => .ok g
  predict := fun g t _ => .ok (t.map fun _ => g)
  lossFn := fun x y => .ok ((List.zipWith (fun a b => |a - b|) x y).sum)

def exOpt : Optimizer ℚ ℚ := ⟨1, ["a", "b"], some .ok, true⟩

example : (exOpt.loss exOps [1, -2, 0] 10 5 [3, 4] [] ()).toOption = some (1 + 4 + 2) := by
  decide +kernel

example : (exOpt.loss exOps [1, -2, 0] 10 5 [3] [] ()).toOption = none := by
  decide +kernel

example : ((exOpt.gpMinimize exOps (fun _ _ _ w => (w, .ok ⟨[3, 4], [], []⟩)) [1, -2, 0] 10 5 none true
    none [] ⟨[], none, [], []⟩).2.toOption.map Prod.fst) = some 13 := by
  decide +kernel

example : ((runOps [.call, .call, .reset, .call, .call] (Callback.new 3 1 [])).toOption.map
      Callback.bars)
    = some [⟨3, 2, false, some "minimize"⟩, ⟨3, 2, true, some "minimize"⟩] := by
  decide +kernel

end Verif.Optimize
