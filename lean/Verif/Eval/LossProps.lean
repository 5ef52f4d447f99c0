import Verif.Eval.LpProps
import Verif.Psycho.FilterbankProps

/-!
# Spectral losses: parallel evaluation (C54), pseudometrics (C81), cochleagram loss (C82)
-/

set_option autoImplicit false
set_option linter.unusedSectionVars false
set_option linter.unusedSimpArgs false

namespace Verif.Eval

open Verif.Psycho
open scoped ENNReal

/-! ## C54 -/

section multi
variable {A V R : Type} [Zero R] [Add R]

theorem slots_get (tasks : List (Except PyErr R)) (finished : List Nat) (i : Nat) :
    (poolSlots tasks finished)[i]? =
      if i < tasks.length then some (if i ∈ finished then tasks[i]? else none) else none := by
  induction finished using List.reverseRecOn with
  | nil =>
    simp only [poolSlots, List.foldl_nil, List.getElem?_replicate, List.not_mem_nil, if_false]
  | append_singleton fs j ih =>
    have e : poolSlots tasks (fs ++ [j]) = finishTask tasks (poolSlots tasks fs) j := by
      simp only [poolSlots, List.foldl_append, List.foldl_cons, List.foldl_nil]
    have hl : (poolSlots tasks fs).length = tasks.length := by
      clear ih e
      induction fs using List.reverseRecOn with
      | nil => simp [poolSlots]
      | append_singleton fs k ih =>
        have e : poolSlots tasks (fs ++ [k]) = finishTask tasks (poolSlots tasks fs) k := by
          simp only [poolSlots, List.foldl_append, List.foldl_cons, List.foldl_nil]
        rw [e, finishTask]
        split <;> simp [ih]
    rw [e, finishTask]
    cases hj : tasks[j]? with
    | none =>
      have hj' : tasks.length ≤ j := List.getElem?_eq_none_iff.1 hj
      simp only [ih, List.mem_append, List.mem_singleton]
      split_ifs with h1 h2 h3 h4
      · rfl
      · exact absurd (Or.inl h2) h3
      · rcases h4 with h4 | h4
        · exact absurd h4 h2
        · omega
      · rfl
      · rfl
    | some r =>
      simp only [List.getElem?_set, hl, ih, List.mem_append, List.mem_singleton]
      by_cases hij : j = i
      · subst hij
        have : j < tasks.length := (List.getElem?_eq_some_iff.1 hj).1
        simp [this, ← hj]
      · have hij' : ¬ i = j := fun h => hij h.symm
        simp [hij, hij']

theorem sumGet_of (tasks : List (Except PyErr R)) (slots : List (Option (Except PyErr R)))
    (hl : slots.length = tasks.length)
    (h : ∀ (i : Nat) (r : Except PyErr R), slots[i]? = some (some r) → tasks[i]? = some r) (acc : R) :
    sumGet acc slots = none ∨ sumGet acc slots = some (sumFrom acc tasks) := by
  induction tasks generalizing slots acc with
  | nil =>
    have : slots = [] := List.length_eq_zero_iff.1 (by simpa using hl)
    subst this
    exact Or.inr rfl
  | cons t tasks ih =>
    cases slots with
    | nil => simp at hl
    | cons s slots =>
      cases s with
      | none => exact Or.inl rfl
      | some r =>
        have h0 := h 0 r (by simp)
        simp only [List.getElem?_cons_zero, Option.some.injEq] at h0
        subst h0
        cases t with
        | error e => exact Or.inr rfl
        | ok v =>
          simp only [sumGet, sumFrom]
          exact ih slots (by simpa using hl) (fun i r hi => by
            have := h (i + 1) r (by simpa using hi)
            simpa using this) (acc + v)

theorem sumGet_ends (tasks : List (Except PyErr R)) (slots : List (Option (Except PyErr R)))
    (h : slots = tasks.map some) (acc : R) : sumGet acc slots = some (sumFrom acc tasks) := by
  subst h
  induction tasks generalizing acc with
  | nil => rfl
  | cons t tasks ih =>
    cases t with
    | error e => rfl
    | ok v => exact ih (acc + v)

theorem slots_length (tasks : List (Except PyErr R)) (finished : List Nat) :
    (poolSlots tasks finished).length = tasks.length := by
  apply le_antisymm
  · rw [← List.getElem?_eq_none_iff, slots_get]
    simp
  · by_contra hc
    push Not at hc
    have h := slots_get tasks finished (poolSlots tasks finished).length
    rw [List.getElem?_eq_none_iff.2 le_rfl, if_pos hc] at h
    simp at h

/-- **C54 (schedule).** With a pool (given, or of a positive number of jobs) the loss, whenever it
is there, is that of the sequential computation, exceptions included, whatever the order in which
the tasks finish; it is there as soon as all tasks have finished. -/
theorem C54_schedule (loss : A → Dict V → Except PyErr R) (stfts : List (Dict V)) (args : A)
    (kwargs : Dict V) (pool : Bool) (njobs : Option Int)
    (hp : pool = true ∨ ∃ n, njobs = some n ∧ 1 ≤ n) (finished : List Nat) :
    (∀ r, multiScale loss stfts args kwargs pool njobs finished = some r →
      multiScale loss stfts args kwargs false none [] = some r) ∧
    ((∀ i < stfts.length, i ∈ finished) →
      multiScale loss stfts args kwargs pool njobs finished =
        multiScale loss stfts args kwargs false none []) := by
  have e : multiScale loss stfts args kwargs pool njobs finished =
      sumGet 0 (poolSlots (stfts.map fun kw => partialCall loss kw args kwargs) finished) := by
    rcases hp with rfl | ⟨n, rfl, hn⟩
    · cases njobs <;> rfl
    · cases pool
      · simp [multiScale, not_lt.2 hn]
      · rfl
  have e0 : multiScale loss stfts args kwargs false none [] =
      some (sumFrom 0 (stfts.map fun kw => partialCall loss kw args kwargs)) := rfl
  rw [e, e0]
  generalize ht : (stfts.map fun kw => partialCall loss kw args kwargs) = tasks
  have hlen : tasks.length = stfts.length := by rw [← ht]; simp
  constructor
  · intro r hr
    rcases sumGet_of tasks (poolSlots tasks finished) (slots_length tasks finished) (by
      intro i r h
      rw [slots_get] at h
      split_ifs at h <;> simp_all) 0 with h | h
    · rw [h] at hr
      simp at hr
    · rw [h] at hr
      exact hr
  · intro hall
    apply sumGet_ends
    apply List.ext_getElem?
    intro i
    rw [slots_get]
    by_cases hi : i < tasks.length
    · simp [hi, hall i (hlen ▸ hi)]
    · simp [hi, List.getElem?_eq_none_iff.2 (not_lt.1 hi)]

/-- **C54 (value).** If all scales have a value, it is their sum, from zero on and in the order of the
scales; otherwise the exception of the first scale that raises is raised.  The loss of a scale is
that with the arguments of the scale, those of the call prevailing. -/
theorem C54_value (loss : A → Dict V → Except PyErr R) (stfts : List (Dict V)) (args : A)
    (kwargs : Dict V) :
    (∀ v : List R, stfts.map (fun kw => loss args (kw.update kwargs)) = v.map .ok →
      multiScale loss stfts args kwargs false none [] = some (.ok (v.foldl (· + ·) 0))) ∧
    (∀ (pre post : List (Dict V)) (kw : Dict V) (e : PyErr), stfts = pre ++ kw :: post →
      (∀ k ∈ pre, ∃ r, loss args (k.update kwargs) = .ok r) →
      loss args (kw.update kwargs) = .error e →
      multiScale loss stfts args kwargs false none [] = some (.error e)) := by
  constructor
  · intro v hv
    have : ∀ (acc : R) (v : List R), sumFrom acc (v.map Except.ok) = .ok (v.foldl (· + ·) acc) := by
      intro acc v
      induction v generalizing acc with
      | nil => rfl
      | cons a v ih => exact ih (acc + a)
    simp only [multiScale, partialCall, hv, this]
  · rintro pre post kw e rfl hpre he
    have : ∀ acc : R, sumFrom acc ((pre ++ kw :: post).map fun kw => loss args (kw.update kwargs)) =
        .error e := by
      induction pre with
      | nil =>
        intro acc
        simp [he, sumFrom]
      | cons k pre ih =>
        intro acc
        obtain ⟨r, hr⟩ := hpre k (by simp)
        simp only [List.cons_append, List.map_cons, hr, sumFrom]
        exact ih (fun k hk => hpre k (by simp [hk])) _
    simp only [multiScale, partialCall, this]

/-- **C54 (number of jobs).** Zero or a negative number of jobs is a `ValueError` (elsewhere zero
means: no pool). -/
theorem C54_njobs (loss : A → Dict V → Except PyErr R) (stfts : List (Dict V)) (args : A)
    (kwargs : Dict V) (n : Int) (hn : n < 1) (finished : List Nat) :
    multiScale loss stfts args kwargs false (some n) finished = some (.error .valueError) := by
  simp [multiScale, hn]

/-- **C54 (override).** An argument of the call replaces the one of every scale: with `n` given, all
of the default scales become the same. -/
theorem C54_override (loss : A → Dict V → Except PyErr R) (vs : List V) (key : String) (v : V)
    (args : A) :
    multiScale loss (vs.map fun u => [(key, u)]) args [(key, v)] false none [] =
      multiScale loss (vs.map fun _ => [(key, v)]) args [] false none [] := by
  have e : (vs.map fun u => [(key, u)]).map (fun kw => partialCall loss kw args [(key, v)]) =
      (vs.map fun _ => [(key, v)]).map (fun kw => partialCall loss kw args []) := by
    rw [List.map_map, List.map_map]
    apply List.map_congr_left
    intro u _
    simp [partialCall, Dict.update, Dict.set]
  simp only [multiScale, e]

/-- Three scales, finished in the order 2, 0, 1. -/
example : multiScale (R := ℤ) (fun (x : ℤ) (kw : Dict ℤ) => .ok (x * (kw.get? "n").getD 0))
    [[("n", 1)], [("n", 2)], [("n", 4)]] 3 [] true none [2, 0, 1] = some (.ok 21) := rfl

/-- One scale fails. -/
example : multiScale (R := ℤ) (fun (x : ℤ) (kw : Dict ℤ) =>
      if kw.get? "n" = some 2 then .error .valueError else .ok x)
    [[("n", 1)], [("n", 2)], [("n", 4)]] 3 [] true none [2, 0, 1] = some (.error .valueError) := rfl

end multi

/-! ## C81 -/

section linlog

/-- Decibels with a floor in decibel. -/
noncomputable def dBFloor (floor v : ℝ) : ℝ := 20 * Real.logb 10 (max v (10 ^ (floor / 20)))

/-- The lp-distance of two lists of real numbers. -/
noncomputable def lpReal (r : ℝ) (x y : List ℝ) : ℝ :=
  (List.zipWith (fun a b => |a - b| ^ r) x y).sum ^ (1 / r)

theorem a2db_floor (floor v : ℝ) : Dsp.a2db v (some floor) true = some (dBFloor floor v) := by
  have h : (0 : ℝ) < 10 ^ (floor / 20) := Real.rpow_pos_of_pos (by norm_num) _
  have h' : 0 < max v ((10 : ℝ) ^ (floor / 20)) := lt_max_of_lt_right h
  simp [Dsp.a2db, Dsp.a2dbFloored, Dsp.a2dbFloorless, Dsp.npLog10, Dsp.db2a, h', dBFloor]

theorem mapM_some' {α β : Type} (f : α → Option β) (g : α → β) (h : ∀ a, f a = some (g a))
    (l : List α) : l.mapM f = some (l.map g) := by
  induction l with
  | nil => rfl
  | cons a l ih => simp [List.mapM_cons, h, ih]

theorem decibels_eq (floor : ℝ) (x : Arr ℝ) :
    decibels floor x = some ⟨x.kind, x.rows.map (List.map (dBFloor floor))⟩ := by
  rw [decibels, mapM_some' _ (List.map (dBFloor floor)) fun l =>
    mapM_some' _ (dBFloor floor) (a2db_floor floor) l]
  rfl

theorem lpOf_toReal (r : ℝ) (hr : 0 < r) (x y : List ℝ) :
    (lpOf r x y).toReal = lpReal r x y := by
  rw [lpOf, lpReal, ← ENNReal.toReal_rpow]
  congr 1
  induction x generalizing y with
  | nil => simp
  | cons a x ih =>
    cases y with
    | nil => simp
    | cons b y =>
      simp only [List.zipWith_cons_cons, List.sum_cons]
      rw [ENNReal.toReal_add (ENNReal.rpow_ne_top_of_nonneg hr.le enorm_ne_top) (by
        apply sum_ne_top
        intro c hc
        rw [← List.map_uncurry_zip_eq_zipWith] at hc
        obtain ⟨q, _, rfl⟩ := List.mem_map.1 hc
        exact ENNReal.rpow_ne_top_of_nonneg hr.le enorm_ne_top), ih,
        ← ENNReal.toReal_rpow, toReal_enorm, Real.norm_eq_abs]

variable {V : Type}

/-- The loss of two arrays of magnitudes. -/
noncomputable def lossOf (r alpha floor : ℝ) (x y : List ℝ) : ℝ :=
  lpReal r x y + alpha * lpReal r (x.map (dBFloor floor)) (y.map (dBFloor floor))

theorem SameShape.map {E F E' F' : Type} (f : E → E') (g : F → F') {x : List (List E)}
    {y : List (List F)} (h : SameShape x y) : SameShape (x.map (List.map f)) (y.map (List.map g)) := by
  simpa [SameShape, Function.comp_def] using h

theorem losses_eq (a : LinLog V) {r : ℝ} (hp : a.normP.Is r) (hr : 1 ≤ r) (x y : List (List ℝ))
    (h : SameShape x y) :
    a.losses ⟨.float, x⟩ ⟨.float, y⟩ =
      .ok ((lossOf r a.weight a.floorDb x.flatten y.flatten : ℝ) : WithTop ℝ) := by
  have hr0 : 0 < r := lt_of_lt_of_le one_pos hr
  have hk : Holds .float a.normP := fun h => by simp at h
  rw [LinLog.losses, lpDistance_eq (x := ⟨.float, x⟩) (y := ⟨.float, y⟩) le_rfl h hp hk hr0,
    decibels_eq, decibels_eq]
  simp only
  rw [lpDistance_eq (x := ⟨.float, x.map (List.map (dBFloor a.floorDb))⟩)
    (y := ⟨.float, y.map (List.map (dBFloor a.floorDb))⟩) le_rfl (h.map _ _) hp hk hr0]
  simp only [finite, lpOf_ne_top hr0, if_false, lpOf_toReal r hr0, lossOf, List.map_flatten]

theorem weight_nonneg (a : LinLog V) (h : ∀ α, a.alpha = some α → 0 ≤ α) : 0 ≤ a.weight := by
  rw [LinLog.weight]
  cases ha : a.alpha with
  | none =>
    have : (0 : ℝ) < max 1 (-a.floorDb) := lt_max_of_lt_left one_pos
    simp only [Option.getD_none]
    positivity
  | some α => exact h α ha

theorem lpReal_nonneg (r : ℝ) (hr : 0 < r) (x y : List ℝ) : 0 ≤ lpReal r x y := by
  rw [← lpOf_toReal r hr]
  exact ENNReal.toReal_nonneg

theorem lpReal_triangle {r : ℝ} (hr : 1 ≤ r) (x y z : List ℝ) (h : x.length = y.length)
    (h' : y.length = z.length) : lpReal r x z ≤ lpReal r x y + lpReal r y z := by
  have hr0 : 0 < r := lt_of_lt_of_le one_pos hr
  rw [← lpOf_toReal r hr0, ← lpOf_toReal r hr0, ← lpOf_toReal r hr0,
    ← ENNReal.toReal_add (lpOf_ne_top hr0 _ _) (lpOf_ne_top hr0 _ _)]
  exact ENNReal.toReal_mono (ENNReal.add_ne_top.2 ⟨lpOf_ne_top hr0 _ _, lpOf_ne_top hr0 _ _⟩)
    (lpOf_triangle hr _ _ _ h h')

theorem lpReal_symm (r : ℝ) (hr : 0 < r) (x y : List ℝ) : lpReal r x y = lpReal r y x := by
  rw [← lpOf_toReal r hr, ← lpOf_toReal r hr, lpOf_symm]

theorem lpReal_zero (r : ℝ) (hr : 0 < r) (x y : List ℝ) (h : x.length = y.length) :
    lpReal r x y = 0 ↔ x = y := by
  rw [← lpOf_toReal r hr, ENNReal.toReal_eq_zero_iff, or_iff_left (lpOf_ne_top hr _ _),
    lpOf_eq_zero hr _ _ h]

variable (getWindow : String → ℤ → Except PyErr (List ℝ))
  (stft : StftArgs V → List ℝ → Except PyErr (List (List ℂ)))

/-- The window of a loss is `w`, and none of the arguments of the STFT is given twice. -/
structure Setup (a : LinLog V) (w : List ℝ) : Prop where
  window : a.w = some w ∨ (a.w = none ∧ getWindow a.wtype (a.wsize.getD a.n) = .ok w)
  keys : ∀ k ∈ ["window", "nperseg", "nfft", "noverlap"], a.kwargs.get? k = none
  olap : 0 ≤ a.olap

theorem linLog_eq (a : LinLog V) (w : List ℝ) (hs : Setup getWindow a w) {r : ℝ}
    (hp : a.normP.Is r) (hr : 1 ≤ r) (x y : List ℝ) (X Y : List (List ℂ))
    (hX : stft ⟨w, a.n, ⌊a.olap * w.length⌋, a.kwargs⟩ x = .ok X)
    (hY : stft ⟨w, a.n, ⌊a.olap * w.length⌋, a.kwargs⟩ y = .ok Y) (h : SameShape X Y) :
    linLogLoss getWindow stft a x y =
      .ok ((lossOf r a.weight a.floorDb (X.flatten.map norm) (Y.flatten.map norm) : ℝ) :
        WithTop ℝ) := by
  have hw : a.window getWindow = .ok w := by
    rcases hs.window with h | ⟨h1, h2⟩
    · simp [LinLog.window, h]
    · simp [LinLog.window, h1, h2]
  have hi : pyInt (a.olap * w.length) = ⌊a.olap * (w.length : ℝ)⌋ :=
    if_pos (mul_nonneg hs.olap (Nat.cast_nonneg _))
  have hk : ∀ k ∈ ["window", "nperseg", "nfft", "noverlap"], a.kwargs.has k = false := by
    intro k hk
    simp [Dict.has, hs.keys k hk]
  have hsp : ∀ x, a.spectrum stft w x = stft ⟨w, a.n, ⌊a.olap * (w.length : ℝ)⌋, a.kwargs⟩ x := by
    intro x
    rw [LinLog.spectrum, hi, hk "window" (by simp), hk "nperseg" (by simp), hk "nfft" (by simp),
      hk "noverlap" (by simp)]
    rfl
  rw [linLogLoss, hw]
  simp only [hsp, hX, hY, magnitudes]
  rw [losses_eq a hp hr _ _ (h.map norm norm), List.map_flatten, List.map_flatten]

/-- **C81 (value).** The loss is the lp-distance of the magnitudes of the two STFTs plus `alpha`
times the lp-distance of their levels, which are not below the floor; it is always a finite
number.  By default `alpha` is one over the absolute value of the floor, and 1 for floors above
-1 dB. -/
theorem C81_value (a : LinLog V) (w : List ℝ) (hs : Setup getWindow a w) (r : ℝ)
    (hp : a.normP.Is r) (hr : 1 ≤ r) (x y : List ℝ) (X Y : List (List ℂ))
    (hX : stft ⟨w, a.n, ⌊a.olap * w.length⌋, a.kwargs⟩ x = .ok X)
    (hY : stft ⟨w, a.n, ⌊a.olap * w.length⌋, a.kwargs⟩ y = .ok Y) (h : SameShape X Y) :
    ∃ α : ℝ, (∀ b, a.alpha = some b → α = b) ∧
      (a.alpha = none → (a.floorDb ≤ -1 → α = 1 / |a.floorDb|) ∧ (-1 ≤ a.floorDb → α = 1)) ∧
    linLogLoss getWindow stft a x y = .ok
      (((List.zipWith (fun u v => |‖u‖ - ‖v‖| ^ r) X.flatten Y.flatten).sum ^ (1 / r) +
        α * (List.zipWith (fun u v =>
          |20 * Real.logb 10 (max ‖u‖ (10 ^ (a.floorDb / 20))) -
            20 * Real.logb 10 (max ‖v‖ (10 ^ (a.floorDb / 20)))| ^ r)
          X.flatten Y.flatten).sum ^ (1 / r) : ℝ) : WithTop ℝ) := by
  refine ⟨a.weight, ?_, ?_, ?_⟩
  · intro b hb
    simp [LinLog.weight, hb]
  · intro hn
    constructor
    · intro hf
      have : max 1 (-a.floorDb) = |a.floorDb| := by
        rw [abs_of_nonpos (by linarith), max_eq_right (by linarith)]
      simp [LinLog.weight, hn, this]
    · intro hf
      have : max 1 (-a.floorDb) = 1 := max_eq_left (by linarith)
      simp [LinLog.weight, hn, this]
  · rw [linLog_eq getWindow stft a w hs hp hr x y X Y hX hY h]
    simp only [lossOf, lpReal, List.zipWith_map, dBFloor]

/-- **C81 (pseudometric).** For an exponent of at least one and a weight that is not negative, the
loss is not negative, is symmetric, satisfies the triangle inequality, and is zero exactly if the
magnitudes of the two STFTs are equal (in particular for equal signals). -/
theorem C81_pseudometric (a : LinLog V) (w : List ℝ) (hs : Setup getWindow a w) (r : ℝ)
    (hp : a.normP.Is r) (hr : 1 ≤ r) (hα : ∀ α, a.alpha = some α → 0 ≤ α) (x y z : List ℝ)
    (X Y Z : List (List ℂ)) (hX : stft ⟨w, a.n, ⌊a.olap * w.length⌋, a.kwargs⟩ x = .ok X)
    (hY : stft ⟨w, a.n, ⌊a.olap * w.length⌋, a.kwargs⟩ y = .ok Y)
    (hZ : stft ⟨w, a.n, ⌊a.olap * w.length⌋, a.kwargs⟩ z = .ok Z) (hXY : SameShape X Y)
    (hYZ : SameShape Y Z) :
    ∃ dxy dyz dxz : ℝ, linLogLoss getWindow stft a x y = .ok (dxy : WithTop ℝ) ∧
      linLogLoss getWindow stft a y x = .ok (dxy : WithTop ℝ) ∧
      linLogLoss getWindow stft a y z = .ok (dyz : WithTop ℝ) ∧
      linLogLoss getWindow stft a x z = .ok (dxz : WithTop ℝ) ∧
      0 ≤ dxy ∧ dxz ≤ dxy + dyz ∧
      (dxy = 0 ↔ X.map (List.map norm) = Y.map (List.map norm)) := by
  have hr0 : 0 < r := lt_of_lt_of_le one_pos hr
  have hw0 := weight_nonneg a hα
  have hxy : (X.flatten.map norm).length = (Y.flatten.map norm).length := by
    rw [List.length_map, List.length_map, hXY.flatten]
  have hyz : (Y.flatten.map norm).length = (Z.flatten.map norm).length := by
    rw [List.length_map, List.length_map, hYZ.flatten]
  have hn1 := lpReal_nonneg r hr0 (X.flatten.map norm) (Y.flatten.map norm)
  have hn2 := mul_nonneg hw0 (lpReal_nonneg r hr0 ((X.flatten.map norm).map (dBFloor a.floorDb))
    ((Y.flatten.map norm).map (dBFloor a.floorDb)))
  refine ⟨_, _, _, linLog_eq getWindow stft a w hs hp hr x y X Y hX hY hXY, ?_,
    linLog_eq getWindow stft a w hs hp hr y z Y Z hY hZ hYZ,
    linLog_eq getWindow stft a w hs hp hr x z X Z hX hZ (hXY.trans hYZ), add_nonneg hn1 hn2, ?_, ?_⟩
  · rw [linLog_eq getWindow stft a w hs hp hr y x Y X hY hX hXY.symm, lossOf, lossOf,
      lpReal_symm r hr0, lpReal_symm r hr0 ((Y.flatten.map norm).map _)]
  · simp only [lossOf]
    have t1 := lpReal_triangle hr _ _ _ hxy hyz
    have t2 := mul_le_mul_of_nonneg_left (lpReal_triangle hr ((X.flatten.map norm).map
      (dBFloor a.floorDb)) ((Y.flatten.map norm).map (dBFloor a.floorDb))
      ((Z.flatten.map norm).map (dBFloor a.floorDb)) (by simpa only [List.length_map] using hxy)
      (by simpa only [List.length_map] using hyz)) hw0
    rw [mul_add] at t2
    linarith
  · constructor
    · intro h0
      have : lpReal r (X.flatten.map norm) (Y.flatten.map norm) = 0 := by
        rw [lossOf] at h0
        linarith
      rw [lpReal_zero r hr0 _ _ hxy, List.map_flatten, List.map_flatten] at this
      exact (hXY.map norm norm).eq_of_flatten this
    · intro he
      have : X.flatten.map norm = Y.flatten.map norm := by
        rw [List.map_flatten, List.map_flatten, he]
      rw [this, lossOf, (lpReal_zero r hr0 _ _ rfl).2 rfl, (lpReal_zero r hr0 _ _ rfl).2 rfl]
      simp

/-- **C81 (floor).** Levels that are at or below the floor do not contribute to the second term: for
two such spectra the loss is the distance of the magnitudes. -/
theorem C81_floor (a : LinLog V) (w : List ℝ) (hs : Setup getWindow a w) (r : ℝ)
    (hp : a.normP.Is r) (hr : 1 ≤ r) (x y : List ℝ) (X Y : List (List ℂ))
    (hX : stft ⟨w, a.n, ⌊a.olap * w.length⌋, a.kwargs⟩ x = .ok X)
    (hY : stft ⟨w, a.n, ⌊a.olap * w.length⌋, a.kwargs⟩ y = .ok Y) (h : SameShape X Y)
    (h1 : ∀ u ∈ X.flatten, ‖u‖ ≤ 10 ^ (a.floorDb / 20))
    (h2 : ∀ u ∈ Y.flatten, ‖u‖ ≤ 10 ^ (a.floorDb / 20)) :
    linLogLoss getWindow stft a x y = .ok
      (((List.zipWith (fun u v => |‖u‖ - ‖v‖| ^ r) X.flatten Y.flatten).sum ^ (1 / r) : ℝ) :
        WithTop ℝ) := by
  have hr0 : 0 < r := lt_of_lt_of_le one_pos hr
  rw [linLog_eq getWindow stft a w hs hp hr x y X Y hX hY h, lossOf]
  have e : ∀ S : List ℂ, (∀ u ∈ S, ‖u‖ ≤ 10 ^ (a.floorDb / 20)) →
      (S.map norm).map (dBFloor a.floorDb) =
        List.replicate S.length (20 * Real.logb 10 (10 ^ (a.floorDb / 20))) := by
    intro S hS
    rw [List.eq_replicate_iff]
    refine ⟨by simp, ?_⟩
    intro b hb
    simp only [List.map_map, List.mem_map, Function.comp] at hb
    obtain ⟨u, hu, rfl⟩ := hb
    rw [dBFloor, max_eq_right (hS u hu)]
  rw [e _ h1, e _ h2, h.flatten, (lpReal_zero r hr0 _ _ rfl).2 rfl, mul_zero, add_zero, lpReal]
  simp only [List.zipWith_map]

/-- A transform that gives the samples themselves as one column. -/
example : ∃ d : ℝ, linLogLoss (V := Unit) (fun _ _ => .ok [1, 1])
    (fun _ x => .ok [x.map Complex.ofReal]) { n := 2, floorDb := -40 } [1, 0] [0.1, 0] =
      .ok (d : WithTop ℝ) ∧ 0 < d := by
  have hs : Setup (V := Unit) (fun _ _ => .ok [1, 1]) { n := 2, floorDb := -40 } [1, 1] :=
    ⟨Or.inr ⟨rfl, rfl⟩, by simp [Dict.get?], by norm_num⟩
  obtain ⟨d, _, _, h1, _, _, _, h2, _, h3⟩ := C81_pseudometric _
    (fun _ x => .ok [x.map Complex.ofReal]) { n := 2, floorDb := -40 } [1, 1] hs 1 (Or.inl rfl) le_rfl
    (by simp) [1, 0] [0.1, 0] [0, 0] _ _ _ rfl rfl rfl (by simp [SameShape]) (by simp [SameShape])
  refine ⟨d, h1, lt_of_le_of_ne h2 fun h0 => ?_⟩
  have := h3.1 h0.symm
  norm_num at this

/-- **C81 (multiscale).** The default multiscale loss, sequential or with any schedule of a pool that
finishes all tasks, is not negative, symmetric, satisfies the triangle inequality and is zero exactly
if the magnitudes of the STFTs of sizes 64, 128, ..., 2048 are equal. -/
theorem C81_multiscale (w : ℤ → List ℝ) (x y z : List ℝ) (X Y Z : ℤ → List (List ℂ))
    (hw : ∀ i ∈ [6, 7, 8, 9, 10, 11], getWindow "hamming" (2 ^ i) = .ok (w (2 ^ i)))
    (hX : ∀ i ∈ [6, 7, 8, 9, 10, 11],
      stft ⟨w (2 ^ i), 2 ^ i, ⌊(0.75 : ℝ) * (w (2 ^ i)).length⌋, []⟩ x = .ok (X (2 ^ i)))
    (hY : ∀ i ∈ [6, 7, 8, 9, 10, 11],
      stft ⟨w (2 ^ i), 2 ^ i, ⌊(0.75 : ℝ) * (w (2 ^ i)).length⌋, []⟩ y = .ok (Y (2 ^ i)))
    (hZ : ∀ i ∈ [6, 7, 8, 9, 10, 11],
      stft ⟨w (2 ^ i), 2 ^ i, ⌊(0.75 : ℝ) * (w (2 ^ i)).length⌋, []⟩ z = .ok (Z (2 ^ i)))
    (hXY : ∀ i ∈ [6, 7, 8, 9, 10, 11], SameShape (X (2 ^ i)) (Y (2 ^ i)))
    (hYZ : ∀ i ∈ [6, 7, 8, 9, 10, 11], SameShape (Y (2 ^ i)) (Z (2 ^ i)))
    (pool : Bool) (njobs : Option Int) (finished : List Nat)
    (hp : (pool = false ∧ njobs = none) ∨
      ((pool = true ∨ ∃ n, njobs = some n ∧ 1 ≤ n) ∧ ∀ i < 6, i ∈ finished)) :
    ∃ dxy dyz dxz : ℝ,
      multiscaleLoss getWindow stft x y pool njobs finished = some (.ok (dxy : WithTop ℝ)) ∧
      multiscaleLoss getWindow stft y x pool njobs finished = some (.ok (dxy : WithTop ℝ)) ∧
      multiscaleLoss getWindow stft y z pool njobs finished = some (.ok (dyz : WithTop ℝ)) ∧
      multiscaleLoss getWindow stft x z pool njobs finished = some (.ok (dxz : WithTop ℝ)) ∧
      0 ≤ dxy ∧ dxz ≤ dxy + dyz ∧
      (dxy = 0 ↔ ∀ i ∈ [6, 7, 8, 9, 10, 11],
        (X (2 ^ i)).map (List.map norm) = (Y (2 ^ i)).map (List.map norm)) := by
  have seq : ∀ u v : List ℝ, multiscaleLoss getWindow stft u v pool njobs finished =
      multiscaleLoss getWindow stft u v false none [] := by
    intro u v
    rcases hp with ⟨rfl, rfl⟩ | ⟨hp, hall⟩
    · rfl
    · exact (C54_schedule _ _ _ _ pool njobs hp finished).2 (by simpa using hall)
  have one : ∀ i ∈ [6, 7, 8, 9, 10, 11], ∃ dxy dyz dxz : ℝ,
      linLogLoss getWindow stft { n := 2 ^ i } x y = .ok (dxy : WithTop ℝ) ∧
      linLogLoss getWindow stft { n := 2 ^ i } y x = .ok (dxy : WithTop ℝ) ∧
      linLogLoss getWindow stft { n := 2 ^ i } y z = .ok (dyz : WithTop ℝ) ∧
      linLogLoss getWindow stft { n := 2 ^ i } x z = .ok (dxz : WithTop ℝ) ∧
      0 ≤ dxy ∧ dxz ≤ dxy + dyz ∧
      (dxy = 0 ↔ (X (2 ^ i)).map (List.map norm) = (Y (2 ^ i)).map (List.map norm)) := by
    intro i hi
    exact C81_pseudometric getWindow stft { n := 2 ^ i } (w (2 ^ i))
      ⟨Or.inr ⟨rfl, hw i hi⟩, by simp [Dict.get?], by norm_num⟩ 1 (Or.inl rfl) le_rfl
      (by simp) x y z _ _ _ (hX i hi) (hY i hi) (hZ i hi) (hXY i hi) (hYZ i hi)
  have expand : ∀ (u v : List ℝ) (d : ℕ → ℝ),
      (∀ i ∈ [6, 7, 8, 9, 10, 11],
        linLogLoss getWindow stft { n := 2 ^ i } u v = .ok (d i : WithTop ℝ)) →
      multiscaleLoss getWindow stft u v false none [] =
        some (.ok ((([6, 7, 8, 9, 10, 11].map d).sum : ℝ) : WithTop ℝ)) := by
    intro u v d hd
    have e := (C54_value (R := WithTop ℝ) (fun (a : List ℝ × List ℝ) (kw : Dict ℤ) =>
      linLogLoss getWindow stft { n := (kw.get? "n").getD 2048 } a.1 a.2)
      ((List.range' 6 6).map fun i => [("n", (1 : ℤ) <<< i)]) (u, v) []).1
      ([6, 7, 8, 9, 10, 11].map fun i => (d i : WithTop ℝ)) (by
        have e : ((List.range' 6 6).map fun i => [("n", (1 : ℤ) <<< i)]) =
            [6, 7, 8, 9, 10, 11].map fun i : ℕ => [("n", (2 : ℤ) ^ i)] := by decide
        rw [e, List.map_map, List.map_map]
        apply List.map_congr_left
        intro i hi
        simpa [Dict.update, Dict.get?] using hd i hi)
    rw [multiscaleLoss, e]
    congr 2
    simp only [List.map_cons, List.map_nil, List.foldl_cons, List.foldl_nil, List.sum_cons,
      List.sum_nil]
    norm_cast
    ring_nf
  choose! dxy dyz dxz h using one
  refine ⟨_, _, _, (seq x y).trans (expand x y dxy fun i hi => (h i hi).1),
    (seq y x).trans (expand y x dxy fun i hi => (h i hi).2.1),
    (seq y z).trans (expand y z dyz fun i hi => (h i hi).2.2.1),
    (seq x z).trans (expand x z dxz fun i hi => (h i hi).2.2.2.1), ?_, ?_, ?_⟩
  · apply List.sum_nonneg
    intro a ha
    obtain ⟨i, hi, rfl⟩ := List.mem_map.1 ha
    exact (h i hi).2.2.2.2.1
  · rw [← List.sum_map_add]
    apply List.sum_le_sum
    intro i hi
    exact (h i hi).2.2.2.2.2.1
  · have key : ∀ l : List ℕ, (∀ i ∈ l, 0 ≤ dxy i) →
        ((l.map dxy).sum = 0 ↔ ∀ i ∈ l, dxy i = 0) := by
      intro l hl
      induction l with
      | nil => simp
      | cons a l ih =>
        have h0 := hl a (by simp)
        have h1 : 0 ≤ (l.map dxy).sum := by
          apply List.sum_nonneg
          intro b hb
          obtain ⟨i, hi, rfl⟩ := List.mem_map.1 hb
          exact hl i (by simp [hi])
        simp only [List.map_cons, List.sum_cons, List.mem_cons, forall_eq_or_imp]
        rw [add_eq_zero_iff_of_nonneg h0 h1, ih fun i hi => hl i (by simp [hi])]
    rw [key _ fun i hi => (h i hi).2.2.2.2.1]
    exact forall₂_congr fun i hi => (h i hi).2.2.2.2.2.2

end linlog

end Verif.Eval
