import Verif.Scripts.BenchModel
import Mathlib.Data.List.Basic
import Mathlib.Data.List.Flatten
import Mathlib.Data.Rat.Defs
import Mathlib.Algebra.Order.Ring.Rat
import Mathlib.Tactic.Linarith
import Mathlib.Tactic.Ring
import Mathlib.Tactic.FieldSimp

/-!
# C88, C89: the benchmark script
-/

set_option autoImplicit false
set_option linter.unusedSectionVars false
set_option linter.unusedSimpArgs false

namespace Verif.Scripts

variable {V : Type}

/-! ## Specification -/

/-- The value of a case in a column other than that of the times. -/
def Case.field (k : Case V) : Col → Option V
  | .method => some k.method
  | .stride => some k.stride
  | .duration => some k.duration
  | .methodI => some k.methodI
  | .strideI => some k.strideI
  | .durationI => some k.durationI
  | .timeit => none

/-- Data with `n` rows for each of the first `m` cases: all columns have `m * n` values, and row `j` belongs
to case `j / n`. -/
structure GoodData (n : Nat) (cases : List (Case V)) (m : Nat) (data : BenchData V) : Prop where
  le : m ≤ cases.length
  length : ∀ c, (data c).length = m * n
  row : ∀ (c : Col) (j : Nat) (k : Case V) (v : V), c ≠ .timeit → j < m * n →
    cases[j / n]? = some k → k.field c = some v → (data c)[j]? = some v

/-- The changes of columns made before an interruption at any point, possibly with a column that is extended
only in part. -/
def PartialSteps (steps done : List (Col × List V)) : Prop :=
  done <+: steps ∨ ∃ d c vs vs', d ++ [(c, vs)] <+: steps ∧ vs' <+: vs ∧ done = d ++ [(c, vs')]

/-- What a history of runs with the same number of samples and the same cases can leave in the file; the
times are measured anew in each run. -/
inductive BenchReach (n : Nat) (cases : List (Case V)) : Option (BenchData V) → Prop
  | start : BenchReach n cases none
  | run {file : Option (BenchData V)} (h : BenchReach n cases file) (times : Nat → List V)
      (ht : ∀ j, (times j).length = n) (steps : Nat → List (Col × List V))
      (hs : ∀ i, PartialSteps (benchSteps n times cases i) (steps i)) {data : BenchData V}
      (hd : benchRun n file steps = .ok data) : BenchReach n cases (some data)

/-! ## Columns -/

/-- The values added to a column. -/
def colVals (c : Col) (steps : List (Col × List V)) : List V :=
  steps.flatMap fun s => if c = s.1 then s.2 else []

theorem applySteps_eq (data : BenchData V) (steps : List (Col × List V)) (c : Col) :
    applySteps data steps c = data c ++ colVals c steps := by
  induction steps generalizing data with
  | nil => simp [applySteps, colVals]
  | cons s l ih =>
    obtain ⟨c', vs⟩ := s
    simp only [applySteps, ih, extend, colVals, List.flatMap_cons]
    split <;> simp [List.append_assoc]

theorem colVals_partial {steps done : List (Col × List V)} (h : PartialSteps steps done) (c : Col) :
    colVals c done <+: colVals c steps := by
  rcases h with ⟨r, rfl⟩ | ⟨d, c', vs, vs', ⟨r, rfl⟩, ⟨r', rfl⟩, rfl⟩
  · exact ⟨colVals c r, by simp [colVals]⟩
  · simp only [colVals, List.flatMap_append, List.flatMap_cons, List.flatMap_nil, List.append_nil,
      List.append_assoc]
    rw [List.prefix_append_right_inj]
    split
    · exact ⟨r' ++ _, by rw [List.append_assoc]⟩
    · simp

/-- The values of one case in a column. -/
def caseVals (n : Nat) (t : List V) (k : Case V) (c : Col) : List V :=
  match k.field c with
  | some v => List.replicate n v
  | none => t

theorem colVals_caseSteps (n : Nat) (t : List V) (k : Case V) (c : Col) :
    colVals c (caseSteps n k t) = caseVals n t k c := by
  cases c <;> simp [colVals, caseSteps, caseVals, Case.field]

theorem caseVals_length {n : Nat} {t : List V} (ht : t.length = n) (k : Case V) (c : Col) :
    (caseVals n t k c).length = n := by
  unfold caseVals
  split <;> simp [ht]

theorem colVals_benchSteps (n : Nat) (times : Nat → List V) (cases : List (Case V)) (m : Nat) (c : Col) :
    colVals c (benchSteps n times cases m) =
      (cases.zipIdx.drop m).flatMap fun kj => caseVals n (times kj.2) kj.1 c := by
  unfold benchSteps
  rw [colVals, List.flatMap_assoc]
  congr 1
  funext kj
  rw [← colVals_caseSteps]
  rfl

theorem flatMap_length_const {α β : Type} {f : α → List β} {q : Nat} {l : List α}
    (h : ∀ x ∈ l, (f x).length = q) : (l.flatMap f).length = l.length * q := by
  induction l with
  | nil => simp
  | cons x l ih =>
    rw [List.flatMap_cons, List.length_append, h x List.mem_cons_self,
      ih fun y hy => h y (List.mem_cons_of_mem _ hy), List.length_cons, Nat.succ_mul, Nat.add_comm]

/-- Elements of a list made of pieces of equal lengths. -/
theorem flatMap_getElem? {α β : Type} {f : α → List β} {q : Nat} (hq : 0 < q) {l : List α}
    (h : ∀ x ∈ l, (f x).length = q) (j : Nat) :
    (l.flatMap f)[j]? = (l[j / q]?).bind fun x => (f x)[j % q]? := by
  induction l generalizing j with
  | nil => simp
  | cons x l ih =>
    rw [List.flatMap_cons]
    have hx := h x List.mem_cons_self
    by_cases hj : j < q
    · rw [List.getElem?_append_left (by rw [hx]; exact hj), Nat.div_eq_of_lt hj, Nat.mod_eq_of_lt hj]
      simp
    · have hle : q ≤ j := by omega
      rw [List.getElem?_append_right (by rw [hx]; exact hle), hx,
        ih (fun y hy => h y (List.mem_cons_of_mem _ hy)), Nat.div_eq_sub_div hq hle,
        List.getElem?_cons_succ, Nat.mod_eq_sub_mod hle]

theorem flatMap_take {α β : Type} {f : α → List β} {q : Nat} {l : List α}
    (h : ∀ x ∈ l, (f x).length = q) (m : Nat) :
    (l.flatMap f).take (m * q) = (l.take m).flatMap f := by
  induction l generalizing m with
  | nil => simp
  | cons x l ih =>
    cases m with
    | zero => simp
    | succ m =>
      have hx := h x List.mem_cons_self
      rw [List.flatMap_cons, List.take_succ_cons, List.flatMap_cons, Nat.succ_mul, Nat.add_comm, ← hx,
        List.take_length_add_append, hx, ih fun y hy => h y (List.mem_cons_of_mem _ hy)]

theorem minLen_le (data : BenchData V) (c : Col) : minLen data ≤ (data c).length := by
  unfold minLen Col.all
  simp only [List.map_cons, List.map_nil, List.foldl_cons, List.foldl_nil]
  cases c <;> omega

theorem le_minLen {data : BenchData V} {b : Nat} (h : ∀ c, b ≤ (data c).length) : b ≤ minLen data := by
  unfold minLen Col.all
  simp only [List.map_cons, List.map_nil, List.foldl_cons, List.foldl_nil]
  have h1 := h .method
  have h2 := h .stride
  have h3 := h .duration
  have h4 := h .methodI
  have h5 := h .strideI
  have h6 := h .durationI
  have h7 := h .timeit
  omega

theorem minLen_eq {data : BenchData V} {b : Nat} (h : ∀ c, (data c).length = b) : minLen data = b :=
  Nat.le_antisymm (h .method ▸ minLen_le data .method) (le_minLen fun c => Nat.le_of_eq (h c).symm)

/-- Good data are clean. -/
theorem cleanData_good {n m : Nat} (hn : 0 < n) {data : BenchData V}
    (h : ∀ c, (data c).length = m * n) : cleanData n data = .ok data := by
  have h0 : n ≠ 0 := by omega
  simp only [cleanData, h0, if_false, minLen_eq h, Nat.mul_div_cancel _ hn, Except.ok.injEq]
  funext c
  rw [← h c, List.take_length]

/-- The columns of a run that goes to the end: the data that were loaded, then all the other cases. -/
def fullCol (n : Nat) (times : Nat → List V) (cases : List (Case V)) (m : Nat) (data : BenchData V)
    (c : Col) : List V :=
  data c ++ (cases.zipIdx.drop m).flatMap fun kj => caseVals n (times kj.2) kj.1 c

/-- The first columns of such a run. -/
theorem fullCol_take {n : Nat} {times : Nat → List V} (ht : ∀ j, (times j).length = n)
    {cases : List (Case V)} {m : Nat} {data : BenchData V} (h : ∀ c, (data c).length = m * n)
    (q : Nat) (c : Col) :
    (fullCol n times cases m data c).take ((m + q) * n) =
      data c ++ ((cases.zipIdx.drop m).take q).flatMap fun kj => caseVals n (times kj.2) kj.1 c := by
  rw [fullCol, Nat.add_mul, ← h c, List.take_length_add_append,
    flatMap_take fun kj _ => caseVals_length (ht kj.2) kj.1 c]

/-- The first columns of such a run are good data. -/
theorem good_append {n : Nat} (hn : 0 < n) {times : Nat → List V} (ht : ∀ j, (times j).length = n)
    {cases : List (Case V)} {m : Nat} {data : BenchData V} (h : GoodData n cases m data) {q : Nat}
    (hq : m + q ≤ cases.length) :
    GoodData n cases (m + q) fun c =>
      data c ++ ((cases.zipIdx.drop m).take q).flatMap fun kj => caseVals n (times kj.2) kj.1 c := by
  have hlen : ∀ c, (((cases.zipIdx.drop m).take q).flatMap
      fun kj => caseVals n (times kj.2) kj.1 c).length = q * n := by
    intro c
    rw [flatMap_length_const fun kj _ => caseVals_length (ht kj.2) kj.1 c]
    congr 1
    simp only [List.length_take, List.length_drop, List.length_zipIdx]
    omega
  refine ⟨hq, fun c => ?_, fun c j k v hc hj hk hv => ?_⟩
  · rw [List.length_append, hlen, h.length, Nat.add_mul]
  · by_cases hjm : j < m * n
    · rw [List.getElem?_append_left (by rw [h.length]; exact hjm)]
      exact h.row c j k v hc hjm hk hv
    · have hle : m * n ≤ j := by omega
      have hjn : j - m * n < q * n := by rw [Nat.add_mul] at hj; omega
      rw [List.getElem?_append_right (by rw [h.length]; exact hle), h.length,
        flatMap_getElem? hn fun kj _ => caseVals_length (ht kj.2) kj.1 c]
      have e1 : (j - m * n) / n = j / n - m := by
        rw [Nat.mul_comm, Nat.sub_mul_div]
      have hdq : (j - m * n) / n < q := Nat.div_lt_of_lt_mul (by rw [Nat.mul_comm n q]; exact hjn)
      have hdm : m ≤ j / n := (Nat.le_div_iff_mul_le hn).2 hle
      rw [List.getElem?_take, if_pos hdq, List.getElem?_drop, e1, Nat.add_sub_cancel' hdm,
        List.getElem?_zipIdx, hk]
      simp only [Option.map_some, Option.bind_some, caseVals, hv]
      rw [List.getElem?_replicate, if_pos (Nat.mod_lt _ hn)]

/-! ## C88 -/

/-- Data that are found are good (none have been written yet, or good ones). -/
def GoodFile (n : Nat) (cases : List (Case V)) (m : Nat) : Option (BenchData V) → Prop
  | none => m = 0
  | some data => GoodData n cases m data

/-- The data in the file. -/
def fileData : Option (BenchData V) → BenchData V
  | none => fun _ => []
  | some data => data

theorem goodFile_data {n m : Nat} {cases : List (Case V)} {file : Option (BenchData V)}
    (h : GoodFile n cases m file) : GoodData n cases m (fileData file) := by
  cases file with
  | none =>
    have : m = 0 := h
    subst this
    exact ⟨Nat.zero_le _, by simp [fileData], by simp⟩
  | some d => exact h

theorem loadData_good {n m : Nat} (hn : 0 < n) {cases : List (Case V)} {file : Option (BenchData V)}
    (h : GoodFile n cases m file) : loadData n file = .ok (fileData file) := by
  cases file with
  | none => rfl
  | some d => exact cleanData_good hn h.length

/-- A run that is interrupted at any point saves good data: those it found, then `q` more cases with their
times.  If the changes for the first `q'` cases had been made, then `q' ≤ q`. -/
theorem C88_run {n m : Nat} (hn : 0 < n) {cases : List (Case V)} {file : Option (BenchData V)}
    (h : GoodFile n cases m file) {times : Nat → List V} (ht : ∀ j, (times j).length = n)
    {steps : Nat → List (Col × List V)}
    (hs : ∀ i, PartialSteps (benchSteps n times cases i) (steps i)) :
    ∃ (data : BenchData V) (q : Nat), benchRun n file steps = .ok data ∧
      GoodData n cases (m + q) data ∧
      (∀ c, fileData file c <+: data c) ∧
      data .timeit = fileData file .timeit ++ (List.range' m q).flatMap times ∧
      ∀ q', m + q' ≤ cases.length →
        ((cases.zipIdx.drop m).take q').flatMap (fun kj => caseSteps n kj.1 (times kj.2)) <+: steps m →
        q' ≤ q := by
  have hg := goodFile_data h
  have h0 : n ≠ 0 := by omega
  have hst : startIndex n (fileData file) = m := by
    rw [startIndex, hg.length, Nat.mul_div_cancel _ hn]
  have hrun : benchRun n file steps = cleanData n (applySteps (fileData file) (steps m)) := by
    unfold benchRun
    rw [loadData_good hn h]
    simp only [h0, if_false, hst]
  -- all columns are beginnings of the columns of the whole run
  have hpre : ∀ c, applySteps (fileData file) (steps m) c <+:
      fullCol n times cases m (fileData file) c := by
    intro c
    rw [applySteps_eq, fullCol, List.prefix_append_right_inj, ← colVals_benchSteps]
    exact colVals_partial (hs m) c
  have hge : ∀ c, m * n ≤ (applySteps (fileData file) (steps m) c).length := by
    intro c
    rw [applySteps_eq, List.length_append, hg.length]
    omega
  have hmin := le_minLen hge
  have hle : m ≤ minLen (applySteps (fileData file) (steps m)) / n := (Nat.le_div_iff_mul_le hn).2 hmin
  obtain ⟨q, hq⟩ := Nat.exists_eq_add_of_le hle
  have hfull : ∀ c, (fullCol n times cases m (fileData file) c).length = cases.length * n := by
    intro c
    rw [fullCol, List.length_append, hg.length,
      flatMap_length_const fun kj _ => caseVals_length (ht kj.2) kj.1 c, ← Nat.add_mul]
    congr 1
    have := hg.le
    simp only [List.length_drop, List.length_zipIdx]
    omega
  have hmq : m + q ≤ cases.length := by
    rw [← hq]
    have h1 := minLen_le (applySteps (fileData file) (steps m)) .method
    have h2 := (hpre .method).length_le
    rw [hfull] at h2
    have h3 : minLen (applySteps (fileData file) (steps m)) ≤ cases.length * n := le_trans h1 h2
    calc _ ≤ cases.length * n / n := Nat.div_le_div_right h3
      _ = _ := Nat.mul_div_cancel _ hn
  have hdata : cleanData n (applySteps (fileData file) (steps m)) = .ok fun c =>
      fileData file c ++
        ((cases.zipIdx.drop m).take q).flatMap fun kj => caseVals n (times kj.2) kj.1 c := by
    simp only [cleanData, h0, if_false, Except.ok.injEq]
    funext c
    rw [← fullCol_take ht hg.length, hq]
    have hlen : (m + q) * n ≤ (applySteps (fileData file) (steps m) c).length := by
      rw [← hq]
      exact le_trans (Nat.div_mul_le_self _ _) (minLen_le _ c)
    obtain ⟨r, hr⟩ := hpre c
    rw [← hr, List.take_append_of_le_length hlen]
  refine ⟨_, q, hrun.trans hdata, good_append hn ht hg hmq, fun c => List.prefix_append _ _, ?_, ?_⟩
  · simp only [List.append_cancel_left_eq]
    have e : ((cases.zipIdx.drop m).take q).flatMap
        (fun kj => caseVals n (times kj.2) kj.1 Col.timeit) =
        (((cases.zipIdx.drop m).take q).map Prod.snd).flatMap times := by
      rw [List.flatMap_map]
      rfl
    rw [e]
    congr 1
    rw [List.map_take, List.map_drop, List.zipIdx_map_snd]
    apply List.ext_getElem?
    intro i
    rw [List.getElem?_take, List.getElem?_drop]
    split
    · rename_i hi
      rw [List.getElem?_range' (by omega), List.getElem?_range' (by omega)]
      simp
    · rename_i hi
      rw [List.getElem?_eq_none (by simpa using hi)]
  · intro q' hq' hdone
    have : m + q' ≤ m + q := by
      rw [← hq, Nat.le_div_iff_mul_le hn]
      refine le_minLen fun c => ?_
      rw [applySteps_eq, List.length_append, hg.length, Nat.add_mul]
      have h1 := colVals_partial (.inl hdone) c
      have h2 : colVals c (((cases.zipIdx.drop m).take q').flatMap
          (fun kj => caseSteps n kj.1 (times kj.2))) =
          ((cases.zipIdx.drop m).take q').flatMap fun kj => caseVals n (times kj.2) kj.1 c := by
        rw [colVals, List.flatMap_assoc]
        congr 1
        funext kj
        rw [← colVals_caseSteps]
        rfl
      have h3 := h1.length_le
      rw [h2, flatMap_length_const fun kj _ => caseVals_length (ht kj.2) kj.1 c] at h3
      have h4 : ((cases.zipIdx.drop m).take q').length = q' := by
        simp only [List.length_take, List.length_drop, List.length_zipIdx]
        omega
      rw [h4] at h3
      omega
    omega

/-- Whatever runs are made and interrupted, the file has the rows of some first cases, `n` for each one. -/
theorem C88_history {n : Nat} (hn : 0 < n) {cases : List (Case V)} {file : Option (BenchData V)}
    (h : BenchReach n cases file) : ∃ m, GoodFile n cases m file := by
  induction h with
  | start => exact ⟨0, rfl⟩
  | @run file h times ht steps hs data hd ih =>
    obtain ⟨m, hm⟩ := ih
    obtain ⟨data', q, h1, h2, -⟩ := C88_run hn hm ht hs
    rw [h1] at hd
    cases hd
    exact ⟨m + q, h2⟩

/-- After any history, a run that is not interrupted saves `n` rows for each case. -/
theorem C88_complete {n : Nat} (hn : 0 < n) {cases : List (Case V)} {file : Option (BenchData V)}
    (h : BenchReach n cases file) {times : Nat → List V} (ht : ∀ j, (times j).length = n) :
    ∃ data, benchRun n file (benchSteps n times cases) = .ok data ∧
      GoodData n cases cases.length data := by
  obtain ⟨m, hm⟩ := C88_history hn h
  obtain ⟨data, q, h1, h2, -, -, h5⟩ := C88_run hn hm ht (steps := benchSteps n times cases)
    fun i => .inl List.prefix_rfl
  have hle := (goodFile_data hm).le
  have h3 := h5 (cases.length - m) (by omega) (by
    rw [List.take_of_length_le (by simp)]
    exact List.prefix_rfl)
  have h4 := h2.le
  have e : m + q = cases.length := by omega
  exact ⟨data, h1, e ▸ h2⟩

/-- The number of samples must not be zero. -/
theorem C88_zero (file : Option (BenchData V)) (steps : Nat → List (Col × List V)) :
    benchRun 0 file steps = .error .zeroDivisionError := by
  cases file <;> simp [benchRun, loadData, cleanData]

/-- The cases are all the combinations: case `(d * S + s) * M + k` is duration `d`, stride `s`, method `k`
(`S` strides, `M` methods). -/
theorem C88_cases (ofNat : Nat → V) (durations strides methods : List V) :
    (benchCases ofNat durations strides methods).length =
      durations.length * strides.length * methods.length ∧
    ∀ (d s k : Nat) (hd : d < durations.length) (hs : s < strides.length) (hk : k < methods.length),
      (benchCases ofNat durations strides methods)[(d * strides.length + s) * methods.length + k]? =
        some ⟨methods[k], strides[s], durations[d], ofNat k, ofNat s, ofNat d⟩ := by
  have h1 : ∀ dd : V × Nat, ∀ ss ∈ strides.zipIdx, (methods.zipIdx.map fun k =>
      (⟨k.1, ss.1, dd.1, ofNat k.2, ofNat ss.2, ofNat dd.2⟩ : Case V)).length = methods.length :=
    fun dd ss _ => by simp
  have h2 : ∀ dd ∈ durations.zipIdx, (strides.zipIdx.flatMap fun ss => methods.zipIdx.map fun k =>
      (⟨k.1, ss.1, dd.1, ofNat k.2, ofNat ss.2, ofNat dd.2⟩ : Case V)).length =
        strides.length * methods.length := fun dd _ => by
    rw [flatMap_length_const (h1 dd), List.length_zipIdx]
  constructor
  · rw [benchCases, flatMap_length_const h2, List.length_zipIdx, Nat.mul_assoc]
  · intro d s k hd hs hk
    have hM : 0 < methods.length := by omega
    have hS : 0 < strides.length := by omega
    rw [benchCases, flatMap_getElem? (Nat.mul_pos hS hM) h2]
    have e : (d * strides.length + s) * methods.length + k =
        (s * methods.length + k) + (strides.length * methods.length) * d := by ring
    have hlt : s * methods.length + k < strides.length * methods.length := by
      calc s * methods.length + k < s * methods.length + methods.length := by omega
        _ = (s + 1) * methods.length := by ring
        _ ≤ _ := Nat.mul_le_mul_right _ hs
    have e1 : ((d * strides.length + s) * methods.length + k) / (strides.length * methods.length) = d := by
      rw [e, Nat.add_mul_div_left _ _ (Nat.mul_pos hS hM), Nat.div_eq_of_lt hlt, Nat.zero_add]
    have e2 : ((d * strides.length + s) * methods.length + k) % (strides.length * methods.length) =
        s * methods.length + k := by
      rw [e, Nat.add_mul_mod_self_left, Nat.mod_eq_of_lt hlt]
    rw [e1, e2, List.getElem?_zipIdx, List.getElem?_eq_getElem hd]
    simp only [Option.map_some, Option.bind_some, Nat.zero_add]
    rw [flatMap_getElem? hM (h1 (durations[d], d))]
    have e3 : (s * methods.length + k) / methods.length = s := by
      rw [Nat.add_comm, Nat.add_mul_div_right _ _ hM, Nat.div_eq_of_lt hk, Nat.zero_add]
    have e4 : (s * methods.length + k) % methods.length = k := by
      rw [Nat.add_comm, Nat.add_mul_mod_self_right, Nat.mod_eq_of_lt hk]
    rw [e3, e4, List.getElem?_zipIdx, List.getElem?_eq_getElem hs]
    simp [hk]

namespace BenchEx

/-- Two durations, one stride, two methods. -/
def cases : List (Case Nat) := benchCases id [100, 200] [7] [30, 31]

def times (j : Nat) : List Nat := [1000 + j, 2000 + j]

/-- An interruption in the second case: the column of strides has one value of two. -/
def cut (i : Nat) : List (Col × List Nat) :=
  (benchSteps 2 times cases i).take 9 ++
    match (benchSteps 2 times cases i)[9]? with
    | some (c, vs) => [(c, vs.take 1)]
    | none => []

theorem cut_partial (i : Nat) : PartialSteps (benchSteps 2 times cases i) (cut i) := by
  unfold cut
  split
  · rename_i c vs h
    refine .inr ⟨_, c, vs, vs.take 1, ?_, List.take_prefix _ _, rfl⟩
    have : (benchSteps 2 times cases i).take 9 ++ [(c, vs)] = (benchSteps 2 times cases i).take 10 := by
      rw [List.take_add_one (i := 9), h]
      rfl
    rw [this]
    exact List.take_prefix _ _
  · rw [List.append_nil]
    exact .inl (List.take_prefix _ _)

/-- The data after the interruption are those of the first case; the next run adds the other three. -/
example : (Col.all.map fun c => (benchRun 2 none cut).toOption.map fun d => d c) =
    [some [30, 30], some [7, 7], some [100, 100], some [0, 0], some [0, 0], some [0, 0],
      some [1000, 2000]] := by decide +kernel

example : ((benchRun 2 none cut).toOption.bind fun d =>
      (benchRun 2 (some d) (benchSteps 2 (fun j => [50 + j, 60 + j]) cases)).toOption.map
        fun d => (d .method, d .durationI, d .timeit)) =
    some ([30, 30, 31, 31, 30, 30, 31, 31], [0, 0, 0, 0, 1, 1, 1, 1],
      [1000, 2000, 51, 61, 52, 62, 53, 63]) := by decide +kernel

/-- The hypotheses of `C88_run`, `C88_history` and `C88_complete` hold for this history. -/
example : ∃ data, BenchReach 2 cases (some data) ∧ (data .method).length = 2 := by
  cases h : benchRun 2 none cut with
  | error e =>
    have : (benchRun 2 none cut).toOption.isSome = true := by decide +kernel
    rw [h] at this
    cases this
  | ok d =>
    refine ⟨d, .run .start times (fun _ => rfl) cut cut_partial h, ?_⟩
    have : (benchRun 2 none cut).toOption.map (fun d => (d .method).length) = some 2 := by
      decide +kernel
    rw [h] at this
    simpa [Except.toOption] using this

end BenchEx

/-- The number of samples must be the same in all runs: with two samples for the first two of four cases,
then one sample for each case, the third and fourth case are never run. -/
theorem C88_other_samples : ∃ (file data : BenchData Nat),
    GoodData 2 BenchEx.cases 2 file ∧
    benchRun 1 (some file) (benchSteps 1 (fun _ => [5]) BenchEx.cases) = .ok data ∧
    200 ∉ data .duration := by
  have h0 : GoodFile 2 BenchEx.cases 0 (none : Option (BenchData Nat)) := rfl
  refine ⟨fun c => match c with
      | .method => [30, 30, 31, 31] | .stride => [7, 7, 7, 7] | .duration => [100, 100, 100, 100]
      | .methodI => [0, 0, 1, 1] | .strideI => [0, 0, 0, 0] | .durationI => [0, 0, 0, 0]
      | .timeit => [1, 2, 3, 4], _, ⟨by decide, ?_, ?_⟩, rfl, by decide +kernel⟩
  · intro c; cases c <;> rfl
  · intro c j k v hc hj hk hv
    have hj4 : j < 4 := by omega
    have : j = 0 ∨ j = 1 ∨ j = 2 ∨ j = 3 := by omega
    rcases this with rfl | rfl | rfl | rfl <;>
      (cases hk; cases c <;> first | exact absurd rfl hc | (cases hv; rfl))

/-! ## C89: speed-up -/

section Speedup

variable {K : Type} [Field K] [LinearOrder K] [IsStrictOrderedRing K]

/-- The mean of the times of a method for a duration and a stride. -/
def meanTime (df : List (BenchRow K)) (k d s : Nat) : K :=
  let t := df.filter fun r => decide (r.method = k ∧ r.strideI = s ∧ r.durationI = d)
  (t.map (·.timeit)).sum / t.length

/-- There are rows for the method, duration and stride. -/
def HasRow (df : List (BenchRow K)) (k d s : Nat) : Prop :=
  ∃ r ∈ df, r.method = k ∧ r.strideI = s ∧ r.durationI = d

theorem sum_map_const {α : Type} {f : α → K} {D : K} {l : List α} (h : ∀ x ∈ l, f x = D) :
    (l.map f).sum = l.length * D := by
  induction l with
  | nil => simp
  | cons x l ih =>
    rw [List.map_cons, List.sum_cons, h x List.mem_cons_self,
      ih fun y hy => h y (List.mem_cons_of_mem _ hy), List.length_cons]
    push_cast
    ring

/-- An entry is the mean time divided by the duration. -/
theorem C89_times {df : List (BenchRow K)} {k d s : Nat} {D : K} (hr : HasRow df k d s)
    (hD : ∀ r ∈ df, r.durationI = d → r.duration = D) :
    timesEntry df k d s = some (meanTime df k d s / D) ∧
      timesEntry df k d s false = some (meanTime df k d s) := by
  obtain ⟨r, hrm, h1, h2, h3⟩ := hr
  have e : ((df.filter fun r => decide (r.method = k)).filter
      fun r => decide (r.strideI = s ∧ r.durationI = d)) =
      df.filter fun r => decide (r.method = k ∧ r.strideI = s ∧ r.durationI = d) := by
    rw [List.filter_filter]
    apply List.filter_congr
    intro x _
    simp only [Bool.decide_and]
    cases decide (x.method = k) <;> cases decide (x.strideI = s) <;> cases decide (x.durationI = d) <;> rfl
  have hne : (df.filter fun r => decide (r.method = k ∧ r.strideI = s ∧ r.durationI = d)) ≠ [] :=
    List.ne_nil_of_mem (List.mem_filter.2 ⟨hrm, by simp [h1, h2, h3]⟩)
  have ht : groupMean (((df.filter fun r => decide (r.method = k)).filter
      fun r => decide (r.strideI = s ∧ r.durationI = d)).map (·.timeit)) =
      some (meanTime df k d s) := by
    rw [e, groupMean, if_neg (by simpa using hne), meanTime, List.length_map]
  have hne2 : ((df.filter fun r => decide (r.method = k)).filter
      fun r => decide (r.durationI = d)) ≠ [] :=
    List.ne_nil_of_mem (List.mem_filter.2 ⟨List.mem_filter.2 ⟨hrm, by simp [h1]⟩, by simp [h3]⟩)
  have hd : groupMean (((df.filter fun r => decide (r.method = k)).filter
      fun r => decide (r.durationI = d)).map (·.duration)) = some D := by
    rw [groupMean, if_neg (by simpa using hne2), sum_map_const (D := D), List.length_map]
    · have : ((((df.filter fun r => decide (r.method = k)).filter
          fun r => decide (r.durationI = d)).length : Nat) : K) ≠ 0 := by
        rw [Nat.cast_ne_zero, ne_eq, List.length_eq_zero_iff]
        exact hne2
      rw [mul_div_cancel_left₀ _ this]
    · intro x hx
      have hx1 := List.mem_filter.1 hx
      exact hD x (List.mem_filter.1 hx1.1).1 (by simpa using hx1.2)
  constructor
  · simp only [timesEntry, ht, hd, if_true, Option.map_some]
  · simp only [timesEntry, ht, Bool.false_eq_true, if_false]

theorem best_eq {df : List (BenchRow K)} {d s : Nat} {D : K} (hDpos : 0 < D)
    (hD : ∀ r ∈ df, r.durationI = d → r.duration = D) (others : List Nat)
    (ho : ∀ k ∈ others, HasRow df k d s) (a : K) :
    others.foldl (fun a k => npMin a (timesEntry df k d s)) (some (a / D)) =
      some (others.foldl (fun a k => min a (meanTime df k d s)) a / D) := by
  induction others generalizing a with
  | nil => rfl
  | cons k l ih =>
    rw [List.foldl_cons, List.foldl_cons, (C89_times (ho k List.mem_cons_self) hD).1,
      ← ih fun k hk => ho k (List.mem_cons_of_mem _ hk)]
    congr 1
    simp only [npMin, bind, Option.bind, pure, Option.some.injEq]
    rw [min_div_div_right hDpos.le]

theorem foldl_min_spec (f : Nat → K) (l : List Nat) (a b : K) :
    (b < l.foldl (fun a k => min a (f k)) a ↔ b < a ∧ ∀ k ∈ l, b < f k) := by
  induction l generalizing a with
  | nil => simp
  | cons k l ih =>
    rw [List.foldl_cons, ih, lt_min_iff]
    simp [and_assoc]

/-- The speed-up is the least mean time of the other methods, divided by the mean time of the given method:
the division by the duration has no effect.  It is greater than a number `x` exactly if the mean time of
every other method is greater than `x` times that of the given method. -/
theorem C89_speedup {df : List (BenchRow K)} {d s first target : Nat} {others : List Nat} {D : K}
    (hDpos : 0 < D) (hD : ∀ r ∈ df, r.durationI = d → r.duration = D)
    (ho : ∀ k ∈ target :: first :: others, HasRow df k d s)
    (hpos : 0 < meanTime df target d s) :
    ∃ y, speedupEntry df first others target d s = some y ∧
      ∀ x, x < y ↔ ∀ k ∈ first :: others, x * meanTime df target d s < meanTime df k d s := by
  have h1 := C89_times (ho target (by simp)) hD
  have h2 := C89_times (ho first (by simp)) hD
  have h3 := best_eq (d := d) (s := s) hDpos hD others (fun k hk => ho k (by simp [hk]))
    (meanTime df first d s)
  refine ⟨(others.foldl (fun a k => min a (meanTime df k d s)) (meanTime df first d s) / D) /
    (meanTime df target d s / D), ?_, fun x => ?_⟩
  · simp only [speedupEntry, h1.1, h2.1, h3]
    rfl
  · rw [div_div_div_cancel_right₀ hDpos.ne', lt_div_iff₀ hpos, foldl_min_spec]
    simp

/-- Without rows for one of the methods (the benchmark has been interrupted) the entry is NaN. -/
theorem C89_missing {df : List (BenchRow K)} {d s first target k : Nat} {others : List Nat}
    (hk : k ∈ target :: first :: others) (h : ¬ HasRow df k d s) :
    speedupEntry df first others target d s = none := by
  have hnone : timesEntry df k d s = none := by
    have hnil : ((df.filter fun r => decide (r.method = k)).filter
        fun r => decide (r.strideI = s ∧ r.durationI = d)) = [] := by
      rw [List.filter_eq_nil_iff]
      intro r hr hr2
      have h1 := List.mem_filter.1 hr
      simp only [decide_eq_true_eq] at h1 hr2
      exact h ⟨r, h1.1, h1.2, hr2.1, hr2.2⟩
    simp only [timesEntry, hnil, List.map_nil, groupMean, if_true]
    split <;> rfl
  have hfold : ∀ (l : List Nat) (a : Option K), (a = none ∨ k ∈ l) →
      l.foldl (fun a k => npMin a (timesEntry df k d s)) a = none := by
    intro l
    induction l with
    | nil =>
      intro a ha
      simpa using ha
    | cons j l ih =>
      intro a ha
      rw [List.foldl_cons]
      apply ih
      rcases ha with rfl | ha
      · left; rfl
      · rcases List.mem_cons.1 ha with rfl | ha
        · left
          rw [hnone]
          cases a <;> rfl
        · exact .inr ha
  rcases List.mem_cons.1 hk with rfl | hk
  · unfold speedupEntry
    rw [hnone]
    cases others.foldl (fun a k => npMin a (timesEntry df k d s)) (timesEntry df first d s) <;> rfl
  · unfold speedupEntry
    rw [hfold others _ (by
      rcases List.mem_cons.1 hk with rfl | hk
      · exact .inl hnone
      · exact .inr hk)]
    rfl

/-- Two rows for each of three methods. -/
def speedupExample : List (BenchRow ℚ) :=
  [⟨0, 0, 0, 2, 6⟩, ⟨0, 0, 0, 2, 10⟩, ⟨1, 0, 0, 2, 3⟩, ⟨1, 0, 0, 2, 6⟩, ⟨2, 0, 0, 2, 1⟩, ⟨2, 0, 0, 2, 2⟩,
    ⟨0, 1, 0, 2, 9⟩]

example : speedupEntry speedupExample 0 [1] 2 0 0 = some 3 := by decide +kernel

example : speedupEntry speedupExample 0 [1] 2 0 1 = none := by decide +kernel

example : ∃ y, speedupEntry speedupExample 0 [1] 2 0 0 = some y ∧
    ∀ x, x < y ↔ ∀ k ∈ [0, 1], x * meanTime speedupExample 2 0 0 < meanTime speedupExample k 0 0 := by
  refine C89_speedup (D := 2) (by decide +kernel) ?_ ?_ (by decide +kernel)
  · decide +kernel
  · simp only [HasRow]; decide +kernel

end Speedup

end Verif.Scripts
