import Verif.Psycho.BankCallModel
import Verif.Psycho.FilterbankProps

/-!
# C166: filterbanks as objects: reuse of responses, keyword arguments
-/

set_option autoImplicit false
set_option linter.unusedSectionVars false
set_option linter.unusedSimpArgs false

namespace Verif.Psycho

theorem mapM_len {α β ε : Type} (f : α → Except ε β) : ∀ (l : List α) (m : List β),
    l.mapM f = .ok m → m.length = l.length := by
  intro l
  induction l with
  | nil =>
    intro m h
    have h : (Except.ok [] : Except ε (List β)) = .ok m := h
    injection h with h
    subst h
    rfl
  | cons a l ih =>
    intro m h
    rw [List.mapM_cons] at h
    cases ha : f a with
    | error e => rw [ha] at h; cases h
    | ok b =>
      cases hl : l.mapM f with
      | error e => rw [ha, hl] at h; cases h
      | ok m' =>
        rw [ha, hl] at h
        have h : (Except.ok (b :: m') : Except ε (List β)) = .ok m := h
        injection h with h
        subst h
        simp [ih m' hl]

theorem mkBank_irs {R : Type} (leads : List Int) (irs : List (List R)) (b : Bank R)
    (h : mkBank leads irs = .ok b) : b.irs = irs := by
  cases leads with
  | nil => cases h
  | cons a l =>
    simp only [mkBank, Except.ok.injEq] at h
    rw [← h]

/-- C166, responses made beforehand: for every list of filters and sample rate, the bank of responses has one
response per filter and keeps the frequencies in their order; it is complex exactly if that was asked for. -/
theorem C166_precompute (gs : List Gammatone) (fs : ℝ) (a : Bool) (b : IRBank) (h : precompute gs fs a = .ok b) :
    b.len = gfbLen gs ∧ b.freqs = gs.map Gammatone.f ∧
    (a = true → ∃ f c, b = .analytic f c) ∧ (a = false → ∃ f c, b = .real f c) := by
  cases hx : gs.mapM fun g => g.bankAxis fs with
  | error e => simp [precompute, hx, bind, Except.bind] at h
  | ok axes =>
    have hlen := mapM_len _ _ _ hx
    cases a with
    | true =>
      simp only [precompute, hx, bind, Except.bind, if_true] at h
      cases hm : mkBank (gs.map fun g => g.lead fs)
          (List.zipWith (fun t g => Gammatone.irAnalytic g t) axes gs) with
      | error e => simp [hm, liftPy] at h
      | ok c =>
        simp only [hm, liftPy, Except.ok.injEq] at h
        subst h
        refine ⟨?_, rfl, fun _ => ⟨_, _, rfl⟩, fun h => by cases h⟩
        simp [IRBank.len, gfbLen, mkBank_irs _ _ _ hm, hlen]
    | false =>
      simp only [precompute, hx, bind, Except.bind, Bool.false_eq_true, if_false] at h
      cases hm : mkBank (gs.map fun g => g.lead fs) (List.zipWith (fun t g => Gammatone.ir g t) axes gs) with
      | error e => simp [hm, liftPy] at h
      | ok c =>
        simp only [hm, liftPy, Except.ok.injEq] at h
        subst h
        refine ⟨?_, rfl, fun h => (by cases h), fun _ => ⟨_, _, rfl⟩⟩
        simp [IRBank.len, gfbLen, mkBank_irs _ _ _ hm, hlen]

/-- C166, reuse: for every list of filters, sample rate, signal, analytic mode, method, stride and post-processing:
responses made beforehand for the sample rate and the mode give the cochleagram of the filterbank; whatever sample
rate is given with them is not looked at.  With complex responses the mode need not be said again. -/
theorem C166_reuse (hilb : List ℝ → List ℂ) (gs : List Gammatone) (fs : ℝ) (analytic : Option String) (b : IRBank)
    (h : precompute gs fs (analytic = some "ir") = .ok b) (x : List ℝ) (fs' : Option ℝ) (method : Option String)
    (stride : Option Int) (post : Option (Option (Coch → Coch))) :
    cochleagram hilb x fs' (.precomputed b) analytic method stride post =
      cochleagram hilb x (some fs) (.filters gs) analytic method stride post ∧
    (analytic = some "ir" → cochleagram hilb x fs' (.precomputed b) none method stride post =
      cochleagram hilb x (some fs) (.filters gs) analytic method stride post) := by
  obtain ⟨-, -, k1, k2⟩ := C166_precompute gs fs _ b h
  by_cases ha : analytic = some "ir"
  · obtain ⟨f, c, rfl⟩ := k1 (by simp [ha])
    subst ha
    have h : precompute gs fs true = .ok (.analytic f c) := by simpa using h
    constructor
    · simp [cochleagram, checkAnalytic, bankOf, bind, Except.bind, h]
    · intro _
      simp [cochleagram, checkAnalytic, bankOf, bind, Except.bind, h]
  · obtain ⟨f, c, rfl⟩ := k2 (by simp [ha])
    refine ⟨?_, fun h => absurd h ha⟩
    simp only [cochleagram, checkAnalytic, bankOf, bind, Except.bind, h]

/-- C166, the method: without keyword arguments, `convolve` is the matrix of the cochleagram of the filterbank. -/
theorem C166_method (hilb : List ℝ → List ℂ) (gs : List Gammatone) (x : List ℝ) (fs : ℝ)
    (analytic method : Option String) :
    gfbConvolve hilb gs x fs analytic method [] =
      (cochleagram hilb x (some fs) (.filters gs) analytic method none none).map Prod.fst := by
  simp only [gfbConvolve, strideOf, postKw, List.lookup, Option.isSome_none, Bool.false_eq_true, if_false, bind,
    Except.bind, Except.map]

/-- C166, the keyword arguments that are known: a time step and a function are those of the cochleagram, in either
order and each alone. -/
theorem C166_options (hilb : List ℝ → List ℂ) (gs : List Gammatone) (x : List ℝ) (fs : ℝ)
    (analytic method : Option String) (s : Option Int) (f : Option (Coch → Coch)) :
    gfbConvolve hilb gs x fs analytic method [("stride", .step s)] =
      (cochleagram hilb x (some fs) (.filters gs) analytic method s none).map Prod.fst ∧
    gfbConvolve hilb gs x fs analytic method [("postprocessing", .fn f)] =
      (cochleagram hilb x (some fs) (.filters gs) analytic method none (some f)).map Prod.fst ∧
    gfbConvolve hilb gs x fs analytic method [("stride", .step s), ("postprocessing", .fn f)] =
      (cochleagram hilb x (some fs) (.filters gs) analytic method s (some f)).map Prod.fst ∧
    gfbConvolve hilb gs x fs analytic method [("postprocessing", .fn f), ("stride", .step s)] =
      (cochleagram hilb x (some fs) (.filters gs) analytic method s (some f)).map Prod.fst := by
  refine ⟨?_, ?_, ?_, ?_⟩ <;> simp [gfbConvolve, strideOf, postKw, List.lookup, bind, Except.bind, Except.map]

theorem lookup_append_none {β : Type} (k : String) (l l' : List (String × β)) (h : ∀ p ∈ l', p.1 ≠ k) :
    (l ++ l').lookup k = l.lookup k := by
  induction l with
  | nil =>
    simp only [List.nil_append, List.lookup]
    rw [List.lookup_eq_none_iff]
    intro p hp
    simpa [beq_iff_eq] using fun e => h p hp e.symm
  | cons a l ih =>
    obtain ⟨a, v⟩ := a
    simp only [List.cons_append, List.lookup]
    split
    · rfl
    · exact ih

/-- C166, keyword arguments: those that are not called `stride`, `postprocessing` or `filterbank` change nothing,
whatever they are: no exception and the same cochleagram. -/
theorem C166_ignored (hilb : List ℝ → List ℂ) (gs : List Gammatone) (x : List ℝ) (fs : ℝ)
    (analytic method : Option String) (kws more : List (String × KwVal))
    (h : ∀ p ∈ more, p.1 ∉ ["stride", "postprocessing", "filterbank"]) :
    gfbConvolve hilb gs x fs analytic method (kws ++ more) = gfbConvolve hilb gs x fs analytic method kws := by
  have h1 := lookup_append_none "stride" kws more fun p hp e => h p hp (by simp [e])
  have h2 := lookup_append_none "postprocessing" kws more fun p hp e => h p hp (by simp [e])
  have h3 := lookup_append_none "filterbank" kws more fun p hp e => h p hp (by simp [e])
  simp only [gfbConvolve, strideOf, postKw, h1, h2, h3]

/-- C166, the documented name: `postprocess` is not a name that is looked at; a function given by it is not applied.
Given as `postprocessing` it is applied in place of the rectification, to the real or complex matrix. -/
theorem C166_postprocess (hilb : List ℝ → List ℂ) (gs : List Gammatone) (x : List ℝ) (fs : ℝ)
    (analytic method : Option String) (f : Coch → Coch) :
    gfbConvolve hilb gs x fs analytic method [("postprocess", .fn (some f))] =
      gfbConvolve hilb gs x fs analytic method [] ∧
    gfbConvolve hilb gs x fs analytic method [("postprocessing", .fn (some f))] =
      (gfbConvolve hilb gs x fs analytic method [("postprocessing", .fn none)]).map f := by
  constructor
  · exact C166_ignored hilb gs x fs analytic method [] _ (by simp)
  · have l1 : ∀ v : KwVal, [("postprocessing", v)].lookup "filterbank" = none := fun v => by
      simp [List.lookup]
    have l2 : ∀ v : KwVal, [("postprocessing", v)].lookup "stride" = none := fun v => by simp [List.lookup]
    have l3 : ∀ v : KwVal, [("postprocessing", v)].lookup "postprocessing" = some v := fun v => by
      simp [List.lookup]
    simp only [gfbConvolve, strideOf, postKw, l1, l2, l3, Option.isSome_none, Bool.false_eq_true, if_false, bind,
      Except.bind, cochleagram, checkAnalytic, postOf]
    cases bankOf (.filters gs) (some fs) analytic with
    | error e => rfl
    | ok b =>
      simp only
      cases liftPy (filterWith hilb b x analytic method none) with
      | error e => rfl
      | ok o =>
        simp only
        cases liftPy (hilbertOut hilb analytic o) <;> rfl

/-- C166, refused: a second filterbank is a `TypeError`. -/
theorem C166_second (hilb : List ℝ → List ℂ) (gs : List Gammatone) (x : List ℝ) (fs : ℝ)
    (analytic method : Option String) (kws : List (String × KwVal)) (v : KwVal)
    (h : kws.lookup "filterbank" = some v) :
    gfbConvolve hilb gs x fs analytic method kws = .error (.py .typeError) := by
  simp [gfbConvolve, h, bind, Except.bind]

/-- C166, rows: for a filterbank that is ready, a signal of at least one sample and keyword arguments that are not
looked at, `convolve` gives a real matrix with one row per filter. -/
theorem C166_rows (hilb : List ℝ → List ℂ) (gs : List Gammatone) (fs : ℝ) (T : Gammatone → ℝ)
    (hr : Ready gs fs T) (x : List ℝ) (hx : 1 ≤ x.length) (method : Option String)
    (hm : method ∈ [none, some "overlap-add", some "auto", some "fft", some "direct"])
    (kws : List (String × KwVal)) (h : ∀ p ∈ kws, p.1 ∉ ["stride", "postprocessing", "filterbank"]) :
    ∃ rows, gfbConvolve hilb gs x fs none method kws = .ok (.real rows) ∧ rows.length = gfbLen gs := by
  obtain ⟨rows, -, e1, e2, -⟩ := C76_rectified hilb gs fs T hr x hx method hm
  refine ⟨rows, ?_, e2⟩
  have := C166_ignored hilb gs x fs none method [] kws h
  rw [List.nil_append] at this
  rw [this, C166_method, e1]
  rfl

/-- A filterbank that is ready, for which responses are made beforehand. -/
example : ∃ b, precompute [Gammatone.mk 1 4 (some 1) (some 0) (some 0) false none] 10 false = .ok b := by
  obtain ⟨T, hr⟩ := ready_example
  obtain ⟨rows, -, e1, -⟩ := C76_rectified (fun _ => []) _ 10 T hr [1] (by simp) none (by simp)
  cases hp : precompute [Gammatone.mk 1 4 (some 1) (some 0) (some 0) false none] 10 false with
  | ok b => exact ⟨b, rfl⟩
  | error e => simp [cochleagram, checkAnalytic, bankOf, hp, bind, Except.bind] at e1

/-- Keyword arguments that are not looked at. -/
example : ∀ p ∈ [("postprocess", KwVal.fn none), ("strides", KwVal.step (some 4))],
    p.1 ∉ ["stride", "postprocessing", "filterbank"] := by simp

end Verif.Psycho
