import Verif.Psycho.MelProps
import Verif.Psycho.SpectrogramModel

/-!
# C165: the Mel spectrogram of a signal
-/

set_option autoImplicit false
set_option linter.unusedSectionVars false
set_option linter.unusedSimpArgs false

namespace Verif.Psycho

/-- What is used of a short-time Fourier transform: the two axes depend on the size of the signal only, every column
has the size of the frequency axis, there is one column for each time, and a factor on the signal is a factor on the
matrix. -/
structure IsStft (stft : List ℝ → List ℝ × List ℝ × List (List ℂ)) : Prop where
  axes : ∀ x y : List ℝ, x.length = y.length → (stft x).1 = (stft y).1 ∧ (stft x).2.1 = (stft y).2.1
  col : ∀ (x : List ℝ), ∀ f ∈ (stft x).2.2, f.length = (stft x).1.length
  cols : ∀ x : List ℝ, (stft x).2.2.length = (stft x).2.1.length
  scale : ∀ (x : List ℝ) (s : ℝ), (stft (x.map (s * ·))).2.2 = (stft x).2.2.map (List.map ((s : ℂ) * ·))

theorem bank_weights (freqs e : List ℝ) (k : Nat) (he : e.length = k + 2) (hs : e.Pairwise (· < ·))
    (fb : List (List ℝ))
    (h : IsBank k (fun i => e.getD i 0) (fun i => e.getD (i + 1) 0) (fun i => e.getD (i + 2) 0) freqs fb) :
    ∀ r ∈ fb, r.length = freqs.length ∧ ∀ w ∈ r, 0 ≤ w := by
  intro r hr
  obtain ⟨i, hi, rfl⟩ := List.getElem_of_mem hr
  obtain ⟨row, r1, r2, r3⟩ := h.2 i (by rw [← h.1]; exact hi)
  rw [List.getElem?_eq_getElem hi, Option.some.injEq] at r1
  rw [r1]
  refine ⟨by omega, fun w hw => ?_⟩
  obtain ⟨j, hj, rfl⟩ := List.getElem_of_mem hw
  obtain ⟨w', w1, w2⟩ := r3 j (freqs[j]'(by omega)) (List.getElem?_eq_getElem _)
  rw [List.getElem?_eq_getElem hj, Option.some.injEq] at w1
  rw [w1]
  have hi' : i < k := by rw [← h.1]; exact hi
  have hlt : ∀ i j : Nat, i < j → j < e.length → e.getD i 0 < e.getD j 0 := by
    intro i j hij hj
    rw [List.getD_eq_getElem _ _ (by omega), List.getD_eq_getElem _ _ hj]
    exact List.pairwise_iff_getElem.1 hs i j (by omega) hj hij
  exact (C50_triangle _ _ _ _ _ (hlt _ _ (by omega) (by omega)) (hlt _ _ (by omega) (by omega)) w2).1

theorem frames_scale (fb : List (List ℝ)) (p : ℝ) (hp : 0 < p) (n : Nat) (hl : ∀ r ∈ fb, r.length = n)
    (hw : ∀ r ∈ fb, ∀ w ∈ r, 0 ≤ w) (s : ℂ) (l : List (List ℂ)) (h : ∀ f ∈ l, f.length = n) :
    ∃ m, l.mapM (stft2melFrame fb p) = .ok m ∧ m.length = l.length ∧
      (∀ y ∈ m, y.length = fb.length ∧ ∀ v ∈ y, 0 ≤ v) ∧
      (l.map (List.map (s * ·))).mapM (stft2melFrame fb p) = .ok (m.map (List.map (‖s‖ * ·))) := by
  induction l with
  | nil => exact ⟨[], rfl, rfl, by simp, rfl⟩
  | cons f l ih =>
    obtain ⟨m, m1, m2, m3, m4⟩ := ih fun f hf => h f (by simp [hf])
    have hf := h f (by simp)
    obtain ⟨y, y1, y2⟩ := C73_scale fb p hp f (fun r hr => (hl r hr).trans hf.symm) hw s
    obtain ⟨z, z1, z2, z3⟩ := frame_pow fb p hp f (fun r hr => (hl r hr).trans hf.symm) hw
    rw [y1] at z1
    injection z1 with z1
    subst z1
    have hyl : y.length = fb.length := by simpa using congrArg List.length z3
    refine ⟨y :: m, by rw [List.mapM_cons, y1, m1]; rfl, by simp [m2], ?_, ?_⟩
    · intro v hv
      rcases List.mem_cons.1 hv with rfl | hv
      · exact ⟨hyl, z2⟩
      · exact m3 v hv
    · rw [List.map_cons, List.mapM_cons, y2, m4]
      rfl

/-- C165, a filterbank given: for every short-time transform, signal, filterbank without negative weights over its
frequency axis, and exponent `p > 0`: the first result is `None`, the second the time axis, the third has one column
for each time with one value, not negative, for each filter; with the signal multiplied by `s`, the result is the
same but for the matrix, multiplied by `|s|`. -/
theorem C165_given (stft : List ℝ → List ℝ × List ℝ × List (List ℂ)) (hst : IsStft stft) (x : List ℝ)
    (fb : List (List ℝ)) (hl : ∀ r ∈ fb, r.length = (stft x).1.length) (hw : ∀ r ∈ fb, ∀ w ∈ r, 0 ≤ w) (p : ℝ)
    (hp : 0 < p) (make : List ℝ → Except PyErr (List (List ℝ) × List ℝ)) (s : ℝ) :
    ∃ m, melSpectrogram stft x (some fb) p make = .ok (none, (stft x).2.1, m) ∧
      m.length = (stft x).2.1.length ∧ (∀ y ∈ m, y.length = fb.length ∧ ∀ v ∈ y, 0 ≤ v) ∧
      melSpectrogram stft (x.map (s * ·)) (some fb) p make =
        .ok (none, (stft x).2.1, m.map (List.map (|s| * ·))) := by
  obtain ⟨m, m1, m2, m3, m4⟩ := frames_scale fb p hp _ hl hw (s : ℂ) _ (hst.col x)
  have ha := hst.axes (x.map (s * ·)) x (by simp)
  rw [Complex.norm_real, Real.norm_eq_abs] at m4
  refine ⟨m, ?_, m2.trans (hst.cols x), m3, ?_⟩
  · simp only [melSpectrogram, stft2mel, bind, Except.bind, m1, pure, Except.pure]
  · simp only [melSpectrogram, stft2mel, bind, Except.bind, hst.scale, m4, ha.2, pure, Except.pure]

/-- C165, the filterbank computed: for every short-time transform, signal and exponent `p > 0`, with `k ≥ 1` filters
on the Mel scale between limits `0 ≤ a < b`: the first result are `k` increasing frequencies between the limits, the
second is the time axis, the third has one column for each time with one value, not negative, for each frequency;
the energy of a column (sum of `p`-th powers) is at most the one of the column of the transform; with the signal
multiplied by `s`, the result is the same but for the matrix, multiplied by `|s|`. -/
theorem C165_computed (stft : List ℝ → List ℝ × List ℝ × List (List ℂ)) (hst : IsStft stft) (x : List ℝ)
    (flim : Option (List ℝ)) (k : Nat) (hk : 1 ≤ k) (a b : ℝ) (ha : (flim.getD (stft x).1)[0]? = some a)
    (hb : (flim.getD (stft x).1).getLast? = some b) (h0 : 0 ≤ a) (hab : a < b) (p : ℝ) (hp : 0 < p) (s : ℝ) :
    ∃ c m, melSpectrogram stft x none p (fun freqs =>
        melFilterbank freqs (some k) none flim (fun f => (Out.mel f).getD 0) Out.hzMel) =
        .ok (some c, (stft x).2.1, m) ∧
      c.length = k ∧ c.Pairwise (· < ·) ∧ (∀ f ∈ c, a < f ∧ f < b) ∧
      m.length = (stft x).2.1.length ∧ (∀ y ∈ m, y.length = k ∧ ∀ v ∈ y, 0 ≤ v) ∧
      (∀ (t : Nat) (frame : List ℂ), (stft x).2.2[t]? = some frame → ∃ y, m[t]? = some y ∧
        (y.map (· ^ p)).sum ≤ (frame.map fun z => ‖z‖ ^ p).sum) ∧
      melSpectrogram stft (x.map (s * ·)) none p (fun freqs =>
        melFilterbank freqs (some k) none flim (fun f => (Out.mel f).getD 0) Out.hzMel) =
        .ok (some c, (stft x).2.1, m.map (List.map (|s| * ·))) := by
  obtain ⟨rows, e, h1, h2, h3, -, -, -, h7, -⟩ := C50_mel (stft x).1 flim k hk a b ha hb h0 hab
  have hr := bank_weights _ e k h2 h3 rows h7
  obtain ⟨m, m1, m2, m3, m4⟩ := frames_scale rows p hp _ (fun r h => (hr r h).1) (fun r h => (hr r h).2) (s : ℂ) _
    (hst.col x)
  have hax := hst.axes (x.map (s * ·)) x (by simp)
  rw [Complex.norm_real, Real.norm_eq_abs] at m4
  obtain ⟨m', c, e1, e2, e3, e4, -, e6⟩ := C73_stft2mel (stft x).1 flim k hk a b ha hb h0 hab p hp (stft x).2.2
    (hst.col x)
  simp only [stft2mel, bind, Except.bind, h1, m1, pure, Except.pure, Except.ok.injEq, Prod.mk.injEq,
    Option.some.injEq] at e1
  obtain ⟨rfl, hc⟩ := e1
  refine ⟨c, m, ?_, e2, e3, e4, m2.trans (hst.cols x), fun y hy => ⟨(m3 y hy).1.trans h7.1, (m3 y hy).2⟩,
    fun t frame ht => ?_, ?_⟩
  · simp only [melSpectrogram, stft2mel, bind, Except.bind, h1, m1, pure, Except.pure, hc]
  · obtain ⟨y, y1, -, y3, -⟩ := e6 t frame ht
    exact ⟨y, y1, y3⟩
  · simp only [melSpectrogram, stft2mel, bind, Except.bind, hst.scale, hax.1, hax.2, h1, m4, pure, Except.pure, hc]

/-- C165, silence: the Mel spectrogram of zeros is zero, for every filterbank without negative weights. -/
theorem C165_silence (stft : List ℝ → List ℝ × List ℝ × List (List ℂ)) (hst : IsStft stft) (n : Nat)
    (fb : List (List ℝ)) (hl : ∀ r ∈ fb, r.length = (stft (List.replicate n 0)).1.length)
    (hw : ∀ r ∈ fb, ∀ w ∈ r, 0 ≤ w) (p : ℝ) (hp : 0 < p)
    (make : List ℝ → Except PyErr (List (List ℝ) × List ℝ)) :
    ∃ t m, melSpectrogram stft (List.replicate n 0) (some fb) p make = .ok (none, t, m) ∧
      ∀ y ∈ m, ∀ v ∈ y, v = 0 := by
  obtain ⟨m, m1, -, -, m4⟩ := C165_given stft hst (List.replicate n 0) fb hl hw p hp make 0
  refine ⟨_, m, m1, ?_⟩
  have : (List.replicate n (0 : ℝ)).map (0 * ·) = List.replicate n 0 := by simp
  rw [this, m1] at m4
  simp only [Except.ok.injEq, Prod.mk.injEq, true_and] at m4
  intro y hy v hv
  rw [m4] at hy
  obtain ⟨z, -, rfl⟩ := List.mem_map.1 hy
  obtain ⟨w, -, rfl⟩ := List.mem_map.1 hv
  simp

/-- C165, without options: for every transform, signal and exponent, without a filterbank, a number of filters, a
bandwidth or limits, the call raises: `ValueError`, or `IndexError` if there are no frequencies. -/
theorem C165_bare (stft : List ℝ → List ℝ × List ℝ × List (List ℂ)) (x : List ℝ) (p : ℝ) (T Tinv : ℝ → ℝ) :
    melSpectrogram stft x none p (fun freqs => melFilterbank freqs none none none T Tinv) =
      .error (if (stft x).1 = [] then .indexError else .valueError) := by
  have h := (C50_errors (stft x).1 (some [0]) none T Tinv 0 0 rfl rfl).2.2
  simp only [melSpectrogram, stft2mel, bind, Except.bind, h]

/-- C165, a wrong filterbank: a filter of another size than the frequency axis raises `ValueError`, if there is a
column. -/
theorem C165_size (stft : List ℝ → List ℝ × List ℝ × List (List ℂ)) (hst : IsStft stft) (x : List ℝ)
    (fb : List (List ℝ)) (h : ∃ r ∈ fb, r.length ≠ (stft x).1.length) (h2 : (stft x).2.1 ≠ []) (p : ℝ)
    (make : List ℝ → Except PyErr (List (List ℝ) × List ℝ)) :
    melSpectrogram stft x (some fb) p make = .error .valueError := by
  cases hm : (stft x).2.2 with
  | nil =>
    have := hst.cols x
    rw [hm] at this
    exact absurd (List.length_eq_zero_iff.1 this.symm) h2
  | cons f l =>
    have hf := hst.col x f (by simp [hm])
    have := (C73_errors fb p f).1 (by rw [hf]; exact h)
    simp only [melSpectrogram, stft2mel, bind, Except.bind, hm, List.mapM_cons, this]

/-- A transform with one column, the signal itself, and the frequencies 0, 1, 2, … -/
noncomputable def plainStft (x : List ℝ) : List ℝ × List ℝ × List (List ℂ) :=
  ((List.range x.length).map fun (i : Nat) => (i : ℝ), [0], [x.map Complex.ofReal])

theorem plainStft_is : IsStft plainStft where
  axes x y h := by simp [plainStft, h]
  col x := by simp [plainStft]
  cols x := by simp [plainStft]
  scale x s := by simp [plainStft, Function.comp_def]

/-- The hypotheses are met: one filter, three frequencies. -/
example : (∀ r ∈ [[(0 : ℝ), 1, 0]], r.length = (plainStft [1, -3, 1]).1.length) ∧
    melSpectrogram plainStft [1, -3, 1] (some [[0, 1, 0]]) 1 (fun _ => .error .valueError) =
      .ok (none, [0], [[3]]) := by
  constructor
  · simp [plainStft]
  · simp [melSpectrogram, stft2mel, stft2melFrame, plainStft, weigh, bind, Except.bind, pure, Except.pure]

/-- The limits of the computed filterbank are met: from 0 to 2. -/
example : ((none : Option (List ℝ)).getD (plainStft [1, -3, 1]).1)[0]? = some 0 ∧
    ((none : Option (List ℝ)).getD (plainStft [1, -3, 1]).1).getLast? = some 2 := by
  constructor <;> simp [plainStft, List.range_succ]

end Verif.Psycho
