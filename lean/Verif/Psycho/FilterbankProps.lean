import Verif.Psycho.FilterbankModel
import Verif.Psycho.BankProps
import Verif.Psycho.ScaleProps
import Verif.Psycho.T60Props

/-!
# C75: centre frequencies of a filterbank; C76: cochleagrams
-/

set_option autoImplicit false
set_option linter.unusedSectionVars false
set_option linter.unusedSimpArgs false

namespace Verif.Psycho

open Finset Verif.Dsp Verif.Out

/-! ## C75: centre frequencies -/

/-- C75: for a transform that is strictly increasing on the positive frequencies from `lo` to `hi` and
whose inverse really inverts it there: there are `n` centre frequencies, strictly increasing and
strictly between the limits; in the transformed scale neighbours are `Δ / (n + 1)` apart, the first
one is half of that from the lower limit, the last one is one and a half of that from the upper. -/
theorem C75_centres (fwd inv : ℝ → Cell) (F : ℝ → ℝ) (lo hi : ℝ) (n : Nat)
    (hF : ∀ f, lo ≤ f → f ≤ hi → fwd f = some (F f))
    (hlt : lo < hi) (hinc : ∀ f g, lo ≤ f → f < g → g ≤ hi → F f < F g)
    (hinv : ∀ c, F lo < c → c < F hi → ∃ f, lo ≤ f ∧ f ≤ hi ∧ F f = c ∧ inv c = some f) :
    ∃ fs : List ℝ, centres fwd inv lo hi (some n) = some (fs.map some) ∧ fs.length = n ∧
      fs.Pairwise (· < ·) ∧ (∀ f ∈ fs, lo < f ∧ f < hi) ∧
      (∀ (i : Nat) (f : ℝ), fs[i]? = some f →
        F f = F lo + ((i : ℝ) + 1 / 2) * ((F hi - F lo) / (n + 1))) ∧
      (∀ f, fs[0]? = some f → F f - F lo = 1 / 2 * ((F hi - F lo) / (n + 1))) ∧
      (∀ f, fs.getLast? = some f → F hi - F f = 3 / 2 * ((F hi - F lo) / (n + 1))) := by
  have hd : 0 < F hi - F lo := sub_pos.2 (hinc lo hi le_rfl hlt le_rfl)
  have hn : (0 : ℝ) < (n : ℝ) + 1 := by positivity
  have hc : ∀ i : Nat, i < n →
      F lo < F lo + ((i : ℝ) + 1 / 2) * ((F hi - F lo) / (n + 1)) ∧
      F lo + ((i : ℝ) + 1 / 2) * ((F hi - F lo) / (n + 1)) < F hi := by
    intro i hi'
    have hi'' : (i : ℝ) + 1 ≤ n := by exact_mod_cast hi'
    have hp : 0 < (F hi - F lo) / ((n : ℝ) + 1) := div_pos hd hn
    constructor
    · have : 0 < ((i : ℝ) + 1 / 2) * ((F hi - F lo) / (n + 1)) := by positivity
      linarith
    · have h1 : ((i : ℝ) + 1 / 2) * ((F hi - F lo) / (n + 1)) < ((n : ℝ) + 1) * ((F hi - F lo) / (n + 1)) :=
        mul_lt_mul_of_pos_right (by linarith) hp
      rw [mul_div_cancel₀ _ hn.ne'] at h1
      linarith
  choose! f hf1 hf2 hf3 hf4 using fun (i : Nat) (h : i < n) => hinv _ (hc i h).1 (hc i h).2
  have hget : ∀ (i : Nat) (v : ℝ), ((List.range n).map f)[i]? = some v → i < n ∧ v = f i := by
    intro i v h
    rw [List.getElem?_map] at h
    rcases lt_or_ge i n with h' | h'
    · rw [List.getElem?_range h'] at h
      simp only [Option.map_some, Option.some.injEq] at h
      exact ⟨h', h.symm⟩
    · rw [List.getElem?_eq_none (by simpa using h')] at h
      simp at h
  have hval : ∀ (i : Nat) (v : ℝ), ((List.range n).map f)[i]? = some v →
      F v = F lo + ((i : ℝ) + 1 / 2) * ((F hi - F lo) / (n + 1)) := by
    intro i v h
    obtain ⟨h1, rfl⟩ := hget i v h
    exact hf3 i h1
  refine ⟨(List.range n).map f, ?_, by simp, ?_, ?_, hval, ?_, ?_⟩
  · simp only [centres, hF lo le_rfl hlt.le, hF hi hlt.le le_rfl, Option.getD_some, Int.toNat_natCast,
      Option.some.injEq, List.map_map]
    apply List.map_congr_left
    intro i hi'
    rw [Function.comp, ← hf4 i (by simpa using hi')]
    congr 1
    push_cast
    field_simp
    norm_num
    ring
  · rw [List.pairwise_map]
    refine (List.pairwise_lt_range (n := n)).imp_of_mem ?_
    intro i j hi' hj' hij
    simp only [List.mem_range] at hi' hj'
    by_contra hcon
    push Not at hcon
    have h3 : F (f j) ≤ F (f i) := by
      rcases lt_or_eq_of_le hcon with h | h
      · exact (hinc _ _ (hf1 j hj') h (hf2 i hi')).le
      · rw [h]
    rw [hf3 i hi', hf3 j hj'] at h3
    have hp : 0 < (F hi - F lo) / ((n : ℝ) + 1) := div_pos hd hn
    have hij' : (i : ℝ) < j := by exact_mod_cast hij
    have : ((i : ℝ) + 1 / 2) * ((F hi - F lo) / (n + 1)) < ((j : ℝ) + 1 / 2) * ((F hi - F lo) / (n + 1)) :=
      mul_lt_mul_of_pos_right (by linarith) hp
    linarith
  · intro v hv
    obtain ⟨i, hi', rfl⟩ := List.mem_map.1 hv
    simp only [List.mem_range] at hi'
    have h := hf3 i hi'
    constructor
    · refine lt_of_le_of_ne (hf1 i hi') fun h' => ?_
      rw [← h'] at h
      linarith [(hc i hi').1]
    · refine lt_of_le_of_ne (hf2 i hi') fun h' => ?_
      rw [h'] at h
      linarith [(hc i hi').2]
  · intro v hv
    rw [hval 0 v hv]
    push_cast
    ring
  · intro v hv
    rw [List.getLast?_eq_getElem?] at hv
    have h0 := hget _ v hv
    rw [hval _ v hv]
    simp only [List.length_map, List.length_range] at h0 ⊢
    have h1 : ((n - 1 : ℕ) : ℝ) = (n : ℝ) - 1 := by
      rw [Nat.cast_sub (by omega)]; simp
    rw [h1]
    have : (F hi - F lo) = ((n : ℝ) + 1) * ((F hi - F lo) / (n + 1)) := by field_simp
    linear_combination this

/-- The quadratic ERB-rate scale in closed form, for frequencies from zero on. -/
noncomputable def cam (f : ℝ) : ℝ := 11.17 * Real.log ((f + 312) / (f + 14675)) + 43

theorem cam_inc (f g : ℝ) (hf : 0 ≤ f) (h : f < g) : cam f < cam g := by
  unfold cam
  have h1 : (f + 312) / (f + 14675) < (g + 312) / (g + 14675) := by
    rw [div_lt_div_iff₀ (by linarith) (by linarith)]
    nlinarith
  have h2 : 0 < (f + 312) / (f + 14675) := div_pos (by linarith) (by linarith)
  have := Real.log_lt_log h2 h1
  linarith

theorem cam_lt (f : ℝ) (hf : 0 ≤ f) : cam f < 43 := by
  unfold cam
  have h1 : (f + 312) / (f + 14675) < 1 := by rw [div_lt_one (by linarith)]; linarith
  have := Real.log_neg (div_pos (by linarith) (by linarith)) h1
  linarith

theorem camsQ_eq (f : ℝ) (hf : 0 ≤ f) : camsQ f = some (cam f) := by
  rw [camsQ, if_pos (div_pos (by linarith) (by linarith)), cam]

/-- C75, default transform: for limits `0 ≤ lo < hi`, the ERB-rate scale meets the hypotheses of
`C75_centres`; without a given number of filters, as many are chosen as are needed for two filters per
step of the scale: they are at most half a step apart, and with one filter less (if there is one) they
would not be. -/
theorem C75_default (lo hi : ℝ) (hlo : 0 ≤ lo) (hlt : lo < hi) :
    (∀ n : Nat, ∃ fs : List ℝ, centres camsQ hzQ lo hi (some n) = some (fs.map some) ∧ fs.length = n ∧
      fs.Pairwise (· < ·) ∧ (∀ f ∈ fs, lo < f ∧ f < hi) ∧
      ∀ (i : Nat) (f : ℝ), fs[i]? = some f →
        cam f = cam lo + ((i : ℝ) + 1 / 2) * ((cam hi - cam lo) / (n + 1))) ∧
    ∃ n : Nat, centres camsQ hzQ lo hi none = centres camsQ hzQ lo hi (some n) ∧
      (cam hi - cam lo) / (n + 1) ≤ 1 / 2 ∧ (1 ≤ n → 1 / 2 < (cam hi - cam lo) / n) := by
  have hhi : 0 ≤ hi := by linarith
  constructor
  · intro n
    obtain ⟨fs, h1, h2, h3, h4, h5, -⟩ := C75_centres camsQ hzQ cam lo hi n
      (fun f h _ => camsQ_eq f (by linarith)) hlt (fun f g h1 h2 _ => cam_inc f g (by linarith) h2) (by
        intro c hc1 hc2
        obtain ⟨f, g1, g2⟩ := camsQ_hzQ c (by have := cam_lt hi hhi; linarith)
        -- the frequency of `c` is between the limits
        have hf : 0 < f + 312 ∧ 0 < f + 14675 := by
          have hk : Real.exp ((c - 43) / 11.17) < 1 := by
            rw [Real.exp_lt_one_iff]
            have := cam_lt hi hhi
            exact div_neg_of_neg_of_pos (by linarith) (by norm_num)
          have hk0 := Real.exp_pos ((c - 43) / 11.17)
          rw [hzQ, if_neg (by have := cam_lt hi hhi; linarith)] at g1
          generalize Real.exp ((c - 43) / 11.17) = k at g1 hk hk0
          simp only [Option.some.injEq] at g1
          have e1 : f + 312 = 14363 * k / (1 - k) := by
            rw [← g1]
            have : k - 1 ≠ 0 := by linarith
            have : 1 - k ≠ 0 := by linarith
            field_simp
            ring
          have : 0 < f + 312 := by
            rw [e1]; exact div_pos (by positivity) (by linarith)
          exact ⟨this, by linarith⟩
        have hval : 11.17 * Real.log ((f + 312) / (f + 14675)) + 43 = c := by
          rw [camsQ, if_pos (div_pos hf.1 hf.2)] at g2
          simpa using g2
        have mono : ∀ a b : ℝ, 0 < a + 312 → a ≤ b →
            Real.log ((a + 312) / (a + 14675)) ≤ Real.log ((b + 312) / (b + 14675)) := by
          intro a b ha hab
          apply Real.log_le_log (div_pos ha (by linarith))
          rw [div_le_div_iff₀ (by linarith) (by linarith)]
          nlinarith
        refine ⟨f, ?_, ?_, hval, g1⟩
        · by_contra hcon
          push Not at hcon
          have := mono f lo hf.1 hcon.le
          unfold cam at hc1
          linarith
        · by_contra hcon
          push Not at hcon
          have := mono hi f (by linarith) hcon.le
          unfold cam at hc2
          linarith)
    exact ⟨fs, h1, h2, h3, h4, h5⟩
  · have hd : 0 < cam hi - cam lo := sub_pos.2 (cam_inc lo hi hlo hlt)
    have hnn : 0 ≤ ⌈2 * (cam hi - cam lo) - 1⌉ := by
      have : (-1 : ℤ) < ⌈2 * (cam hi - cam lo) - 1⌉ := by
        rw [Int.lt_ceil]; push_cast; linarith
      omega
    refine ⟨⌈2 * (cam hi - cam lo) - 1⌉.toNat, ?_, ?_, ?_⟩
    · simp only [centres, camsQ_eq lo hlo, camsQ_eq hi hhi, Option.getD_none, Option.getD_some,
        Int.toNat_of_nonneg hnn]
    · have h1 := Int.le_ceil (2 * (cam hi - cam lo) - 1)
      have h2 : ((⌈2 * (cam hi - cam lo) - 1⌉.toNat : ℕ) : ℝ) = (⌈2 * (cam hi - cam lo) - 1⌉ : ℝ) := by
        exact_mod_cast Int.toNat_of_nonneg hnn
      rw [h2, div_le_iff₀ (by linarith)]
      linarith
    · intro hpos
      have h1 := Int.ceil_lt_add_one (2 * (cam hi - cam lo) - 1)
      have h2 : ((⌈2 * (cam hi - cam lo) - 1⌉.toNat : ℕ) : ℝ) = (⌈2 * (cam hi - cam lo) - 1⌉ : ℝ) := by
        exact_mod_cast Int.toNat_of_nonneg hnn
      have h3 : (1 : ℝ) ≤ (⌈2 * (cam hi - cam lo) - 1⌉ : ℝ) := by
        rw [← h2]; exact_mod_cast hpos
      rw [h2, lt_div_iff₀ (by linarith)]
      linarith

/-- Identity transform, limits 0 and 5, four filters: 0.5, 1.5, 2.5, 3.5. -/
example : centres some some 0 5 (some 4) = some [some 0.5, some 1.5, some 2.5, some 3.5] := by
  have : (List.range (Int.toNat 4)) = [0, 1, 2, 3] := rfl
  norm_num [centres, this]

/-- The hypotheses of `C75_centres` hold for it. -/
example : ∃ fs : List ℝ, centres some some 0 5 (some 4) = some (fs.map some) ∧ fs.length = 4 := by
  obtain ⟨fs, h1, h2, -⟩ := C75_centres some some id 0 5 4 (fun _ _ _ => rfl) (by norm_num)
    (fun _ _ _ h _ => h) (fun c h1 h2 => ⟨c, h1.le, h2.le, rfl, rfl⟩)
  exact ⟨fs, h1, h2⟩

/-! ## C76: cochleagrams -/

section conv
variable {R : Type} [CommRing R]

theorem sampleAt_out (x : List R) (m : Int) (h : m < 0 ∨ (x.length : Int) ≤ m) : sampleAt x m = 0 := by
  unfold sampleAt
  rcases h with h | h
  · rw [if_neg (by omega)]
  · rw [if_pos (by omega), List.getD_eq_getElem?_getD, List.getElem?_eq_none (by omega)]
    rfl

/-- Convolution is commutative. -/
theorem conv_comm (x k : List R) (n : Int) :
    conv x k n = ∑ m ∈ range x.length, x.getD m 0 * sampleAt k (n - m) := by
  have hx : ∀ m : Nat, x.getD m 0 = sampleAt x m := fun m => by simp [sampleAt]
  have hk : ∀ m : Nat, k.getD m 0 = sampleAt k m := fun m => by simp [sampleAt]
  simp only [conv, hx, hk]
  -- both are sums over the pairs with sum `n`
  have h1 : ∀ i ∈ range k.length, sampleAt x (n - i) * sampleAt k i =
      ∑ m ∈ range x.length, if (m : Int) + i = n then sampleAt x m * sampleAt k i else 0 := by
    intro i _
    by_cases h : 0 ≤ n - i ∧ n - i < x.length
    · obtain ⟨m, hm⟩ := Int.eq_ofNat_of_zero_le h.1
      rw [Finset.sum_eq_single m, if_pos (by omega)]
      · rw [hm]
      · intro b _ hb
        rw [if_neg (by omega)]
      · intro hm'
        rw [Finset.mem_range] at hm'
        omega
    · rw [sampleAt_out x (n - i) (by omega), zero_mul]
      symm
      apply Finset.sum_eq_zero
      intro m hm
      rw [Finset.mem_range] at hm
      rw [if_neg (by omega)]
  have h2 : ∀ m ∈ range x.length, sampleAt x m * sampleAt k (n - m) =
      ∑ i ∈ range k.length, if (m : Int) + i = n then sampleAt x m * sampleAt k i else 0 := by
    intro m _
    by_cases h : 0 ≤ n - m ∧ n - m < k.length
    · obtain ⟨i, hi⟩ := Int.eq_ofNat_of_zero_le h.1
      rw [Finset.sum_eq_single i, if_pos (by omega)]
      · rw [hi]
      · intro b _ hb
        rw [if_neg (by omega)]
      · intro hm'
        rw [Finset.mem_range] at hm'
        omega
    · rw [sampleAt_out k (n - m) (by omega), mul_zero]
      symm
      apply Finset.sum_eq_zero
      intro i hi
      rw [Finset.mem_range] at hi
      rw [if_neg (by omega)]
  rw [Finset.sum_congr rfl h1, Finset.sum_congr rfl h2, Finset.sum_comm]

end conv


section coch

/-- Sample `k` (`k = 0` at time zero) of the response of a filter with the waveform `w`, in a bank: it
is cut at the end, never at the beginning. -/
noncomputable def tap {𝕜 : Type} [RCLike 𝕜] (g : Gammatone) (w : ℝ → 𝕜) (fs t60 : ℝ) (k : Int) : 𝕜 :=
  if k + ⌈g.tc * fs⌉ < g.irSize fs t60 then ((g.a?.getD 1 : ℝ) : 𝕜) * w ((k : ℝ) / fs) else 0

theorem tap_eq {𝕜 : Type} [RCLike 𝕜] (g : Gammatone) (w : ℝ → 𝕜) (fs t60 : ℝ) (hfs : 0 < fs)
    (hw : ∀ t, t < -g.tc → w t = 0) (hnorm : g.normalize = false) (k : Int) :
    sampleAt (scaleIr g.normalize g.a? (((List.range (g.irSize fs t60).toNat).map fun (j : Nat) =>
      ((j : ℝ) - (g.lead fs : ℝ)) / fs).map w)) (k + g.lead fs) = tap g w fs t60 k := by
  have hs : ∀ l : List 𝕜, scaleIr g.normalize g.a? l = l.map (((g.a?.getD 1 : ℝ) : 𝕜) * ·) := by
    intro l
    rw [hnorm]
    cases g.a? with
    | none => simp [scaleIr]
    | some a => simp [scaleIr]
  rw [hs, tap]
  have hlead : g.lead fs = ⌈g.tc * fs⌉ := rfl
  rw [← hlead]
  rcases lt_or_ge (k + g.lead fs) 0 with h | h
  · rw [sampleAt_out _ _ (Or.inl h)]
    have hz : w ((k : ℝ) / fs) = 0 := by
      apply hw
      rw [div_lt_iff₀ hfs]
      have h1 : g.tc * fs ≤ (g.lead fs : ℝ) := Int.le_ceil _
      have h2 : (k : ℝ) + (g.lead fs : ℝ) < 0 := by exact_mod_cast h
      linarith
    rw [hz, mul_zero, ite_self]
  · split
    · rename_i hlt
      obtain ⟨j, hj⟩ := Int.eq_ofNat_of_zero_le h
      rw [hj, sampleAt, if_pos (by omega), List.getD_eq_getElem?_getD]
      have hj' : j < (g.irSize fs t60).toNat := by omega
      simp only [Int.toNat_natCast, List.getElem?_map, List.getElem?_range hj', Option.map_some,
        Option.getD_some]
      congr 3
      have : (k : ℝ) + (g.lead fs : ℝ) = j := by exact_mod_cast hj
      linarith
    · rename_i hlt
      apply sampleAt_out
      right
      simp only [List.length_map, List.length_range]
      omega

/-- What `precompute` needs: at least one filter; every filter has a decay time and a response of at
least one sample, and is not normalised. -/
structure Ready (gs : List Gammatone) (fs : ℝ) (T : Gammatone → ℝ) : Prop where
  ne : gs ≠ []
  fs_pos : 0 < fs
  time : ∀ g ∈ gs, g.t60Default = .ok (T g)
  size : ∀ g ∈ gs, 1 ≤ g.irSize fs (T g)
  norm : ∀ g ∈ gs, g.normalize = false

theorem axes_ok (gs : List Gammatone) (fs : ℝ) (T : Gammatone → ℝ)
    (h : ∀ g ∈ gs, g.t60Default = .ok (T g)) :
    gs.mapM (fun g => g.bankAxis fs) = .ok (gs.map fun g =>
      (List.range (g.irSize fs (T g)).toNat).map fun (k : Nat) => ((k : ℝ) - (g.lead fs : ℝ)) / fs) := by
  induction gs with
  | nil => rfl
  | cons g l ih =>
    have h1 : g.bankAxis fs = .ok ((List.range (g.irSize fs (T g)).toNat).map fun (k : Nat) =>
        ((k : ℝ) - (g.lead fs : ℝ)) / fs) := by
      simp only [Gammatone.bankAxis, h g (by simp)]
    rw [List.mapM_cons, h1, ih fun g hg => h g (by simp [hg])]
    rfl

theorem zip_map {α β γ : Type} (f : β → α → γ) (a : α → β) (l : List α) :
    List.zipWith f (l.map a) l = l.map fun x => f (a x) x := by
  induction l with
  | nil => rfl
  | cons x l ih => simp [ih]

/-- The convolution with the responses of the filters, for either kind of waveform. -/
theorem rows_ok {𝕜 : Type} [RCLike 𝕜] (gs : List Gammatone) (fs : ℝ) (T : Gammatone → ℝ)
    (w : Gammatone → ℝ → 𝕜) (hw : ∀ g ∈ gs, ∀ t, t < -g.tc → w g t = 0) (hr : Ready gs fs T)
    (x : List 𝕜) (hx : 1 ≤ x.length) (cplx : Bool) (method : Option String)
    (hm : method ∈ [none, some "overlap-add", some "auto", some "fft", some "direct"]) :
    ∃ (b : Bank 𝕜) (o : Int) (rows : List (List (Option 𝕜))),
      mkBank (gs.map fun g => g.lead fs) (gs.map fun g => scaleIr g.normalize g.a?
        (((List.range (g.irSize fs (T g)).toNat).map fun (k : Nat) =>
          ((k : ℝ) - (g.lead fs : ℝ)) / fs).map (w g))) = .ok b ∧
      convolve b x cplx method none = .ok rows ∧ rows.length = gs.length ∧
      (∃ g ∈ gs, o = ⌈g.tc * fs⌉) ∧ (∀ g ∈ gs, ⌈g.tc * fs⌉ ≤ o) ∧
      ∀ (i : Nat) (g : Gammatone), gs[i]? = some g → ∃ row, rows[i]? = some row ∧
        ∀ n : Nat, (row[n]?).getD (some 0) =
          some (∑ m ∈ range x.length, x.getD m 0 * tap g (w g) fs (T g) ((n : Int) - m - o)) := by
  obtain ⟨b, o, h1, h2, h3, h4, h5⟩ := C52_alignment (gs.map fun g => g.lead fs)
    (gs.map fun g => scaleIr g.normalize g.a?
        (((List.range (g.irSize fs (T g)).toNat).map fun (k : Nat) =>
          ((k : ℝ) - (g.lead fs : ℝ)) / fs).map (w g))) (by simpa using hr.ne)
  have hlen : ∀ (n : Bool) (a : Option ℝ) (l : List 𝕜), (scaleIr n a l).length = l.length := by
    intro n a l
    cases n <;> cases a <;> simp [scaleIr]
  obtain ⟨rows, c1, c2, c3⟩ := C52_full b x cplx method hm (by simp [h2, h3]) hx (by
    intro ir hir
    rw [h2] at hir
    obtain ⟨g, hg, rfl⟩ := List.mem_map.1 hir
    rw [hlen]
    simp only [List.length_map, List.length_range]
    have := hr.size g hg
    omega)
  refine ⟨b, o, rows, h1, c1, by rw [c2, h2]; simp, ?_, ?_, ?_⟩
  · obtain ⟨g, hg, e⟩ := List.mem_map.1 h4
    exact ⟨g, hg, e.symm⟩
  · intro g hg
    obtain ⟨i, hi, e⟩ := List.getElem_of_mem hg
    obtain ⟨off, -, ho⟩ := h5 i (g.lead fs) (by
      rw [List.getElem?_map, List.getElem?_eq_getElem hi, e]; rfl)
    have : g.lead fs = ⌈g.tc * fs⌉ := rfl
    omega
  · intro i g hg
    obtain ⟨off, ho1, ho2⟩ := h5 i (g.lead fs) (by rw [List.getElem?_map, hg]; rfl)
    obtain ⟨row, r1, -, r3⟩ := c3 i _ off (by rw [h2, List.getElem?_map, hg]; rfl) ho1
    refine ⟨row, r1, fun n => ?_⟩
    rw [r3 n, conv_comm]
    congr 1
    apply Finset.sum_congr rfl
    intro m _
    have hmem := List.mem_of_getElem? hg
    rw [← tap_eq g (w g) fs (T g) hr.fs_pos (hw g hmem) (hr.norm g hmem)]
    congr 2
    omega

/-- Every row of a matrix, with the samples rectified. -/
theorem hwr_row (rows : List (List (Option ℝ))) (i : Nat) (row : List (Option ℝ))
    (h : rows[i]? = some row) :
    (rows.map (List.map (Option.map fun v => max v 0)))[i]? =
      some (row.map (Option.map fun v => max v 0)) ∧
    ∀ (n : Nat) (s : ℝ), (row[n]?).getD (some 0) = some s →
      ((row.map (Option.map fun v => max v 0))[n]?).getD (some 0) = some (max s 0) := by
  refine ⟨by rw [List.getElem?_map, h]; rfl, fun n s hs => ?_⟩
  rw [List.getElem?_map]
  cases hc : row[n]? with
  | none =>
    rw [hc] at hs
    simp only [Option.getD_none, Option.some.injEq] at hs
    simp [← hs]
  | some v =>
    rw [hc] at hs
    simp only [Option.getD_some] at hs
    simp [hs]

/-- C76: the cochleagram of a signal of at least one sample, with a filterbank that is ready, has a
row per filter, in the order of the returned frequencies.  There is one delay `o` (the greatest leading
time in samples) for all rows: sample `n` of row `i` is the half-wave rectified response of filter `i`
to the signal at time `n - o`. -/
theorem C76_rectified (hilb : List ℝ → List ℂ) (gs : List Gammatone) (fs : ℝ) (T : Gammatone → ℝ)
    (hr : Ready gs fs T) (x : List ℝ) (hx : 1 ≤ x.length) (method : Option String)
    (hm : method ∈ [none, some "overlap-add", some "auto", some "fft", some "direct"]) :
    ∃ (rows : List (List (Option ℝ))) (o : Int),
      cochleagram hilb x (some fs) (.filters gs) none method none none =
        .ok (.real rows, gs.map Gammatone.f) ∧ rows.length = gs.length ∧
      (∃ g ∈ gs, o = ⌈g.tc * fs⌉) ∧ (∀ g ∈ gs, ⌈g.tc * fs⌉ ≤ o) ∧
      ∀ (i : Nat) (g : Gammatone), gs[i]? = some g → ∃ row, rows[i]? = some row ∧
        ∀ n : Nat, (row[n]?).getD (some 0) =
          some (max (∑ m ∈ range x.length, x.getD m 0 * tap g g.wave fs (T g) ((n : Int) - m - o)) 0) := by
  obtain ⟨b, o, rows, h1, h2, h3, h4, h4', h5⟩ := rows_ok gs fs T Gammatone.wave (by
    intro g _ t ht
    rw [Gammatone.wave, env_of_neg g t (by linarith), zero_mul]) hr x hx false method hm
  refine ⟨rows.map (List.map (Option.map fun v => max v 0)), o, ?_, by simpa using h3, h4, h4', ?_⟩
  · have e1 : precompute gs fs false = .ok (.real (gs.map Gammatone.f) b) := by
      simp only [precompute, axes_ok gs fs T hr.time, bind, Except.bind, zip_map, Gammatone.ir, h1, liftPy]
      rfl
    have e2 : bankOf (.filters gs) (some fs) none = .ok (.real (gs.map Gammatone.f) b) := by
      simpa [bankOf] using e1
    have e3 : filterWith hilb (.real (gs.map Gammatone.f) b) x none method none = .ok (.real rows) := by
      simp [filterWith, h2, Except.map]
    simp [cochleagram, checkAnalytic, e2, e3, liftPy, hilbertOut, postOf, hwrCoch, IRBank.freqs, bind,
      Except.bind]
  · intro i g hg
    obtain ⟨row, r1, r2⟩ := h5 i g hg
    obtain ⟨a1, a2⟩ := hwr_row rows i row r1
    exact ⟨_, a1, fun n => a2 n _ (r2 n)⟩

/-- C76, analytic responses: the cochleagram is complex and not rectified; its rows are aligned as in
`C76_rectified`; half-wave rectifying its real part gives the ordinary cochleagram. -/
theorem C76_analytic (hilb : List ℝ → List ℂ) (gs : List Gammatone) (fs : ℝ) (T : Gammatone → ℝ)
    (hr : Ready gs fs T) (x : List ℝ) (hx : 1 ≤ x.length) (method : Option String)
    (hm : method ∈ [none, some "overlap-add", some "auto", some "fft", some "direct"]) :
    ∃ (rows : List (List (Option ℂ))) (rows' : List (List (Option ℝ))) (o : Int),
      cochleagram hilb x (some fs) (.filters gs) (some "ir") method none none =
        .ok (.cplx rows, gs.map Gammatone.f) ∧ rows.length = gs.length ∧
      cochleagram hilb x (some fs) (.filters gs) none method none none =
        .ok (.real rows', gs.map Gammatone.f) ∧ rows'.length = gs.length ∧
      (∃ g ∈ gs, o = ⌈g.tc * fs⌉) ∧ (∀ g ∈ gs, ⌈g.tc * fs⌉ ≤ o) ∧
      ∀ (i : Nat) (g : Gammatone), gs[i]? = some g → ∃ row row', rows[i]? = some row ∧
        rows'[i]? = some row' ∧ ∀ n : Nat, ∃ z : ℂ, (row[n]?).getD (some 0) = some z ∧
          z = ∑ m ∈ range x.length,
            (x.getD m 0 : ℂ) * tap g g.waveAnalytic fs (T g) ((n : Int) - m - o) ∧
          (row'[n]?).getD (some 0) = some (max z.re 0) := by
  obtain ⟨b, o, rows, h1, h2, h3, h4, h4', h5⟩ := rows_ok gs fs T Gammatone.waveAnalytic (by
    intro g _ t ht
    rw [Gammatone.waveAnalytic, env_of_neg g t (by linarith)]
    simp) hr (x.map Complex.ofReal) (by simpa using hx) true method hm
  obtain ⟨rows', o', g1, g2, g3, g3', g4⟩ := C76_rectified hilb gs fs T hr x hx method hm
  have ho : o' = o := by
    obtain ⟨a, ha, ea⟩ := h4
    obtain ⟨c, hc, ec⟩ := g3
    have u1 := h4' c hc
    have u2 := g3' a ha
    omega
  subst ho
  refine ⟨rows, rows', o', ?_, h3, g1, g2, h4, h4', ?_⟩
  · have e1 : precompute gs fs true = .ok (.analytic (gs.map Gammatone.f) b) := by
      simp only [precompute, axes_ok gs fs T hr.time, bind, Except.bind, zip_map, Gammatone.irAnalytic,
        h1, liftPy]
      rfl
    have e2 : bankOf (.filters gs) (some fs) (some "ir") = .ok (.analytic (gs.map Gammatone.f) b) := by
      simpa [bankOf] using e1
    have e3 : filterWith hilb (.analytic (gs.map Gammatone.f) b) x (some "ir") method none =
        .ok (.cplx rows) := by
      have h2' : convolveAnalytic b x method none = .ok rows := h2
      simp [filterWith, h2', Except.map]
    simp [cochleagram, checkAnalytic, e2, e3, liftPy, hilbertOut, postOf, hwrCoch, IRBank.freqs, bind,
      Except.bind]
  · intro i g hg
    obtain ⟨row, r1, r2⟩ := h5 i g hg
    obtain ⟨row', s1, s2⟩ := g4 i g hg
    refine ⟨row, row', r1, s1, fun n => ⟨_, r2 n, ?_, ?_⟩⟩
    · rw [List.length_map]
      apply Finset.sum_congr rfl
      intro m _
      congr 1
      rw [List.getD_eq_getElem?_getD, List.getD_eq_getElem?_getD, List.getElem?_map]
      cases x[m]? <;> simp
    · rw [s2 n, List.length_map, Complex.re_sum]
      congr 2
      apply Finset.sum_congr rfl
      intro m _
      have hx : (x.map Complex.ofReal).getD m 0 = ((x.getD m 0 : ℝ) : ℂ) := by
        rw [List.getD_eq_getElem?_getD, List.getD_eq_getElem?_getD, List.getElem?_map]
        cases x[m]? <;> simp
      rw [hx, Complex.re_ofReal_mul]
      congr 1
      unfold tap
      split
      · have := (C51_wave g (((((n : Int) - m - o' : Int) : ℝ)) / fs)).1
        rw [← this]
        simp only [RCLike.ofReal_real_eq_id, id, RCLike.re_to_real]
        exact (Complex.re_ofReal_mul _ _).symm
      · simp

/-- C76: what is refused.  A filterbank that is not precomputed needs a sample rate; an analytic bank
of responses allows only the analytic mode of the responses; a bank without filters is refused. -/
theorem C76_refused (hilb : List ℝ → List ℂ) (x : List ℝ) (fs : Option ℝ) (gs : List Gammatone)
    (freqs : List ℝ) (b : Bank ℂ) (analytic method : Option String) (stride : Option Int)
    (post : Option (Option (Coch → Coch))) :
    cochleagram hilb x none (.filters gs) analytic method stride post = .error (.py .typeError) ∧
    (analytic ≠ none → analytic ≠ some "ir" →
      cochleagram hilb x fs (.precomputed (.analytic freqs b)) analytic method stride post =
        .error (.py .valueError)) ∧
    ∀ r : ℝ, cochleagram hilb x (some r) (.filters []) analytic method stride post =
      .error (.py .valueError) := by
  refine ⟨rfl, fun h1 h2 => ?_, fun r => ?_⟩
  · simp [cochleagram, checkAnalytic, h1, h2, bind, Except.bind]
  · have h : ∀ a, precompute [] r a = .error (.py .valueError) := by
      intro a
      cases a <;> rfl
    simp [cochleagram, checkAnalytic, bankOf, h, bind, Except.bind]

/-- C76: a real bank of responses with the analytic mode `"ir"`, or with any unknown mode, gives the
real cochleagram, not rectified: no exception, and nothing analytic. -/
theorem C76_silent (hilb : List ℝ → List ℂ) (x : List ℝ) (fs : Option ℝ) (freqs : List ℝ)
    (b : Bank ℝ) (mode : String) (method : Option String) (stride : Option Int)
    (h1 : mode ≠ "input") (h2 : mode ≠ "output") :
    cochleagram hilb x fs (.precomputed (.real freqs b)) (some mode) method stride none =
      cochleagram hilb x fs (.precomputed (.real freqs b)) none method stride (some none) := by
  cases hc : convolve b x false method stride with
  | error e =>
    simp [cochleagram, checkAnalytic, bankOf, filterWith, h1, hc, liftPy, bind, Except.bind, Except.map]
  | ok m =>
    simp [cochleagram, checkAnalytic, bankOf, filterWith, h1, h2, hc, liftPy, bind, Except.bind,
      Except.map, hilbertOut, postOf]

/-- A filter of order 4 with a bandwidth of one hertz at ten samples a second is ready. -/
theorem ready_example : ∃ T, Ready [Gammatone.mk 1 4 (some 1) (some 0) (some 0) false none] 10 T := by
  set g := Gammatone.mk 1 4 (some 1) (some 0) (some 0) false none with hg
  have hb : g.bandwidth = 1 := by simp [hg, Gammatone.bandwidth]
  obtain ⟨t, z, h1, h2, -⟩ := C74_default g (by simp [hg]) (by simp [hg]) (by rw [hb]; norm_num)
  refine ⟨fun _ => t, ⟨by simp, by norm_num, by simpa using h1, ?_, by simp [hg]⟩⟩
  intro g' hg'
  rw [List.mem_singleton] at hg'
  rw [hg']
  obtain ⟨q, j, q1, q2, q3, q4, q5⟩ := C74_ir_size g 10 t (by simp [hg]) (by norm_num)
  have hgd : g.groupDelay = 3 / (2 * Real.pi) := by
    simp [hg, Gammatone.groupDelay, Gammatone.rawGroupDelay, Gammatone.bandwidth, Gammatone.tc]
    norm_num
  have htc : g.tc = 0 := by simp [hg, Gammatone.tc]
  have h3 : (3 : ℝ) / 8 ≤ t := by
    rw [hgd] at h2
    refine le_trans ?_ h2
    rw [div_le_div_iff₀ (by norm_num) (by positivity)]
    have := Real.pi_le_four
    nlinarith
  have h4 : (0 : ℝ) < g.irSize 10 t := by
    rw [htc] at q5
    by_contra hcon
    push Not at hcon
    have : ((g.irSize 10 t : ℝ) + 1) / 10 ≤ 1 / 10 := by
      apply div_le_div_of_nonneg_right _ (by norm_num); linarith
    linarith
  have : (0 : ℤ) < g.irSize 10 t := by exact_mod_cast h4
  omega

end coch

end Verif.Psycho
