import Verif.Float.FitModel
import Verif.Float.FitSpec
import Verif.Float.PeakLemmas
import Verif.Float.ModalLemmas
import Verif.Sms.FitLemmas

set_option autoImplicit false
set_option linter.unusedSectionVars false
set_option linter.unusedSimpArgs false

namespace Verif.Float

open Verif.Tracker Arith

variable {K : Type} [Field K] [LinearOrder K] [IsStrictOrderedRing K] (A : Arith K)

/-! ## The buffer -/

theorem dftBufferF_eq (x w : List K) (n : Nat) (hx : x.length = w.length) (h2 : 2 ≤ w.length)
    (hn : w.length ≤ n) : dftBufferF A x w n = .ok (bufferF A x w n) := by
  have hl : (List.zipWith A.mul x w).length = (List.replicate w.length (1 : K)).length := by simp [hx]
  have h := Sms.dftBuffer_eq (List.zipWith A.mul x w) (List.replicate w.length 1) n hl (by simpa using h2)
    (by simpa using hn)
  have e : List.zipWith (· * ·) (List.zipWith A.mul x w) (List.replicate w.length (1 : K)) =
      List.zipWith A.mul x w := by
    apply List.ext_getElem <;> simp [hx]
  unfold Sms.dftBuffer at h
  rw [Np.binop_eq _ _ _ hl, e] at h
  simp only [List.length_replicate] at h
  unfold dftBufferF
  rw [Np.binop_eq _ _ _ hx]
  simp only
  exact h

theorem bufferF_length (x w : List K) (n : Nat) (hx : x.length = w.length) (hn : w.length ≤ n) :
    (bufferF A x w n).length = n := by
  simp [bufferF, hx]
  omega

/-! ## One peak -/

theorem spacingF {mx : List K} (hrep : ∀ v ∈ mx, A.rnd v = v)
    (hnorm : ∀ v ∈ mx, v = 0 ∨ A.eta ≤ A.u ^ 2 * |v|) :
    ∀ (i : Nat) (a b : K), mx[i]? = some a → mx[i + 1]? = some b → a ≠ b →
      A.eta ≤ A.u * |b - a| := by
  intro i a b ha hb hab
  have ma := List.mem_of_getElem? ha
  have mb := List.mem_of_getElem? hb
  have key : ∀ v w : K, A.rnd v = v → A.rnd w = w → v ≠ w → A.eta ≤ A.u ^ 2 * |v| →
      A.eta ≤ A.u * |v - w| := by
    intro v w hv hw hvw h
    have := mul_le_mul_of_nonneg_left (A.spacing v w hv hw hvw) A.u_pos.le
    refine h.trans (le_trans (le_of_eq ?_) this)
    ring
  rcases hnorm b mb with h0 | h
  · rcases hnorm a ma with h0' | h
    · exact absurd (h0'.trans h0.symm) hab
    · rw [abs_sub_comm]
      exact key a b (hrep a ma) (hrep b mb) hab h
  · exact key b a (hrep b mb) (hrep a ma) (Ne.symm hab) h

/-- The error of `loc * fs / n`. -/
theorem peakFreqF_err (fs : K) (hfs : 0 < fs) (n : Nat) (hn : 0 < n) (hnu : (n : K) * A.u ≤ 1)
    (hη : A.eta ≤ A.u * (fs / n)) (loc : K) (h0 : 0 ≤ loc) :
    |peakFreqF A fs n loc - loc * (fs / n)| ≤ 3 * A.u * (fs / n) * (loc + 1) := by
  have n1 : (1 : K) ≤ n := by exact_mod_cast hn
  have n0 : (0 : K) < n := by linarith
  have hr : A.rnd (n : K) = n := by
    have := A.int (n : ℤ) (by rw [Int.cast_natCast, abs_of_pos n0]; exact hnu)
    simpa using this
  have u0 := A.u_pos
  have u8 := A.u_le
  set h := fs / (n : K) with hh
  have hpos : 0 < h := div_pos hfs n0
  have hfsn : fs = h * n := by rw [hh]; field_simp
  unfold peakFreqF Arith.div Arith.mul
  rw [hr]
  have e1 := A.err (loc * fs)
  rw [abs_of_nonneg (mul_nonneg h0 hfs.le)] at e1
  set y := A.rnd (loc * fs) with hy
  have e2 : |y / n - loc * h| ≤ A.u * h * (loc + 1) := by
    have : y / n - loc * h = (y - loc * fs) / n := by rw [hfsn]; field_simp
    rw [this, abs_div, abs_of_pos n0, div_le_iff₀ n0]
    refine e1.trans ?_
    rw [hfsn]
    have : A.u * h ≤ A.u * h * n := le_mul_of_one_le_right (mul_pos u0 hpos).le n1
    nlinarith
  have e3 := A.err (y / n)
  have e4 : |y / n| ≤ loc * h + A.u * h * (loc + 1) := by
    have := abs_add_le (y / n - loc * h) (loc * h)
    rw [sub_add_cancel, abs_of_nonneg (mul_nonneg h0 hpos.le)] at this
    linarith
  have e5 := abs_add_le (A.rnd (y / n) - y / n) (y / n - loc * h)
  rw [sub_add_sub_cancel] at e5
  have e6 : A.u * |y / n| ≤ A.u * (loc * h + A.u * h * (loc + 1)) :=
    mul_le_mul_of_nonneg_left e4 u0.le
  have p1 : 0 ≤ A.u * h * (loc + 1) := by positivity
  have e7 : A.u * (A.u * h * (loc + 1)) ≤ 1 / 8 * (A.u * h * (loc + 1)) :=
    mul_le_mul_of_nonneg_right u8 p1
  calc _ ≤ _ := e5
    _ ≤ A.u * (loc * h + A.u * h * (loc + 1)) + A.u * h + A.u * h * (loc + 1) := by linarith
    _ = 2 * (A.u * h * (loc + 1)) + A.u * (A.u * h * (loc + 1)) := by ring
    _ ≤ 2 * (A.u * h * (loc + 1)) + 1 * (A.u * h * (loc + 1)) := by linarith
    _ = _ := by ring

/-- One refined peak and its frequency. -/
theorem peakAtF (fs : K) (hfs : 0 < fs) (n : Nat) (hη : A.eta ≤ A.u * (fs / n))
    (hN : ((n / 2 + 1 : Nat) : K) * A.u ≤ 1 / 16) (mx px : List K) (hs : SpectrumF A n (mx, px)) (t : K)
    (ph : K → K) (j : Nat) (hj : Sms.IsPeak mx (some t) j) :
    ∃ loc m, refineOneF A mx j = .ok (some (loc, m)) ∧
      PeakAtF A fs t n mx j ⟨peakFreqF A fs n loc, m, ph loc⟩ := by
  have hmx : mx.length = n / 2 + 1 := hs.mags
  have hpx : px.length = n / 2 + 1 := hs.phases
  have hη' := spacingF A hs.rep hs.normal
  simp only at hη'
  obtain ⟨loc, m, a, b, c, loc₀, m₀, phv, r1, r2, r3, r4, r5, r6, r7, r8, r9, r10, r11, r12, r13⟩ :=
    refineOneF_spec A mx px (some t) (by rw [hmx, hpx]) hs.rep (by rw [hmx]; exact hN) hη' j hj
  refine ⟨loc, m, r1, ?_⟩
  obtain ⟨_, b', _, j1, _, jb, _, _, _, jt⟩ := hj
  rw [r3] at jb
  cases jb
  have hlt := Sms.getElem?_lt' r4
  rw [hmx] at hlt
  have u0 := A.u_pos
  have hjK : (j : K) + 2 ≤ ((n / 2 + 1 : Nat) : K) := by exact_mod_cast (by omega : j + 2 ≤ n / 2 + 1)
  have j1K : (1 : K) ≤ j := by exact_mod_cast j1
  have hju : ((j : K) + 2) * A.u ≤ 1 / 16 := (mul_le_mul_of_nonneg_right hjK u0.le).trans hN
  have h3u : 3 * A.u ≤ 1 / 16 := (mul_le_mul_of_nonneg_right (by linarith) u0.le).trans hju
  have hn : 0 < n := by omega
  have hnK : (0 : K) < n := by exact_mod_cast hn
  have hnu : (n : K) * A.u ≤ 1 := by
    have : (n : K) ≤ 2 * ((n / 2 + 1 : Nat) : K) := by exact_mod_cast (by omega : n ≤ 2 * (n / 2 + 1))
    have := mul_le_mul_of_nonneg_right this u0.le
    linarith
  have hloc : |loc - (j : K)| ≤ 2 / 3 := by
    have : A.u * ((j : K) + 7) = ((j : K) + 2) * A.u + 5 * A.u := by ring
    linarith
  have hl := abs_le.1 hloc
  have hpos : 0 < fs / (n : K) := div_pos hfs hnK
  have ef := peakFreqF_err A fs hfs n hn hnu hη loc (by linarith)
  have ef' : |peakFreqF A fs n loc - loc * (fs / n)| ≤ A.u * (fs / n) * (3 * j + 6) := by
    refine ef.trans ?_
    have : A.u * (fs / n) * (3 * (loc + 1)) ≤ A.u * (fs / n) * (3 * j + 6) :=
      mul_le_mul_of_nonneg_left (by linarith) (mul_pos u0 hpos).le
    linarith
  have ef'' : |peakFreqF A fs n loc - loc * (fs / n)| ≤ 3 / 16 * (fs / n) := by
    refine ef'.trans ?_
    have : 3 * (((j : K) + 2) * A.u) * (fs / n) ≤ 3 * (1 / 16) * (fs / n) :=
      mul_le_mul_of_nonneg_right (by linarith) hpos.le
    linarith
  -- the exact values
  have hex : loc₀ = (j : K) + (a - c) / (2 * (a - 2 * b + c)) ∧
      m₀ = b - (a - c) ^ 2 / (8 * (a - 2 * b + c)) := by
    have hi1 : Np.index mx (Int.ofNat j - 1) = .ok a := by
      rw [show Int.ofNat j - 1 = Int.ofNat (j - 1) by simp; omega, Np.index_ofNat _ _ _ r2]
    have hi2 : Np.index mx (Int.ofNat j + 1) = .ok c := by
      rw [show Int.ofNat j + 1 = Int.ofNat (j + 1) by simp, Np.index_ofNat _ _ _ r4]
    have hD : a - 2 * b + c ≠ 0 := by
      have : a - 2 * b + c < 0 := by linarith
      exact this.ne
    unfold Sms.refineOne at r11
    rw [hi1, hi2, Np.index_ofNat _ _ _ r3] at r11
    simp only [Sms.vertex, if_neg hD] at r11
    split at r11
    · simp at r11
    · simp only [Except.ok.injEq, Option.some.injEq, Prod.mk.injEq] at r11
      obtain ⟨rfl, rfl, -⟩ := r11
      constructor <;> field_simp
      ring
  refine ⟨a, b, c, j1, r2, r3, r4, r5, r6, jt t rfl, rnd_rep _, r8, ?_, r10, ?_, ?_⟩
  · have t1 := abs_add_le (peakFreqF A fs n loc - loc * (fs / n)) ((loc - j) * (fs / n))
    rw [show peakFreqF A fs n loc - loc * (fs / n) + (loc - j) * (fs / n) =
      peakFreqF A fs n loc - j * (fs / n) by ring, abs_mul, abs_of_pos hpos] at t1
    have t2 : |loc - (j : K)| * (fs / n) ≤ 2 / 3 * (fs / n) := mul_le_mul_of_nonneg_right hloc hpos.le
    simp only
    linarith
  · rw [← hex.1]
    have t1 := abs_add_le (peakFreqF A fs n loc - loc * (fs / n)) ((loc - loc₀) * (fs / n))
    rw [show peakFreqF A fs n loc - loc * (fs / n) + (loc - loc₀) * (fs / n) =
      peakFreqF A fs n loc - loc₀ * (fs / n) by ring, abs_mul, abs_of_pos hpos] at t1
    have t2 := mul_le_mul_of_nonneg_right r12 hpos.le
    simp only
    refine t1.trans ((add_le_add ef' t2).trans (le_of_eq ?_))
    ring
  · rw [← hex.2]
    exact r13

/-- Frequencies lie strictly between zero and half the sampling frequency. -/
theorem PeakAtF.inside {fs t : K} (hfs : 0 < fs) {n : Nat} {mx : List K} {j : Nat} {pk : Peak K}
    (h : PeakAtF A fs t n mx j pk) (hmx : mx.length = n / 2 + 1) : 0 < pk.freq ∧ pk.freq < fs / 2 := by
  obtain ⟨a, b, c, j1, _, _, r4, _, _, _, _, _, h1, _⟩ := h
  have hlt := Sms.getElem?_lt' r4
  rw [hmx] at hlt
  have hn : 0 < n := by omega
  have hnK : (0 : K) < n := by exact_mod_cast hn
  have hpos : 0 < fs / (n : K) := div_pos hfs hnK
  have j1K : (1 : K) ≤ j := by exact_mod_cast j1
  have hj2 : 2 * ((j : K) + 1) ≤ n := by exact_mod_cast (by omega : 2 * (j + 1) ≤ n)
  obtain ⟨l1, l2⟩ := abs_le.1 h1
  have m1 : 1 * (fs / (n : K)) ≤ j * (fs / n) := mul_le_mul_of_nonneg_right j1K hpos.le
  have m2 : (2 * ((j : K) + 1)) * (fs / n) ≤ n * (fs / n) := mul_le_mul_of_nonneg_right hj2 hpos.le
  have m3 : (n : K) * (fs / n) = fs := by field_simp
  constructor <;> linarith

/-- Peaks at later bins have higher frequencies. -/
theorem PeakAtF.lt {fs t : K} (hfs : 0 < fs) {n : Nat} (hn : 0 < n) {mx : List K} {i j : Nat} {p q : Peak K}
    (hp : PeakAtF A fs t n mx i p) (hq : PeakAtF A fs t n mx j q) (h : i + 2 ≤ j) : p.freq < q.freq := by
  obtain ⟨_, _, _, _, _, _, _, _, _, _, _, _, h1, _⟩ := hp
  obtain ⟨_, _, _, _, _, _, _, _, _, _, _, _, h2, _⟩ := hq
  have hnK : (0 : K) < n := by exact_mod_cast hn
  have hpos : 0 < fs / (n : K) := div_pos hfs hnK
  have hj2 : (i : K) + 2 ≤ j := by exact_mod_cast h
  have := mul_le_mul_of_nonneg_right hj2 hpos.le
  have l1 := (abs_le.1 h1).2
  have l2 := (abs_le.1 h2).1
  linarith

/-! ## One frame -/

variable (L : Libraries K)

theorem toPeaksF_map (fs : K) (n : Nat) (px : List K) (l : List (K × K)) :
    toPeaksF A L fs n px (l.map some) =
      .ok (l.map fun e => ⟨peakFreqF A fs n e.1, e.2, L.interp e.1 px⟩) := by
  induction l with
  | nil => rfl
  | cons e l ih =>
    obtain ⟨a, b⟩ := e
    simp [toPeaksF, ih]

/-- Analysis of one spectrum: one peak for each local maximum above the threshold, in order. -/
theorem peaks_okF (fs : K) (hfs : 0 < fs) (n : Nat) (hη : A.eta ≤ A.u * (fs / n))
    (hN : ((n / 2 + 1 : Nat) : K) * A.u ≤ 1 / 16) (mx px : List K) (hs : SpectrumF A n (mx, px)) (t : K) :
    ∃ pk peaks, peakDetectInterpF A mx (some t) = .ok pk ∧ toPeaksF A L fs n px pk = .ok peaks ∧
      (peaks.map (·.freq)).Pairwise (· < ·) ∧
      ∃ ploc : List Nat, ploc.Pairwise (· < ·) ∧ (∀ j, j ∈ ploc ↔ Sms.IsPeak mx (some t) j) ∧
        List.Forall₂ (PeakAtF A fs t n mx) ploc peaks := by
  obtain ⟨ploc, h1, h2, h3⟩ := Sms.peakDetect_spec mx (some t)
  choose! floc fm hf using fun j (hj : Sms.IsPeak mx (some t) j) =>
    peakAtF A fs hfs n hη hN mx px hs t (fun x => L.interp x px) j hj
  have hres : peakDetectInterpF A mx (some t) = .ok ((ploc.map fun p => (floc p, fm p)).map some) := by
    unfold peakDetectInterpF
    rw [h1, List.map_map]
    exact peakRefineF_spec A mx _ ploc (fun p hp => (hf p ((h3 p).1 hp)).1)
  refine ⟨_, _, hres, toPeaksF_map A L fs n px _, ?_, ploc, h2, h3, ?_⟩
  · rw [List.map_map, List.map_map, List.pairwise_map]
    refine h2.imp_of_mem ?_
    intro i j hi hj hij
    have pi := (h3 i).1 hi
    have pj := (h3 j).1 hj
    have hn : 0 < n := by
      obtain ⟨_, _, _, _, _, _, r4, _⟩ := pi
      have := Sms.getElem?_lt' r4
      have hmx : mx.length = n / 2 + 1 := hs.mags
      omega
    exact PeakAtF.lt A hfs hn (hf i pi).2 (hf j pj).2 (peaks_apart pi pj hij)
  · rw [List.map_map, List.forall₂_map_right_iff, List.forall₂_same]
    intro j hj
    exact (hf j ((h3 j).1 hj)).2

/-! ## The loop -/

variable [FloorRing K]

/-- The loop is the tracker run on the peaks of each frame. -/
theorem fitLoopF_run (hsort : ∀ peaks, IsArgsort peaks (L.sort peaks)) (p : Sms.Params K) (w : List K)
    (hspec : ∀ z, z.length = p.n → SpectrumF A p.n (L.spec z)) (hfs : 0 < p.tracker.fs)
    (hη : A.eta ≤ A.u * (p.tracker.fs / p.n)) (hN : ((p.n / 2 + 1 : Nat) : K) * A.u ≤ 1 / 16)
    (h2 : 2 ≤ w.length) (hn : w.length ≤ p.n) :
    ∀ xs : List (List K), (∀ x ∈ xs, x.length = w.length) →
      ∃ R : List (Frame K), R.length = xs.length ∧
        (∀ (k : Nat) (x : List K) (r : Frame K), xs[k]? = some x → R[k]? = some r →
          r.Valid ∧ (r.peaks.map (·.freq)).Pairwise (· < ·) ∧
          ∃ ploc : List Nat, ploc.Pairwise (· < ·) ∧
            (∀ j, j ∈ ploc ↔ Sms.IsPeak (L.spec (bufferF A x w p.n)).1 (some p.t) j) ∧
            List.Forall₂ (PeakAtF A p.tracker.fs p.t p.n (L.spec (bufferF A x w p.n)).1) ploc
              r.peaks) ∧
        ∀ s, fitLoopF A L p w xs s = runFromF A (deactF A L p) p.cfg.toCfg R s := by
  intro xs
  induction xs with
  | nil =>
    intro _
    exact ⟨[], rfl, by simp, fun s => rfl⟩
  | cons x xs ih =>
    intro hx
    obtain ⟨R, a1, a2, a3⟩ := ih (fun y hy => hx y (List.mem_cons_of_mem _ hy))
    have hxl := hx x List.mem_cons_self
    have hd : dftF A L x w p.n = .ok (L.spec (bufferF A x w p.n)) := by
      simp [dftF, dftBufferF_eq A x w p.n hxl h2 hn]
    have hs := hspec _ (bufferF_length A x w p.n hxl hn)
    set sp := L.spec (bufferF A x w p.n) with hsp
    obtain ⟨mx, px⟩ := sp
    obtain ⟨pk, peaks, q1, q2, q3, q4⟩ := peaks_okF A L p.tracker.fs hfs p.n hη hN mx px hs p.t
    refine ⟨⟨peaks, L.sort peaks⟩ :: R, by simp [a1], ?_, ?_⟩
    · intro k y r hy hr
      cases k with
      | zero =>
        simp only [List.getElem?_cons_zero, Option.some.injEq] at hy hr
        subst hy; subst hr
        refine ⟨hsort peaks, q3, ?_⟩
        rw [← hsp]
        exact q4
      | succ k =>
        simp only [List.getElem?_cons_succ] at hy hr
        exact a2 k y r hy hr
    · intro s
      unfold fitLoopF
      rw [hd]
      simp only
      rw [q1]
      simp only
      have hf : p.cfg.fs = p.tracker.fs := rfl
      rw [hf, q2]
      simp only [runFromF]
      cases hc : callF A (deactF A L p) p.cfg.toCfg (L.sort peaks) peaks s with
      | error e => rfl
      | ok s' => exact a3 s'

end Verif.Float
