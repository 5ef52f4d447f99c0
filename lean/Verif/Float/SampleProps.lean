import Verif.Float.SampleLemmas

/-!
# `SAMPLE.fit` in floating point (C150)
-/

set_option autoImplicit false
set_option linter.unusedSectionVars false
set_option linter.unusedSimpArgs false

namespace Verif.Float

open Arith
open Verif.Tracker (State Track Peak)
open Verif.Sms (Params)
open Verif.Sample (allSome cleanParams kept)
open Verif.Hinge (Coeffs)

variable {K : Type} [Field K] [LinearOrder K] [IsStrictOrderedRing K] [FloorRing K]
variable (A : Arith K) (L : SampleLib K)

/-- Componentwise order. -/
def CoeffsLe (c d : Coeffs K) : Prop := c.a ≤ d.a ∧ c.k ≤ d.k ∧ c.q ≤ d.q

/-- What is assumed of the libraries and the parameters, in addition to `Usable`: the linear regression
gives numbers for numbers; the search answers within bounds that pass the checks; `np.mean` adds and
divides; magnitudes in dB are far below `1 / u`; neither hop time nor frame rate is in the range of
underflow. -/
structure SampleOk (p : Params K) : Prop extends Usable A L.toLibraries p where
  lin : ∀ x y, 2 ≤ x.length → y.length = x.length → (∀ v ∈ x, A.rnd v = v) → (∀ v ∈ y, A.rnd v = v) →
    ∃ k q, L.lin x y = .ok (k, q) ∧ A.rnd k = k ∧ A.rnd q = q
  solve : ∀ f x0 lo hi, CoeffsLe lo x0 → CoeffsLe x0 hi → lo.a < hi.a → lo.k < hi.k → lo.q < hi.q →
    ∃ r, L.solve f x0 lo hi = .ok r ∧ CoeffsLe lo r ∧ CoeffsLe r hi
  mean : ∀ l, l ≠ [] → ∃ m, L.mean l = some m ∧ MeanF A l m
  loud : ∀ z, z.length = p.n → ∀ v ∈ (L.spec z).1, |v| * A.u ≤ 1 / 8
  doubleDb : |L.doubleDb| * A.u ≤ 1 / 8
  doubleRep : A.rnd L.doubleDb = L.doubleDb
  d2k : L.d2k < 0
  hopTime : A.eta ≤ A.u * ((p.hop : K) / p.tracker.fs)
  rate : A.eta ≤ A.u * (p.tracker.fs / (p.hop : K))

/-- The form of the bounds. -/
theorem defaultBoundsF_form {x y : List K} {k q : K} {lo hi : Coeffs K}
    (h : defaultBoundsF A x y k q = .ok (lo, hi)) :
    (lo.k, hi.k) = slopeBoundsF A k ∧
    ∃ M, (M = 1 ∨ ∃ v ∈ y, M = |A.sub v q|) ∧ lo.q = A.sub q M ∧ hi.q = A.add q M := by
  unfold defaultBoundsF interceptBoundsF at h
  cases h1 : kneeBoundsF A x with
  | error e => simp [h1] at h
  | ok b =>
    obtain ⟨al, ah⟩ := b
    cases h2 : Hinge.npMax (y.map fun v => |A.sub v q|) with
    | error e => simp [h1, h2] at h
    | ok m =>
      simp only [h1, h2, Except.ok.injEq, Prod.mk.injEq] at h
      obtain ⟨rfl, rfl⟩ := h
      refine ⟨rfl, _, ?_, rfl, rfl⟩
      split
      · exact Or.inl rfl
      · obtain ⟨v, hv, e⟩ := List.mem_map.1 (npMax_mem _ _ h2)
        exact Or.inr ⟨v, hv, e.symm⟩

/-- The times of the samples of a track, as computed. -/
def timesF (p : Params K) (n : Nat) (t : Track K) : List K :=
  (kept t).map fun e => frameTimeF A p n t.start (e.1 - t.start)

/-- The magnitudes of the samples of a track, doubled. -/
def magsF (t : Track K) : List K := (kept t).map fun e => A.add e.2.mag L.doubleDb

/-- A track as C148 describes it. -/
structure TrackIn (p : Params K) (n : Nat) (t : Track K) : Prop where
  aligned : t.Aligned
  two : 2 ≤ (t.freq.filterMap id).length
  inside : ∀ e ∈ kept t, if p.padded then e.1 * p.hop ≤ n else e.1 * p.hop + p.w.length ≤ n
  peak : ∀ e ∈ kept t, ∃ z j, z.length = p.n ∧
    PeakAtF A p.tracker.fs p.t p.n (L.spec z).1 j e.2

theorem kept_start (t : Track K) : ∀ e ∈ kept t, t.start ≤ e.1 := by
  intro e he
  obtain ⟨k, hk, he2⟩ := List.mem_filterMap.1 he
  obtain ⟨pk, _, rfl⟩ := Option.map_eq_some_iff.1 he2
  exact (List.mem_range'_1.1 hk).1

/-- The times of a track: near the exact ones and in strict order. -/
theorem timesF_spec (p : Params K) (ho : SampleOk A L p) (n : Nat)
    (hB : 64 * A.u * ((n : K) / p.hop + 2) ≤ 1) (t : Track K) (ht : TrackIn A L p n t) :
    (∀ v ∈ timesF A p n t, A.rnd v = v) ∧
    List.Forall₂ (fun e v => |v - exactTime p n e.1| ≤
      8 * A.u * ((n : K) / p.hop + 2) * (p.hop / p.tracker.fs)) (kept t) (timesF A p n t) ∧
    (timesF A p n t).Pairwise fun v w =>
      if p.modal = true ∧ p.tracker.reverse = true then w < v else v < w := by
  have hhK : (0 : K) < p.hop := by exact_mod_cast ho.hop
  have hδ : 0 < (p.hop : K) / p.tracker.fs := div_pos hhK ho.fs
  have key : ∀ e ∈ kept t, A.rnd (frameTimeF A p n t.start (e.1 - t.start)) =
      frameTimeF A p n t.start (e.1 - t.start) ∧
      |frameTimeF A p n t.start (e.1 - t.start) - exactTime p n e.1| ≤
        8 * A.u * ((n : K) / p.hop + 2) * (p.hop / p.tracker.fs) := by
    intro e he
    have hs := kept_start t e he
    have hi := ht.inside e he
    have e1 : t.start + (e.1 - t.start) = e.1 := by omega
    have := frameTimeF_err A p ho.fs ho.hop ho.two n t.start (e.1 - t.start) (by rw [e1]; exact hi)
      ho.hopTime ho.rate hB
    rwa [e1] at this
  refine ⟨?_, ?_, ?_⟩
  · intro v hv
    obtain ⟨e, he, rfl⟩ := List.mem_map.1 hv
    exact (key e he).1
  · rw [timesF, List.forall₂_map_right_iff, List.forall₂_same]
    exact fun e he => (key e he).2
  · rw [timesF, List.pairwise_map]
    refine List.Pairwise.imp_of_mem ?_ (Sample.kept_frames t)
    intro a b ha hb hab
    have h1 := abs_le.1 (key a ha).2
    have h2 := abs_le.1 (key b hb).2
    have h3 := exactTime_step p ho.fs n a.1 b.1 hab
    have h4 : 8 * A.u * ((n : K) / p.hop + 2) * (p.hop / p.tracker.fs) ≤
        1 / 8 * (p.hop / p.tracker.fs) := mul_le_mul_of_nonneg_right (by linarith) hδ.le
    split at h3
    · rename_i hr
      rw [if_pos hr]
      linarith
    · rename_i hr
      rw [if_neg hr]
      linarith

/-- One track. -/
theorem trackParamsF_ok (p : Params K) (ho : SampleOk A L p) (n : Nat)
    (hB : 64 * A.u * ((n : K) / p.hop + 2) ≤ 1) (t : Track K) (ht : TrackIn A L p n t) :
    ∃ (m k q : K) (r : Coeffs K), trackParamsF A L p n t =
        .ok [[some m, if r.k = 0 then none else some (A.div L.d2k r.k), some (L.db2a r.q)]] ∧
      MeanF A (t.freq.filterMap id) m ∧ L.lin (timesF A p n t) (magsF A L t) = .ok (k, q) ∧
      (k < 0 → 8 * k ≤ r.k ∧ r.k ≤ k) ∧ (0 < k → k ≤ r.k ∧ r.k ≤ 8 * k) ∧
      (k = 0 → |r.k| ≤ 1) ∧
      ∃ M, (M = 1 ∨ ∃ v ∈ magsF A L t, M = |A.sub v q|) ∧ A.sub q M ≤ r.q ∧ r.q ≤ A.add q M := by
  have u0 := A.u_pos
  have hX : 0 ≤ (n : K) / p.hop := by positivity
  have hu : A.u ≤ 1 / 128 := by
    have := mul_nonneg u0.le hX
    linarith
  obtain ⟨t1, t2, t3⟩ := timesF_spec A L p ho n hB t ht
  have hlen : (kept t).length = (t.freq.filterMap id).length := by
    rw [← Sample.kept_freq t ht.aligned, List.length_map]
  have hl2 : 2 ≤ (kept t).length := by rw [hlen]; exact ht.two
  have hmag1 : t.mag.length ≠ 1 := by
    have h3 : (t.freq.filterMap id).length ≤ t.freq.length := List.length_filterMap_le _ _
    have := ht.aligned.1
    have := ht.two
    omega
  have hlt : (timesF A p n t).length = (kept t).length := by simp [timesF]
  have hlm : (magsF A L t).length = (kept t).length := by simp [magsF]
  have ry : ∀ v ∈ magsF A L t, A.rnd v = v := by
    intro v hv
    obtain ⟨e, _, rfl⟩ := List.mem_map.1 hv
    exact rnd_rep _
  have hsmall : ∀ v ∈ magsF A L t, |v| * A.u < 1 := by
    intro v hv
    obtain ⟨e, he, rfl⟩ := List.mem_map.1 hv
    obtain ⟨z, j, hz, hpk⟩ := ht.peak e he
    have hb : |e.2.mag| ≤ 2 * (1 / 8 / A.u) := by
      refine hpk.mag_le A hu ?_
      intro v hv
      rw [le_div_iff₀ u0]
      exact ho.loud z hz v hv
    have hb' : |e.2.mag| * A.u ≤ 1 / 4 := by
      have := mul_le_mul_of_nonneg_right hb u0.le
      rw [mul_assoc, div_mul_cancel₀ _ u0.ne'] at this
      linarith
    obtain ⟨_, _, _, _, _, _, _, _, _, _, _, rm, _⟩ := hpk
    have h1 := A.errAdd e.2.mag L.doubleDb rm ho.doubleRep
    have h2 := abs_add_le (A.rnd (e.2.mag + L.doubleDb) - (e.2.mag + L.doubleDb))
      (e.2.mag + L.doubleDb)
    rw [sub_add_cancel] at h2
    have h3 := abs_add_le e.2.mag L.doubleDb
    have h4 := ho.doubleDb
    show |A.rnd (e.2.mag + L.doubleDb)| * A.u < 1
    generalize |A.rnd (e.2.mag + L.doubleDb)| = y at *
    generalize |e.2.mag + L.doubleDb| = s at *
    have h5 : s * A.u ≤ 3 / 8 := by
      have := mul_le_mul_of_nonneg_right h3 u0.le
      linarith
    have h6 : y ≤ s + A.u * s := by linarith
    have h7 := mul_le_mul_of_nonneg_right h6 u0.le
    have h8 : A.u * (s * A.u) ≤ 1 / 128 * (3 / 8) := by
      refine (mul_le_mul_of_nonneg_left h5 u0.le).trans ?_
      exact mul_le_mul_of_nonneg_right hu (by norm_num)
    linarith
  obtain ⟨k, q, hlin, rk, rq⟩ := ho.lin (timesF A p n t) (magsF A L t) (by omega) (by omega) t1 ry
  have hmne : magsF A L t ≠ [] := by
    intro h
    rw [h] at hlm
    simp at hlm
    omega
  have hdiff : ∀ v, (∀ w ∈ timesF A p n t, w = v) → |v| * A.u < 1 := by
    intro v hv
    exfalso
    rcases hl : timesF A p n t with _ | ⟨a, _ | ⟨b, l⟩⟩
    · rw [hl] at hlt; simp at hlt; omega
    · rw [hl] at hlt; simp at hlt; omega
    · rw [hl] at hv t3
      have h1 := hv a (by simp)
      have h2 := hv b (by simp)
      have h3 := (List.pairwise_cons.1 t3).1 b (by simp)
      rw [h1, h2] at h3
      split at h3 <;> exact lt_irrefl _ h3
  have hq : (∀ w ∈ magsF A L t, w = q) → |q| * A.u < 1 := by
    intro h
    obtain ⟨v, hv⟩ := List.exists_mem_of_ne_nil _ hmne
    rw [← h v hv]
    exact hsmall v hv
  obtain ⟨lo, hi, x0, b1, b2, b3, b4, b5, c1, c2, c3, c4, c5, c6, _, _, _, _, _, hls⟩ :=
    C140_feasible A (timesF A p n t) (magsF A L t) k q (by omega) hmne t1 ry rk rq hdiff hq
  obtain ⟨r, hr, ⟨_, r1, r2⟩, ⟨_, r3, r4⟩⟩ := ho.solve (residualsF A (timesF A p n t) (magsF A L t))
    x0 lo hi ⟨c1, c3, c5⟩ ⟨c2, c4, c6⟩ b3 b4 b5
  have hfit : hingeFitF A L (timesF A p n t) (magsF A L t) = .ok r := by
    simp only [hingeFitF, hlin, b2, b1, hls, hr]
  obtain ⟨pre, e0, e1, e2, e3⟩ := preprocessTrackF_eq A L p n t ht.aligned hmag1
  have em : pre.mag = (magsF A L t).map some := by
    rw [e3, magsF, List.map_map]; rfl
  have ef : pre.freq = (t.freq.filterMap id).map some := by
    rw [e2, ← Sample.kept_freq t ht.aligned, List.map_map]; rfl
  have et : pre.time = timesF A p n t := e1
  have hfne : t.freq.filterMap id ≠ [] := by
    intro h
    have := ht.two
    rw [h] at this
    simp at this
  obtain ⟨m, hm1, hm2⟩ := ho.mean _ hfne
  have hred : freqReduceF L pre.freq = some m := by
    rw [ef]
    unfold freqReduceF
    rw [Sample.allSome_map]
    rcases hl : t.freq.filterMap id with _ | ⟨a, l⟩
    · exact absurd hl hfne
    · simp only
      rw [← hl, hm1]
  obtain ⟨hsl, M, hM, hq1, hq2⟩ := defaultBoundsF_form A b1
  have h8 : A.mul 8 k = 8 * k := by
    have := rep_double (rep_double (rep_double (A := A) rk))
    rw [show 2 * (2 * (2 * k)) = 8 * k by ring] at this
    exact this
  refine ⟨m, k, q, r, ?_, hm2, hlin, ?_, ?_, ?_, M, hM, hq1 ▸ r2, hq2 ▸ r4⟩
  · simp only [trackParamsF, e0, fitTrackF, hingeRegressorF, em, Sample.allSome_map, et, hfit, hred]
  · intro h
    simp only [slopeBoundsF, h.ne, if_false, h, if_true, h8, Prod.mk.injEq] at hsl
    exact ⟨hsl.1 ▸ r1, hsl.2 ▸ r3⟩
  · intro h
    simp only [slopeBoundsF, h.ne', if_false, not_lt.2 h.le, h8, Prod.mk.injEq] at hsl
    exact ⟨hsl.1 ▸ r1, hsl.2 ▸ r3⟩
  · intro h
    simp only [slopeBoundsF, h, if_true, Prod.mk.injEq] at hsl
    rw [hsl.1] at r1
    rw [hsl.2] at r3
    exact abs_le.2 ⟨r1, r3⟩

theorem flatten_singletons {α β : Type} (l : List α) (f : α → β) :
    (l.map fun a => [f a]).flatten = l.map f := by
  induction l with
  | nil => rfl
  | cons a l ih => simp only [List.map_cons, List.flatten_cons, ih]; rfl

/-- The tracks that the analysis reports. -/
theorem trackIn (p : Params K) (ho : SampleOk A L p) (prior s : State K) (x : List K)
    (hx : p.padded = true ∨ p.w.length ≤ x.length) (hs : fitF A L.toLibraries p prior x = .ok s) :
    ∀ t ∈ tracksF A L.toLibraries p s, TrackIn A L p x.length t := by
  obtain ⟨s', frames, h1, h2, h3, _, _, h4, h5, _⟩ :=
    C148_end_to_end A L.toLibraries p ho.toUsable prior x hx
  rw [hs] at h1
  cases h1
  intro t ht
  obtain ⟨a1, a2, a3, _⟩ := h4 t ht
  have hmem : ∀ e ∈ kept t, e.1 < frames.length ∧ t.sampleAt e.1 = some e.2 := by
    intro e he
    obtain ⟨k, hk, he2⟩ := List.mem_filterMap.1 he
    obtain ⟨pk, hpk, rfl⟩ := Option.map_eq_some_iff.1 he2
    have := (List.mem_range'_1.1 hk).2
    exact ⟨by simp only; omega, hpk⟩
  refine ⟨a1, ?_, ?_, ?_⟩
  · rw [filter_isSome_length] at a3
    exact a3
  · intro e he
    have hk := (hmem e he).1
    have hh := ho.hop
    split
    · rename_i hp
      simp only [hp, if_true] at h3
      have : e.1 ≤ x.length / p.hop := by omega
      exact (Nat.le_div_iff_mul_le (by omega)).1 this
    · rename_i hp
      simp only [hp, Bool.false_eq_true, if_false] at h3
      have : e.1 ≤ (x.length - p.w.length) / p.hop := by omega
      have := (Nat.le_div_iff_mul_le (by omega)).1 this
      have := hx.resolve_left hp
      omega
  · intro e he
    obtain ⟨f, j, hf, hpk, _⟩ := h5 t ht e.1 e.2 (hmem e he).2
    refine ⟨_, j, ?_, hpk⟩
    rw [bufferF_length]
    · have := Sms.timeFrames_rows _ _ _ _ _ h2 f (List.mem_of_getElem? hf)
      simp [this]
    · simpa using ho.fits

/-- C150: what `SAMPLE.fit` guarantees in floating point with the modal or the plain tracker, the
default regressor and the default frequency reduction.  `T` lists the kept tracks with their
frequencies, decay times and amplitudes; `ts` and `ms` are the data of the regressions. -/
theorem C150_fit (p : Params K) (ho : SampleOk A L p) (prior : State K) (x : List K)
    (hx : p.padded = true ∨ p.w.length ≤ x.length)
    (hB : 64 * A.u * ((x.length : K) / p.hop + 2) ≤ 1) :
    ∃ (s : State K) (T : List (Track K × K × K × K)) (P : Track K → Bool) (ts ms : Track K → List K),
      fitF A L.toLibraries p prior x = .ok s ∧
      fitSampleF A L false (some 0) [] p prior x = some (.ok (s,
        [T.map fun e => some e.2.1, T.map fun e => some e.2.2.1, T.map fun e => some e.2.2.2])) ∧
      (∀ poolGiven nJobs evs res, Training.poolOk poolGiven nJobs = true →
        fitSampleF A L poolGiven nJobs evs p prior x = some res →
        some res = fitSampleF A L false (some 0) [] p prior x) ∧
      T.map Prod.fst = (tracksF A L.toLibraries p s).filter P ∧
      (∀ t ∈ tracksF A L.toLibraries p s,
        List.Forall₂ (fun e v => |v - exactTime p x.length e.1| ≤
          8 * A.u * ((x.length : K) / p.hop + 2) * (p.hop / p.tracker.fs)) (kept t) (ts t) ∧
        ((ts t).Pairwise fun v w =>
          if p.modal = true ∧ p.tracker.reverse = true then w < v else v < w) ∧
        (ms t = (kept t).map fun e => A.add e.2.mag L.doubleDb) ∧
        ∃ k q, L.lin (ts t) (ms t) = .ok (k, q) ∧ (k ≠ 0 → P t = true)) ∧
      ∀ e ∈ T, 0 < e.2.1 ∧
        |e.2.1 - Tracker.mean (e.1.freq.filterMap id)| ≤
          (2 * (e.1.freq.filterMap id).length + 34) * A.u * Tracker.mean (e.1.freq.filterMap id) ∧
        (8 * (((e.1.freq.filterMap id).length : K) + 17) * p.n * A.u < 1 → e.2.1 < p.tracker.fs / 2) ∧
        ∃ k q, L.lin (ts e.1) (ms e.1) = .ok (k, q) ∧
          (k < 0 → A.div L.d2k (8 * k) ≤ e.2.2.1 ∧ e.2.2.1 ≤ A.div L.d2k k) ∧
          (0 < k → A.div L.d2k k ≤ e.2.2.1 ∧ e.2.2.1 ≤ A.div L.d2k (8 * k)) ∧
          ∃ q' M, e.2.2.2 = L.db2a q' ∧ (M = 1 ∨ ∃ v ∈ ms e.1, M = |A.sub v q|) ∧
            A.sub q M ≤ q' ∧ q' ≤ A.add q M := by
  obtain ⟨s, frames, f1, f2, f3, _⟩ := C148_end_to_end A L.toLibraries p ho.toUsable prior x hx
  obtain ⟨fr, hfr, _⟩ := Sms.timeFrames_ok p.padded p.w.length p.hop x ho.hop hx
  have hin := trackIn A L p ho prior s x hx f1
  have hhK : (0 : K) < p.hop := by exact_mod_cast ho.hop
  have u0 := A.u_pos
  have hX : 0 ≤ (x.length : K) / p.hop := by positivity
  have hu : A.u ≤ 1 / 128 := by
    have := mul_nonneg u0.le hX
    linarith
  have : Nonempty (Coeffs K) := ⟨⟨0, 0, 0⟩⟩
  choose! Mf kk qq rr hD using fun t ht => trackParamsF_ok A L p ho x.length hB t (hin t ht)
  generalize hTr : tracksF A L.toLibraries p s = tracks at *
  set D : Track K → Option K := fun t => if (rr t).k = 0 then none else some (A.div L.d2k (rr t).k)
    with hDdef
  set P : Track K → Bool := fun t => decide ((rr t).k ≠ 0) with hP
  set T : List (Track K × K × K × K) := (tracks.filter P).map fun t =>
    (t, Mf t, A.div L.d2k (rr t).k, L.db2a (rr t).q) with hT
  have hmap : Training.starmapList (trackParamsF A L p x.length) tracks = .ok (tracks.map fun t =>
        [[some (Mf t), D t, some (L.db2a (rr t).q)]]) := by
    apply Sample.starmapList_map
    intro t ht
    exact (hD t ht).1
  have hctx : Training.contextMap false (some 0) (trackParamsF A L p x.length) tracks [] =
      some (.ok (tracks.map fun t => [[some (Mf t), D t, some (L.db2a (rr t).q)]])) := by
    simp [Training.contextMap, Training.contextStarmap, Training.poolOk, hmap]
  have hflat : (tracks.map fun t => [[some (Mf t), D t, some (L.db2a (rr t).q)]]).flatten =
      tracks.map fun t => [some (Mf t), D t, some (L.db2a (rr t).q)] := by
    exact flatten_singletons tracks _
  have hclean : cleanParams 3 (tracks.map fun t => [some (Mf t), D t, some (L.db2a (rr t).q)]) =
      .ok [T.map fun e => some e.2.1, T.map fun e => some e.2.2.1, T.map fun e => some e.2.2.2] := by
    obtain ⟨rows, r1, r2, r3, r4⟩ := Sample.C22_finite_columns 3 (by norm_num)
      (tracks.map fun t => [some (Mf t), D t, some (L.db2a (rr t).q)]) (by
        intro c hc
        obtain ⟨tr, _, rfl⟩ := List.mem_map.1 hc
        rfl)
    rw [r1]
    congr 1
    have hfil : ((tracks.map fun t => [some (Mf t), D t, some (L.db2a (rr t).q)]).filter fun c =>
        c.all Option.isSome) =
        (tracks.filter P).map fun t => [some (Mf t), D t, some (L.db2a (rr t).q)] := by
      rw [List.filter_map]
      congr 1
      apply List.filter_congr
      intro t _
      by_cases h : (rr t).k = 0 <;> simp [hP, hDdef, h]
    have hrow : ∀ (r : Nat) (row : List (Option K)), rows[r]? = some row → row.map some =
        (tracks.filter P).map fun t => [some (Mf t), D t, some (L.db2a (rr t).q)][r]? := by
      intro r row h
      rw [r4 r row h, hfil, List.map_map]; rfl
    have hinj : Function.Injective (List.map (some : Option K → Option (Option K))) :=
      List.map_injective_iff.2 (Option.some_injective _)
    obtain ⟨ra, rb, rc, rfl⟩ := List.length_eq_three.1 r2
    have h0 := hrow 0 ra rfl
    have h1 := hrow 1 rb rfl
    have h2' := hrow 2 rc rfl
    have ea : ra = T.map fun e => some e.2.1 := by
      apply hinj
      rw [h0, hT]
      simp [Function.comp_def]
    have eb : rb = T.map fun e => some e.2.2.1 := by
      apply hinj
      rw [h1, hT]
      simp only [List.map_map]
      apply List.map_congr_left
      intro t ht
      have h : (rr t).k ≠ 0 := by simpa [hP] using (List.mem_filter.1 ht).2
      simp [hDdef, h]
    have ec : rc = T.map fun e => some e.2.2.2 := by
      apply hinj
      rw [h2', hT]
      simp [Function.comp_def]
    rw [ea, eb, ec]
  have hseq : fitSampleF A L false (some 0) [] p prior x = some (.ok (s,
      [T.map fun e => some e.2.1, T.map fun e => some e.2.2.1, T.map fun e => some e.2.2.2])) := by
    unfold fitSampleF
    rw [show Training.poolOk false (some 0) = true from rfl]
    simp only [hfr, f1, hTr, hctx, hflat, hclean, Bool.not_true, Bool.false_eq_true, if_false]
  refine ⟨s, T, P, timesF A p x.length, magsF A L, f1, hseq, ?_, ?_, ?_, ?_⟩
  · intro poolGiven nJobs evs res hj h
    rw [hseq]
    unfold fitSampleF at h
    simp only [hj, hfr, f1, hTr, Bool.not_true, Bool.false_eq_true, if_false] at h
    split at h
    · simp at h
    · rename_i e he
      have := ((Training.C56_context _ _ _ _ _ _ he).1 ((Training.poolOk_iff _ _).1 hj)).1
      rw [hctx] at this
      simp at this
    · rename_i cols he
      have := ((Training.C56_context _ _ _ _ _ _ he).1 ((Training.poolOk_iff _ _).1 hj)).1
      rw [hctx] at this
      simp only [Option.some.injEq, Except.ok.injEq] at this
      rw [← this, hflat, hclean] at h
      exact h.symm
  · rw [hT, List.map_map, hTr]
    simp [Function.comp_def]
  · intro t ht
    rw [hTr] at ht
    obtain ⟨_, t2, t3⟩ := timesF_spec A L p ho x.length hB t (hin t ht)
    obtain ⟨_, _, d3, d4, d5, _⟩ := hD t ht
    refine ⟨t2, t3, rfl, kk t, qq t, d3, ?_⟩
    intro hk
    have : (rr t).k ≠ 0 := by
      rcases lt_or_gt_of_ne hk with h | h
      · exact (lt_of_le_of_lt (d4 h).2 h).ne
      · exact (lt_of_lt_of_le h (d5 h).1).ne'
    simpa [hP] using this
  · intro e he
    rw [hT] at he
    obtain ⟨t, ht, rfl⟩ := List.mem_map.1 he
    obtain ⟨ht, hsome⟩ := List.mem_filter.1 ht
    obtain ⟨_, d2, d3, d4, d5, _, M, hM, q1, q2⟩ := hD t ht
    have hti := hin t ht
    have hne : t.freq.filterMap id ≠ [] := by
      intro h
      have := hti.two
      rw [h] at this
      simp at this
    have hn : 0 < p.n := by
      have := ho.two
      have := ho.fits
      omega
    have hnK : (0 : K) < p.n := by exact_mod_cast hn
    have hpos : 0 < p.tracker.fs / (p.n : K) := div_pos ho.fs hnK
    have hlen : (t.freq.filterMap id).length = (kept t).length := by
      rw [← Sample.kept_freq t hti.aligned, List.length_map]
    have hN : ((t.freq.filterMap id).length : K) * A.u ≤ 1 / 32 := by
      have h1 : (t.freq.filterMap id).length ≤ x.length / p.hop + 1 := by
        rw [hlen]
        have hsub : ((kept t).map fun e => e.1).Nodup := by
          have := Sample.kept_frames t
          rw [List.nodup_iff_pairwise_ne, List.pairwise_map]
          exact this.imp fun h => h.ne
        have : ((kept t).map fun e => e.1) ⊆ List.range (x.length / p.hop + 1) := by
          intro k hk
          obtain ⟨e, he, rfl⟩ := List.mem_map.1 hk
          have := hti.inside e he
          rw [List.mem_range, Nat.lt_succ_iff, Nat.le_div_iff_mul_le (by have := ho.hop; omega)]
          split at this <;> omega
        have := (List.Nodup.subperm hsub this).length_le
        simpa using this
      have h2 : ((t.freq.filterMap id).length : K) ≤ (x.length : K) / p.hop + 1 := by
        have : ((t.freq.filterMap id).length : K) ≤ ((x.length / p.hop + 1 : Nat) : K) := by
          exact_mod_cast h1
        refine this.trans ?_
        push_cast
        have := Nat.cast_div_le (α := K) (m := x.length) (n := p.hop)
        linarith
      have := mul_le_mul_of_nonneg_right h2 u0.le
      nlinarith
    have hfr2 : ∀ f ∈ t.freq.filterMap id, p.tracker.fs / p.n / 8 ≤ f ∧
        f ≤ p.tracker.fs / 2 - p.tracker.fs / p.n / 8 := by
      intro f hf
      rw [← Sample.kept_freq t hti.aligned] at hf
      obtain ⟨e, he1, rfl⟩ := List.mem_map.1 hf
      obtain ⟨z, j, hz, a, b, c, j1, _, _, j4, _, _, _, _, _, hfq, _⟩ := hti.peak e he1
      have hlt := Sms.getElem?_lt' j4
      rw [(ho.spec z hz).mags] at hlt
      have j1K : (1 : K) ≤ j := by exact_mod_cast j1
      have hj2 : 2 * ((j : K) + 1) ≤ p.n := by exact_mod_cast (by omega : 2 * (j + 1) ≤ p.n)
      have m1 := mul_le_mul_of_nonneg_right j1K hpos.le
      have m2 := mul_le_mul_of_nonneg_right hj2 hpos.le
      have m3 : (p.n : K) * (p.tracker.fs / p.n) = p.tracker.fs := by field_simp
      obtain ⟨l1, l2⟩ := abs_le.1 hfq
      constructor <;> linarith
    obtain ⟨g1, g2, g3⟩ := meanF_freq A ho.fs hn ho.normal hu _ hne _ d2 hN hfr2
    refine ⟨g1, g2, g3, kk t, qq t, d3, ?_, ?_, (rr t).q, M, rfl, hM, q1, q2⟩
    · intro h
      obtain ⟨s1, s2⟩ := d4 h
      have hd := ho.d2k
      have hr : (rr t).k < 0 := lt_of_le_of_lt s2 h
      constructor
      · apply rnd_mono
        rw [← neg_div_neg_eq, ← neg_div_neg_eq L.d2k]
        exact div_le_div_of_nonneg_left (by linarith) (by linarith) (by linarith)
      · apply rnd_mono
        rw [← neg_div_neg_eq, ← neg_div_neg_eq L.d2k]
        exact div_le_div_of_nonneg_left (by linarith) (by linarith) (by linarith)
    · intro h
      obtain ⟨s1, s2⟩ := d5 h
      have hd := ho.d2k
      have hr : 0 < (rr t).k := lt_of_lt_of_le h s1
      constructor
      · apply rnd_mono
        have := div_le_div_of_nonneg_left (show 0 ≤ -L.d2k by linarith) h s1
        rw [neg_div, neg_div] at this
        linarith
      · apply rnd_mono
        have := div_le_div_of_nonneg_left (show 0 ≤ -L.d2k by linarith) hr s2
        rw [neg_div, neg_div] at this
        linarith

theorem residual_num {u η z q v d1 w d2 s d3 : K} (u0 : 0 < u) (u8 : u ≤ 1 / 8) (η0 : 0 ≤ η)
    (z0 : 0 ≤ z) (q0 : 0 ≤ q) (h1 : d1 ≤ u * z + η) (hw : w ≤ q + z + d1) (h2 : d2 ≤ u * w + η)
    (hs : s ≤ w + d2) (h3 : d3 ≤ u * (s + v) + η) :
    d1 + d2 + d3 ≤ u * (4 * z + 3 * q + v) + 4 * η := by
  have uz : u * z ≤ z / 8 := by nlinarith
  have uη : u * η ≤ η / 8 := by nlinarith
  have w1 : w ≤ q + 9 / 8 * z + η := by linarith
  have w0 := mul_le_mul_of_nonneg_left w1 u0.le
  have w2 : u * w ≤ (q + 9 / 8 * z + η) / 8 := by
    have : u * (q + 9 / 8 * z + η) ≤ 1 / 8 * (q + 9 / 8 * z + η) :=
      mul_le_mul_of_nonneg_right u8 (by positivity)
    linarith
  have s1 : s ≤ 9 / 8 * q + 81 / 64 * z + 17 / 8 * η := by linarith
  have s2 := mul_le_mul_of_nonneg_left s1 u0.le
  have uq0 := mul_nonneg u0.le q0
  have uz0 := mul_nonneg u0.le z0
  nlinarith

/-- Error of one residual. -/
theorem residual_err (p : Coeffs K) (t v : K) :
    |A.sub (A.add p.q (A.mul p.k (min t p.a))) v - (p.q + p.k * min t p.a - v)| ≤
      A.u * (4 * |p.k * min t p.a| + 3 * |p.q| + |v|) + 4 * A.eta := by
  change |A.rnd (A.rnd (p.q + A.rnd (p.k * min t p.a)) - v) - (p.q + p.k * min t p.a - v)| ≤ _
  generalize p.k * min t p.a = z at *
  have e1 := A.err z
  have e2 := A.err (p.q + A.rnd z)
  have e3 := A.err (A.rnd (p.q + A.rnd z) - v)
  generalize A.rnd (A.rnd (p.q + A.rnd z) - v) = R at *
  generalize A.rnd (p.q + A.rnd z) = S at *
  generalize A.rnd z = M at *
  have m2 : |p.q + M| ≤ |p.q| + |z| + |M - z| := by
    rw [show p.q + M = p.q + z + (M - z) by ring]
    exact (abs_add_le _ _).trans (add_le_add_left (abs_add_le _ _) _)
  have s1 : |S| ≤ |p.q + M| + |S - (p.q + M)| := by
    have := abs_add_le (p.q + M) (S - (p.q + M))
    rwa [add_sub_cancel] at this
  have s2 : |S - v| ≤ |S| + |v| := by
    have := abs_add_le S (-v)
    rwa [abs_neg, ← sub_eq_add_neg] at this
  have tri : |R - (p.q + z - v)| ≤ |M - z| + |S - (p.q + M)| + |R - (S - v)| := by
    rw [show R - (p.q + z - v) = (M - z) + (S - (p.q + M)) + (R - (S - v)) by ring]
    exact (abs_add_le _ _).trans (add_le_add_left (abs_add_le _ _) _)
  exact tri.trans (residual_num A.u_pos A.u_le A.eta_nonneg (abs_nonneg _) (abs_nonneg _) e1 m2 e2 s1
    (e3.trans (add_le_add_left (mul_le_mul_of_nonneg_left s2 A.u_pos.le) _)))

/-- Sum of the squares. -/
def sumSquares (l : List K) : K := (l.map (· ^ 2)).sum

/-- C150: the hinge fits the track at least as well as the line of the linear regression, as far as the
residuals can be computed, if the search does not end at a point with larger squares than the one with
start slope and intercept and the knee at its upper bound (any search for the minimum, up to `tol`).
`r` and `r'` are the residuals of hinge and line. -/
theorem C150_search (tol : K) (hopt : ∀ f x0 lo hi c, L.solve f x0 lo hi = .ok c →
      sumSquares (f c) ≤ sumSquares (f ⟨hi.a, x0.k, x0.q⟩) + tol)
    (x y : List K) (rx : ∀ v ∈ x, A.rnd v = v) (c : Coeffs K) (h : hingeFitF A L x y = .ok c) :
    ∃ k q r r', L.lin x y = .ok (k, q) ∧ sumSquares r ≤ sumSquares r' + tol ∧
      r.length = min x.length y.length ∧ r'.length = min x.length y.length ∧
      ∀ (i : Nat) (t v : K), x[i]? = some t → y[i]? = some v → ∃ e e', r[i]? = some e ∧ r'[i]? = some e' ∧
        (t ≤ c.a → |e - (c.k * t + c.q - v)| ≤
          A.u * (4 * |c.k * t| + 3 * |c.q| + |v|) + 4 * A.eta) ∧
        (c.a ≤ t → |e - (c.k * c.a + c.q - v)| ≤
          A.u * (4 * |c.k * c.a| + 3 * |c.q| + |v|) + 4 * A.eta) ∧
        |e' - (k * t + q - v)| ≤ A.u * (4 * |k * t| + 3 * |q| + |v|) + 4 * A.eta := by
  unfold hingeFitF at h
  cases hl : L.lin x y with
  | error e => simp [hl] at h
  | ok kq =>
    obtain ⟨k, q⟩ := kq
    simp only [hl] at h
    cases hi : defaultCoeffsInitF A x y k q with
    | error e => simp [hi] at h
    | ok x0 =>
      simp only [hi] at h
      cases hb : defaultBoundsF A x y k q with
      | error e => simp [hb] at h
      | ok b =>
        obtain ⟨lo, up⟩ := b
        simp only [hb, Hinge.leastSquares] at h
        split at h
        · cases h
        split at h
        · cases h
        have h0 := hopt _ _ _ _ _ h
        have hx0 : x0.k = k ∧ x0.q = q := by
          unfold defaultCoeffsInitF at hi
          split at hi
          · cases hi
            exact ⟨rfl, rfl⟩
          · cases hi
          · cases hi
        have hup : ∀ t ∈ x, t ≤ up.a := by
          intro t ht
          have hne : x ≠ [] := List.ne_nil_of_mem ht
          obtain ⟨m, hm, hm'⟩ := Hinge.npMin_ok x hne
          obtain ⟨M, hM, hM'⟩ := Hinge.npMax_ok x hne
          unfold defaultBoundsF kneeBoundsF at hb
          simp only [hm, hM] at hb
          split at hb
          · cases hb
          · rename_i al ah hab
            have hM2 : M ≤ ah := by
              split at hab
              · cases hab
              · split at hab
                · cases hab
                  exact le_rnd (by linarith) (rx _ (npMax_mem x M hM))
                · cases hab
                  exact le_rfl
            split at hb
            · cases hb
            · cases hb
              exact (hM' t ht).trans hM2
        rw [hx0.1, hx0.2] at h0
        refine ⟨k, q, _, _, rfl, h0, by simp [residualsF], by simp [residualsF], ?_⟩
        intro i t v ht hv
        have hr : ∀ p : Coeffs K, (residualsF A x y p)[i]? =
            some (A.sub (A.add p.q (A.mul p.k (min t p.a))) v) := by
          intro p
          simp only [residualsF, List.getElem?_zipWith, ht, hv]
        refine ⟨_, _, hr _, hr _, ?_, ?_, ?_⟩
        · intro hta
          have := residual_err A c t v
          rw [min_eq_left hta] at this ⊢
          rwa [add_comm c.q (c.k * t)] at this
        · intro hta
          have := residual_err A c t v
          rw [min_eq_right hta] at this ⊢
          rwa [add_comm c.q (c.k * c.a)] at this
        · have := residual_err A ⟨up.a, k, q⟩ t v
          dsimp only at this ⊢
          rw [min_eq_left (hup t (List.mem_of_getElem? ht))] at this ⊢
          rwa [add_comm q (k * t)] at this

/-- C150: an unpadded input that is shorter than the window by more than the hop size is refused. -/
theorem C150_short (p : Params K) (prior : State K) (x : List K) (poolGiven : Bool)
    (nJobs : Option Int) (evs : List Training.Ev) (hp : p.padded = false) (hh : 1 ≤ p.hop)
    (h : x.length + p.hop < p.w.length) :
    fitSampleF A L poolGiven nJobs evs p prior x = some (.error .valueError) := by
  unfold fitSampleF
  cases Training.poolOk poolGiven nJobs with
  | false => rfl
  | true =>
    rw [hp, (Sms.C19_unpadded x p.w.length p.hop).2, (Sms.C18_short x p.w.length p.hop).2.1 hh h]
    rfl

/-! ## Concrete cases -/

/-- A stand-in for the libraries: least squares and mean in doubles, the search stays at its start. -/
def exSampleLib : SampleLib ℚ where
  toLibraries := { exLib with spec := fun z =>
    let m := (z.take (z.length / 2 + 1)).map fun v =>
      if (double ℚ).eta ≤ (double ℚ).u ^ 2 * |(double ℚ).rnd v| ∧
        |(double ℚ).rnd v| * (double ℚ).u ≤ 1 / 8 then (double ℚ).rnd v else 0
    (m, m) }
  lin x y := .ok ((double ℚ).rnd (Tracker.olsSlope x y), (double ℚ).rnd (Tracker.olsIntercept x y))
  solve _ x0 _ _ := .ok x0
  db2a q := (double ℚ).rnd (1 + q / 8)
  d2k := -17
  doubleDb := 6

/-- All hypotheses of the theorem. -/
theorem exSampleOk (modal : Bool) : SampleOk (double ℚ) exSampleLib (exParamsF modal) where
  toUsable := { exUsable modal with
    spec := by
      intro z hz
      have hz : z.length = 8 := hz
      refine ⟨?_, ?_, ?_, ?_⟩
      · simp [exSampleLib, hz, exParamsF]
      · simp [exSampleLib, hz, exParamsF]
      · intro v hv
        simp only [exSampleLib, List.mem_map] at hv
        obtain ⟨a, _, rfl⟩ := hv
        split
        · exact rnd_rep _
        · exact rep_zero
      · intro v hv
        simp only [exSampleLib, List.mem_map] at hv
        obtain ⟨a, _, rfl⟩ := hv
        split
        · rename_i h
          exact Or.inr h.1
        · exact Or.inl rfl }
  lin := fun x y _ _ _ _ => ⟨_, _, rfl, rnd_rep _, rnd_rep _⟩
  solve := fun f x0 lo hi h1 h2 _ _ _ => ⟨x0, rfl, h1, h2⟩
  mean := fun l _ => ⟨_, rfl, meanF_exists (double ℚ) l⟩
  loud := by
    intro z _ v hv
    simp only [exSampleLib, List.mem_map] at hv
    obtain ⟨a, _, rfl⟩ := hv
    split
    · rename_i h
      exact h.2
    · rw [abs_zero, zero_mul]
      norm_num
  doubleDb := by decide +kernel
  doubleRep := by decide +kernel
  d2k := by decide +kernel
  hopTime := by decide +kernel +revert
  rate := by decide +kernel +revert

/-- One track; the same parameters with both trackers, and with a pool. -/
example : ∀ m ∈ [false, true], ∀ e ∈ [(false, some 0, []), (true, none, [.poll, .finish 0, .poll])],
    (fitSampleF (double ℚ) exSampleLib e.1 e.2.1 e.2.2 (exParamsF m) ⟨[], [], 0⟩
      [1, 8, 3, 7, 2, 6, 1]).map (fun r => r.toOption.map (·.2)) =
    some (some [[some (8645302856113005 / 9007199254740992)],
      [some (401946266742817 / 17592186044416)], [some (4324187253822285 / 2251799813685248)]]) := by
  decide +kernel

/-- A search between two points that meets the assumption of `C150_search`. -/
def exSearchLib : SampleLib ℚ :=
  { exSampleLib with
    solve := fun f x0 _ hi =>
      .ok (if sumSquares (f x0) ≤ sumSquares (f ⟨hi.a, x0.k, x0.q⟩) then x0 else ⟨hi.a, x0.k, x0.q⟩) }

example : (∀ f x0 lo hi c, exSearchLib.solve f x0 lo hi = .ok c →
      sumSquares (f c) ≤ sumSquares (f ⟨hi.a, x0.k, x0.q⟩) + 0) ∧
    ((hingeFitF (double ℚ) exSearchLib [0, 1, 2, 3] [0, -2, -3, -3]).toOption.map (·.a)) = some 3 ∧
    ((hingeFitF (double ℚ) exSearchLib [0, 1, 2, 3] [0, 0, 2, 0]).toOption.map (·.a)) = some (3 / 2) := by
  refine ⟨?_, ?_⟩
  · intro f x0 lo hi c h
    simp only [exSearchLib, Except.ok.injEq] at h
    subst h
    rw [add_zero]
    split <;> rename_i h
    · exact h
    · exact le_rfl
  · decide +kernel

/-- The signal is short enough. -/
example : 64 * (double ℚ).u * ((7 : ℚ) / 2 + 2) ≤ 1 := by decide +kernel

/-- The limit on the length is needed: with four bits the frames 40 and 41 have the same time. -/
example : frameTimeF (ieee ℚ 4 (-10) (by norm_num) (by norm_num)) (exParamsF false) 100 40 0 =
    frameTimeF (ieee ℚ 4 (-10) (by norm_num) (by norm_num)) (exParamsF false) 100 40 1 := by
  decide +kernel

end Verif.Float
