import Verif.Beat.DecisionModel
import Verif.Beat.RegressionProps
import Verif.Sample.Props
import Verif.Sample.SynthProps
import Verif.Sample.FitProps
import Verif.Training.Props

/-!
# C47: beat decision, C80: the SAMPLE model with beats
-/

set_option autoImplicit false
set_option linter.unusedSectionVars false
set_option linter.unusedSimpArgs false

namespace Verif.Beat

open Verif.Out Verif.Tracker Verif.Sample

/-! ## C47 -/

/-- C47.  The default decision is for a beat iff the difference of the frequencies and both amplitudes
exceed the threshold. -/
theorem C47_decision (th eps : ℝ) (t : PreTrack ℝ) (p : Octet ℝ) (params : List Cell) :
    almostNotABeat th eps t p params = true ↔
      th * eps < |p.f0 - p.f1| ∧ th * eps < |p.a0| ∧ th * eps < |p.a1| := by
  simp [almostNotABeat]

/-- C47.  The decision does not depend on the order of the partials, nor on the association of the
frequencies with the amplitudes; a larger threshold never adds a beat; with a threshold of zero
everything but equal frequencies and missing partials is a beat. -/
theorem C47_invariance (th eps : ℝ) (t : PreTrack ℝ) (p : Octet ℝ) (params : List Cell) :
    almostNotABeat th eps t (other p) params = almostNotABeat th eps t p params ∧
      almostNotABeat th eps t { p with f0 := p.f1, f1 := p.f0, p0 := p.p1, p1 := p.p0 } params =
        almostNotABeat th eps t p params ∧
      (∀ th', th ≤ th' → 0 ≤ eps → almostNotABeat th' eps t p params = true →
        almostNotABeat th eps t p params = true) ∧
      (almostNotABeat 0 eps t p params = true ↔ p.f0 ≠ p.f1 ∧ p.a0 ≠ 0 ∧ p.a1 ≠ 0) := by
  refine ⟨?_, ?_, ?_, ?_⟩
  · rw [Bool.eq_iff_iff, C47_decision, C47_decision]
    simp only [other]
    rw [abs_sub_comm]
    tauto
  · rw [Bool.eq_iff_iff, C47_decision, C47_decision]
    simp only
    rw [abs_sub_comm]
  · intro th' h he
    rw [C47_decision, C47_decision]
    have := mul_le_mul_of_nonneg_right h he
    rintro ⟨h1, h2, h3⟩
    exact ⟨by linarith, by linarith, by linarith⟩
  · rw [C47_decision, zero_mul, abs_pos, abs_pos, abs_pos, sub_ne_zero]

/-- C47.  A beat gives two columns, each with the frequency, decay, amplitude and phase of its own
partial; otherwise there is the single column of the SAMPLE model with the phase zero; if the beat
regression fails, so does the track, and nothing is decided. -/
theorem C47_columns (reg : List ℝ → List (Option ℝ) → Except PyErr (ℝ × ℝ))
    (freqReduce : List (Option ℝ) → Option ℝ) (decide : Decide)
    (beat : PreTrack ℝ → Except PyErr (Octet ℝ)) (t : PreTrack ℝ) :
    (∀ e, reg t.time t.mag = .error e → beatFitTrack reg freqReduce decide beat t = .error e) ∧
    ∀ k q, reg t.time t.mag = .ok (k, q) →
      (∀ e, beat t = .error e → beatFitTrack reg freqReduce decide beat t = .error e) ∧
      ∀ p, beat t = .ok p → ∃ params, fitTrack reg freqReduce t = .ok [params] ∧
        params.length = 3 ∧
        beatFitTrack reg freqReduce decide beat t = .ok (if decide t p params then
          [[some p.f0, some p.d0, some p.a0, some p.p0],
            [some p.f1, some p.d1, some p.a1, some p.p1]]
          else [params ++ [some 0]]) := by
  constructor
  · intro e h
    simp [beatFitTrack, fitTrack, h]
  · intro k q h
    constructor
    · intro e he
      simp [beatFitTrack, fitTrack, h, decisorParams, he]
    · intro p hp
      refine ⟨[freqReduce t.freq, slopeToDecay k, some (Dsp.db2a q)], by simp [fitTrack, h], rfl, ?_⟩
      simp [beatFitTrack, fitTrack, h, decisorParams, hp, outputBeatParams, outputParams]

/-- C47.  The base class never decides for a beat. -/
theorem C47_base (t : PreTrack ℝ) (p : Octet ℝ) (params : List Cell) :
    neverBeat t p params = false := rfl

/-- A beat, and a track with a missing partial. -/
example : almostNotABeat 1 (1 / 2 ^ 52) ⟨[], [], [], []⟩ ⟨1, 1 / 2, 440, 442, 1, 1, 0, 0⟩ [] = true ∧
    almostNotABeat 1 (1 / 2 ^ 52) ⟨[], [], [], []⟩ ⟨1, 0, 440, 442, 1, 1, 0, 0⟩ [] = false := by
  constructor
  · rw [C47_decision]
    norm_num
  · rw [← Bool.not_eq_true, C47_decision]
    norm_num

/-! ## C80 -/

/-- The SAMPLE model is the same program with three rows and its own track function. -/
theorem fit_eq_fitWith (spec : List ℝ → List ℝ × List ℝ) (sort : List (Peak ℝ) → List Nat)
    (reg : List ℝ → List (Option ℝ) → Except PyErr (ℝ × ℝ))
    (freqReduce : List (Option ℝ) → Option ℝ) (poolGiven : Bool) (nJobs : Option Int)
    (evs : List Training.Ev) (m : Sms.Model ℝ) (x : List ℝ) :
    Sample.fit spec sort reg freqReduce poolGiven nJobs evs m x =
      fitWith 3 (trackParams reg freqReduce) spec sort poolGiven nJobs evs m x := rfl

/-- All columns of a track have four entries. -/
theorem beatTrackParams_length (reg : List ℝ → List (Option ℝ) → Except PyErr (ℝ × ℝ))
    (freqReduce : List (Option ℝ) → Option ℝ) (decide : Decide)
    (beat : ℝ → PreTrack ℝ → Except PyErr (Octet ℝ)) (p : Sms.Params ℝ) (xsize : Nat)
    (t : Track ℝ) (cols : List (List Cell))
    (h : beatTrackParams reg freqReduce decide beat p xsize t = .ok cols) :
    ∀ c ∈ cols, c.length = 4 := by
  unfold beatTrackParams at h
  cases hp : preprocessTrack (analysis p) xsize t with
  | error e =>
    rw [hp] at h
    cases h
  | ok r =>
    rw [hp] at h
    simp only at h
    obtain ⟨h1, h2⟩ := C47_columns reg freqReduce decide (beat p.cfg.fs) r
    cases hr : reg r.time r.mag with
    | error e =>
      rw [h1 e hr] at h
      cases h
    | ok kq =>
      obtain ⟨h3, h4⟩ := h2 kq.1 kq.2 hr
      cases hb : beat p.cfg.fs r with
      | error e =>
        rw [h3 e hb] at h
        cases h
      | ok o =>
        obtain ⟨params, -, e2, e3⟩ := h4 o hb
        rw [e3] at h
        cases h
        split
        · simp
        · simp [e2]

/-- C80.  What a fit of the SAMPLE model with beats gives, for every schedule of the workers: the
tracks of the sinusoidal model, and four rows with the finite columns of every track (see
`C47_columns`), in the order of the tracks. -/
theorem C80_fit (reg : List ℝ → List (Option ℝ) → Except PyErr (ℝ × ℝ))
    (freqReduce : List (Option ℝ) → Option ℝ) (decide : Decide)
    (beat : ℝ → PreTrack ℝ → Except PyErr (Octet ℝ))
    (spec : List ℝ → List ℝ × List ℝ) (sort : List (Peak ℝ) → List Nat)
    (poolGiven : Bool) (nJobs : Option Int) (evs : List Training.Ev) (m : Sms.Model ℝ) (x : List ℝ)
    (m' : Sms.Model ℝ) (rows : List (List Cell))
    (h : fitBeatsDrop reg freqReduce decide beat spec sort poolGiven nJobs evs m x =
      some (.ok (m', rows))) :
    m.fit spec sort x Sms.Kwargs.none = .ok m' ∧
      ∃ cols : List (List (List Cell)),
        m'.tracks.map (beatTrackParams reg freqReduce decide beat m'.params x.length) =
          cols.map Except.ok ∧
        rows.length = 4 ∧ (∀ row ∈ rows, none ∉ row) ∧
        ∀ (r : Nat) (row : List Cell), rows[r]? = some row →
          row.map some = (cols.flatten.filter fun c => c.all Option.isSome).map fun c => c[r]? := by
  unfold fitBeatsDrop fitWith at h
  split at h
  · cases h
  rename_i hj
  split at h
  · cases h
  split at h
  · cases h
  rename_i m'' hm
  split at h
  · cases h
  · cases h
  rename_i cols hc
  obtain ⟨-, ho⟩ := (Training.C56_context _ _ _ _ _ _ hc).1 ((Training.poolOk_iff _ _).1 (by simpa using hj))
  have hlen : ∀ c ∈ cols.flatten, c.length = 4 := by
    intro c hcm
    obtain ⟨l, hl, hcl⟩ := List.mem_flatten.mp hcm
    have h1 : Except.ok l ∈ cols.map (Except.ok (ε := PyErr)) := List.mem_map_of_mem hl
    rw [← show m''.tracks.map _ = _ from ho] at h1
    obtain ⟨tr, -, htr⟩ := List.mem_map.mp h1
    exact beatTrackParams_length reg freqReduce decide beat _ _ tr l htr c hcl
  obtain ⟨rows', r1, r2, r3, r4⟩ := C22_finite_columns 4 (by norm_num) cols.flatten hlen
  rw [r1] at h
  simp only [Option.some.injEq, Except.ok.injEq, Prod.mk.injEq] at h
  obtain ⟨rfl, rfl⟩ := h
  exact ⟨hm, cols, ho, r2, r3, r4⟩

/-- C80.  The result does not depend on the pool or on its schedule, if there is a pool or one can be made. -/
theorem C80_schedule (reg : List ℝ → List (Option ℝ) → Except PyErr (ℝ × ℝ))
    (freqReduce : List (Option ℝ) → Option ℝ) (decide : Decide)
    (beat : ℝ → PreTrack ℝ → Except PyErr (Octet ℝ))
    (spec : List ℝ → List ℝ × List ℝ) (sort : List (Peak ℝ) → List Nat)
    (poolGiven : Bool) (nJobs : Option Int) (evs : List Training.Ev) (m : Sms.Model ℝ) (x : List ℝ)
    (hj : poolGiven = true ∨ ∀ n, nJobs = some n → 0 ≤ n)
    (r : Except PyErr (Sms.Model ℝ × List (List Cell)))
    (h : fitBeatsDrop reg freqReduce decide beat spec sort poolGiven nJobs evs m x = some r) :
    fitBeatsDrop reg freqReduce decide beat spec sort false (some 0) [] m x = some r := by
  unfold fitBeatsDrop fitWith at h ⊢
  rw [show Training.poolOk false (some 0) = true from rfl]
  rw [(Training.poolOk_iff _ _).2 hj] at h
  simp only [Bool.not_true, Bool.false_eq_true, if_false] at h ⊢
  split
  · rename_i e he
    rw [he] at h
    exact h
  rename_i fr hfr
  rw [hfr] at h
  simp only at h
  split
  · rename_i e he
    rw [he] at h
    exact h
  rename_i m'' hm
  rw [hm] at h
  simp only at h
  cases hc : Training.contextMap poolGiven nJobs
      (beatTrackParams reg freqReduce decide beat m''.params x.length) m''.tracks evs with
  | none =>
    rw [hc] at h
    cases h
  | some res =>
    rw [((Training.C56_context _ _ _ _ _ _ hc).1 hj).1]
    rw [hc] at h
    exact h

/-- C80.  One track on which the regression or the beat regression fails makes the whole fit fail. -/
theorem C80_one_failure (reg : List ℝ → List (Option ℝ) → Except PyErr (ℝ × ℝ))
    (freqReduce : List (Option ℝ) → Option ℝ) (decide : Decide)
    (beat : ℝ → PreTrack ℝ → Except PyErr (Octet ℝ))
    (spec : List ℝ → List ℝ × List ℝ) (sort : List (Peak ℝ) → List Nat)
    (poolGiven : Bool) (nJobs : Option Int) (evs : List Training.Ev) (m m' : Sms.Model ℝ) (x : List ℝ)
    (hm : m.fit spec sort x Sms.Kwargs.none = .ok m') (tr : Track ℝ) (htr : tr ∈ m'.tracks)
    (e : PyErr) (he : beatTrackParams reg freqReduce decide beat m'.params x.length tr = .error e)
    (r : Except PyErr (Sms.Model ℝ × List (List Cell)))
    (h : fitBeatsDrop reg freqReduce decide beat spec sort poolGiven nJobs evs m x = some r) :
    ∃ e', r = .error e' := by
  cases r with
  | error e' => exact ⟨e', rfl⟩
  | ok v =>
    obtain ⟨m'', rows⟩ := v
    obtain ⟨h1, cols, h2, -⟩ := C80_fit reg freqReduce decide beat spec sort poolGiven nJobs evs m x
      m'' rows h
    rw [hm] at h1
    cases h1
    have h3 := List.mem_map_of_mem
      (f := beatTrackParams reg freqReduce decide beat m'.params x.length) htr
    rw [h2, he] at h3
    obtain ⟨c, -, hc⟩ := List.mem_map.mp h3
    cases hc

/-- C80.  If SAMPLE can be fitted and the beat regression succeeds on every track, then SAMPLE with
beats can be fitted too, and has the same tracks. -/
theorem C80_total (reg : List ℝ → List (Option ℝ) → Except PyErr (ℝ × ℝ))
    (freqReduce : List (Option ℝ) → Option ℝ) (decide : Decide)
    (beat : ℝ → PreTrack ℝ → Except PyErr (Octet ℝ))
    (spec : List ℝ → List ℝ × List ℝ) (sort : List (Peak ℝ) → List Nat) (m m' : Sms.Model ℝ)
    (x : List ℝ) (rows : List (List Cell))
    (h : Sample.fit spec sort reg freqReduce false (some 0) [] m x = some (.ok (m', rows)))
    (hb : ∀ t, ∃ o, beat m'.params.cfg.fs t = .ok o) :
    ∃ rows', fitBeatsDrop reg freqReduce decide beat spec sort false (some 0) [] m x =
      some (.ok (m', rows')) := by
  unfold Sample.fit at h
  unfold fitBeatsDrop fitWith
  rw [show Training.poolOk false (some 0) = true from rfl] at h ⊢
  simp only [Bool.not_true, Bool.false_eq_true, if_false] at h ⊢
  split at h
  · cases h
  rename_i fr hfr
  split at h
  · cases h
  rename_i m'' hm
  split at h
  · cases h
  · cases h
  rename_i cols hc
  have hmm : m'' = m' := by
    split at h
    · cases h
    · simp only [Option.some.injEq, Except.ok.injEq, Prod.mk.injEq] at h
      exact h.1
  subst hmm
  obtain ⟨-, ho⟩ := (Training.C56_context _ _ _ _ _ _ hc).1 (by simp)
  have hok : ∀ tr ∈ m''.tracks, ∃ c,
      beatTrackParams reg freqReduce decide beat m''.params x.length tr = .ok c := by
    intro tr htr
    have h1 := List.mem_map_of_mem (f := trackParams reg freqReduce m''.params x.length) htr
    rw [show m''.tracks.map _ = _ from ho] at h1
    obtain ⟨c, -, hc⟩ := List.mem_map.mp h1
    unfold trackParams at hc
    unfold beatTrackParams
    cases hp : preprocessTrack (analysis m''.params) x.length tr with
    | error e =>
      rw [hp] at hc
      cases hc
    | ok r =>
      rw [hp] at hc
      simp only at hc ⊢
      cases hr : reg r.time r.mag with
      | error e => simp [fitTrack, hr] at hc
      | ok kq =>
        obtain ⟨o, ho⟩ := hb r
        obtain ⟨params, -, -, e⟩ := ((C47_columns reg freqReduce decide (beat m''.params.cfg.fs) r).2
          kq.1 kq.2 hr).2 o ho
        exact ⟨_, e⟩
  choose! g hg using hok
  have hmap := starmapList_map _ g m''.tracks hg
  have hctx : Training.contextMap false (some 0)
      (beatTrackParams reg freqReduce decide beat m''.params x.length) m''.tracks [] =
        some (.ok (m''.tracks.map g)) := by
    simp [Training.contextMap, Training.contextStarmap, Training.poolOk, hmap]
  have hlen : ∀ c ∈ (m''.tracks.map g).flatten, c.length = 4 := by
    intro c hcm
    obtain ⟨l, hl, hcl⟩ := List.mem_flatten.mp hcm
    obtain ⟨tr, htr, rfl⟩ := List.mem_map.mp hl
    exact beatTrackParams_length reg freqReduce decide beat _ _ tr _ (hg tr htr) c hcl
  obtain ⟨rows', r1, -⟩ := C22_finite_columns 4 (by norm_num) _ hlen
  rw [hfr]
  simp only
  rw [hm]
  simp only
  rw [hctx]
  simp only
  rw [r1]
  exact ⟨rows', rfl⟩

theorem allSome_map (l : List (Option ℝ)) (v : List ℝ) (h : allSome l = some v) : l = v.map some := by
  induction l generalizing v with
  | nil =>
    cases h
    rfl
  | cons a l ih =>
    cases a with
    | none => cases h
    | some a =>
      simp only [allSome, Option.map_eq_some_iff] at h
      obtain ⟨w, hw, rfl⟩ := h
      rw [ih w hw]
      rfl

/-- C80.  NaN among the frequencies or magnitudes of a track is a `ValueError` of the default beat regression. -/
theorem C80_nan (linreg : List ℝ → List ℝ → Except PyErr (ℝ × ℝ))
    (peaks : List ℝ → List ℝ → List ℝ) (phat : List ℝ → List ℝ → ℝ → ℝ) (eps : ℝ)
    (solve : Octet ℝ → Octet ℝ → Octet ℝ → Except PyErr (Octet ℝ)) (dis : Bool)
    (lt : Cell → Cell → Bool) (L : Loss) (fs : ℝ) (r : PreTrack ℝ) (h : none ∈ r.mag ∨ none ∈ r.freq) :
    defaultBeat linreg peaks phat eps solve dis lt L fs r = .error .valueError := by
  have key : ∀ l : List (Option ℝ), none ∈ l → allSome l = none := by
    intro l hl
    cases he : allSome l with
    | none => rfl
    | some v =>
      rw [allSome_map l v he] at hl
      simp at hl
  unfold defaultBeat
  rcases h with h | h
  · rw [key _ h]
  · rw [key _ h]
    cases allSome r.mag <;> rfl

/-- A track with a gap in its frequencies. -/
example : none ∈ ([some 100, none, some 101] : List (Option ℝ)) := by simp

/-- C80 (finding).  With the default beat regression a track whose frequency is constant, whatever
the optimiser and the decision function, cannot be fitted. -/
theorem C80_constant_frequency (reg : List ℝ → List (Option ℝ) → Except PyErr (ℝ × ℝ))
    (freqReduce : List (Option ℝ) → Option ℝ) (decide : Decide)
    (linreg : List ℝ → List ℝ → Except PyErr (ℝ × ℝ))
    (peaks : List ℝ → List ℝ → List ℝ) (phat : List ℝ → List ℝ → ℝ → ℝ) (eps : ℝ) (heps : 0 < eps)
    (solve : Octet ℝ → Octet ℝ → Octet ℝ → Except PyErr (Octet ℝ)) (dis : Bool)
    (lt : Cell → Cell → Bool) (L : Loss) (p : Sms.Params ℝ) (xsize : Nat) (t : Track ℝ)
    (r : PreTrack ℝ) (hr : preprocessTrack (analysis p) xsize t = .ok r)
    (h1 : r.freq.length = r.time.length) (h2 : r.mag.length = r.time.length) (c : ℝ)
    (hc : ∀ v ∈ r.freq, v = some c) :
    ∃ e, beatTrackParams reg freqReduce decide
      (defaultBeat linreg peaks phat eps solve dis lt L) p xsize t = .error e := by
  unfold beatTrackParams
  rw [hr]
  simp only
  obtain ⟨g1, g2⟩ := C47_columns reg freqReduce decide
    (defaultBeat linreg peaks phat eps solve dis lt L p.cfg.fs) r
  cases hg : reg r.time r.mag with
  | error e => exact ⟨e, g1 e hg⟩
  | ok kq =>
    have hb : ∃ e, defaultBeat linreg peaks phat eps solve dis lt L p.cfg.fs r = .error e := by
      unfold defaultBeat
      cases ha : allSome r.mag with
      | none => exact ⟨_, rfl⟩
      | some a =>
        cases hf : allSome r.freq with
        | none => exact ⟨_, rfl⟩
        | some f =>
          have e1 := allSome_map _ _ ha
          have e2 := allSome_map _ _ hf
          simp only
          have : ∃ e, fitBeat (defaultInit linreg peaks phat p.cfg.fs) (defaultBounds eps) solve
              r.time a f = .error e := by
            cases hl : linreg r.time a with
            | error e => exact ⟨e, by simp [fitBeat, defaultInit, hl]⟩
            | ok kq =>
              refine ⟨_, C79_unfeasible linreg peaks phat p.cfg.fs eps heps solve r.time a f
                (by rw [← h2, e1]; simp) (by rw [← h1, e2]; simp) kq.1 kq.2 hl (Or.inl ⟨c, ?_⟩)⟩
              intro v hv
              have := hc (some v) (by rw [e2]; exact List.mem_map_of_mem hv)
              exact Option.some.inj this
          obtain ⟨e, he⟩ := this
          exact ⟨e, by rw [fitDual, he]⟩
    obtain ⟨e, he⟩ := hb
    exact ⟨e, (g2 kq.1 kq.2 hg).1 e he⟩

/-- A track with a constant frequency. -/
example : ∃ r : PreTrack ℝ, preprocessTrack (analysis exParams) 100
    ⟨0, [some 100, some 100], [some (-10), some (-20)], [some 0, some 0]⟩ = .ok r ∧
    r.freq.length = r.time.length ∧ r.mag.length = r.time.length ∧ ∀ v ∈ r.freq, v = some 100 := by
  refine ⟨_, rfl, rfl, rfl, ?_⟩
  intro v hv
  simpa using hv

/-- C80.  Without the argument `phases` the resynthesis is the sum of the best modes with the learned
phases. -/
theorem C80_predict (argsort : List ℝ → List Nat) (draw : Nat → List ℝ)
    (hsort : ∀ keys, IsArgsortAsc keys (argsort keys)) (key : Feature) (reverse : Bool)
    (ms : List (Mode ℝ)) (hd : ∀ m ∈ ms, m.d ≠ 0) (mx nModes : Option Int) (n : Nat)
    (hn : nModes = some (n : Int) ∨ nModes = none ∧ mx = some (n : Int) ∨
      nModes = none ∧ mx = none ∧ n = ms.length) (x : List ℝ) :
    ∃ best rest : List (Mode ℝ), (best ++ rest).Perm ms ∧ best.length = min n ms.length ∧
      Best key reverse best rest ∧
      predictBeats argsort draw (Fitted.mk (ms.map (·.f)) (ms.map (·.d)) (ms.map (·.a)) mx)
          (ms.map (·.φ)) x nModes key.name reverse .absent false =
        .ok (.real (x.map fun t => (best.map fun m => m.wave t).sum)) ∧
      -- other phases can be given, also in the SAMPLE model
      ∀ l, predictBeats argsort draw (Fitted.mk (ms.map (·.f)) (ms.map (·.d)) (ms.map (·.a)) mx)
          (ms.map (·.φ)) x nModes key.name reverse (.arr l) false =
        predictWith argsort draw (Fitted.mk (ms.map (·.f)) (ms.map (·.d)) (ms.map (·.a)) mx)
          x nModes key.name reverse (.arr l) false := by
  obtain ⟨best, rest, h1, h2, h3, h4, -⟩ := C24_predict_audio argsort draw hsort key reverse ms hd mx
    nModes n hn x
  exact ⟨best, rest, h1, h2, h3, h4, fun _ => rfl⟩

/-- C80 (finding).  The documented default `phases=None` of `additive_synth` cannot be given to
`predict`: it is a `TypeError`, with and without beats. -/
theorem C80_none_phases (argsort : List ℝ → List Nat) (draw : Nat → List ℝ) (s : Fitted ℝ)
    (ph x : List ℝ) (nModes : Option Int) (key : Feature) (reverse analytic : Bool) :
    predictBeats argsort draw s ph x nModes key.name reverse .pyNone analytic = .error .typeError ∧
      predictWith argsort draw s x nModes key.name reverse .pyNone analytic = .error .typeError := by
  have h : ∃ o, s.selectModes argsort nModes key.name reverse = .ok o := by
    cases key <;>
      simp [Fitted.selectModes, Fitted.modeArgsort, Fitted.feature, Feature.name]
  obtain ⟨o, ho⟩ := h
  simp [predictBeats, predictWith, ho]

end Verif.Beat
