import Verif.Sample.DelaySpec
import Verif.Sample.RescaleLemmas
import Verif.Sms.DelayLemmas

/-!
# Lemmas for C135: the modes
-/

set_option autoImplicit false
set_option linter.unusedSectionVars false
set_option linter.unusedSimpArgs false

namespace Verif.Sample

open Verif.Tracker Verif.Dsp

/-! ## The parameter matrix -/

/-- One column of the parameter matrix, delayed. -/
noncomputable def colDelay (T : ℝ) (col : List (Option ℝ)) : List (Option ℝ) :=
  match col with
  | [f, d, a] => [f, d, laterAmp T d a]
  | col => col

theorem colDelay_length (T : ℝ) (col : List (Option ℝ)) : (colDelay T col).length = col.length := by
  unfold colDelay
  split <;> rfl

/-- A column as a list. -/
def ofTriple (t : Option ℝ × Option ℝ × Option ℝ) : List (Option ℝ) := [t.1, t.2.1, t.2.2]

theorem columns_triples : ∀ params : List (List (Option ℝ)), (∀ p ∈ params, p.length = 3) →
    ∃ ts : List (Option ℝ × Option ℝ × Option ℝ), params = ts.map ofTriple := by
  intro params
  induction params with
  | nil => intro _; exact ⟨[], rfl⟩
  | cons p ps ih =>
    intro h
    obtain ⟨ts, hts⟩ := ih (fun q hq => h q (by simp [hq]))
    have h3 := h p (by simp)
    match p, h3 with
    | [f, d, a], _ => exact ⟨(f, d, a) :: ts, by rw [hts]; rfl⟩

/-- All entries of a column are finite. -/
def finiteCol (t : Option ℝ × Option ℝ × Option ℝ) : Bool := t.1.isSome && (t.2.1.isSome && t.2.2.isSome)

theorem cleanParams_triples (ts : List (Option ℝ × Option ℝ × Option ℝ)) :
    cleanParams 3 (ts.map ofTriple) = .ok [(ts.filter finiteCol).map (·.1), (ts.filter finiteCol).map (·.2.1),
      (ts.filter finiteCol).map (·.2.2)] := by
  cases ts with
  | nil => rfl
  | cons t ts =>
    rw [List.map_cons]
    simp only [cleanParams]
    rw [← List.map_cons]
    set l := t :: ts
    have hs : stack 3 (l.map ofTriple) = .ok [l.map (·.1), l.map (·.2.1), l.map (·.2.2)] := by
      unfold stack
      rw [if_pos (by simp [ofTriple])]
      congr 1
      have hr : List.range 3 = [0, 1, 2] := rfl
      rw [hr]
      simp only [List.map_cons, List.map_nil, List.filterMap_map, Function.comp_def]
      congr 1
      · exact congrFun (List.filterMap_eq_map (f := fun x : Option ℝ × Option ℝ × Option ℝ => x.1)) l
      · congr 1
        · exact congrFun (List.filterMap_eq_map (f := fun x : Option ℝ × Option ℝ × Option ℝ => x.2.1)) l
        · congr 1
          exact congrFun (List.filterMap_eq_map (f := fun x : Option ℝ × Option ℝ × Option ℝ => x.2.2)) l
    rw [hs]
    simp only
    have hv : validParams [l.map (·.1), l.map (·.2.1), l.map (·.2.2)] = l.map finiteCol := by
      unfold validParams
      simp only [ncols, List.length_map]
      apply List.ext_getElem?
      intro j
      rw [List.getElem?_map, List.getElem?_map]
      by_cases hj : j < l.length
      · rw [List.getElem?_range hj]
        simp only [Option.map_some, List.all_cons, List.all_nil, List.getElem?_map, List.getElem?_eq_getElem hj,
          Bool.and_true, finiteCol]
        rcases l[j] with ⟨_ | _, _ | _, _ | _⟩ <;> rfl
      · rw [List.getElem?_eq_none (by simpa using hj), List.getElem?_eq_none (by simpa using hj)]
        rfl
    rw [hv]
    simp only [maskColumns, mask_map]

theorem cleanParams_delay (T : ℝ) (params : List (List (Option ℝ))) :
    cleanParams 3 (params.map (colDelay T)) = (cleanParams 3 params).map (delayModes T) := by
  by_cases h : ∀ p ∈ params, p.length = 3
  · obtain ⟨ts, rfl⟩ := columns_triples params h
    have e : (ts.map ofTriple).map (colDelay T) =
        (ts.map fun t => (t.1, t.2.1, laterAmp T t.2.1 t.2.2)).map ofTriple := by
      rw [List.map_map, List.map_map]; rfl
    rw [e, cleanParams_triples, cleanParams_triples, List.filter_map]
    have hf : (finiteCol ∘ fun t : Option ℝ × Option ℝ × Option ℝ => (t.1, t.2.1, laterAmp T t.2.1 t.2.2)) =
        finiteCol := by
      funext t
      obtain ⟨_ | _, _ | _, _ | _⟩ := t <;> rfl
    rw [hf]
    simp only [Except.map, delayModes, List.map_map, Function.comp_def, List.zipWith_map, List.zipWith_self]
  · have hne : params ≠ [] := by
      rintro rfl
      exact h (by simp)
    obtain ⟨p, ps, rfl⟩ := List.exists_cons_of_ne_nil hne
    have h1 : stack 3 (p :: ps) = .error .valueError := by
      unfold stack
      rw [if_neg]
      simpa using h
    have h2 : stack 3 ((p :: ps).map (colDelay T)) = .error .valueError := by
      unfold stack
      rw [if_neg]
      rw [List.all_map]
      have : ((fun p => decide (p.length = 3)) ∘ colDelay T) =
          fun p : List (Option ℝ) => decide (p.length = 3) := by
        funext q; simp [colDelay_length]
      rw [this]
      simpa using h
    rw [List.map_cons] at h2 ⊢
    simp only [cleanParams, h1, h2]
    rfl

/-! ## One track -/

theorem frameTime_before (a : Analysis ℝ) (hr : a.reverse = false) (n n' start d i : Nat) :
    frameTime a n' (start + d) i = frameTime a n start i + (d : ℝ) * a.h / a.fs := by
  unfold frameTime
  rw [hr]
  have e : ((i : ℝ) + ((start + d : Nat) : ℝ)) / (a.fs / a.h) =
      ((i : ℝ) + (start : ℝ)) / (a.fs / a.h) + (d : ℝ) * a.h / a.fs := by
    push_cast
    rw [← add_assoc, add_div _ (d : ℝ), div_div_eq_mul_div (d : ℝ)]
  simp only [e, Bool.false_eq_true, if_false]
  cases a.padded <;> simp <;> ring

theorem frameTime_after (a : Analysis ℝ) (hr : a.reverse = true) (hop : Nat) (hh : a.h = (hop : ℝ))
    (n start d i : Nat) : frameTime a (n + d * hop) (start + d) i = frameTime a n start i := by
  unfold frameTime
  rw [hr]
  have e : ((i : ℝ) + ((start + d : Nat) : ℝ)) / (a.fs / a.h) =
      ((i : ℝ) + (start : ℝ)) / (a.fs / a.h) + (d : ℝ) * a.h / a.fs := by
    push_cast
    rw [← add_assoc, add_div _ (d : ℝ), div_div_eq_mul_div (d : ℝ)]
  have e2 : ((n + d * hop : Nat) : ℝ) / a.fs = (n : ℝ) / a.fs + (d : ℝ) * a.h / a.fs := by
    push_cast
    rw [hh, add_div]
  simp only [e, e2, if_true]
  cases a.padded <;> simp <;> ring

theorem preprocessTrack_delay (a : Analysis ℝ) (n n' d : Nat) (φ : ℝ → ℝ) (t : Track ℝ)
    (h : ∀ i, frameTime a n' (t.start + d) i = φ (frameTime a n t.start i)) :
    preprocessTrack a n' (t.delay d) = (preprocessTrack a n t).map (fun r => { r with time := r.time.map φ }) := by
  have e1 : (t.delay d).mag = t.mag := rfl
  have e2 : (t.delay d).freq = t.freq := rfl
  have e3 : (t.delay d).phase = t.phase := rfl
  have e4 : (t.delay d).start = t.start + d := rfl
  unfold preprocessTrack
  simp only [e1, e2, e3, e4]
  cases mask (List.range t.mag.length) (t.mag.map Option.isSome) with
  | error e => rfl
  | ok idx =>
    simp only
    cases filterItem t.freq (t.mag.map Option.isSome) with
    | error e => rfl
    | ok fr =>
      cases filterItem t.mag (t.mag.map Option.isSome) with
      | error e => rfl
      | ok mg =>
        cases filterItem t.phase (t.mag.map Option.isSome) with
        | error e => rfl
        | ok ph =>
          simp only [Except.map, Except.ok.injEq, PreTrack.mk.injEq, List.map_map, true_and, and_true]
          apply List.map_congr_left
          intro i _
          exact h i

theorem laterAmp_line (T k q : ℝ) :
    some (db2a (q - k * T)) = laterAmp T (slopeToDecay k) (some (db2a q)) := by
  unfold slopeToDecay
  by_cases hk : k = 0
  · simp [hk, laterAmp]
  · rw [if_neg hk]
    simp only [laterAmp, Option.some.injEq]
    unfold db2a d2kConst
    have h10 : (0 : ℝ) < Real.log 10 := Real.log_pos (by norm_num)
    rw [Real.rpow_def_of_pos (by norm_num), Real.rpow_def_of_pos (by norm_num), ← Real.exp_add]
    congr 1
    unfold Real.logb
    rw [Real.log_exp]
    field_simp
    ring

theorem trackParams_before (d : Nat) (reg : List ℝ → List (Option ℝ) → Except PyErr (ℝ × ℝ))
    (red : List (Option ℝ) → Option ℝ) (p p' : Sms.Params ℝ) (ha : analysis p' = analysis p)
    (hr : p.reverse = false) (hreg : FollowsDelay ((d : ℝ) * (p.hop : ℝ) / p.tracker.fs) reg) (n n' : Nat)
    (t : Track ℝ) :
    trackParams reg red p' n' (t.delay d) =
      (trackParams reg red p n t).map (List.map (colDelay ((d : ℝ) * (p.hop : ℝ) / p.tracker.fs))) := by
  set T := (d : ℝ) * (p.hop : ℝ) / p.tracker.fs with hT
  unfold trackParams
  rw [ha, preprocessTrack_delay (analysis p) n n' d (· + T) t
    (fun i => frameTime_before (analysis p) hr n n' t.start d i)]
  cases preprocessTrack (analysis p) n t with
  | error e => rfl
  | ok r =>
    simp only [Except.map, fitTrack, hreg r.time r.mag]
    cases reg r.time r.mag with
    | error e => rfl
    | ok kq =>
      obtain ⟨k, q⟩ := kq
      simp only [Except.map, laterAmp_line]
      rfl

theorem trackParams_after (d : Nat) (reg : List ℝ → List (Option ℝ) → Except PyErr (ℝ × ℝ))
    (red : List (Option ℝ) → Option ℝ) (p : Sms.Params ℝ) (hr : p.reverse = true) (n : Nat) (t : Track ℝ) :
    trackParams reg red p (n + d * p.hop) (t.delay d) = trackParams reg red p n t := by
  unfold trackParams
  rw [preprocessTrack_delay (analysis p) n (n + d * p.hop) d id t
    (fun i => frameTime_after (analysis p) hr p.hop rfl n t.start d i)]
  cases preprocessTrack (analysis p) n t with
  | error e => rfl
  | ok r => simp [Except.map]

/-! ## All tracks -/

theorem modes_before (d : Nat) (reg : List ℝ → List (Option ℝ) → Except PyErr (ℝ × ℝ))
    (red : List (Option ℝ) → Option ℝ) (pool : Bool) (nJobs : Option Int) (evs : List Training.Ev)
    (p p' : Sms.Params ℝ) (ha : analysis p' = analysis p) (hr : p.reverse = false)
    (hreg : FollowsDelay ((d : ℝ) * (p.hop : ℝ) / p.tracker.fs) reg) (n n' : Nat) (ts : List (Track ℝ)) :
    modes reg red pool nJobs evs p' n' (ts.map (Track.delay d)) =
      (modes reg red pool nJobs evs p n ts).map
        (Except.map (delayModes ((d : ℝ) * (p.hop : ℝ) / p.tracker.fs))) := by
  unfold modes
  rw [contextMap_natural (Track.delay d) _ (trackParams reg red p n) (trackParams reg red p' n')
    (trackParams_before d reg red p p' ha hr hreg n n')]
  rcases Training.contextMap pool nJobs (trackParams reg red p n) ts evs with _ | _ | cols
  · rfl
  · rfl
  · simp only [Option.map_some, Except.map]
    rw [← List.map_flatten, cleanParams_delay]
    cases cleanParams 3 cols.flatten <;> rfl

theorem modes_after (d : Nat) (reg : List ℝ → List (Option ℝ) → Except PyErr (ℝ × ℝ))
    (red : List (Option ℝ) → Option ℝ) (pool : Bool) (nJobs : Option Int) (evs : List Training.Ev)
    (p : Sms.Params ℝ) (hr : p.reverse = true) (n : Nat) (ts : List (Track ℝ)) :
    modes reg red pool nJobs evs p (n + d * p.hop) (ts.map (Track.delay d)) =
      modes reg red pool nJobs evs p n ts := by
  have hid : ∀ t, trackParams reg red p (n + d * p.hop) (Track.delay d t) =
      (trackParams reg red p n t).map id := by
    intro t
    rw [trackParams_after d reg red p hr n t]
    cases trackParams reg red p n t <;> rfl
  unfold modes
  rw [contextMap_natural (Track.delay d) id (trackParams reg red p n) _ hid]
  rcases Training.contextMap pool nJobs (trackParams reg red p n) ts evs with _ | _ | cols
  · rfl
  · rfl
  · simp [Except.map]

end Verif.Sample
