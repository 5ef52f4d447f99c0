import Mathlib.Data.List.Lookmap
import Mathlib.Algebra.Order.Ring.Rat
import Verif.Out.PlayerModel
import Verif.Out.PlotsProps

/-!
# C171: headings and players of a notebook
-/

set_option autoImplicit false
set_option linter.unusedSectionVars false
set_option linter.unusedSimpArgs false

namespace Verif.Plots

variable {K : Type*} [Field K] [LinearOrder K] [IsStrictOrderedRing K]

theorem lookup_append {V : Type*} (l m : List (String × V)) (k : String) :
    (l ++ m).lookup k = (l.lookup k).or (m.lookup k) := by
  induction l with
  | nil => simp
  | cons p l ih =>
    obtain ⟨a, v⟩ := p
    simp only [List.cons_append, List.lookup_cons]
    cases k == a <;> simp [ih]

/-- C171.  The options are the given ones; only `normalize` has a default, which is false. -/
theorem C171_options (given : Option (List (String × AudioOpt K))) (k : String) :
    (k ≠ "normalize" → (playerOpts given).lookup k = (given.getD []).lookup k) ∧
    (playerOpts given).lookup "normalize" = some (((given.getD []).lookup "normalize").getD (.flag false)) := by
  unfold playerOpts
  simp only
  constructor
  · intro hk
    split
    · rfl
    · rw [lookup_append]
      have : (k == "normalize") = false := by simpa using hk
      simp [List.lookup_cons, this]
  · split
    · rename_i h
      obtain ⟨v, hv⟩ := Option.isSome_iff_exists.mp h
      rw [hv]; rfl
    · rename_i h
      have h' : (given.getD []).lookup "normalize" = Option.none := by
        rcases hl : (given.getD []).lookup "normalize" with _ | v
        · rfl
        · rw [hl] at h; simp at h
      rw [lookup_append, h']
      simp

theorem audio_ok (opts : List (String × AudioOpt K)) (n : AudioOpt K) (hn : opts.lookup "normalize" = some n)
    (r : AudioOpt K) (hr : opts.lookup "rate" = some r) (hr' : r ≠ .none) (y : List K) (hy : y ≠ []) :
    audioPart opts (some y) = .ok (some (.player (played n.truth y) opts)) := by
  have hpl : played n.truth y ≠ [] := by
    unfold played
    split
    · exact hy
    · simpa using hy
  unfold audioPart audioWidget
  simp only [hn, Option.getD_some, hr]
  cases r with
  | none => exact absurd rfl hr'
  | _ =>
    simp only [hpl, if_false]
    by_cases ht : n.truth = true
    · simp [ht, Except.map]
    · have hf : n.truth = false := by simpa using ht
      have hall : (played false y).all (fun v => decide (-1 ≤ v ∧ v ≤ 1)) = true := by
        rw [List.all_eq_true]
        intro v hv
        exact decide_eq_true ((C108_played y).2.2.1 v hv)
      rw [hf]
      simp only [Bool.false_eq_true, if_false]
      rw [if_pos hall]
      rfl

/-- C171.  With a rate and samples, of whatever size, the call displays the heading and the player with one call and
raises nothing. -/
theorem C171_shows (given : List (String × AudioOpt K)) (r : AudioOpt K) (hr : given.lookup "rate" = some r)
    (hr' : r ≠ .none) (i : Nat) (k : String) (hk : k ≠ "") (y : List K) (hy : y ≠ []) :
    ∃ s, showCall (playerOpts (some given)) (some i) (some k) (some y) =
        .ok [[.heading ("<h1>" ++ (toString (i + 1) ++ " - " ++ k) ++ "</h1>"), .player s (playerOpts (some given))]] ∧
      s.length = y.length ∧
      (((given.lookup "normalize").getD (.flag false)).truth = true → s = y) ∧
      (((given.lookup "normalize").getD (.flag false)).truth = false →
        s = y.map fun v => if v < -1 then -1 else if 1 < v then 1 else v) := by
  have hn := (C171_options (some given) "rate").2
  have hrate : (playerOpts (some given)).lookup "rate" = some r := by
    rw [(C171_options (some given) "rate").1 (by decide)]
    exact hr
  have ha := audio_ok _ _ hn r hrate hr' y hy
  simp only [Option.getD_some] at ha
  refine ⟨played ((given.lookup "normalize").getD (.flag false)).truth y, ?_, ?_, ?_, ?_⟩
  · unfold showCall
    rw [ha]
    simp only [labelWidget, labelText, hk, if_false, Option.map_some]
    rfl
  · unfold played; split <;> simp
  · intro h
    rw [h]; rfl
  · intro h
    rw [h]
    simp only [played, Bool.false_eq_true, if_false]
    refine List.map_congr_left fun v _ => ?_
    have h11 : (-1 : K) ≤ 1 := by linarith [zero_lt_one (α := K)]
    split
    · rename_i hv
      rw [max_eq_right hv.le, min_eq_left h11]
    · rename_i hv
      rw [max_eq_left (not_lt.mp hv)]
      split
      · rename_i hv2
        exact min_eq_right hv2.le
      · rename_i hv2
        exact min_eq_left (not_lt.mp hv2)

example : ([("rate", .num 44100)] : List (String × AudioOpt ℚ)).lookup "rate" = some (.num 44100) := rfl

/-- C171.  Without a rate, as in `LabelAndPlayForeach()`, no samples can be played: every call with samples is a
`ValueError` and displays nothing, not even the heading. -/
theorem C171_rate (given : Option (List (String × AudioOpt K)))
    (hr : (given.getD []).lookup "rate" = Option.none ∨ (given.getD []).lookup "rate" = some .none) (i : Option Nat)
    (k : Option String) (y : List K) : showCall (playerOpts given) i k (some y) = .error .valueError := by
  have h := (C171_options given "rate").1 (by decide)
  unfold showCall audioPart audioWidget
  rcases hr with hr | hr <;> rw [hr] at h <;> simp [h, Except.map]

/-- C171.  No samples at all are a `ValueError` too. -/
theorem C171_empty (given : Option (List (String × AudioOpt K))) (i : Option Nat) (k : Option String) :
    showCall (playerOpts given) i k (some []) = .error .valueError := by
  have e : ∀ b, played b ([] : List K) = [] := by intro b; cases b <;> rfl
  unfold showCall audioPart audioWidget
  simp only [e]
  rcases hl : (playerOpts given).lookup "rate" with _ | r
  · rfl
  · cases r <;> simp [Except.map]

/-- C171.  Without samples there is the heading only; without anything nothing is displayed. -/
theorem C171_heading (opts : List (String × AudioOpt K)) :
    showCall opts Option.none Option.none Option.none = .ok [] ∧
    (∀ (i : Option Nat) (k : Option String) (s : String), labelText i k = some s →
      showCall opts i k Option.none = .ok [[.heading ("<h1>" ++ s ++ "</h1>")]]) := by
  refine ⟨rfl, ?_⟩
  intro i k s h
  unfold showCall audioPart
  simp [labelWidget, h]

/-- C171.  In `resynthesis`, with a rate and signals that are not empty, there is one display for each signal in their
order, numbered from one; without a rate the first signal ends the plot. -/
theorem C171_resynthesis (given : List (String × AudioOpt K)) (original : Option String) (x times : List K)
    (models : List (String × (List K → List K)))
    (hne : ∀ w ∈ resynthWavs original x times models, w.1 ≠ "" ∧ w.2 ≠ []) :
    (∀ r, given.lookup "rate" = some r → r ≠ .none →
      (showAll (playerOpts (some given)) (resynthCalls original x times models)).2 = Option.none ∧
      (showAll (playerOpts (some given)) (resynthCalls original x times models)).1.length =
        (resynthWavs original x times models).length ∧
      ∀ (j : Nat) (w : String × List K), (resynthWavs original x times models)[j]? = some w →
        ∃ s, (showAll (playerOpts (some given)) (resynthCalls original x times models)).1[j]? =
          some [.heading ("<h1>" ++ (toString (j + 1) ++ " - " ++ w.1) ++ "</h1>"),
            .player s (playerOpts (some given))] ∧ s.length = w.2.length) ∧
    (given.lookup "rate" = Option.none → resynthWavs original x times models ≠ [] →
      showAll (playerOpts (some given)) (resynthCalls original x times models) = ([], some .valueError)) := by
  unfold resynthCalls
  generalize resynthWavs original x times models = ws at hne
  constructor
  · intro r hr hr'
    have key : ∀ n, (showAll (playerOpts (some given)) ((ws.zipIdx n).map fun w => (w.2 + 1, w.2, w.1.1, w.1.2))).2 =
          Option.none ∧
        (showAll (playerOpts (some given)) ((ws.zipIdx n).map fun w => (w.2 + 1, w.2, w.1.1, w.1.2))).1.length =
          ws.length ∧
        ∀ (j : Nat) (w : String × List K), ws[j]? = some w →
          ∃ s, (showAll (playerOpts (some given)) ((ws.zipIdx n).map fun w => (w.2 + 1, w.2, w.1.1, w.1.2))).1[j]? =
            some [.heading ("<h1>" ++ (toString (n + j + 1) ++ " - " ++ w.1) ++ "</h1>"),
              .player s (playerOpts (some given))] ∧ s.length = w.2.length := by
      induction ws with
      | nil => intro n; simp [showAll]
      | cons w ws ih =>
        intro n
        obtain ⟨s, h1, h2, -⟩ := C171_shows given r hr hr' n w.1 (hne w (by simp)).1 w.2 (hne w (by simp)).2
        obtain ⟨i1, i2, i3⟩ := ih (fun v hv => hne v (by simp [hv])) (n + 1)
        simp only [List.zipIdx_cons, List.map_cons, showAll, h1]
        refine ⟨i1, by simp [i2], ?_⟩
        intro j v hv
        cases j with
        | zero =>
          simp only [List.getElem?_cons_zero, Option.some.injEq] at hv
          subst hv
          exact ⟨s, by simp, h2⟩
        | succ j =>
          obtain ⟨s', e1, e2⟩ := i3 j v (by simpa using hv)
          refine ⟨s', ?_, e2⟩
          rw [show n + (j + 1) = n + 1 + j by omega]
          simpa using e1
    have := key 0
    simpa using this
  · intro hr hw
    cases ws with
    | nil => exact absurd rfl hw
    | cons w ws =>
      simp only [List.zipIdx_cons, List.map_cons, showAll]
      rw [C171_rate (some given) (Or.inl hr)]

/-- An original and one model. -/
example : ∀ w ∈ resynthWavs (some "Original") ([1, 2] : List ℚ) [0, 1] [("Model", fun t => t)], w.1 ≠ "" ∧ w.2 ≠ [] := by
  simp [resynthWavs]

end Verif.Plots
