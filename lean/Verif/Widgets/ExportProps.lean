import Mathlib.Tactic.Common
import Verif.Widgets.ExportModel

/-!
# C118: what file dialogs remember; C119: exported files
-/

set_option autoImplicit false
set_option linter.unusedSectionVars false
set_option linter.unusedSimpArgs false

namespace Verif.Export

open Verif.Paths

variable {B : Type}

/-- The file that an event chooses to load. -/
def Ev.loaded : Ev B → Option Path
  | .load name => if name = [] then none else some name
  | _ => none

/-- The file that an event chooses to save to. -/
def Ev.target : Ev B → Option Path
  | .wav (some _) name _ => if name = [] then none else some name
  | .json (some _) name _ => if name = [] then none else some name
  | _ => none

/-- The files chosen to be loaded and saved to, in order. -/
def loads (es : List (Ev B)) : List Path := es.filterMap Ev.loaded
def targets (es : List (Ev B)) : List Path := es.filterMap Ev.target

theorem step_file (s : St B) (e : Ev B) : (step s e).1.file = e.loaded.or s.file := by
  cases e with
  | load name => by_cases h : name = [] <;> simp [step, Ev.loaded, h]
  | wav p name f =>
    cases p <;> by_cases h : name = [] <;> simp [step, exportTo, Ev.loaded, h]
  | json p name f =>
    cases p <;> by_cases h : name = [] <;> simp [step, exportTo, Ev.loaded, h]

theorem step_dir (s : St B) (e : Ev B) : (step s e).1.dir = (e.loaded.map dirname).getD s.dir := by
  cases e with
  | load name => by_cases h : name = [] <;> simp [step, Ev.loaded, h]
  | wav p name f =>
    cases p <;> by_cases h : name = [] <;> simp [step, exportTo, Ev.loaded, h]
  | json p name f =>
    cases p <;> by_cases h : name = [] <;> simp [step, exportTo, Ev.loaded, h]

theorem step_dirSave (s : St B) (e : Ev B) :
    (step s e).1.dirSave = (e.target.map dirname).or (s.dirSave.or (e.loaded.map dirname)) := by
  cases e with
  | load name =>
    by_cases h : name = [] <;> cases hd : s.dirSave <;> simp [step, Ev.loaded, Ev.target, h, hd]
  | wav p name f =>
    cases p <;> by_cases h : name = [] <;> cases hd : s.dirSave <;>
      simp [step, exportTo, Ev.loaded, Ev.target, h, hd]
  | json p name f =>
    cases p <;> by_cases h : name = [] <;> cases hd : s.dirSave <;>
      simp [step, exportTo, Ev.loaded, Ev.target, h, hd]

/-- C118.  After every history of loading and exporting: the name that is suggested comes from the file chosen last to
be loaded (also if it could not be read); files to load are looked for in its directory, at first in the home directory;
exports go to the directory of the file saved to last (also if that failed), or else of the file chosen first to be
loaded. -/
theorem C118_history (home : Path) (files : Path → Option (List B)) (es : List (Ev B)) :
    (run (start home files) es).file = (loads es).getLast? ∧
    (run (start home files) es).dir = ((loads es).getLast?.map dirname).getD home ∧
    (run (start home files) es).dirSave =
      ((targets es).getLast?.map dirname).or ((loads es).head?.map dirname) := by
  have gen : ∀ (es : List (Ev B)) (s : St B), (run s es).file = (loads es).getLast?.or s.file ∧
      (run s es).dir = ((loads es).getLast?.map dirname).getD s.dir ∧
      (run s es).dirSave = ((targets es).getLast?.map dirname).or
        (s.dirSave.or ((loads es).head?.map dirname)) := by
    intro es
    induction es with
    | nil => intro s; simp [run, loads, targets]
    | cons e es ih =>
      intro s
      obtain ⟨h1, h2, h3⟩ := ih (step s e).1
      rw [run, h1, h2, h3, step_file, step_dir, step_dirSave]
      have hl : loads (e :: es) = e.loaded.toList ++ loads es := by
        cases h : e.loaded <;> simp [loads, h]
      have ht : targets (e :: es) = e.target.toList ++ targets es := by
        cases h : e.target <;> simp [targets, h]
      rw [hl, ht, List.getLast?_append, List.getLast?_append]
      refine ⟨?_, ?_, ?_⟩
      · cases e.loaded <;> cases hq : (loads es).getLast? <;> simp [hq]
      · cases e.loaded <;> cases hq : (loads es).getLast? <;> simp [hq]
      · cases e.loaded <;> cases e.target <;> cases hq : (targets es).getLast? <;>
          cases hs : s.dirSave <;> simp [hq, hs]
  have := gen es (start home files)
  simpa [start] using this

/-- C118.  What the dialogs of the next callback show after a history. -/
theorem C118_dialogs (home : Path) (files : Path → Option (List B)) (es : List (Ev B)) (pieces : List (List B))
    (name : Path) (fault : Fault) :
    let s := run (start home files) es
    let dir := ((targets es).getLast?.map dirname).or ((loads es).head?.map dirname)
    (step s (.load name)).2 = [.openDialog (((loads es).getLast?.map dirname).getD home)] ∧
    (step s (.wav (some pieces) name fault)).2.head? =
      some (.saveDialog dir (suggestWav (loads es).getLast?)) ∧
    (step s (.json (some pieces) name fault)).2.head? =
      some (.saveDialog dir (suggestJson (loads es).getLast?)) := by
  obtain ⟨h1, h2, h3⟩ := C118_history home files es
  refine ⟨?_, ?_, ?_⟩
  · rw [step]
    split <;> rw [h2]
  · rw [step, h1, exportTo]
    simp only
    split <;> simp [h3]
  · rw [step, h1, exportTo]
    simp only
    split <;> simp [h3]

/-! ## C119 -/

/-- The pieces that an event writes. -/
def Ev.pieces : Ev B → Option (List (List B))
  | .load _ => none
  | .wav p _ _ => p
  | .json p _ _ => p

theorem save_other (files : Path → Option (List B)) (f : Path) (pieces : List (List B)) (fault : Fault) (q : Path)
    (h : q ≠ f) : (save files f pieces fault).1 q = files q := by
  cases fault <;> simp [save, Function.update_of_ne h]

/-- C119.  A callback changes no file but the one chosen to save to; without a choice or without something to export
it changes nothing at all. -/
theorem C119_others (s : St B) (e : Ev B) :
    (∀ q, e.target ≠ some q → (step s e).1.files q = s.files q) ∧
    (e.target = none → e.loaded = none → (step s e).1 = s) := by
  have hexp : ∀ (sug : Path) (p : Option (List (List B))) (name : Path) (fault : Fault),
      (∀ q, (if name = [] then none else p.map fun _ => name) ≠ some q →
        (exportTo s sug p name fault).1.files q = s.files q) ∧
      ((if name = [] then none else p.map fun _ => name) = none → (exportTo s sug p name fault).1 = s) := by
    intro sug p name fault
    cases p with
    | none => simp [exportTo]
    | some p =>
      by_cases h : name = []
      · simp [exportTo, h]
      · simp only [h, if_false, Option.map_some, ne_eq, Option.some.injEq, exportTo]
        refine ⟨fun q hq => save_other _ _ _ _ _ (fun e => hq e.symm), fun hn => by cases hn⟩
  cases e with
  | load name =>
    by_cases h : name = [] <;> simp [step, Ev.target, Ev.loaded, h]
  | wav p name fault =>
    have := hexp (suggestWav s.file) p name fault
    cases p <;> by_cases h : name = [] <;> simpa [step, Ev.target, Ev.loaded, h] using this
  | json p name fault =>
    have := hexp (suggestJson s.file) p name fault
    cases p <;> by_cases h : name = [] <;> simpa [step, Ev.target, Ev.loaded, h] using this

theorem step_target (s : St B) (e : Ev B) (f : Path) (h : e.target = some f) :
    ∃ (pieces : List (List B)) (fault : Fault) (sug : Path), e.pieces = some pieces ∧ f ≠ [] ∧
      step s e = ({ s with dirSave := some (dirname f), files := (save s.files f pieces fault).1 },
        .saveDialog s.dirSave sug :: (save s.files f pieces fault).2) := by
  cases e with
  | load name => simp [Ev.target] at h
  | wav p name fault =>
    cases p with
    | none => simp [Ev.target] at h
    | some p =>
      by_cases hn : name = []
      · simp [Ev.target, hn] at h
      · simp only [Ev.target, hn, if_false, Option.some.injEq] at h
        subst h
        exact ⟨p, fault, suggestWav s.file, rfl, hn, by simp [step, exportTo, hn]⟩
  | json p name fault =>
    cases p with
    | none => simp [Ev.target] at h
    | some p =>
      by_cases hn : name = []
      · simp [Ev.target, hn] at h
      · simp only [Ev.target, hn, if_false, Option.some.injEq] at h
        subst h
        exact ⟨p, fault, suggestJson s.file, rfl, hn, by simp [step, exportTo, hn]⟩

/-- C119.  If the message "Saved" is shown for a file, it is the chosen one and contains exactly what was to be
exported. -/
theorem C119_saved (s : St B) (e : Ev B) (f : Path) (h : .saved f ∈ (step s e).2) :
    e.target = some f ∧ ∃ pieces, e.pieces = some pieces ∧ (step s e).1.files f = some pieces.flatten := by
  cases ht : e.target with
  | none =>
    exfalso
    cases e with
    | load name => by_cases hn : name = [] <;> simp [step, hn] at h
    | wav p name fault =>
      cases p with
      | none => simp [step, exportTo] at h
      | some p =>
        by_cases hn : name = []
        · simp [step, exportTo, hn] at h
        · simp [Ev.target, hn] at ht
    | json p name fault =>
      cases p with
      | none => simp [step, exportTo] at h
      | some p =>
        by_cases hn : name = []
        · simp [step, exportTo, hn] at h
        · simp [Ev.target, hn] at ht
  | some g =>
    obtain ⟨pieces, fault, sug, h1, -, h2⟩ := step_target s e g ht
    rw [h2] at h ⊢
    cases fault with
    | none =>
      have : f = g := by simpa [save] using h
      subst this
      exact ⟨rfl, pieces, h1, by simp [save]⟩
    | openRaises => simp [save] at h
    | raises k => simp [save] at h
    | flushRaises n => simp [save] at h
    | killed n => simp [save] at h

/-- C119.  In all cases the chosen file has its old contents or a beginning of what was to be exported; the former
only with a message of failure. -/
theorem C119_contents (s : St B) (e : Ev B) (f : Path) (h : e.target = some f) :
    ∃ pieces, e.pieces = some pieces ∧
      (((step s e).1.files f = s.files f ∧ .failed ∈ (step s e).2) ∨
        ∃ c, (step s e).1.files f = some c ∧ c <+: pieces.flatten) := by
  obtain ⟨pieces, fault, sug, h1, -, h2⟩ := step_target s e f h
  refine ⟨pieces, h1, ?_⟩
  rw [h2]
  cases fault with
  | none => exact Or.inr ⟨_, by simp [save], List.prefix_rfl⟩
  | openRaises => exact Or.inl ⟨by simp [save], by simp [save]⟩
  | raises k =>
    refine Or.inr ⟨(pieces.take k).flatten, by simp [save], ?_⟩
    conv_rhs => rw [← List.take_append_drop k pieces, List.flatten_append]
    exact List.prefix_append _ _
  | flushRaises n => exact Or.inr ⟨pieces.flatten.take n, by simp [save], List.take_prefix _ _⟩
  | killed n => exact Or.inr ⟨pieces.flatten.take n, by simp [save], List.take_prefix _ _⟩

/-- C119.  Files are not replaced as a whole: whatever a file contained, an export to it can fail so that it contains
nothing. -/
theorem C119_lost (s : St B) (f : Path) (hf : f ≠ []) (pieces : List (List B)) :
    ∃ e : Ev B, e.target = some f ∧ e.pieces = some pieces ∧ .failed ∈ (step s e).2 ∧
      (step s e).1.files f = some [] :=
  ⟨.json (some pieces) f (.raises 0), by simp [Ev.target, hf], rfl, by simp [step, exportTo, hf, save],
    by simp [step, exportTo, hf, save]⟩

/-! Examples. -/

/-- A session: a file is loaded, exported, another one is loaded. -/
def session : List (Ev Nat) :=
  [.load "/a/bell.wav".toList, .wav (some [[1], [2, 3]]) "/b/x.wav".toList (.raises 1), .load [],
    .load "/c/gong.wav".toList]

example : (run (start "/home/u".toList fun _ => none) session).dirSave = some "/b".toList ∧
    (run (start "/home/u".toList fun _ => none) session).dir = "/c".toList ∧
    (run (start "/home/u".toList fun _ => none) session).files "/b/x.wav".toList = some [1] := by
  decide +kernel

example : (step (run (start "/home/u".toList fun _ => none) session)
      (.json (some [[7]]) "/b/g.json".toList .none)).2 =
    [.saveDialog (some "/b".toList) "gong".toList, .saved "/b/g.json".toList] := by decide +kernel

end Verif.Export
