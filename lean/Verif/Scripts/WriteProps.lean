import Verif.Scripts.WriteModel

/-!
# Where a report goes (C173)
-/
set_option autoImplicit false
set_option linter.unusedSectionVars false
set_option linter.unusedSimpArgs false

namespace Verif.Scripts.Write

variable {E : Type}

/-- Specification: the text of printed lines. -/
def Printed (l : List Text) : Text := l.flatMap (fun t => t ++ ['\n'])

theorem says_screen (l : List Text) (w : Out) (h : w.stdout = .screen) :
    l.foldl say w = { w with screen := w.screen ++ Printed l } := by
  induction l generalizing w with
  | nil => simp [Printed]
  | cons t l ih =>
    rw [List.foldl_cons, ih _ (by simp [say, emit, h])]
    simp [say, emit, h, Printed]

theorem says_buffer (l : List Text) (w : Out) (h : w.stdout = .buffer) :
    l.foldl say w = { w with buf := w.buf ++ Printed l } := by
  induction l generalizing w with
  | nil => simp [Printed]
  | cons t l ih =>
    rw [List.foldl_cons, ih _ (by simp [say, emit, h])]
    simp [say, emit, h, Printed]

theorem says_file (l : List Text) (w : Out) (p : String) (a : Text) (h : w.stdout = .file p)
    (ha : w.files p = some a) :
    l.foldl say w = { w with files := fun q => if q = p then some (a ++ Printed l) else w.files q } := by
  induction l generalizing w a with
  | nil =>
    have : w.files = fun q => if q = p then some a else w.files q := by
      funext q; by_cases hq : q = p
      · subst hq; simp [ha]
      · simp [hq]
    simp only [List.foldl_nil, Printed, List.flatMap_nil, List.append_nil]
    rw [← this]
  | cons t l ih =>
    rw [List.foldl_cons, ih (say w t) (a ++ (t ++ ['\n'])) (by simp [say, emit, h]) (by simp [say, emit, h, ha])]
    simp only [say, emit, h, ha, Printed, List.flatMap_cons, List.append_assoc]
    congr 1
    funext q; by_cases hq : q = p <;> simp [hq]

/-- C173: the file of a report has what the block printed and nothing else, whatever was there; the screen, the other
files and the place where later text goes are as before. If the block raises, the exception goes on, and the file has
what was printed until then: the old report is gone. -/
theorem C173_file (openErr : String → Option E) (p : String) (hp : openErr p = none) (l : List Text) (e : Option E)
    (w : Out) :
    let r := printOrWrite openErr (some p) (says l e) w
    r.2 = e ∧ r.1.files p = some (Printed l) ∧ (∀ q, q ≠ p → r.1.files q = w.files q) ∧ r.1.screen = w.screen
      ∧ r.1.stdout = w.stdout ∧ r.1.buf = w.buf := by
  have h := says_file l { truncate w p with stdout := .file p } p [] rfl (by simp [truncate])
  simp only [printOrWrite, hp, redirect, says, h]
  refine ⟨trivial, by simp, ?_, rfl, rfl, rfl⟩
  intro q hq
  simp [hq, truncate]

example : (printOrWrite (fun _ => (none : Option Nat)) (some "r.txt") (says ["ab".toList, "c".toList] (some 3))
    ⟨fun _ => some "old".toList, [], [], .screen⟩).1.files "r.txt" = some "ab\nc\n".toList := by decide +kernel

/-- C173: without a path all goes to the screen, after what is there, and no file is made or changed. -/
theorem C173_screen (openErr : String → Option E) (l : List Text) (e : Option E) (w : Out) (hw : w.stdout = .screen) :
    let r := printOrWrite openErr none (says l e) w
    r.2 = e ∧ r.1.screen = w.screen ++ Printed l ∧ r.1.files = w.files ∧ r.1.stdout = .screen := by
  simp [printOrWrite, says, says_screen l w hw, hw]

example : (printOrWrite (fun _ => (none : Option Nat)) none (says ["ab".toList] none)
    ⟨fun _ => none, "x".toList, [], .screen⟩).1.screen = "xab\n".toList := by decide +kernel

/-- C173: a file that cannot be opened: the exception of `open`, the block is not run, nothing is changed. -/
theorem C173_open (openErr : String → Option E) (p : String) (x : E) (hp : openErr p = some x) (body : Body E)
    (w : Out) : printOrWrite openErr (some p) body w = (w, some x) := by
  simp [printOrWrite, hp]

example : (fun _ => some 7 : String → Option Nat) "no/r.txt" = some 7 := rfl

/-- C173: the old target comes back after any block, also one that raises or that redirects by itself. -/
theorem C173_restored (openErr : String → Option E) (p : String) (body : Body E) (w : Out) :
    (printOrWrite openErr (some p) body w).1.stdout = w.stdout := by
  simp only [printOrWrite]
  cases openErr p <;> rfl

example : (printOrWrite (fun _ => (none : Option Nat)) (some "r") (fun w => ({ w with stdout := .buffer }, some 1))
    ⟨fun _ => none, [], [], .screen⟩).1.stdout = .screen := rfl

/-- C173: what is printed after a report goes to the screen and not to the file. -/
theorem C173_after (openErr : String → Option E) (p : String) (hp : openErr p = none) (l m : List Text) (e : Option E)
    (w : Out) (hw : w.stdout = .screen) :
    let r := (says m (none : Option E) (printOrWrite openErr (some p) (says l e) w).1).1
    r.screen = w.screen ++ Printed m ∧ r.files p = some (Printed l) := by
  obtain ⟨_, h2, _, h4, h5, _⟩ := C173_file openErr p hp l e w
  simp only [says] at h2 h4 h5 ⊢
  rw [says_screen m _ (h5.trans hw)]
  exact ⟨by simp [h4], h2⟩

example : ((says ["z".toList] (none : Option Nat) (printOrWrite (fun _ => none) (some "r") (says ["a".toList] (some 1))
    ⟨fun _ => none, [], [], .screen⟩).1).1).screen = "z\n".toList := by decide +kernel

/-- C173: two reports with one path leave the second only. -/
theorem C173_same (openErr : String → Option E) (p : String) (hp : openErr p = none) (l m : List Text)
    (e f : Option E) (w : Out) :
    (printOrWrite openErr (some p) (says m f) (printOrWrite openErr (some p) (says l e) w).1).1.files p
      = some (Printed m) :=
  (C173_file openErr p hp m f _).2.1

/-- C173: two reports with different paths are both left. -/
theorem C173_both (openErr : String → Option E) (p q : String) (hp : openErr p = none) (hq : openErr q = none)
    (hpq : p ≠ q) (l m : List Text) (e f : Option E) (w : Out) :
    let r := (printOrWrite openErr (some q) (says m f) (printOrWrite openErr (some p) (says l e) w).1).1
    r.files p = some (Printed l) ∧ r.files q = some (Printed m) := by
  have h1 := C173_file openErr p hp l e w
  have h2 := C173_file openErr q hq m f (printOrWrite openErr (some p) (says l e) w).1
  exact ⟨(h2.2.2.1 p hpq).trans h1.2.1, h2.2.1⟩

example : ("a_report.txt" : String) ≠ "a_report.tex" := by decide

/-- C173: reports of different outputs have different files, and the one of the statistical tests has another file
than the other two, which share theirs. -/
theorem C173_paths (o o' : String) :
    (∀ ext, reportPath (some o) ext = reportPath (some o') ext → o = o')
      ∧ reportPath (some o) "tex" ≠ reportPath (some o') "txt"
      ∧ ∀ ext, reportPath none ext = none := by
  refine ⟨?_, ?_, fun _ => rfl⟩
  · intro ext h
    simp only [reportPath, Option.some.injEq] at h
    have := congrArg String.toList h
    simp only [String.toList_append, List.append_assoc] at this
    exact String.toList_injective (List.append_cancel_right this)
  · intro h
    simp only [reportPath, Option.some.injEq] at h
    have := congrArg (fun s => s.toList.getLast?) h
    simp [String.toList_append] at this

example : reportPath (some "out/a") "txt" = some "out/a_report.txt" := by decide +kernel

/-! ## The caught report -/

theorem splitKeep_line (a r : Text) (ha : '\n' ∉ a) : splitKeep (a ++ '\n' :: r) = (a ++ ['\n']) :: splitKeep r := by
  induction a with
  | nil => simp [splitKeep]
  | cons c a ih =>
    have hc : c ≠ '\n' := fun h => ha (by simp [h])
    have := ih (fun h => ha (by simp [h]))
    simp [splitKeep, hc, this]

theorem splitKeep_last (a : Text) (ha : '\n' ∉ a) (h : a ≠ []) : splitKeep a = [a] := by
  induction a with
  | nil => exact absurd rfl h
  | cons c a ih =>
    have hc : c ≠ '\n' := fun h => ha (by simp [h])
    cases a with
    | nil => simp [splitKeep, hc]
    | cons d a =>
      have := ih (fun h => ha (by simp [h])) (by simp)
      simp [splitKeep, hc] at this ⊢
      simp [this]

theorem splitKeep_lines (m : List Text) (r : Text) (hm : ∀ t ∈ m, '\n' ∉ t) :
    splitKeep (Printed m ++ r) = m.map (· ++ ['\n']) ++ splitKeep r := by
  induction m with
  | nil => simp [Printed]
  | cons t m ih =>
    have h1 := splitKeep_line t (Printed m ++ r) (hm t (by simp))
    have h2 := ih (fun t ht => hm t (by simp [ht]))
    have h3 : Printed (t :: m) ++ r = t ++ '\n' :: (Printed m ++ r) := by simp [Printed]
    rw [h3, h1, h2]
    simp

theorem Printed_eq (m : List Text) : (m.map (· ++ ['\n'])).flatten = Printed m := by
  simp [Printed, List.flatMap]

/-- C173: the report of the statistical tests in its file: the first line of the caught text, the added line (it
shares its line with the next), the other lines but the last, an end of line, the comparisons, the last line. Nothing
of the caught text is on the screen. -/
theorem C173_report (openErr : String → Option E) (p : String) (hp : openErr p = none) (w : Out)
    (first last : Text) (m middle : List Text) (hf : '\n' ∉ first) (hm : ∀ t ∈ m, '\n' ∉ t) (hl : '\n' ∉ last) :
    let r := printOrWrite openErr (some p) (printReport (says ([first] ++ m ++ [last]) none) middle none) w
    r.2 = none
      ∧ r.1.files p = some (first ++ ['\n'] ++ geometry ++ Printed m ++ ['\n'] ++ Printed middle ++ last ++ ['\n', '\n'])
      ∧ (∀ q, q ≠ p → r.1.files q = w.files q) ∧ r.1.screen = w.screen ∧ r.1.stdout = w.stdout := by
  have hb := says_buffer ([first] ++ m ++ [last])
    { truncate w p with stdout := .buffer, buf := [] } rfl
  have hs : splitKeep (Printed ([first] ++ m ++ [last]))
      = (first ++ ['\n']) :: (m.map (· ++ ['\n']) ++ [last ++ ['\n']]) := by
    have h := splitKeep_lines ([first] ++ m ++ [last]) [] (by
      intro t ht
      simp only [List.mem_append, List.mem_singleton] at ht
      rcases ht with (rfl | ht) | rfl
      · exact hf
      · exact hm t ht
      · exact hl)
    simpa [splitKeep] using h
  have hd : (insertOne geometry (splitKeep (Printed ([first] ++ m ++ [last])))).dropLast.flatten
      = first ++ ['\n'] ++ geometry ++ Printed m := by
    rw [hs]
    simp only [insertOne]
    rw [← List.cons_append, ← List.cons_append, List.dropLast_concat]
    simp [Printed_eq]
  have hg : (insertOne geometry (splitKeep (Printed ([first] ++ m ++ [last])))).getLastD []
      = last ++ ['\n'] := by
    rw [hs]
    simp only [insertOne]
    rw [← List.cons_append, ← List.cons_append, List.getLastD_concat]
  have key : ∀ (v : Out) (a : Text), v.stdout = .file p → v.files p = some a → ∀ (x z : Text),
      say (middle.foldl say (say v x)) z
        = { v with files := fun q => if q = p then some (a ++ Printed ([x] ++ middle ++ [z])) else v.files q } := by
    intro v a h1 h2 x z
    rw [← says_file ([x] ++ middle ++ [z]) v p a h1 h2]
    simp
  simp only [printOrWrite, hp, redirect, printReport, says]
  simp only [hb, List.nil_append, hd, hg]
  rw [key _ [] rfl (by simp [truncate])]
  refine ⟨trivial, ?_, ?_, rfl, rfl⟩
  · simp [Printed]
  · intro q hq
    simp [hq, truncate]

example : (printOrWrite (fun _ => (none : Option Nat)) (some "r.tex")
    (printReport (says ["A".toList, "B".toList, "C".toList] none) ["x".toList] none)
    ⟨fun _ => none, [], [], .screen⟩).1.files "r.tex"
      = some "A\n\\usepackage[margin=0.75in]{geometry}B\n\nx\nC\n\n".toList := by decide +kernel

/-- C173: if the library raises, the exception goes on, what it printed until then is nowhere, and the file of the
report is empty. -/
theorem C173_report_raises (openErr : String → Option E) (p : String) (hp : openErr p = none) (w : Out)
    (l middle : List Text) (x : E) (e : Option E) :
    let r := printOrWrite openErr (some p) (printReport (says l (some x)) middle e) w
    r.2 = some x ∧ r.1.files p = some [] ∧ (∀ q, q ≠ p → r.1.files q = w.files q) ∧ r.1.screen = w.screen
      ∧ r.1.stdout = w.stdout := by
  have hb := says_buffer l { truncate w p with stdout := .buffer, buf := [] } rfl
  simp only [printOrWrite, hp, redirect, printReport, says]
  simp only [hb]
  refine ⟨trivial, by simp [truncate], ?_, rfl, rfl⟩
  intro q hq
  simp [hq, truncate]

example : (printOrWrite (fun _ => (none : Option Nat)) (some "r.tex")
    (printReport (says ["A".toList] (some 4)) [] none)
    ⟨fun _ => some "old".toList, [], [], .screen⟩).1.files "r.tex" = some [] := by decide +kernel

/-- C173: a comparison that raises: the file has all but the last line, so the document is not closed. -/
theorem C173_report_cut (openErr : String → Option E) (p : String) (hp : openErr p = none) (w : Out)
    (first last : Text) (m middle : List Text) (hf : '\n' ∉ first) (hm : ∀ t ∈ m, '\n' ∉ t) (hl : '\n' ∉ last) (x : E) :
    let r := printOrWrite openErr (some p) (printReport (says ([first] ++ m ++ [last]) none) middle (some x)) w
    r.2 = some x
      ∧ r.1.files p = some (first ++ ['\n'] ++ geometry ++ Printed m ++ ['\n'] ++ Printed middle)
      ∧ r.1.screen = w.screen ∧ r.1.stdout = w.stdout := by
  have hb := says_buffer ([first] ++ m ++ [last])
    { truncate w p with stdout := .buffer, buf := [] } rfl
  have hs : splitKeep (Printed ([first] ++ m ++ [last]))
      = (first ++ ['\n']) :: (m.map (· ++ ['\n']) ++ [last ++ ['\n']]) := by
    have h := splitKeep_lines ([first] ++ m ++ [last]) [] (by
      intro t ht
      simp only [List.mem_append, List.mem_singleton] at ht
      rcases ht with (rfl | ht) | rfl
      · exact hf
      · exact hm t ht
      · exact hl)
    simpa [splitKeep] using h
  have hd : (insertOne geometry (splitKeep (Printed ([first] ++ m ++ [last])))).dropLast.flatten
      = first ++ ['\n'] ++ geometry ++ Printed m := by
    rw [hs]
    simp only [insertOne]
    rw [← List.cons_append, ← List.cons_append, List.dropLast_concat]
    simp [Printed_eq]
  have key : ∀ (v : Out) (a : Text), v.stdout = .file p → v.files p = some a → ∀ (y : Text),
      middle.foldl say (say v y)
        = { v with files := fun q => if q = p then some (a ++ Printed ([y] ++ middle)) else v.files q } := by
    intro v a h1 h2 y
    rw [← says_file ([y] ++ middle) v p a h1 h2]
    simp
  simp only [printOrWrite, hp, redirect, printReport, says]
  simp only [hb, List.nil_append, hd]
  rw [key _ [] rfl (by simp [truncate])]
  refine ⟨trivial, ?_, rfl, rfl⟩
  simp [Printed]

example : (printOrWrite (fun _ => (none : Option Nat)) (some "r.tex")
    (printReport (says ["A".toList, "B".toList, "C".toList] none) ["x".toList] (some 2))
    ⟨fun _ => none, [], [], .screen⟩).1.files "r.tex"
      = some "A\n\\usepackage[margin=0.75in]{geometry}B\n\nx\n".toList := by decide +kernel

end Verif.Scripts.Write
