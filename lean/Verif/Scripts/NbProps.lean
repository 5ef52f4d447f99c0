import Verif.Scripts.NbModel
import Mathlib.Data.List.Basic
import Mathlib.Data.List.TakeDrop

/-!
# C90: formatting of notebooks keeps commands
-/

set_option autoImplicit false
set_option linter.unusedSectionVars false
set_option linter.unusedSimpArgs false

namespace Verif.Scripts

/-- Laws of the parameters: `!`, `%` and `p` are not whitespace; newline is a line boundary; the texts that are
added have no line boundaries. -/
structure NbLaws (env : NbEnv) : Prop where
  bang : env.isSpace '!' = false
  percent : env.isSpace '%' = false
  pass : env.isSpace 'p' = false
  newline : env.isBreak '\n' = true
  added : ∀ c ∈ passComment ++ escapeComment, env.isBreak c = false

/-! ## Lines -/

section Lines

variable {isSpace : Char → Bool}

theorem takeWhile_append_of {α : Type} {p : α → Bool} {a b : List α} (ha : a.all p = true)
    (hb : ∀ x, b.head? = some x → p x = false) :
    (a ++ b).takeWhile p = a ∧ (a ++ b).dropWhile p = b := by
  induction a with
  | nil =>
    cases b with
    | nil => simp
    | cons x b => simp [hb x rfl]
  | cons x a ih =>
    simp only [List.all_cons, Bool.and_eq_true] at ha
    simp [ha.1, ih ha.2]

theorem mem_takeWhile_imp {α : Type} {p : α → Bool} {l : List α} {x : α} (h : x ∈ l.takeWhile p) :
    p x = true := by
  induction l with
  | nil => cases h
  | cons a l ih =>
    rw [List.takeWhile_cons] at h
    split at h
    · rcases List.mem_cons.1 h with rfl | h
      · assumption
      · exact ih h
    · cases h

theorem passComment_head (s : List Char) : ∀ x, (passComment ++ s).head? = some x → x = 'p' := by
  intro x hx
  cases hx
  rfl

/-- A command is an indentation, `!` or `%`, and other characters of the same line. -/
theorem C90_command (h1 : isSpace '!' = false) (h2 : isSpace '%' = false) (s : List Char) :
    matchesCommand isSpace s = true ↔
      ∃ indent c rest, s = indent ++ c :: rest ∧ indent.all isSpace = true ∧ (c = '!' ∨ c = '%') ∧
        '\n' ∉ rest := by
  constructor
  · intro h
    unfold matchesCommand at h
    cases hd : s.dropWhile isSpace with
    | nil => rw [hd] at h; cases h
    | cons c rest =>
      rw [hd] at h
      simp only [isCommand, Bool.and_eq_true, Bool.or_eq_true, beq_iff_eq, List.all_eq_true, bne_iff_ne,
        ne_eq] at h
      refine ⟨s.takeWhile isSpace, c, rest, ?_, ?_, h.1, fun hm => h.2 _ hm rfl⟩
      · rw [← hd, List.takeWhile_append_dropWhile]
      · rw [List.all_eq_true]
        intro x hx
        exact mem_takeWhile_imp hx
  · rintro ⟨indent, c, rest, rfl, hi, hc, hr⟩
    have hcs : isSpace c = false := by rcases hc with rfl | rfl <;> assumption
    rw [matchesCommand, (takeWhile_append_of hi (by simpa using hcs)).2]
    simp only [isCommand, Bool.and_eq_true, Bool.or_eq_true, beq_iff_eq, List.all_eq_true, bne_iff_ne,
      ne_eq]
    exact ⟨hc, fun x hx e => hr (e ▸ hx)⟩

/-- An escaped command is an indentation, `pass  # `, a command and `  # escaped-for-yapf`. -/
theorem C90_escaped (h3 : isSpace 'p' = false) (s : List Char) :
    matchesEscape isSpace s = true ↔
      ∃ indent c rest, s = indent ++ passComment ++ c :: rest ++ escapeComment ∧
        indent.all isSpace = true ∧ (c = '!' ∨ c = '%') ∧ '\n' ∉ rest := by
  constructor
  · intro h
    simp only [matchesEscape, Bool.and_eq_true] at h
    obtain ⟨⟨h1, h2⟩, h4⟩ := h
    rw [List.isPrefixOf_iff_prefix] at h1
    rw [List.isSuffixOf_iff_suffix] at h2
    obtain ⟨t, ht⟩ := h1
    rw [← ht, List.drop_left] at h2 h4
    obtain ⟨u, rfl⟩ := h2
    rw [List.length_append, Nat.add_sub_cancel, List.take_left] at h4
    cases u with
    | nil => cases h4
    | cons c rest =>
      simp only [isCommand, Bool.and_eq_true, Bool.or_eq_true, beq_iff_eq, List.all_eq_true, bne_iff_ne,
        ne_eq] at h4
      refine ⟨s.takeWhile isSpace, c, rest, ?_, ?_, h4.1, fun hm => h4.2 _ hm rfl⟩
      · conv_lhs => rw [← List.takeWhile_append_dropWhile (p := isSpace) (l := s), ← ht]
        simp only [List.append_assoc, List.cons_append]
      · rw [List.all_eq_true]
        intro x hx
        exact mem_takeWhile_imp hx
  · rintro ⟨indent, c, rest, rfl, hi, hc, hr⟩
    have e : indent ++ passComment ++ c :: rest ++ escapeComment =
        indent ++ (passComment ++ (c :: rest ++ escapeComment)) := by
      simp only [List.append_assoc, List.cons_append]
    rw [e]
    have hd : (indent ++ (passComment ++ (c :: rest ++ escapeComment))).dropWhile isSpace =
        passComment ++ (c :: rest ++ escapeComment) :=
      (takeWhile_append_of hi (by
        intro x hx
        rw [passComment_head _ x hx]; exact h3)).2
    simp only [matchesEscape, hd, Bool.and_eq_true]
    rw [List.drop_left, List.length_append, Nat.add_sub_cancel, List.take_left]
    refine ⟨⟨?_, ?_⟩, ?_⟩
    · rw [List.isPrefixOf_iff_prefix]; exact List.prefix_append _ _
    · rw [List.isSuffixOf_iff_suffix]; exact List.suffix_append _ _
    · simp only [isCommand, Bool.and_eq_true, Bool.or_eq_true, beq_iff_eq, List.all_eq_true, bne_iff_ne,
        ne_eq]
      exact ⟨hc, fun x hx e => hr (e ▸ hx)⟩

theorem wrapLine_command {indent rest : List Char} {c : Char} (h1 : isSpace '!' = false)
    (h2 : isSpace '%' = false) (hi : indent.all isSpace = true) (hc : c = '!' ∨ c = '%')
    (hr : '\n' ∉ rest) :
    wrapLine isSpace (indent ++ c :: rest) =
      indent ++ passComment ++ c :: rest ++ escapeComment := by
  have hm : matchesCommand isSpace (indent ++ c :: rest) = true :=
    (C90_command h1 h2 _).2 ⟨indent, c, rest, rfl, hi, hc, hr⟩
  have hcs : isSpace c = false := by rcases hc with rfl | rfl <;> assumption
  have ht := (takeWhile_append_of (b := c :: rest) hi (by simpa using hcs)).1
  simp only [wrapLine, hm, if_true, ht, List.drop_left]

theorem unwrapLine_escape {indent rest : List Char} {c : Char} (h3 : isSpace 'p' = false)
    (hi : indent.all isSpace = true) (hc : c = '!' ∨ c = '%') (hr : '\n' ∉ rest) :
    unwrapLine isSpace (indent ++ passComment ++ c :: rest ++ escapeComment) =
      indent ++ c :: rest := by
  have hm := (C90_escaped h3 _).2 ⟨indent, c, rest, rfl, hi, hc, hr⟩
  have ht : (indent ++ passComment ++ c :: rest ++ escapeComment).takeWhile
      isSpace = indent := by
    rw [List.append_assoc, List.append_assoc]
    refine (takeWhile_append_of hi ?_).1
    intro x hx
    rw [passComment_head _ x hx]; exact h3
  simp only [unwrapLine, hm, if_true, ht]
  have hl : (indent ++ passComment ++ c :: rest ++ escapeComment).length -
      escapeComment.length = (indent ++ passComment ++ c :: rest).length := by
    rw [List.length_append]
    exact Nat.add_sub_cancel _ _
  rw [hl, List.take_left]
  have hl2 : indent.length + 8 = (indent ++ passComment).length := by
    rw [List.length_append]; rfl
  rw [hl2, List.drop_left]

/-- A wrapped command is a `pass` statement with a comment and the same indentation; all other lines are kept;
no wrapped line is a command. -/
theorem C90_wrap (h1 : isSpace '!' = false) (h2 : isSpace '%' = false) (h3 : isSpace 'p' = false)
    (s : List Char) :
    (matchesCommand isSpace s = false → wrapLine isSpace s = s) ∧
      (matchesCommand isSpace s = true → ∃ indent cmd, s = indent ++ cmd ∧
        indent.all isSpace = true ∧
        wrapLine isSpace s = indent ++ passComment ++ cmd ++ escapeComment) ∧
      matchesCommand isSpace (wrapLine isSpace s) = false := by
  by_cases h : matchesCommand isSpace s = true
  · obtain ⟨indent, c, rest, rfl, hi, hc, hr⟩ := (C90_command h1 h2 s).1 h
    have hw := wrapLine_command h1 h2 hi hc hr
    refine ⟨fun h' => (by rw [h] at h'; cases h'), fun _ => ⟨indent, c :: rest, rfl, hi, hw⟩, ?_⟩
    rw [hw, matchesCommand, List.append_assoc, List.append_assoc, (takeWhile_append_of hi ?_).2]
    · rfl
    · intro x hx
      rw [passComment_head _ x hx]; exact h3
  · have h' : matchesCommand isSpace s = false := by simpa using h
    have hw : wrapLine isSpace s = s := by simp [wrapLine, h']
    exact ⟨fun _ => hw, fun h2 => absurd h2 h, by rw [hw]; exact h'⟩

/-- An escaped command is not a command. -/
theorem not_command_of_escape (h3 : isSpace 'p' = false) {s : List Char}
    (h : matchesEscape isSpace s = true) : matchesCommand isSpace s = false := by
  obtain ⟨indent, c, rest, rfl, hi, -, -⟩ := (C90_escaped h3 s).1 h
  rw [matchesCommand, List.append_assoc, List.append_assoc, (takeWhile_append_of hi ?_).2]
  · rfl
  · intro x hx
    rw [passComment_head _ x hx]; exact h3

/-- Wrapping and unwrapping a line gives the line, unless the line looks like a wrapped command. -/
theorem C90_unwrap_wrap (h1 : isSpace '!' = false) (h2 : isSpace '%' = false) (h3 : isSpace 'p' = false)
    (s : List Char) :
    unwrapLine isSpace (wrapLine isSpace s) = s ↔ matchesEscape isSpace s = false := by
  by_cases h : matchesCommand isSpace s = true
  · obtain ⟨indent, c, rest, rfl, hi, hc, hr⟩ := (C90_command h1 h2 s).1 h
    rw [wrapLine_command h1 h2 hi hc hr, unwrapLine_escape h3 hi hc hr]
    simp only [true_iff]
    cases he : matchesEscape isSpace (indent ++ c :: rest) with
    | false => rfl
    | true => rw [not_command_of_escape h3 he] at h; cases h
  · have h' : matchesCommand isSpace s = false := by simpa using h
    rw [(C90_wrap h1 h2 h3 s).1 h']
    constructor
    · intro hu
      cases he : matchesEscape isSpace s with
      | false => rfl
      | true =>
        obtain ⟨indent, c, rest, rfl, hi, hc, hr⟩ := (C90_escaped h3 s).1 he
        rw [unwrapLine_escape h3 hi hc hr] at hu
        have := congrArg List.length hu
        simp [passComment, escapeComment] at this
    · intro he
      simp [unwrapLine, he]

/-- Unwrapping and wrapping a line gives the line, unless the line is a command. -/
theorem C90_wrap_unwrap (h1 : isSpace '!' = false) (h2 : isSpace '%' = false) (h3 : isSpace 'p' = false)
    (s : List Char) :
    wrapLine isSpace (unwrapLine isSpace s) = s ↔ matchesCommand isSpace s = false := by
  by_cases he : matchesEscape isSpace s = true
  · have hn := not_command_of_escape h3 he
    obtain ⟨indent, c, rest, rfl, hi, hc, hr⟩ := (C90_escaped h3 s).1 he
    rw [unwrapLine_escape h3 hi hc hr, wrapLine_command h1 h2 hi hc hr, hn]
    simp
  · have he' : matchesEscape isSpace s = false := by simpa using he
    have hu : unwrapLine isSpace s = s := by simp [unwrapLine, he']
    rw [hu]
    constructor
    · intro hw
      have := (C90_wrap h1 h2 h3 s).2.2
      rwa [hw] at this
    · exact fun h => (C90_wrap h1 h2 h3 s).1 h

end Lines

/-! ## Texts -/

variable {isBreak : Char → Bool}

theorem splitlines_no_break (s : List Char) :
    ∀ l ∈ splitlines isBreak s, ∀ c ∈ l, isBreak c = false := by
  induction s with
  | nil => simp [splitlines]
  | cons c s ih =>
    simp only [splitlines]
    split
    · intro l hl
      rcases List.mem_cons.1 hl with rfl | hl
      · simp
      · exact ih l hl
    · rename_i hc
      have hc' : isBreak c = false := by simpa using hc
      split
      · intro l hl c' hc2
        rw [List.mem_singleton] at hl
        subst hl
        rw [List.mem_singleton] at hc2
        rw [hc2]; exact hc'
      · rename_i l0 ls hs
        rw [hs] at ih
        intro l hl c' hc2
        rcases List.mem_cons.1 hl with rfl | hl
        · rcases List.mem_cons.1 hc2 with rfl | hc2
          · exact hc'
          · exact ih l0 List.mem_cons_self c' hc2
        · exact ih l (List.mem_cons_of_mem _ hl) c' hc2

theorem splitlines_nil {s : List Char} (h : splitlines isBreak s = []) : s = [] := by
  cases s with
  | nil => rfl
  | cons c s =>
    simp only [splitlines] at h
    split at h
    · cases h
    · split at h <;> cases h

theorem splitlines_append_break {l : List Char} (hl : ∀ c ∈ l, isBreak c = false) {b : Char}
    (hb : isBreak b = true) (s : List Char) :
    splitlines isBreak (l ++ b :: s) = l :: splitlines isBreak s := by
  induction l with
  | nil => simp [splitlines, hb]
  | cons c l ih =>
    have hc := hl c List.mem_cons_self
    simp only [List.cons_append, splitlines, hc, Bool.false_eq_true, if_false]
    rw [ih fun x hx => hl x (List.mem_cons_of_mem _ hx)]

theorem splitlines_single {l : List Char} (hl : ∀ c ∈ l, isBreak c = false) (hne : l ≠ []) :
    splitlines isBreak l = [l] := by
  induction l with
  | nil => exact absurd rfl hne
  | cons c l ih =>
    have hc := hl c List.mem_cons_self
    simp only [splitlines, hc, Bool.false_eq_true, if_false]
    cases l with
    | nil => simp [splitlines]
    | cons d l => rw [ih (fun x hx => hl x (List.mem_cons_of_mem _ hx)) (by simp)]

/-- Splitting joined lines gives the lines, if the last one is not empty; a newline at the end has no
effect. -/
theorem splitlines_joinLines (hn : isBreak '\n' = true) {ls : List (List Char)}
    (hl : ∀ l ∈ ls, ∀ c ∈ l, isBreak c = false) (hlast : ls.getLast? ≠ some []) :
    splitlines isBreak (joinLines ls) = ls ∧
      (ls ≠ [] → splitlines isBreak (joinLines ls ++ ['\n']) = ls) := by
  induction ls with
  | nil => simp [joinLines, splitlines]
  | cons l ls ih =>
    cases ls with
    | nil =>
      have hne : l ≠ [] := by simpa using hlast
      have hl' := hl l List.mem_cons_self
      refine ⟨splitlines_single hl' hne, fun _ => ?_⟩
      simp only [joinLines]
      rw [splitlines_append_break hl' hn]
      rfl
    | cons l' ls =>
      obtain ⟨h1, h2⟩ := ih (fun x hx => hl x (List.mem_cons_of_mem _ hx)) (by simpa using hlast)
      have hl' := hl l List.mem_cons_self
      simp only [joinLines]
      refine ⟨by rw [splitlines_append_break hl' hn, h1], fun _ => ?_⟩
      rw [List.append_assoc, List.cons_append, splitlines_append_break hl' hn, h2 (by simp)]

theorem joinLines_cons {l : List Char} {ls : List (List Char)} (h : ls ≠ []) :
    joinLines (l :: ls) = l ++ '\n' :: joinLines ls := by
  cases ls with
  | nil => exact absurd rfl h
  | cons a b => rfl

/-- Joining the lines of a text gives the text, if all its line boundaries are newlines and the last character
is none; then the last line is not empty. -/
theorem joinLines_splitlines {s : List Char} (hs : ∀ c ∈ s, isBreak c = true → c = '\n')
    (hn : isBreak '\n' = true) (hlast : s.getLast? ≠ some '\n') :
    joinLines (splitlines isBreak s) = s ∧ (splitlines isBreak s).getLast? ≠ some [] := by
  induction s with
  | nil => simp [splitlines, joinLines]
  | cons c s ih =>
    rcases eq_or_ne s [] with rfl | hne
    · have hc : isBreak c = false := by
        cases hb : isBreak c with
        | false => rfl
        | true =>
          have := hs c List.mem_cons_self hb
          subst this
          simp at hlast
      simp [splitlines, hc, joinLines]
    · have hl' : s.getLast? ≠ some '\n' := by
        rwa [List.getLast?_cons_of_ne_nil hne] at hlast
      obtain ⟨h1, h2⟩ := ih (fun x hx => hs x (List.mem_cons_of_mem _ hx)) hl'
      have hsp : splitlines isBreak s ≠ [] := fun h => hne (splitlines_nil h)
      cases hb : isBreak c with
      | true =>
        have := hs c List.mem_cons_self hb
        subst this
        simp only [splitlines, hb, if_true]
        refine ⟨by rw [joinLines_cons hsp, h1]; rfl, ?_⟩
        rwa [List.getLast?_cons_of_ne_nil hsp]
      | false =>
        simp only [splitlines, hb, Bool.false_eq_true, if_false]
        cases hls : splitlines isBreak s with
        | nil => exact absurd hls hsp
        | cons l ls =>
          rw [hls] at h1 h2
          simp only
          cases ls with
          | nil =>
            simp only [joinLines] at h1 ⊢
            exact ⟨by rw [h1], by simp⟩
          | cons l' ls =>
            simp only [joinLines] at h1 ⊢
            refine ⟨by rw [List.cons_append, h1], ?_⟩
            simpa using h2

/-! ## Cells -/

section Cells

variable {env : NbEnv}

/-- A source with no escaped command, with no line boundaries but newlines, none of them at the end. -/
structure PlainSource (env : NbEnv) (src : List Char) : Prop where
  newlines : ∀ c ∈ src, env.isBreak c = true → c = '\n'
  last : src.getLast? ≠ some '\n'
  noEscape : ∀ l ∈ splitlines env.isBreak src, matchesEscape env.isSpace l = false

/-- The text given to the formatter. -/
def wrappedText (env : NbEnv) (src : List Char) : List Char :=
  joinLines ((splitlines env.isBreak src).map (wrapLine env.isSpace))

theorem wrapLine_no_break (laws : NbLaws env) {l : List Char} (h : ∀ c ∈ l, env.isBreak c = false) :
    ∀ c ∈ wrapLine env.isSpace l, env.isBreak c = false := by
  unfold wrapLine
  split
  · intro c hc
    simp only [List.mem_append] at hc
    rcases hc with ((hc | hc) | hc) | hc
    · exact h c ((List.takeWhile_sublist _).subset hc)
    · exact laws.added c (List.mem_append_left _ hc)
    · exact h c ((List.drop_sublist _ _).subset hc)
    · exact laws.added c (List.mem_append_right _ hc)
  · exact h

theorem wrapLine_ne_nil {l : List Char} (h : l ≠ []) : wrapLine env.isSpace l ≠ [] := by
  unfold wrapLine
  split
  · simp [passComment]
  · exact h

/-- The lines of the text that is given to the formatter are the wrapped lines of the source. -/
theorem splitlines_wrappedText (laws : NbLaws env) {src : List Char} (h : PlainSource env src) :
    splitlines env.isBreak (wrappedText env src) =
      (splitlines env.isBreak src).map (wrapLine env.isSpace) ∧
    (src ≠ [] → splitlines env.isBreak (wrappedText env src ++ ['\n']) =
      (splitlines env.isBreak src).map (wrapLine env.isSpace)) := by
  have h2 := (joinLines_splitlines h.newlines laws.newline h.last).2
  have hb : ∀ l ∈ (splitlines env.isBreak src).map (wrapLine env.isSpace), ∀ c ∈ l,
      env.isBreak c = false := by
    intro l hl
    obtain ⟨l', hl', rfl⟩ := List.mem_map.1 hl
    exact wrapLine_no_break laws (splitlines_no_break src l' hl')
  have hlast : ((splitlines env.isBreak src).map (wrapLine env.isSpace)).getLast? ≠ some [] := by
    rw [List.getLast?_map]
    cases hg : (splitlines env.isBreak src).getLast? with
    | none => simp
    | some l =>
      have : l ≠ [] := fun e => h2 (by rw [hg, e])
      simpa using wrapLine_ne_nil this
  obtain ⟨h3, h4⟩ := splitlines_joinLines laws.newline hb hlast
  refine ⟨h3, fun hne => h4 ?_⟩
  intro e
  rw [List.map_eq_nil_iff] at e
  exact hne (splitlines_nil e)

theorem unwrap_wrapped (laws : NbLaws env) {src : List Char} (h : PlainSource env src) :
    ((splitlines env.isBreak src).map (wrapLine env.isSpace)).map (unwrapLine env.isSpace) =
      splitlines env.isBreak src := by
  rw [List.map_map]
  conv_rhs => rw [← List.map_id (splitlines env.isBreak src)]
  apply List.map_congr_left
  intro l hl
  exact (C90_unwrap_wrap laws.bang laws.percent laws.pass l).2 (h.noEscape l hl)

/-- A source is kept if the formatter returns the text that it is given, with or without a newline at the
end, or if it raises and errors are not tagged. -/
theorem C90_keep (laws : NbLaws env) {src : List Char} (h : PlainSource env src) {tagErrors : Bool}
    (hf : env.format (wrappedText env src) = .ok (wrappedText env src) ∨
      (src ≠ [] ∧ env.format (wrappedText env src) = .ok (wrappedText env src ++ ['\n'])) ∨
      (tagErrors = false ∧ ∃ msg, env.format (wrappedText env src) = .error msg)) :
    newSource env tagErrors src = (src, false) := by
  obtain ⟨h1, h2⟩ := splitlines_wrappedText laws h
  have hj := (joinLines_splitlines h.newlines laws.newline h.last).1
  have hw : joinLines ((splitlines env.isBreak src).map (wrapLine env.isSpace)) =
    wrappedText env src := rfl
  rcases hf with hf | ⟨hne, hf⟩ | ⟨rfl, msg, hf⟩
  · simp only [newSource, hw, hf, h1, unwrap_wrapped laws h, hj]
    simp
  · simp only [newSource, hw, hf, h2 hne, unwrap_wrapped laws h, hj]
    simp
  · simp only [newSource, hw, hf, Bool.and_false, Bool.false_eq_true, if_false, h1,
      unwrap_wrapped laws h, hj]
    simp

/-- With `--tag-errors` the message is added as a last line, once. -/
theorem C90_tag (laws : NbLaws env) {src msg : List Char} (h : PlainSource env src) (hne : src ≠ [])
    (hf : env.format (wrappedText env src) = .error msg)
    (hmsg : ∀ c ∈ msg, env.isBreak c = false) (htag : ∀ c ∈ yapfTag, env.isBreak c = false)
    (hsp : env.isSpace '#' = false) :
    newSource env true src =
      if contains (yapfTag ++ msg.drop 9) (wrappedText env src) then (src, false)
      else (src ++ '\n' :: (yapfTag ++ msg.drop 9), true) := by
  obtain ⟨h1, h2⟩ := splitlines_wrappedText laws h
  have hj := (joinLines_splitlines h.newlines laws.newline h.last).1
  have hw : joinLines ((splitlines env.isBreak src).map (wrapLine env.isSpace)) =
    wrappedText env src := rfl
  by_cases hc : contains (yapfTag ++ msg.drop 9) (wrappedText env src) = true
  · simp only [newSource, hw, hf, hc, Bool.not_true, Bool.false_and, Bool.false_eq_true, if_false, h1,
      unwrap_wrapped laws h, hj, if_true]
    simp
  · have hc' : contains (yapfTag ++ msg.drop 9) (wrappedText env src) = false := by simpa using hc
    have hse : ∀ c ∈ yapfTag ++ msg.drop 9, env.isBreak c = false := by
      intro c hc
      rcases List.mem_append.1 hc with hc | hc
      · exact htag c hc
      · exact hmsg c ((List.drop_sublist _ _).subset hc)
    have hsne : yapfTag ++ msg.drop 9 ≠ [] := by simp [yapfTag]
    have hlne : (splitlines env.isBreak src).map (wrapLine env.isSpace) ≠ [] := by
      intro e
      rw [List.map_eq_nil_iff] at e
      exact hne (splitlines_nil e)
    -- lines of the text with the message
    have key : ∀ (a : List Char) (ls : List (List Char)), splitlines env.isBreak a = ls →
        splitlines env.isBreak (a ++ ['\n']) = ls →
        splitlines env.isBreak (a ++ '\n' :: (yapfTag ++ msg.drop 9)) =
          ls ++ [(yapfTag ++ msg.drop 9)] := by
      intro a
      induction a with
      | nil =>
        intro ls e1 e2
        simp only [splitlines] at e1
        subst e1
        simp [splitlines, laws.newline] at e2
      | cons c a ih =>
        intro ls e1 e2
        cases hb : env.isBreak c with
        | true =>
          simp only [List.cons_append, splitlines, hb, if_true] at e1 e2 ⊢
          subst e1
          simp only [List.cons.injEq, true_and] at e2
          rw [ih _ rfl e2]
          rfl
        | false =>
          simp only [List.cons_append, splitlines, hb, Bool.false_eq_true, if_false] at e1 e2 ⊢
          rcases eq_or_ne a [] with rfl | hane
          · simp only [List.nil_append, splitlines, laws.newline, if_true] at e1 e2 ⊢
            subst e1
            rw [splitlines_single hse hsne]
            rfl
          · have hn1 : splitlines env.isBreak a ≠ [] := fun e => hane (splitlines_nil e)
            have hn2 : splitlines env.isBreak (a ++ ['\n']) ≠ [] :=
              fun e => by simpa using splitlines_nil e
            have heq : splitlines env.isBreak (a ++ ['\n']) = splitlines env.isBreak a := by
              cases g1 : splitlines env.isBreak a with
              | nil => exact absurd g1 hn1
              | cons x xs =>
                cases g2 : splitlines env.isBreak (a ++ ['\n']) with
                | nil => exact absurd g2 hn2
                | cons y ys =>
                  rw [g1] at e1
                  rw [g2] at e2
                  simp only at e1 e2
                  rw [← e1] at e2
                  simp only [List.cons.injEq, true_and] at e2
                  rw [e2.1, e2.2]
            rw [ih _ rfl heq]
            cases g1 : splitlines env.isBreak a with
            | nil => exact absurd g1 hn1
            | cons x xs =>
              rw [g1] at e1
              simp only at e1
              rw [← e1]
              rfl
    have hk := key (wrappedText env src) _ h1 (h2 hne)
    have hun : unwrapLine env.isSpace (yapfTag ++ msg.drop 9) = yapfTag ++ msg.drop 9 := by
      have : matchesEscape env.isSpace (yapfTag ++ msg.drop 9) = false := by
        have hd : (yapfTag ++ msg.drop 9).dropWhile env.isSpace = yapfTag ++ msg.drop 9 := by
          rw [show yapfTag ++ msg.drop 9 = '#' :: (yapfTag.tail ++ msg.drop 9) from rfl]
          simp [hsp]
        simp only [matchesEscape, hd]
        rfl
      simp [unwrapLine, this]
    have hjl : ∀ ls : List (List Char), ls ≠ [] → ∀ x, joinLines (ls ++ [x]) = joinLines ls ++ '\n' :: x := by
      intro ls
      induction ls with
      | nil => intro h; exact absurd rfl h
      | cons l ls ih =>
        intro _ x
        rcases eq_or_ne ls [] with rfl | hn
        · rfl
        · rw [List.cons_append, joinLines_cons (by simp), ih hn, joinLines_cons hn]
          simp
    have hsl : splitlines env.isBreak src ≠ [] := fun e => hne (splitlines_nil e)
    simp only [newSource, hw, hf, hc', Bool.not_false, Bool.true_and, if_true, Bool.false_eq_true,
      if_false, hk, List.map_append, unwrap_wrapped laws h, List.map_cons, List.map_nil, hun, hjl _ hsl, hj,
      Bool.true_or]

/-- Formatting a formatted cell changes nothing: if the formatter returned `t`, with no line that looks like a
command, with a last line that is not empty, and returns `t` again for the lines of `t`. -/
theorem C90_again (laws : NbLaws env) {src t : List Char} {tagErrors : Bool}
    (hf : env.format (wrappedText env src) = .ok t)
    (hc : ∀ l ∈ splitlines env.isBreak t, matchesCommand env.isSpace l = false)
    (hlast : (splitlines env.isBreak t).getLast? ≠ some [])
    (hidem : env.format (joinLines (splitlines env.isBreak t)) = .ok t) :
    newSource env tagErrors (newSource env tagErrors src).1 = ((newSource env tagErrors src).1, false) := by
  have hnew : (newSource env tagErrors src).1 =
      joinLines ((splitlines env.isBreak t).map (unwrapLine env.isSpace)) := by
    simp only [newSource]
    rw [show joinLines ((splitlines env.isBreak src).map (wrapLine env.isSpace)) = wrappedText env src
      from rfl, hf]
  have hub : ∀ l ∈ (splitlines env.isBreak t).map (unwrapLine env.isSpace), ∀ c ∈ l,
      env.isBreak c = false := by
    intro l hl
    obtain ⟨l', hl', rfl⟩ := List.mem_map.1 hl
    have h' := splitlines_no_break t l' hl'
    intro c hc'
    refine h' c ?_
    unfold unwrapLine at hc'
    split at hc'
    · rcases List.mem_append.1 hc' with hc' | hc'
      · exact (List.takeWhile_sublist _).subset hc'
      · exact (List.take_sublist _ _).subset ((List.drop_sublist _ _).subset hc')
    · exact hc'
  have hul : ((splitlines env.isBreak t).map (unwrapLine env.isSpace)).getLast? ≠ some [] := by
    rw [List.getLast?_map]
    cases hg : (splitlines env.isBreak t).getLast? with
    | none => simp
    | some l =>
      have hne : l ≠ [] := fun e => hlast (by rw [hg, e])
      simp only [Option.map_some, ne_eq, Option.some.injEq]
      cases he : matchesEscape env.isSpace l with
      | false => simpa [unwrapLine, he] using hne
      | true =>
        obtain ⟨indent, c, rest, rfl, hi, hcc, hr⟩ := (C90_escaped laws.pass l).1 he
        rw [unwrapLine_escape laws.pass hi hcc hr]
        simp
  have hs := (splitlines_joinLines laws.newline hub hul).1
  have hww : ((splitlines env.isBreak t).map (unwrapLine env.isSpace)).map (wrapLine env.isSpace) =
      splitlines env.isBreak t := by
    rw [List.map_map]
    conv_rhs => rw [← List.map_id (splitlines env.isBreak t)]
    apply List.map_congr_left
    intro l hl
    exact (C90_wrap_unwrap laws.bang laws.percent laws.pass l).2 (hc l hl)
  rw [hnew]
  simp only [newSource, hs, hww, hidem]
  simp

/-- `t in s` holds exactly if `t` is a part of `s`. -/
theorem contains_iff (t s : List Char) : contains t s = true ↔ t <:+: s := by
  induction s with
  | nil => simp [contains]
  | cons c s ih =>
    simp only [contains, Bool.or_eq_true, ih, List.isPrefixOf_iff_prefix, List.infix_cons_iff]

/-- The cells that are not formatted: those that are not code, those with whitespace only, and those with
`# yapf: ignore` in the first line. -/
theorem C90_selected (env : NbEnv) (c : Cell) :
    cellSelected env c = false ↔ c.code = false ∨ (c.source ≠ [] ∧ ∀ x ∈ c.source, env.isSpace x = true) ∨
      ∃ before rest, c.source = before ++ rest ∧ '\n' ∉ before ∧
        ['#', ' ', 'y', 'a', 'p', 'f', ':', ' ', 'i', 'g', 'n', 'o', 'r', 'e'] <:+: before := by
  have hfl : contains ignoreTag (firstLine c.source) = true ↔
      ∃ before rest, c.source = before ++ rest ∧ '\n' ∉ before ∧ ignoreTag <:+: before := by
    rw [contains_iff]
    constructor
    · intro h
      refine ⟨firstLine c.source, c.source.dropWhile (· != '\n'),
        (List.takeWhile_append_dropWhile).symm, ?_, h⟩
      intro hm
      have := mem_takeWhile_imp hm
      simp at this
    · rintro ⟨before, rest, h1, h2, h3⟩
      refine h3.trans ?_
      rw [h1, firstLine, List.takeWhile_append_of_pos]
      · exact (List.prefix_append _ _).isInfix
      · intro x hx
        simp only [bne_iff_ne, ne_eq]
        rintro rfl
        exact h2 hx
  rw [show ['#', ' ', 'y', 'a', 'p', 'f', ':', ' ', 'i', 'g', 'n', 'o', 'r', 'e'] = ignoreTag from rfl, ← hfl]
  unfold cellSelected
  cases c.code <;> cases contains ignoreTag (firstLine c.source) <;>
    simp [List.all_eq_true]

/-- Cells that are not code, cells of whitespace only, and cells with `# yapf: ignore` in the first line are
kept; the number and types of cells are kept; the other cells get their new source. -/
theorem C90_cells (env : NbEnv) (tagErrors : Bool) (i : Nat) (cells : List Cell) :
    (formatCells env tagErrors i cells).1 = cells.map fun c =>
      if cellSelected env c && (newSource env tagErrors c.source).2 then
        { c with source := (newSource env tagErrors c.source).1 } else c := by
  induction cells generalizing i with
  | nil => rfl
  | cons c cs ih =>
    simp only [formatCells, List.map_cons, ← ih (i + 1)]
    cases h1 : cellSelected env c
    · simp
    · cases h2 : (newSource env tagErrors c.source).2 <;> simp

theorem formatCells_nil {env : NbEnv} {tagErrors : Bool} {i : Nat} {cells : List Cell} :
    (formatCells env tagErrors i cells).2 = [] ↔
      ∀ c ∈ cells, cellSelected env c = true → (newSource env tagErrors c.source).2 = false := by
  induction cells generalizing i with
  | nil => simp [formatCells]
  | cons c cs ih =>
    simp only [formatCells, List.forall_mem_cons, ← ih (i := i + 1)]
    cases h1 : cellSelected env c
    · simp
    · cases h2 : (newSource env tagErrors c.source).2 <;> simp

/-- The notebook is written if and only if some cell has to be changed and this is no dry run; the result
tells if some cell has to be changed. -/
theorem C90_file (env : NbEnv) (dryRun tagErrors : Bool) (cells : List Cell) :
    ((formatNb env dryRun tagErrors cells).2 = true ↔
      ∃ c ∈ cells, cellSelected env c = true ∧ (newSource env tagErrors c.source).2 = true) ∧
    (formatNb env dryRun tagErrors cells).1 =
      if (formatNb env dryRun tagErrors cells).2 && !dryRun then
        some (formatCells env tagErrors 0 cells).1 else none := by
  have hn := formatCells_nil (env := env) (tagErrors := tagErrors) (i := 0) (cells := cells)
  unfold formatNb
  simp only
  by_cases h : (formatCells env tagErrors 0 cells).2 = []
  · simp only [h, if_true, Bool.false_and, Bool.false_eq_true, if_false, false_iff, and_true]
    rintro ⟨c, hc, h1, h2⟩
    rw [hn.1 h c hc h1] at h2
    cases h2
  · simp only [h, if_false, Bool.true_and, true_iff]
    refine ⟨?_, by cases dryRun <;> rfl⟩
    refine Classical.byContradiction fun hne => h (hn.2 fun c hc h1 => ?_)
    cases h2 : (newSource env tagErrors c.source).2 with
    | false => rfl
    | true => exact absurd ⟨c, hc, h1, h2⟩ hne

/-- Without errors that are tagged, a cell has to be changed exactly if its new source is another one. -/
theorem C90_changed (env : NbEnv) (src : List Char) :
    (newSource env false src).2 = true ↔ (newSource env false src).1 ≠ src := by
  unfold newSource
  generalize joinLines ((splitlines env.isBreak src).map (wrapLine env.isSpace)) = w
  simp only [Bool.and_false, Bool.false_eq_true, if_false]
  cases env.format w with
  | ok t =>
    simp only [Bool.false_or, bne_iff_ne, ne_eq]
    exact not_congr eq_comm
  | error msg =>
    simp only [Bool.false_or, bne_iff_ne, ne_eq]
    exact not_congr eq_comm

end Cells

/-! ## Cases -/

namespace NbEx

/-- A formatter that removes spaces before newlines, and raises for texts that begin with `(`. -/
def env : NbEnv where
  isSpace c := c == ' ' || c == '\n'
  isBreak c := c == '\n' || c == '\r'
  format s := if s.head? = some '(' then .error "<unknown>:1:1: bad".toList
    else .ok (s ++ ['\n'])

theorem laws : NbLaws env := by
  refine ⟨rfl, rfl, rfl, rfl, ?_⟩
  decide

example : String.ofList (wrapLine env.isSpace "  %time f(x)".toList) =
    "  pass  # %time f(x)  # escaped-for-yapf" := by decide +kernel

example : String.ofList (unwrapLine env.isSpace (wrapLine env.isSpace "  %time f(x)".toList)) =
    "  %time f(x)" := by decide +kernel

/-- A line that looks like a wrapped command. -/
example : String.ofList (unwrapLine env.isSpace
    (wrapLine env.isSpace "pass  # !ls  # escaped-for-yapf".toList)) = "!ls" := by decide +kernel

theorem plain : PlainSource env "!ls\nx = 1".toList :=
  ⟨by decide +kernel, by decide +kernel, by decide +kernel⟩

example : newSource env true "!ls\nx = 1".toList = ("!ls\nx = 1".toList, false) :=
  C90_keep laws plain (.inr (.inl ⟨by decide, by decide +kernel⟩))

/-- A newline at the end of a cell is removed. -/
example : newSource env true "!ls\nx = 1\n".toList = ("!ls\nx = 1".toList, true) := by decide +kernel

theorem plain2 : PlainSource env "(\n!ls".toList :=
  ⟨by decide +kernel, by decide +kernel, by decide +kernel⟩

example : newSource env true "(\n!ls".toList = ("(\n!ls\n# yapf:1:1: bad".toList, true) :=
  C90_tag laws plain2 (by decide) (msg := "<unknown>:1:1: bad".toList) (by decide +kernel)
    (by decide +kernel) (by decide +kernel) rfl

example : newSource env false (newSource env false "!ls\nx = 1\n".toList).1 =
    ((newSource env false "!ls\nx = 1\n".toList).1, false) :=
  C90_again laws (t := wrappedText env "!ls\nx = 1\n".toList ++ ['\n']) (by decide +kernel)
    (by decide +kernel) (by decide +kernel) (by decide +kernel)

example : formatNb env false false [⟨false, "a\n".toList⟩, ⟨true, "b\n".toList⟩,
      ⟨true, "# yapf: ignore\n".toList⟩] =
    (some [⟨false, "a\n".toList⟩, ⟨true, "b".toList⟩, ⟨true, "# yapf: ignore\n".toList⟩], true) := by
  decide +kernel

example : formatNb env true false [⟨false, "a\n".toList⟩, ⟨true, "b\n".toList⟩] = (none, true) := by
  decide +kernel

end NbEx

end Verif.Scripts
