import Mathlib.Data.List.Nodup
import Verif.Widgets.TabModel

/-!
# C168: rows of the settings, and selections at a change of tab
-/

set_option autoImplicit false
set_option linter.unusedSectionVars false
set_option linter.unusedSimpArgs false

namespace Verif.Tab

/-! ## Rows -/

theorem put_new (l : List Setting) (s : Setting) (h : ∀ t ∈ l, t.name ≠ s.name) : putSetting l s = l ++ [s] := by
  induction l with
  | nil => rfl
  | cons t l ih =>
    rw [putSetting, if_neg (h t (by simp)), ih fun t ht => h t (by simp [ht])]
    rfl

theorem put_length (l : List Setting) (s : Setting) :
    (putSetting l s).length = if (∃ t ∈ l, t.name = s.name) then l.length else l.length + 1 := by
  induction l with
  | nil => simp [putSetting]
  | cons t l ih =>
    rw [putSetting]
    by_cases h : t.name = s.name
    · rw [if_pos h, if_pos ⟨t, by simp, h⟩]
      rfl
    · rw [if_neg h]
      simp only [List.length_cons, ih]
      by_cases h2 : ∃ t ∈ l, t.name = s.name
      · rw [if_pos h2, if_pos (by obtain ⟨u, u1, u2⟩ := h2; exact ⟨u, by simp [u1], u2⟩)]
      · rw [if_neg h2, if_neg (by
          rintro ⟨u, u1, u2⟩
          rcases List.mem_cons.1 u1 with rfl | u1
          · exact h u2
          · exact h2 ⟨u, u1, u2⟩)]

/-- C168: for every list of settings with different names, the tab has these settings in this order, and each has its
own row of the grid: setting `i` is in row `i`. -/
theorem C168_rows (specs : List Setting) (h : (specs.map Setting.name).Nodup) :
    (addAll specs).1 = specs ∧ (addAll specs).2 = specs.zipIdx := by
  have key : ∀ (l pre : List Setting) (rows : List (Setting × Nat)), ((pre ++ l).map Setting.name).Nodup →
      (l.foldl addSetting (pre, rows)).1 = pre ++ l ∧
      (l.foldl addSetting (pre, rows)).2 = rows ++ l.zipIdx pre.length := by
    intro l
    induction l with
    | nil => intro pre rows _; simp
    | cons s l ih =>
      intro pre rows hn
      have hs : ∀ t ∈ pre, t.name ≠ s.name := by
        intro t ht e
        rw [List.map_append, List.nodup_append] at hn
        exact hn.2.2 t.name (List.mem_map.2 ⟨t, ht, rfl⟩) s.name (by simp) e
      have := ih (pre ++ [s]) (rows ++ [(s, pre.length)]) (by simpa using hn)
      rw [List.foldl_cons]
      have e : addSetting (pre, rows) s = (pre ++ [s], rows ++ [(s, pre.length)]) := by
        simp [addSetting, put_new pre s hs]
      rw [e, this.1, this.2]
      simp [List.zipIdx_cons]
  have := key specs [] [] (by simpa using h)
  simpa [addAll] using this

/-- C168: a name that is used twice puts the widgets of the next setting onto those of the second use: both get the
same row. -/
theorem C168_twice (specs : List Setting) (s t : Setting) (h : ∃ u ∈ (addAll specs).1, u.name = s.name) :
    ∃ n rows, (addAll (specs ++ [s, t])).2 = rows ++ [(s, n), (t, n)] := by
  refine ⟨(addAll specs).1.length, (addAll specs).2, ?_⟩
  have hl : (putSetting (addAll specs).1 s).length = (addAll specs).1.length := by rw [put_length, if_pos h]
  simp only [addAll] at hl ⊢
  rw [List.foldl_append]
  simp [addSetting, hl]

/-! ## Selections -/

theorem clear_prefix (fail : String → Option PyErr) (l : List Setting) (h : ∀ s ∈ l, s.spacer = false)
    (hf : ∀ s ∈ l, fail s.name = none) (r : List Setting) : ∀ sel : String → Bool,
    clearAll fail (l ++ r) sel =
      clearAll fail r fun n => if n ∈ l.map Setting.name then false else sel n := by
  induction l with
  | nil => intro sel; simp
  | cons s l ih =>
    intro sel
    rw [List.cons_append, clearAll, if_neg (by simp [h s (by simp)]), hf s (by simp)]
    simp only
    rw [ih (fun s hs => h s (by simp [hs])) (fun s hs => hf s (by simp [hs]))]
    congr 1
    funext n
    by_cases h1 : n ∈ l.map Setting.name
    · simp only [h1, if_true, List.map_cons, List.mem_cons, or_true]
    · by_cases h2 : n = s.name
      · simp [h1, h2]
      · simp [h1, h2]

/-- C168: a tab of settings without a spacer, whose entries raise nothing: afterwards nothing is selected in any
of them, other selections stay, and there is no exception. -/
theorem C168_all (fail : String → Option PyErr) (l : List Setting) (h : ∀ s ∈ l, s.spacer = false)
    (hf : ∀ s ∈ l, fail s.name = none) (sel : String → Bool) :
    ∃ sel', clearAll fail l sel = (sel', none) ∧ (∀ s ∈ l, sel' s.name = false) ∧
      ∀ n, n ∉ l.map Setting.name → sel' n = sel n := by
  have := clear_prefix fail l h hf [] sel
  rw [List.append_nil] at this
  refine ⟨_, this, fun s hs => ?_, fun n hn => by simp only [hn, if_false]⟩
  have : s.name ∈ l.map Setting.name := List.mem_map.2 ⟨s, hs, rfl⟩
  simp only [this, if_true]

/-- C168: a spacer ends the loop: the entries before the first spacer are cleared, those after it are not (names
being different), and the method raises `AttributeError`. -/
theorem C168_spacer (fail : String → Option PyErr) (l r : List Setting) (s : Setting) (hs : s.spacer = true)
    (h : ∀ s ∈ l, s.spacer = false) (hf : ∀ s ∈ l, fail s.name = none) (sel : String → Bool) :
    ∃ sel', clearAll fail (l ++ s :: r) sel = (sel', some .attributeError) ∧ (∀ t ∈ l, sel' t.name = false) ∧
      ∀ n, n ∉ l.map Setting.name → sel' n = sel n := by
  rw [clear_prefix fail l h hf (s :: r) sel]
  refine ⟨_, by rw [clearAll, if_pos hs], fun s hs => ?_, fun n hn => by simp only [hn, if_false]⟩
  have : s.name ∈ l.map Setting.name := List.mem_map.2 ⟨s, hs, rfl⟩
  simp only [this, if_true]

/-- C168: a change of tab never raises `AttributeError`, for all tabs, selections and entries. -/
theorem C168_silent (fail : String → Option PyErr) (ts : List Tab) : ∀ sel : String → Bool,
    (resetTabs fail ts sel).2 ≠ some .attributeError := by
  induction ts with
  | nil => intro sel; simp [resetTabs]
  | cons t ts ih =>
    intro sel
    cases t with
    | plain => exact ih sel
    | settings l =>
      rw [resetTabs]
      split
      · exact ih _
      · exact ih _
      · rename_i e hne heq
        intro h
        simp only [Option.some.injEq] at h
        subst h
        simp_all

/-- C168: another exception of an entry leaves the loop: the entries before it are cleared, the others and the
following tabs are not reached. -/
theorem C168_other (fail : String → Option PyErr) (l r : List Setting) (s : Setting) (e : PyErr)
    (hs : s.spacer = false) (he : fail s.name = some e) (hne : e ≠ .attributeError) (h : ∀ s ∈ l, s.spacer = false)
    (hf : ∀ s ∈ l, fail s.name = none) (ts : List Tab) (sel : String → Bool) :
    ∃ sel', resetTabs fail (.plain :: .settings (l ++ s :: r) :: ts) sel = (sel', some e) ∧
      (∀ t ∈ l, sel' t.name = false) ∧ ∀ n, n ∉ l.map Setting.name → sel' n = sel n := by
  have hc : clearAll fail (l ++ s :: r) sel =
      ((fun n => if n ∈ l.map Setting.name then false else sel n), some e) := by
    rw [clear_prefix fail l h hf (s :: r) sel, clearAll, if_neg (by simp [hs]), he]
  refine ⟨fun n => if n ∈ l.map Setting.name then false else sel n, ?_, fun s hs => ?_,
    fun n hn => by simp only [hn, if_false]⟩
  · simp only [resetTabs, hc]
  · have : s.name ∈ l.map Setting.name := List.mem_map.2 ⟨s, hs, rfl⟩
    simp only [this, if_true]

/-- C168: no selection is ever made by a change of tab. -/
theorem C168_only_clears (fail : String → Option PyErr) (ts : List Tab) : ∀ (sel : String → Bool) (n : String),
    (resetTabs fail ts sel).1 n = true → sel n = true := by
  have hc : ∀ (l : List Setting) (sel : String → Bool) (n : String),
      (clearAll fail l sel).1 n = true → sel n = true := by
    intro l
    induction l with
    | nil => intro sel n h; exact h
    | cons s l ih =>
      intro sel n h
      rw [clearAll] at h
      by_cases hs : s.spacer = true
      · rw [if_pos hs] at h
        exact h
      · rw [if_neg hs] at h
        cases hf : fail s.name with
        | some e => rw [hf] at h; exact h
        | none =>
          rw [hf] at h
          have := ih _ n h
          by_cases hn : n = s.name
          · simp [hn] at this
          · simpa [hn] using this
  induction ts with
  | nil => intro sel n h; exact h
  | cons t ts ih =>
    intro sel n h
    cases t with
    | plain => exact ih sel n h
    | settings l =>
      rw [resetTabs] at h
      have hl := hc l sel n
      cases hcl : clearAll fail l sel with
      | mk sel' o =>
        rw [hcl] at h hl
        cases o with
        | none => exact hl (ih sel' n h)
        | some e => cases e <;> first | exact hl (ih sel' n h) | exact hl h

/-- C168: a change of tab clears all entries of every tab without spacers, wherever it stands, if entries raise
nothing. -/
theorem C168_tabs (pre post : List Tab) (l : List Setting) (h : ∀ s ∈ l, s.spacer = false) (sel : String → Bool) :
    ∀ s ∈ l, (resetTabs (fun _ => none) (pre ++ .settings l :: post) sel).1 s.name = false := by
  have hpre : ∀ (pre rest : List Tab) (sel : String → Bool), ∃ sel',
      resetTabs (fun _ => none) (pre ++ rest) sel = resetTabs (fun _ => none) rest sel' := by
    intro pre rest
    induction pre with
    | nil => intro sel; exact ⟨sel, rfl⟩
    | cons t pre ih =>
      intro sel
      cases t with
      | plain => exact ih sel
      | settings l =>
        have hc : ∀ (l : List Setting) (sel : String → Bool), ∃ sel', clearAll (fun _ => none) l sel = (sel', none) ∨
            clearAll (fun _ => none) l sel = (sel', some .attributeError) := by
          intro l
          induction l with
          | nil => intro sel; exact ⟨sel, Or.inl rfl⟩
          | cons s l ih =>
            intro sel
            rw [clearAll]
            by_cases hs : s.spacer = true
            · exact ⟨sel, Or.inr (by rw [if_pos hs])⟩
            · simp only [if_neg hs]
              exact ih _
        obtain ⟨sel', h | h⟩ := hc l sel
        · obtain ⟨sel'', h2⟩ := ih sel'
          exact ⟨sel'', by rw [List.cons_append, resetTabs, h]; exact h2⟩
        · obtain ⟨sel'', h2⟩ := ih sel'
          exact ⟨sel'', by rw [List.cons_append, resetTabs, h]; exact h2⟩
  intro s hs
  obtain ⟨sel1, h1⟩ := hpre pre (.settings l :: post) sel
  obtain ⟨sel2, h2, h3, -⟩ := C168_all (fun _ => none) l h (fun _ _ => rfl) sel1
  rw [h1, resetTabs, h2]
  by_contra hcon
  have := C168_only_clears (fun _ => none) post sel2 s.name (by simpa using hcon)
  rw [h3 s hs] at this
  cases this

/-- C168, with the settings and tabs of the project: the first setting is a spacer, so a change of tab clears
nothing at all, whatever is selected, and nothing is reported. -/
theorem C168_nothing (fail : String → Option PyErr) (sel : String → Bool) :
    resetTabs fail projectTabs sel = (sel, none) := by
  have h := (C168_rows projectSettings (by decide)).1
  simp only [projectTabs, h]
  rfl

/-- C168: with the settings of the project every widget has its own row. -/
theorem C168_project : (addAll projectSettings).2.map Prod.snd = List.range projectSettings.length := by
  rw [(C168_rows projectSettings (by decide)).2]
  decide

/-- Three settings, the second a spacer: the first is cleared, the third is not. -/
example : ["a", "b", "c"].map (resetTabs (fun _ => none)
    [.plain, .settings [⟨"a", false⟩, ⟨"b", true⟩, ⟨"c", false⟩], .plain] (fun _ => true)).1 =
    [false, true, true] := by decide

/-- An entry that raises something else. -/
example : (resetTabs (fun n => if n = "b" then some .valueError else none)
      [.settings [⟨"a", false⟩, ⟨"b", false⟩], .plain] (fun _ => true)).2 = some .valueError := by decide

end Verif.Tab
