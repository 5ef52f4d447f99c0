import Verif.Widgets.StyleModel

/-!
# Styles and colours from the theme (C175)
-/
set_option autoImplicit false
set_option linter.unusedSectionVars false
set_option linter.unusedSimpArgs false

namespace Verif.Widgets.Style

variable {V W : Type}

/-- C175: the colour of the theme is used exactly if it is a colour; otherwise the default. So what comes back is a
colour, or the default. -/
theorem C175_value (isColor : V → Bool) (s : V) (dflt : Option V) :
    (isColor s = true → rootColor isColor s dflt none = .value (some s))
      ∧ (isColor s = false → rootColor isColor s dflt none = .value dflt) := by
  constructor <;> intro h <;> simp [rootColor, h]

example : rootColor (fun s : String => s != "") "" (some "C3") none = .value (some "C3") := by decide +kernel

/-- C175: with a key the result is a dictionary with that key only, and it has the key exactly if there is a colour or
a default: so no option is ever given as `None`, and without a default every value in it is a colour. -/
theorem C175_key (isColor : V → Bool) (s : V) (dflt : Option V) (k : String) :
    ∃ d, rootColor isColor s dflt (some k) = .dict d ∧ d.length ≤ 1 ∧ (∀ p ∈ d, p.1 = k)
      ∧ (d = [] ↔ isColor s = false ∧ dflt = none)
      ∧ (∀ p ∈ d, isColor s = true → p.2 = s)
      ∧ (∀ p ∈ d, isColor s = false → some p.2 = dflt)
      ∧ (dflt = none → ∀ p ∈ d, isColor p.2 = true) := by
  cases h : isColor s
  · cases dflt with
    | none => exact ⟨[], by simp [rootColor, h]⟩
    | some v => exact ⟨[(k, v)], by simp [rootColor, h]⟩
  · exact ⟨[(k, s)], by simp [rootColor, h]⟩

example : rootColor (fun s : String => s != "") "" none (some "facecolor") = .dict []
    ∧ rootColor (fun s : String => s != "") "red" none (some "facecolor") = .dict [("facecolor", "red")] := by
  decide +kernel

/-- C175: the colours of the legend are never given twice, whatever the theme has. -/
theorem C175_legend (isColor : V → Bool) (s t : V) (d e : Option V) (k l : String) (hkl : k ≠ l)
    (a b : List (String × V)) (ha : rootColor isColor s d (some k) = .dict a)
    (hb : rootColor isColor t e (some l) = .dict b) : mergeKwargs a b = some (a ++ b) := by
  obtain ⟨a', ha', _, hk, _⟩ := C175_key isColor s d k
  obtain ⟨b', hb', _, hl, _⟩ := C175_key isColor t e l
  obtain rfl : a = a' := by simpa using ha.symm.trans ha'
  obtain rfl : b = b' := by simpa using hb.symm.trans hb'
  have : a.any (fun p => b.any (fun q => q.1 == p.1)) = false := by
    simp only [List.any_eq_false, beq_iff_eq]
    intro p hp h
    simp only [List.any_eq_true, beq_iff_eq] at h
    obtain ⟨q, hq, h⟩ := h
    exact hkl ((hk p hp).symm.trans (h.symm.trans (hl q hq)))
  simp [mergeKwargs, this]

example : "labelcolor" ≠ "facecolor" := by decide

/-! ## The toolbar -/

/-- Specification: `c` is the first class of the order that the widget belongs to. -/
def FirstClass (isinstance : TkClass → Bool) (c : TkClass) : Prop :=
  ∃ l r, remapOrder = l ++ c :: r ∧ isinstance c = true ∧ ∀ d ∈ l, isinstance d = false

theorem restyle_first (style : String → String → String) (isinstance : TkClass → Bool) (c : TkClass)
    (l r : List TkClass) (hc : isinstance c = true) (hl : ∀ d ∈ l, isinstance d = false) :
    restyle style isinstance (l ++ c :: r) = configOf style c := by
  induction l with
  | nil => simp [restyle, hc]
  | cons d l ih =>
    have hd := hl d (by simp)
    simp only [List.cons_append, restyle, hd]
    simpa using ih (fun d h => hl d (by simp [h]))

theorem restyle_none (style : String → String → String) (isinstance : TkClass → Bool) (l : List TkClass)
    (hl : ∀ d ∈ l, isinstance d = false) : restyle style isinstance l = [] := by
  induction l with
  | nil => rfl
  | cons d l ih =>
    simp only [restyle, hl d (by simp)]
    simpa using ih (fun d h => hl d (by simp [h]))

/-- C175: a widget is configured by its first class only: an option is set to a value exactly if it is the flat relief
of a button or check button, or the class has a mapping to it whose style has that value and is not empty. -/
theorem C175_option (style : String → String → String) (isinstance : TkClass → Bool) (c : TkClass)
    (h : FirstClass isinstance c) (k v : String) :
    (k, v) ∈ restyle style isinstance remapOrder ↔
      ((c = .button ∨ c = .checkbutton) ∧ k = "relief" ∧ v = "flat")
        ∨ ∃ f, (f, k) ∈ c.mappings ∧ style c.style f = v ∧ v ≠ "" := by
  obtain ⟨l, r, ho, hc, hl⟩ := h
  rw [ho, restyle_first style isinstance c l r hc hl]
  simp only [configOf, List.mem_append, List.mem_filterMap]
  refine or_congr ?_ ?_
  · by_cases hb : c = .button ∨ c = .checkbutton <;> simp [hb]
  · constructor
    · rintro ⟨⟨f, k'⟩, hm, h⟩
      by_cases hv : style c.style f = ""
      · simp [hv] at h
      · simp only [ne_eq, hv, not_false_eq_true, if_true, Option.some.injEq, Prod.mk.injEq] at h
        obtain ⟨rfl, rfl⟩ := h
        exact ⟨f, hm, rfl, hv⟩
    · rintro ⟨f, hm, rfl, hv⟩
      exact ⟨(f, k), hm, by simp [hv]⟩

example : FirstClass (fun c => c == .checkbutton || c == .frame) .checkbutton :=
  ⟨[.button, .label], [.frame], rfl, rfl, by decide⟩

/-- C175: every widget of the toolbar that belongs to none of the classes is left as it is; a style that is empty
throughout changes the relief only; no widget gets an empty value; no option of a widget is set twice. -/
theorem C175_toolbar (style : String → String → String) (isinstance : W → TkClass → Bool) (ws : List W) (w : W) :
    ((∀ c, isinstance w c = false) → ∀ o, (w, o) ∉ restyleAll style isinstance ws)
      ∧ ((∀ s k, style s k = "") → ∀ o, (w, o) ∈ restyleAll style isinstance ws → o = ("relief", "flat"))
      ∧ (∀ k v, (w, k, v) ∈ restyleAll style isinstance ws → v ≠ "")
      ∧ ((restyle style (isinstance w) remapOrder).map Prod.fst).Nodup := by
  have hmem : ∀ o, (w, o) ∈ restyleAll style isinstance ws → o ∈ restyle style (isinstance w) remapOrder := by
    intro o h
    simp only [restyleAll, List.mem_flatMap, List.mem_map] at h
    obtain ⟨w', _, o', ho, he⟩ := h
    obtain ⟨rfl, rfl⟩ := Prod.mk.inj he
    exact ho
  have hcase : restyle style (isinstance w) remapOrder = [] ∨ ∃ c, FirstClass (isinstance w) c := by
    by_cases h1 : isinstance w .button = true
    · exact .inr ⟨_, [], _, rfl, h1, by simp⟩
    by_cases h2 : isinstance w .label = true
    · exact .inr ⟨_, [.button], _, rfl, h2, by simpa using h1⟩
    by_cases h3 : isinstance w .checkbutton = true
    · exact .inr ⟨_, [.button, .label], _, rfl, h3, by simpa using And.intro h1 h2⟩
    by_cases h4 : isinstance w .frame = true
    · exact .inr ⟨_, [.button, .label, .checkbutton], _, rfl, h4, by simpa using And.intro h1 (And.intro h2 h3)⟩
    · exact .inl (restyle_none style _ _ (by simp only [Bool.not_eq_true] at h1 h2 h3 h4; simp [remapOrder, h1, h2, h3, h4]))
  refine ⟨?_, ?_, ?_, ?_⟩
  · intro h o ho
    have := hmem o ho
    rw [restyle_none style _ _ (fun c _ => h c)] at this
    simp at this
  · rintro hs ⟨k, v⟩ ho
    have := hmem _ ho
    rcases hcase with h0 | ⟨c, hc⟩
    · rw [h0] at this; simp at this
    · rcases (C175_option style _ c hc k v).1 this with ⟨_, rfl, rfl⟩ | ⟨f, _, h, hv⟩
      · rfl
      · exact absurd (h.symm.trans (hs _ _)) hv
  · intro k v ho
    have := hmem _ ho
    rcases hcase with h0 | ⟨c, hc⟩
    · rw [h0] at this; simp at this
    · rcases (C175_option style _ c hc k v).1 this with ⟨_, _, rfl⟩ | ⟨f, _, _, hv⟩
      · decide
      · exact hv
  · rcases hcase with h0 | ⟨c, l, r, ho, hc, hl⟩
    · rw [h0]; simp
    · rw [ho, restyle_first style _ c l r hc hl]
      have hsub : (((configOf style c).map Prod.fst)).Sublist
          ((if c = .button ∨ c = .checkbutton then ["relief"] else []) ++ c.mappings.map Prod.snd) := by
        simp only [configOf, List.map_append]
        refine List.Sublist.append ?_ ?_
        · split <;> simp
        · induction c.mappings with
          | nil => simp
          | cons m ms ih =>
            by_cases hv : style c.style m.1 = ""
            · simpa [List.filterMap_cons, hv] using ih.cons m.2
            · simpa [List.filterMap_cons, hv] using ih.cons_cons m.2
      refine List.Nodup.sublist hsub ?_
      cases c <;> decide

example : restyleAll (fun s k => if s = "TLabel" ∧ k = "background" then "red" else "")
    (fun (w : Nat) c => w == 1 && c == .label) [0, 1] = [(1, "bg", "red")] := by decide +kernel

/-- C175: all widgets of the toolbar are treated, each on its own: the options that a widget gets do not depend on the
others. -/
theorem C175_each (style : String → String → String) (isinstance : W → TkClass → Bool) (ws : List W) (w : W)
    (hw : w ∈ ws) (o : String × String) :
    (w, o) ∈ restyleAll style isinstance ws ↔ (w, o) ∈ restyleAll style isinstance [w] := by
  simp only [restyleAll, List.mem_flatMap, List.mem_map, List.mem_singleton]
  constructor
  · rintro ⟨w', _, o', ho, he⟩
    obtain ⟨rfl, rfl⟩ := Prod.mk.inj he
    exact ⟨w', rfl, o', ho, rfl⟩
  · rintro ⟨w', rfl, h⟩
    exact ⟨w', hw, h⟩

example : (1 : Nat) ∈ [0, 1] := by decide

end Verif.Widgets.Style
