import Verif.Py

/-!
# Settings on their tab and the change of tab (`sample/widgets/settings.py:549-574`, `sample/widgets/main.py:99-105`)
-/

set_option autoImplicit false

namespace Verif.Tab

/-- A setting: its name, and whether it is only a spacer (`sample/widgets/settings.py:459-461`: a spacer has no
attribute `entry`). -/
structure Setting where
  name : String
  spacer : Bool
  deriving DecidableEq

/-- `self._settings[name] = ...`: the dictionary in the order of insertion; an old setting with the name is replaced
in its place. -/
def putSetting : List Setting → Setting → List Setting
  | [], s => [s]
  | t :: l, s => if t.name = s.name then s :: l else t :: putSetting l s

/-- `add_setting` without an index, `sample/widgets/settings.py:549-574`: the row of the grid is the number of
settings before. -/
def addSetting (st : List Setting × List (Setting × Nat)) (s : Setting) : List Setting × List (Setting × Nat) :=
  (putSetting st.1 s, st.2 ++ [(s, st.1.length)])

/-- The loop of the constructor, `sample/widgets/settings.py:530-531`: the dictionary, and the row of every widget
that was made. -/
def addAll (specs : List Setting) : List Setting × List (Setting × Nat) := specs.foldl addSetting ([], [])

/-- `SettingsTab.reset_selections`, `sample/widgets/settings.py:544-547`: `sel` says for which names text is selected;
`fail` is what `selection_clear` of an entry raises.  The result is what is selected afterwards, and the exception. -/
def clearAll (fail : String → Option PyErr) : List Setting → (String → Bool) → (String → Bool) × Option PyErr
  | [], sel => (sel, none)
  | s :: l, sel =>
    if s.spacer then (sel, some .attributeError)
    else
      match fail s.name with
      | some e => (sel, some e)
      | none => clearAll fail l fun n => if n = s.name then false else sel n

/-- A tab: without a method `reset_selections` (`AudioLoadTab`, `AnalysisTab`), or a tab of settings. -/
inductive Tab
  | plain
  | settings (l : List Setting)

/-- `SAMPLEGUI.reset_selections`, `sample/widgets/main.py:99-105`, called at every change of tab: an
`AttributeError` goes on with the next tab, any other exception leaves the loop. -/
def resetTabs (fail : String → Option PyErr) : List Tab → (String → Bool) → (String → Bool) × Option PyErr
  | [], sel => (sel, none)
  | .plain :: ts, sel => resetTabs fail ts sel
  | .settings l :: ts, sel =>
    match clearAll fail l sel with
    | (sel', none) => resetTabs fail ts sel'
    | (sel', some .attributeError) => resetTabs fail ts sel'
    | (sel', some e) => (sel', some e)

/-- The settings of the project, `sample/widgets/settings.py:229-403`. -/
def projectSettings : List Setting :=
  [⟨"resynth_group", true⟩, ⟨"max_n_modes", false⟩, ⟨"analysis_space", true⟩, ⟨"analysis_group", true⟩,
   ⟨"sinusoidal__tracker__max_n_sines", false⟩, ⟨"sinusoidal__n", false⟩, ⟨"sinusoidal__tracker__h", false⟩,
   ⟨"wsize", false⟩, ⟨"wtype", false⟩, ⟨"sinusoidal__tracker__freq_dev_offset", false⟩,
   ⟨"sinusoidal__tracker__freq_dev_slope", false⟩, ⟨"smfb_0", false⟩, ⟨"smfb_1", false⟩,
   ⟨"sinusoidal__tracker__peak_threshold", false⟩, ⟨"sinusoidal__t", false⟩,
   ⟨"sinusoidal__tracker__min_sine_dur", false⟩, ⟨"sinusoidal__tracker__strip_t", false⟩,
   ⟨"sinusoidal__tracker__reverse", false⟩, ⟨"sinusoidal__padded", false⟩, ⟨"beatsdrop_space", true⟩,
   ⟨"beatsdrop_group", true⟩, ⟨"beatsdrop", false⟩, ⟨"parallel", false⟩, ⟨"n_jobs", false⟩,
   ⟨"beat_decisor__th", false⟩, ⟨"beatsdrop__lpf", false⟩, ⟨"gui_space", true⟩, ⟨"gui_group", true⟩,
   ⟨"gui_theme", false⟩]

/-- The tabs of the project, `sample/widgets/main.py:47-51`. -/
def projectTabs : List Tab := [.plain, .settings (addAll projectSettings).1, .plain]

end Verif.Tab
