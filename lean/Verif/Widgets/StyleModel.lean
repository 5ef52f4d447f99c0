/-!
# Styles and colours from the theme (`sample/widgets/utils.py:22-53`, `sample/widgets/pyplot.py:45-74,98-110`)

`root_style` is a function given as an argument (what `ttk.Style.lookup` says; the empty text if there is nothing).

Not modelled: the log messages, and whether Tk accepts an option or its value.
-/
set_option autoImplicit false

namespace Verif.Widgets.Style

/-- What `root_color` returns: a value or a dictionary, `sample/widgets/utils.py:48-50`. -/
inductive Colour (V : Type) where
  | value (c : Option V)
  | dict (d : List (String × V))
  deriving DecidableEq

/-- `root_color`, `sample/widgets/utils.py:33-50`, for the style `s` that was looked up; `isColor` is
`colors.is_color_like`, and `none` is `None`. -/
def rootColor {V : Type} (isColor : V → Bool) (s : V) (dflt : Option V) (key : Option String) : Colour V :=
  let c := if isColor s then some s else dflt
  match key with
  | none => .value c
  | some k =>
    match c with
    | some v => .dict [(k, v)]
    | none => .dict []

/-- `f(**d1, **d2)`, `sample/widgets/analysis.py:187-192`: `none` is the `TypeError` of a keyword that is given
twice. -/
def mergeKwargs {V : Type} (d1 d2 : List (String × V)) : Option (List (String × V)) :=
  if d1.any (fun p => d2.any (fun q => q.1 == p.1)) then none else some (d1 ++ d2)

/-- The classes of `_remap_style`, in order, `sample/widgets/pyplot.py:45-71`. -/
inductive TkClass where
  | button
  | label
  | checkbutton
  | frame
  deriving DecidableEq

/-- The name of the style, `sample/widgets/pyplot.py:105`. -/
def TkClass.style : TkClass → String
  | .button => "TButton"
  | .label => "TLabel"
  | .checkbutton => "TCheckbutton"
  | .frame => "TFrame"

/-- The options that labels, buttons and check buttons have in common, `sample/widgets/pyplot.py:47-51,56-60,63-67`. -/
def commonMap : List (String × String) :=
  [("background", "bg"), ("foreground", "fg"), ("height", "height"), ("width", "width"), ("borderwidth", "bd")]

/-- The mappings of a class, `sample/widgets/pyplot.py:45-71`. -/
def TkClass.mappings : TkClass → List (String × String)
  | .button => commonMap ++ [("active background", "active background"), ("active foreground", "active foreground")]
  | .label => commonMap
  | .checkbutton =>
    commonMap ++ [("active background", "active background"), ("active foreground", "active foreground")]
  | .frame => [("background", "bg")]

/-- The order of `_remap_style`. -/
def remapOrder : List TkClass := [.button, .label, .checkbutton, .frame]

/-- What is configured for a widget of a class, `sample/widgets/pyplot.py:102-109`. -/
def configOf (style : String → String → String) (c : TkClass) : List (String × String) :=
  (if c = .button ∨ c = .checkbutton then [("relief", "flat")] else [])
    ++ c.mappings.filterMap (fun m =>
      let v := style c.style m.1
      if v ≠ "" then some (m.2, v) else none)

/-- The loop over the classes, `sample/widgets/pyplot.py:100-110`, which ends at the first that matches. -/
def restyle (style : String → String → String) (isinstance : TkClass → Bool) : List TkClass → List (String × String)
  | [] => []
  | c :: cs => if isinstance c then configOf style c else restyle style isinstance cs

/-- The loop over the widgets of the toolbar, `sample/widgets/pyplot.py:98-110`: the calls of `config` in order, each
with its widget. -/
def restyleAll {W : Type} (style : String → String → String) (isinstance : W → TkClass → Bool) (ws : List W) :
    List (W × String × String) :=
  ws.flatMap (fun w => (restyle style (isinstance w) remapOrder).map (fun o => (w, o)))

end Verif.Widgets.Style
