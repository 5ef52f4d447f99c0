import Verif.PyDict
import Verif.Widgets.ParseModel

/-!
# The settings tab (`sample/widgets/settings.py:141-626`) and the GUI theme

Setting values, the post-processing functions and the callback of the button "Apply".  Widgets are
their contents: an entry or a menu is a string, a check button a boolean.  The loop in
`postprocess_windows` is run with a number of rounds (`fuel`); `none` means that it has not ended
by then.
-/

set_option autoImplicit false

namespace Verif.Widgets

/-- A setting or parameter value.  Simplification: integers among the values of number settings (like
the bound `0` of `float_clip(left=0)`) are `flt`, since Python compares them by value. -/
inductive SVal (K W : Type) where
  | none
  | bool (b : Bool)
  | int (n : Int)
  | flt (v : Flt K)
  | str (s : String)
  | pair (a b : Flt K)
  | win (w : W)
  deriving DecidableEq

/-- Contents of the variable of a setting, `sample/widgets/settings.py:462-468`: a `StringVar` or a
`BooleanVar`. -/
inductive Raw where
  | text (s : String)
  | check (b : Bool)
  deriving DecidableEq

/-- The parse functions in use, `sample/widgets/settings.py:229-403`; `text` and `check` settings have
none. -/
inductive Kind (K : Type) where
  | posInt (dflt : Option Int)
  | pow2
  | num
  | clip (left right default : Option K)
  | strip
  | check
  | text

/-- What the settings tab depends on: conversion of strings to floats, of values to strings
(`StringVar.set`), the themes, the default theme, `scipy.signal.get_window` and whether there is a
settings file. -/
structure Env (K W : Type) where
  parse : Parse K
  show_ : SVal K W → String
  themes : List String
  theme0 : String
  getWindow : String → Int → Except PyErr W
  fileValid : Bool

variable {K W : Type} [Field K] [LinearOrder K] [FloorRing K]

/-- An integer value, or `None`. -/
def SVal.ofInt : Option Int → SVal K W
  | Option.none => .none
  | some n => .int n

/-- A float value, or `None`. -/
def SVal.ofFlt : Option (Flt K) → SVal K W
  | Option.none => .none
  | some v => .flt v

/-- `Setting.get`, `sample/widgets/settings.py:484-494`.  A variable of the wrong type cannot occur
(`TypeError` in the model). -/
def getSetting (env : Env K W) : Kind K → Raw → Except PyErr (SVal K W)
  | .posInt d, .text s => (customPositiveInt env.parse d s).map .ofInt
  | .pow2, .text s => (nextPowerOf2 env.parse s).map .int
  | .num, .text s => (tryFloat env.parse s).map .flt
  | .clip l r d, .text s => (floatClip env.parse l r d s).map .flt
  | .strip, .text s => (stripTime env.parse s).map .ofFlt
  | .text, .text s => .ok (.str s)
  | .check, .check b => .ok (.bool b)
  | _, _ => .error .typeError

/-- `Setting.set`, `sample/widgets/settings.py:496-509`; no setting has a `set_fn`. -/
def setSetting (env : Env K W) : Kind K → SVal K W → Raw
  | .check, .bool b => .check b
  | _, v => .text (env.show_ v)

/-- `bool(v)`. -/
def SVal.truthy : SVal K W → Bool
  | .none => false
  | .bool b => b
  | .int n => decide (n ≠ 0)
  | .flt v => v.truthy
  | .str s => decide (s ≠ "")
  | _ => true

/-- The number in a value, for comparisons. -/
def SVal.num : SVal K W → Option (Flt K)
  | .bool b => some (.fin (if b then 1 else 0))
  | .int n => some (.fin n)
  | .flt v => some v
  | _ => Option.none

/-- Results of a post-processing function: updates of the settings and of the parameters. -/
abbrev Updates (K W : Type) := Dict (SVal K W) × Dict (SVal K W)

/-- `postprocess_fbound`, `sample/widgets/settings.py:145-165`.  Simplification: arguments that are not
numbers (in an edited file) are a `TypeError`, also two strings. -/
def postBounds (kw : Dict (SVal K W)) : Except PyErr (Updates K W) :=
  match (kw.get? "smfb_0").bind SVal.num, (kw.get? "smfb_1").bind SVal.num with
  | some a, some b =>
    let p := if b.lt a then (b, a) else if a.eq b then (.fin 20, .fin 16000) else (a, b)
    .ok ([("smfb_0", .flt p.1), ("smfb_1", .flt p.2)],
      [("sinusoidal__tracker__frequency_bounds", .pair p.1 p.2)])
  | _, _ => .error .typeError

/-- The loop of `postprocess_windows`, `sample/widgets/settings.py:181-191`. -/
def windowLoop (getWindow : String → Int → Except PyErr W) :
    Nat → String → Int → Option (Except PyErr (W × Int × String))
  | 0, _, _ => none
  | fuel + 1, wtype, wsize =>
    match getWindow wtype wsize with
    | .ok w => some (.ok (w, wsize, wtype))
    | .error .valueError =>
      if wsize < 1 then windowLoop getWindow fuel wtype 4096
      else windowLoop getWindow fuel "blackman" wsize
    | .error e => some (.error e)

/-- The results of `postprocess_windows`, `sample/widgets/settings.py:192-194`. -/
def windowUpdates (n : Int) (r : W × Int × String) : Updates K W :=
  ([("sinusoidal__n", .int n), ("wsize", .int r.2.1), ("wtype", .str r.2.2)],
    [("sinusoidal__n", .int n), ("sinusoidal__w", .win r.1)])

/-- `postprocess_windows`, `sample/widgets/settings.py:168-194`.  Simplification: sizes that are not
integers and a type that is not a string (in an edited file) are a `TypeError`. -/
def postWindows (getWindow : String → Int → Except PyErr W) (fuel : Nat) (kw : Dict (SVal K W)) :
    Option (Except PyErr (Updates K W)) :=
  match kw.get? "sinusoidal__n", kw.get? "wsize", kw.get? "wtype" with
  | some (.int n), some (.int wsize), some (.str wtype) =>
    (windowLoop getWindow fuel wtype (min wsize n)).map (Except.map (windowUpdates n))
  | _, _, _ => some (.error .typeError)

/-- `postprocess_multiprocessing`, `sample/widgets/settings.py:197-209`. -/
def postJobs (kw : Dict (SVal K W)) : Except PyErr (Updates K W) :=
  match kw.get? "parallel", kw.get? "n_jobs" with
  | some p, some n =>
    .ok ([("parallel", p), ("n_jobs", n)], [("n_jobs", if p.truthy then n else .int 0)])
  | _, _ => .error .typeError

/-- `postprocess_guitheme`, `sample/widgets/settings.py:212-224`, with `UserTtkTheme.is_valid`,
`sample/widgets/userfiles.py:116-132`.  Messages are not modelled. -/
def postTheme (themes : List String) (kw : Dict (SVal K W)) : Except PyErr (Updates K W) :=
  match kw.get? "gui_theme" with
  | some (.str t) => .ok ([("gui_theme", .str (if t ∈ themes then t else ""))], [])
  | _ => .error .typeError

/-- A post-processing function with the names of its parameters (`inspect.signature`). -/
structure Post (K W : Type) where
  keys : List String
  func : Dict (SVal K W) → Option (Except PyErr (Updates K W))

/-- `_postprocess`, `sample/widgets/settings.py:405-410`. -/
def posts (env : Env K W) (fuel : Nat) : List (Post K W) :=
  [⟨["parallel", "n_jobs"], fun kw => some (postJobs kw)⟩,
   ⟨["sinusoidal__n", "wsize", "wtype"], postWindows env.getWindow fuel⟩,
   ⟨["smfb_0", "smfb_1"], fun kw => some (postBounds kw)⟩,
   ⟨["gui_theme"], fun kw => some (postTheme env.themes kw)⟩]

/-- The entries of a dictionary whose key is among the given ones (or not),
`sample/widgets/settings.py:591-595`: the arguments `kw` of the function and the rest `tp`. -/
def part {V : Type} (keys : List String) (inside : Bool) (d : Dict V) : Dict V :=
  d.filter fun e => decide (decide (e.1 ∈ keys) = inside)

/-- The loop over the post-processing functions, `sample/widgets/settings.py:588-601`, from the settings
and the parameters (which are the same dictionary at the start, but `kw` and `tp` are made before it
changes). -/
def postAll : List (Post K W) → Dict (SVal K W) → Dict (SVal K W) →
    Option (Except PyErr (Updates K W))
  | [], settings, params => some (.ok (settings, params))
  | p :: ps, settings, params =>
    match p.func (part p.keys true params) with
    | none => none
    | some (.error e) => some (.error e)
    | some (.ok u) => postAll ps (settings.update u.1) ((part p.keys false params).update u.2)

/-- The settings with their parse functions, `sample/widgets/settings.py:229-403`, without the spacers,
in the order of the table. -/
def table : List (String × Kind K) :=
  [("max_n_modes", .posInt none),
   ("sinusoidal__tracker__max_n_sines", .posInt (some 1)),
   ("sinusoidal__n", .pow2),
   ("sinusoidal__tracker__h", .posInt (some 1)),
   ("wsize", .posInt (some 1)),
   ("wtype", .text),
   ("sinusoidal__tracker__freq_dev_offset", .num),
   ("sinusoidal__tracker__freq_dev_slope", .num),
   ("smfb_0", .num),
   ("smfb_1", .num),
   ("sinusoidal__tracker__peak_threshold", .num),
   ("sinusoidal__t", .num),
   ("sinusoidal__tracker__min_sine_dur", .clip (some 0) none (some (1 / 10))),
   ("sinusoidal__tracker__strip_t", .strip),
   ("sinusoidal__tracker__reverse", .check),
   ("sinusoidal__padded", .check),
   ("beatsdrop", .check),
   ("parallel", .check),
   ("n_jobs", .posInt (some 4)),
   ("beat_decisor__th", .clip (some 0) none (some 4)),
   ("beatsdrop__lpf", .clip (some 2) (some 50) (some 12)),
   ("gui_theme", .text)]

/-- The settings at the start of `apply_cbk`, `sample/widgets/settings.py:583-587`: each entry is read
(the default value of `dict.get` is computed in any case), values in the file have precedence and are
not parsed. -/
def readAll (env : Env K W) (file : Dict (SVal K W)) (entries : Dict Raw) :
    List (String × Kind K) → Except PyErr (Dict (SVal K W))
  | [] => .ok []
  | (k, kind) :: spec =>
    match entries.get? k with
    | none => .error .keyError
    | some raw =>
      match getSetting env kind raw with
      | .error e => .error e
      | .ok v =>
        match readAll env file entries spec with
        | .error e => .error e
        | .ok d => .ok ((k, (file.get? k).getD v) :: d)

/-- The kind of a setting, `self._settings[k]`. -/
def kindOf (spec : List (String × Kind K)) (k : String) : Option (Kind K) :=
  (spec.find? fun e => decide (e.1 = k)).map Prod.snd

/-- `for k, v in settings.items(): self._settings[k].set(v)`, `sample/widgets/settings.py:607-608`.  The
second component is the exception, if any. -/
def showAll (env : Env K W) (spec : List (String × Kind K)) :
    Dict (SVal K W) → Dict Raw → Dict Raw × Option PyErr
  | [], entries => (entries, none)
  | (k, v) :: d, entries =>
    match kindOf spec k with
    | none => (entries, some .keyError)
    | some kind => showAll env spec d (entries.set k (setSetting env kind v))

/-- `UserTtkTheme.get`, `sample/widgets/userfiles.py:142-154`; `file` is the contents of the settings
file if it exists and its path is valid. -/
def themeGet (env : Env K W) (file : Option (Dict (SVal K W))) : String :=
  match file.bind (Dict.get? · "gui_theme") with
  | some (.str t) => if t ∈ env.themes then t else env.theme0
  | _ => env.theme0

/-- State of the settings tab: contents of the settings file (a JSON object), of the entries, and the
arguments for the next analysis. -/
structure Tab (K W : Type) where
  file : Option (Dict (SVal K W))
  entries : Dict Raw
  kwargs : Dict (SVal K W)

/-- `if len(settings["gui_theme"]) == 0`, `sample/widgets/settings.py:602-603`. -/
def fillTheme (prev : String) (settings : Dict (SVal K W)) : Except PyErr (Dict (SVal K W)) :=
  match settings.get? "gui_theme" with
  | none => .error .keyError
  | some (.str t) => .ok (if t = "" then settings.set "gui_theme" (.str prev) else settings)
  | some _ => .error .typeError

/-- The end of `apply_cbk`, `sample/widgets/settings.py:605-610`: save, show, keep the parameters.  The
result is whether the user is asked to reload the GUI. -/
def commit (env : Env K W) (spec : List (String × Kind K)) (prev : String) (t : Tab K W)
    (settings params : Dict (SVal K W)) : Tab K W × Except PyErr Bool :=
  let file := if env.fileValid then some settings else t.file
  match showAll env spec settings t.entries with
  | (entries, some e) => ({ t with file := file, entries := entries }, .error e)
  | (entries, none) =>
    (⟨file, entries, params⟩, .ok (decide (prev ≠ themeGet env file)))

/-- The middle of `apply_cbk`, `sample/widgets/settings.py:588-603`. -/
def process (ps : List (Post K W)) (prev : String) (settings : Dict (SVal K W)) :
    Option (Except PyErr (Updates K W)) :=
  match postAll ps settings settings with
  | none => none
  | some (.error e) => some (.error e)
  | some (.ok u) => some ((fillTheme prev u.1).map fun s => (s, u.2))

/-- `SettingsTab.apply_cbk`, `sample/widgets/settings.py:575-610`.  `file` of the state is `none` when
there is no settings file. -/
def applyCbk (env : Env K W) (spec : List (String × Kind K)) (ps : List (Post K W)) (fromFile : Bool)
    (t : Tab K W) : Option (Tab K W × Except PyErr Bool) :=
  let prev := themeGet env t.file
  let file := if fromFile then t.file.getD [] else []
  match readAll env file t.entries spec with
  | .error e => some (t, .error e)
  | .ok settings =>
    match process ps prev settings with
    | none => none
    | some (.error e) => some (t, .error e)
    | some (.ok u) => some (commit env spec prev t u.1 u.2)

end Verif.Widgets
