import Mathlib.Tactic.Common

/-!
# Start and end of the GUI (`sample/gui.py:43-79`, `sample/widgets/main.py`, `sample/widgets/userfiles.py`)

The main program starts the GUI in a child process again and again until a child puts `False` in a queue.  The
settings and the audio cache are files that are written in place: a process that dies while it writes leaves a file
that cannot be read.  `D` are the contents of the settings file (JSON objects), `A` the audio state in the cache
(audio, sample rate and trim bounds).  Simplification: the path of the user directory is not empty; a crash does
not leave a torn file that is readable with other contents.
-/

set_option autoImplicit false

namespace Verif.Gui

/-- A file. -/
inductive File (α : Type) where
  | missing
  | good (x : α)
  | broken
  deriving DecidableEq

/-- The two files, `sample/widgets/main.py:70,77`. -/
structure Files (D A : Type) where
  settings : File D
  cache : File A
  deriving DecidableEq

/-- What a child does to files and queue, one step at a time.  Opening a file for writing empties it. -/
inductive Step (D A : Type) where
  | openSettings
  | writeSettings (d : D)
  | openCache
  | writeCache (a : A)
  | deleteCache
  | put (b : Bool)
  deriving DecidableEq

/-- What the user does: change of the audio state, button "Apply" with the resulting settings and whether the theme
has changed and the answer is to reload, closing of the window. -/
inductive Event (D A : Type) where
  | audio (a : A)
  | apply (d : D) (reload : Bool)
  | close

/-- One run of a child: the events, whether it dies by itself before the GUI is made (no display, for example), and
after how many of its steps it is killed, if it is.  When the events are over the child ends without a message. -/
structure Launch (D A : Type) where
  starts : Bool
  events : List (Event D A)
  killed : Option Nat

variable {D A : Type}

/-- `UserFile.save_json`, `sample/widgets/userfiles.py:59-66,39-44`. -/
def saveSettings (d : D) : List (Step D A) := [.openSettings, .writeSettings d]

/-- `UserFile.save_pickled`, `sample/widgets/userfiles.py:76-82`.  Simplification: `pickle.save_pickled` of
`chromatictools` writes in place. -/
def saveCache (a : A) : List (Step D A) := [.openCache, .writeCache a]

/-- The main loop of Tk with all tabs: button "Apply", `sample/widgets/settings.py:605-606,610-626` (`r.quit()` ends
the main loop without a message), and closing, `sample/widgets/main.py:35-44`.  An "Apply" that raises changes
nothing and is left out. -/
def session : A → List (Event D A) → List (Step D A)
  | _, [] => []
  | _, .audio a :: es => session a es
  | a, .apply d reload :: es => saveSettings d ++ if reload then saveCache a else session a es
  | _, .close :: _ => [.put false]

/-- The main loop of Tk with a window without tabs, which can be closed. -/
def emptyWindow : List (Event D A) → List (Step D A)
  | [] => []
  | .close :: _ => [.put false]
  | _ :: es => emptyWindow es

/-- "Clear cache", `sample/widgets/main.py:94-97`. -/
def clearCache : File A → List (Step D A)
  | .missing => []
  | _ => [.deleteCache]

/-- What the GUI starts with: `defaults` are the settings without file, `adapt` are the settings after the first
`apply_cbk(from_file=True)`, or `none` if it raises; `audio0` is the audio state without cache. -/
structure Setup (D A : Type) where
  defaults : D
  adapt : D → Option D
  audio0 : A

/-- Contents of a file, or the default if it is missing. -/
def File.read {α : Type} (dflt : α) : File α → Option α
  | .missing => some dflt
  | .good x => some x
  | .broken => none

/-- The settings and the audio state with which the tabs start, if they do: the theme is read from the settings,
`sample/widgets/main.py:71-72`, `sample/widgets/userfiles.py:150-154`; the load tab reads the cache,
`sample/widgets/audioload.py:118-127`; the settings tab reads the settings, `sample/widgets/settings.py:575-587`. -/
def started (su : Setup D A) (f : Files D A) : Option (D × A) :=
  match f.settings.read su.defaults, f.cache.read su.audio0 with
  | some s, some a => (su.adapt s).map fun s => (s, a)
  | _, _ => none

/-- The steps of a child that is not killed: `SAMPLESplashScreen.splash_cbk` and `SAMPLEGUI.__init__`,
`sample/widgets/main.py:133-136,65-97`.  If the settings cannot be read, the exception comes before there is a
window, and the main loop ends because there is no window left.  If the cache cannot be read or the settings
tab raises, the window exists already.  The settings are saved at the start, and the cache is deleted. -/
def steps (su : Setup D A) (f : Files D A) (l : Launch D A) : List (Step D A) :=
  if l.starts then
    match f.settings.read su.defaults with
    | none => []
    | some s =>
      match f.cache.read su.audio0 with
      | none => emptyWindow l.events
      | some a =>
        match su.adapt s with
        | none => emptyWindow l.events
        | some s =>
          saveSettings s ++ clearCache f.cache ++ session a l.events
  else []

/-- Effect of a step on the files. -/
def Step.onFiles (f : Files D A) : Step D A → Files D A
  | .openSettings => { f with settings := .broken }
  | .writeSettings d => { f with settings := .good d }
  | .openCache => { f with cache := .broken }
  | .writeCache a => { f with cache := .good a }
  | .deleteCache => { f with cache := .missing }
  | .put _ => f

/-- The message of a step. -/
def Step.message : Step D A → Option Bool
  | .put b => some b
  | _ => none

/-- The steps a child really makes. -/
def done (su : Setup D A) (f : Files D A) (l : Launch D A) : List (Step D A) :=
  match l.killed with
  | none => steps su f l
  | some n => (steps su f l).take n

/-- Files after a child. -/
def filesAfter (su : Setup D A) (f : Files D A) (l : Launch D A) : Files D A :=
  (done su f l).foldl Step.onFiles f

/-- Messages of a child. -/
def messages (su : Setup D A) (f : Files D A) (l : Launch D A) : List Bool :=
  (done su f l).filterMap Step.message

/-- How the main program is after some children: the number of them, whether it has ended, and the files. -/
structure Outcome (D A : Type) where
  launches : Nat
  ended : Bool
  files : Files D A

/-- `while q.empty() or q.get(): ...`, `sample/gui.py:71-78`, with the given children at most. -/
def mainLoop (su : Setup D A) : Nat → List Bool → Files D A → List (Launch D A) → Outcome D A
  | n, false :: _, f, _ => ⟨n, true, f⟩
  | n, _, f, [] => ⟨n, false, f⟩
  | n, q, f, l :: ls => mainLoop su (n + 1) (q.drop 1 ++ messages su f l) (filesAfter su f l) ls

end Verif.Gui
