import Mathlib.Logic.Function.Basic
import Verif.Paths.Model

/-!
# File dialogs and exported files (`sample/widgets/audioload.py:148-160`, `sample/widgets/analysis.py:265-327`)

Files are functions from paths to contents (bytes `B`).  What the exports write is given as the list of pieces that
`wavfile.write` and `json.dump` write one after the other.  A failure leaves in the file what had been written; a
process that is killed leaves any beginning of it, as it is written through a buffer.  Which audio and parameters
are exported is the subject of `SessionModel`.
-/

set_option autoImplicit false

namespace Verif.Export

open Verif.Paths

variable {B : Type}

/-- The shared attributes `filedialog_dir`, `filedialog_dir_save`, `filedialog_file`
(`sample/widgets/audioload.py:26-28`), and the files. -/
structure St (B : Type) where
  dir : Path
  dirSave : Option Path
  file : Option Path
  files : Path → Option (List B)

/-- What the user sees. -/
inductive Shown where
  | openDialog (dir : Path)
  | saveDialog (dir : Option Path) (name : Path)
  /-- "No audio", "Not analyzed" -/
  | refused
  /-- the message of an exception -/
  | failed
  | saved (f : Path)
  deriving DecidableEq

/-- What happens when a file is written: nothing special; `open` raises; an exception after `k` pieces; an exception
when the buffer is written at the end, of which `n` bytes are in the file; the process is killed with `n` bytes in the
file. -/
inductive Fault where
  | none
  | openRaises
  | raises (k : Nat)
  | flushRaises (n : Nat)
  | killed (n : Nat)

/-- Writing a file in the `try` of the callbacks, `sample/widgets/analysis.py:290-295,321-327`: the files and the
message. -/
def save (files : Path → Option (List B)) (f : Path) (pieces : List (List B)) :
    Fault → (Path → Option (List B)) × List Shown
  | .none => (Function.update files f (some pieces.flatten), [.saved f])
  | .openRaises => (files, [.failed])
  | .raises k => (Function.update files f (some (pieces.take k).flatten), [.failed])
  | .flushRaises n => (Function.update files f (some (pieces.flatten.take n)), [.failed])
  | .killed n => (Function.update files f (some (pieces.flatten.take n)), [])

/-- Events.  The name from the dialog is empty if the user cancels.  `pieces` is `none` if there is nothing to
export, for which there is a message. -/
inductive Ev (B : Type) where
  | load (name : Path)
  | wav (pieces : Option (List (List B))) (name : Path) (fault : Fault)
  | json (pieces : Option (List (List B))) (name : Path) (fault : Fault)

/-- `wav_export_cbk` and `export_cbk`, `sample/widgets/analysis.py:271-327`, with the suggested name. -/
def exportTo (s : St B) (suggestion : Path) (pieces : Option (List (List B))) (name : Path) (fault : Fault) :
    St B × List Shown :=
  match pieces with
  | none => (s, [.refused])
  | some pieces =>
    if name = [] then (s, [.saveDialog s.dirSave suggestion])
    else
      let r := save s.files name pieces fault
      ({ s with dirSave := some (dirname name), files := r.1 }, .saveDialog s.dirSave suggestion :: r.2)

/-- One callback: `load_cbk`, `sample/widgets/audioload.py:148-160` (what follows does not change the modelled
attributes), and the exports. -/
def step (s : St B) : Ev B → St B × List Shown
  | .load name =>
    if name = [] then (s, [.openDialog s.dir])
    else
      ({ s with file := some name, dir := dirname name,
                dirSave := match s.dirSave with
                  | none => some (dirname name)
                  | some d => some d }, [.openDialog s.dir])
  | .wav pieces name fault => exportTo s (suggestWav s.file) pieces name fault
  | .json pieces name fault => exportTo s (suggestJson s.file) pieces name fault

/-- The state after some callbacks. -/
def run (s : St B) : List (Ev B) → St B
  | [] => s
  | e :: es => run (step s e).1 es

/-- The state at the start, `sample/widgets/audioload.py:26-28`. -/
def start (home : Path) (files : Path → Option (List B)) : St B := ⟨home, none, none, files⟩

end Verif.Export
