import Verif.Py

/-!
# File names (`os.path` on POSIX) as the application and the scripts use them

Paths are lists of characters.  `os.path.basename`, `dirname`, `splitext` and `join` are written after
`posixpath.py` and `genericpath.py` of the Python library.
-/

set_option autoImplicit false

namespace Verif.Paths

/-- A path. -/
abbrev Path := List Char

/-- `p[:i], p[i:]` for `i = p.rfind(c) + 1`. -/
def splitLast (c : Char) : Path → Path × Path
  | [] => ([], [])
  | x :: xs =>
    let r := splitLast c xs
    if r.1 = [] then (if x = c then ([x], xs) else ([], x :: xs)) else (x :: r.1, r.2)

/-- `os.path.basename`. -/
def basename (p : Path) : Path := (splitLast '/' p).2

/-- `s.rstrip("/")`. -/
def rstrip (p : Path) : Path := (p.reverse.dropWhile (· == '/')).reverse

/-- `os.path.dirname`: slashes at the end are removed if there is anything else. -/
def dirname (p : Path) : Path :=
  let head := (splitLast '/' p).1
  if head.all (· == '/') then head else rstrip head

/-- `os.path.splitext`: the last dot of the last component begins the extension if something other than dots
is before it in the component. -/
def splitext (p : Path) : Path × Path :=
  let d := splitLast '/' p
  let h := splitLast '.' d.2
  if h.1.dropLast.any (· != '.') then (d.1 ++ h.1.dropLast, '.' :: h.2) else (p, [])

/-- `os.path.join` of two paths. -/
def join (a b : Path) : Path :=
  if b.head? = some '/' ∨ a = [] then b
  else if a.getLast? = some '/' then a ++ b
  else a ++ '/' :: b

/-! ## Names of the files that are written -/

/-- `s.join(os.path.splitext(p))`, `scripts/beatsdrop/example.py:178` (`s = "-cropped"`),
`scripts/beatsdrop/example.py:278` (`s = "-output"`), `scripts/cim22/autotuning.py:177-178` (`s = "_r"`). -/
def derive (s p : Path) : Path := (splitext p).1 ++ s ++ (splitext p).2

/-- `AnalysisTab._filedialog_file_safe`, `sample/widgets/analysis.py:265-269`. -/
def fileSafe : Option Path → Path
  | none => "output.wav".toList
  | some f => f

/-- The name suggested for WAV files, `sample/widgets/analysis.py:279-281`. -/
def suggestWav (file : Option Path) : Path := basename (splitext (fileSafe file)).1 ++ "_resynth".toList

/-- The name suggested for JSON files, `sample/widgets/analysis.py:310-311`. -/
def suggestJson (file : Option Path) : Path := basename (splitext (fileSafe file)).1

/-! ## The directory of the user -/

/-- `UserDir`, `sample/widgets/userfiles.py:89-92`, without `in_home`. -/
structure UserDir where
  path : Option Path

/-- `UserDir.UserFile`, `sample/widgets/userfiles.py:30-32`. -/
structure UserFile where
  userdir : UserDir
  subpath : Option Path

/-- `UserDir.is_valid`, `sample/widgets/userfiles.py:94-96`. -/
def UserDir.isValid (d : UserDir) : Bool :=
  match d.path with
  | none => false
  | some p => decide (0 < p.length)

/-- `UserFile.is_valid`, `sample/widgets/userfiles.py:46-49`. -/
def UserFile.isValid (f : UserFile) : Bool :=
  f.userdir.isValid &&
    match f.subpath with
    | none => false
    | some s => decide (0 < s.length)

/-- `UserFile.path`, `sample/widgets/userfiles.py:34-37`; `os.path.join` of `None` is a `TypeError`. -/
def UserFile.path (f : UserFile) : Except PyErr Path :=
  match f.userdir.path, f.subpath with
  | some d, some s => .ok (join d s)
  | _, _ => .error .typeError

/-- The argument of `os.makedirs` in `UserFile.open` and `save_pickled`,
`sample/widgets/userfiles.py:42,81`. -/
def UserFile.folder (f : UserFile) : Except PyErr Path :=
  match f.path with
  | .error e => .error e
  | .ok p => .ok (dirname p)

/-- `UserFile.is_valid() and UserFile.exists()`, `sample/widgets/main.py:95-96`,
`sample/widgets/userfiles.py:150`; `isfile` is `os.path.isfile`. -/
def UserFile.present (isfile : Path → Bool) (f : UserFile) : Except PyErr Bool :=
  if f.isValid then
    match f.path with
    | .error e => .error e
    | .ok p => .ok (isfile p)
  else .ok false

/-- `os.makedirs(path, exist_ok=True)` as far as the argument alone decides: an empty path raises
`FileNotFoundError` (here `none`). -/
def makedirs (p : Path) : Option Path := if p = [] then none else some p

/-- `prepare_folders`, `scripts/beatsdrop/evaluation.py:402-424`: the directories that are made (in order), and
`wav_path` and `log_path`; `none` if a directory cannot be made because its name is empty. -/
def prepareFolders (output wav log : Option Path) :
    Option (List Path × Option Path × Option Path) :=
  let logPath := log.map fun l => join l "{:.0f}.log".toList
  match output with
  | none =>
    match wav with
    | none => some ([], none, logPath)
    | some w => (makedirs w).map fun w => ([w], some (join w "{:.0f}.wav".toList), logPath)
  | some o =>
    match makedirs (dirname o) with
    | none => none
    | some d =>
      match wav with
      | none => some ([d], none, logPath)
      | some w => (makedirs w).map fun w => ([d, w], some (join w "{:.0f}.wav".toList), logPath)

end Verif.Paths
