/-!
# Where a report goes (`scripts/beatsdrop/evaluation.py:546-567,642-660,718-720,742-744,993-995`)

`print_or_write` sends what is printed in its block to a file, or leaves it on the screen if there is no path;
`print_report` first catches what a library prints, and puts a line in it.

Not modelled: the message in the log, the encoding, and when a buffered file reaches the disk before it is closed
(a file has here what has been written to it; it is closed when the block is left).
-/
set_option autoImplicit false

namespace Verif.Scripts.Write

/-- Text, as characters. -/
abbrev Text := List Char

/-- Where `sys.stdout` leads: the screen, an open file, or the `StringIO` of `scripts/beatsdrop/evaluation.py:557`. -/
inductive Target where
  | screen
  | file (path : String)
  | buffer
  deriving DecidableEq

/-- What can be written to: files (`none`: no such file), the screen, the buffer; and `sys.stdout`. -/
structure Out where
  files : String → Option Text
  screen : Text
  buf : Text
  stdout : Target

/-- A block of code: what it does, and the exception that leaves it, if any. -/
abbrev Body (E : Type) := Out → Out × Option E

/-- `sys.stdout.write(t)`. -/
def emit (w : Out) (t : Text) : Out :=
  match w.stdout with
  | .screen => { w with screen := w.screen ++ t }
  | .buffer => { w with buf := w.buf ++ t }
  | .file p => { w with files := fun q => if q = p then some ((w.files p).getD [] ++ t) else w.files q }

/-- `print(t)`. -/
def say (w : Out) (t : Text) : Out := emit w (t ++ ['\n'])

/-- A block that prints, and then ends or raises: `scripts/beatsdrop/evaluation.py:744,995`. -/
def says {E : Type} (l : List Text) (e : Option E) : Body E := fun w => (l.foldl say w, e)

/-- `contextlib.redirect_stdout(t)` around a block, `scripts/beatsdrop/evaluation.py:558,659`: the old target comes
back however the block is left. -/
def redirect {E : Type} (t : Target) (body : Body E) : Body E := fun w =>
  let r := body { w with stdout := t }
  ({ r.1 with stdout := w.stdout }, r.2)

/-- `open(path, mode="w")`, `scripts/beatsdrop/evaluation.py:658`: the file is there, and empty. -/
def truncate (w : Out) (p : String) : Out :=
  { w with files := fun q => if q = p then some [] else w.files q }

/-- `print_or_write`, `scripts/beatsdrop/evaluation.py:651-660`; `openErr p` is the exception of `open`, `none` if
the file can be opened. -/
def printOrWrite {E : Type} (openErr : String → Option E) (path : Option String) (body : Body E) : Body E := fun w =>
  match path with
  | none => body w
  | some p =>
    match openErr p with
    | some e => (w, some e)
    | none => redirect (.file p) body (truncate w p)

/-- The path of a report, `scripts/beatsdrop/evaluation.py:718-719,742-743,993-994`; `ext` is `tex` for the
statistical tests, `txt` for the decisions and for the FFT sizes. -/
def reportPath (output : Option String) (ext : String) : Option String :=
  match output with
  | none => none
  | some o => some (o ++ "_report." ++ ext)

/-- `str.splitlines(keepends=True)`, `scripts/beatsdrop/evaluation.py:564`; only `\n` ends a line here. -/
def splitKeep : Text → List Text
  | [] => []
  | c :: r =>
    if c = '\n' then [c] :: splitKeep r
    else
      match splitKeep r with
      | [] => [[c]]
      | l :: ls => (c :: l) :: ls

/-- `s.insert(1, g)`, `scripts/beatsdrop/evaluation.py:565`. -/
def insertOne (g : Text) : List Text → List Text
  | [] => [g]
  | a :: l => a :: g :: l

/-- The line that is put in, `scripts/beatsdrop/evaluation.py:565`. -/
def geometry : Text := "\\usepackage[margin=0.75in]{geometry}".toList

/-- `print_report`, `scripts/beatsdrop/evaluation.py:546-648`: `latex` is `autorank.latex_report`; `middle` is what is
printed at lines 568-646, and `e` the exception that may end it. -/
def printReport {E : Type} (latex : Body E) (middle : List Text) (e : Option E) : Body E := fun w =>
  let r := redirect .buffer latex { w with buf := [] }
  match r.2 with
  | some _ => r
  | none =>
    let s := insertOne geometry (splitKeep r.1.buf)
    let w1 := say r.1 s.dropLast.flatten
    let w2 := middle.foldl say w1
    match e with
    | some x => (w2, some x)
    | none => (say w2 (s.getLastD []), none)

end Verif.Scripts.Write
