import Verif.Py

/-!
# Formatting of notebooks (`scripts/utils/yapf_nbformat.py:19-22,78-167`)

Texts are lists of characters.  `str.isspace` of a character and the set of line boundaries of
`str.splitlines` are arbitrary functions (with laws in the property file); the formatter is an arbitrary
function.  Simplification: `"\r\n"` is two line boundaries, not one.  Logging, the text of differences and
the format of notebook files are not modelled.
-/

set_option autoImplicit false

namespace Verif.Scripts

/-- `_command_escape_comment`, `scripts/utils/yapf_nbformat.py:20`. -/
def escapeComment : List Char :=
  [' ', ' ', '#', ' ', 'e', 's', 'c', 'a', 'p', 'e', 'd', '-', 'f', 'o', 'r', '-', 'y', 'a', 'p', 'f']

/-- The text before a command, `scripts/utils/yapf_nbformat.py:21,91`. -/
def passComment : List Char := ['p', 'a', 's', 's', ' ', ' ', '#', ' ']

/-- The beginning of the comments about errors, `scripts/utils/yapf_nbformat.py:144`. -/
def yapfTag : List Char := ['#', ' ', 'y', 'a', 'p', 'f']

/-- The comment in cells to be ignored, `scripts/utils/yapf_nbformat.py:137`. -/
def ignoreTag : List Char := ['#', ' ', 'y', 'a', 'p', 'f', ':', ' ', 'i', 'g', 'n', 'o', 'r', 'e']

/-- The text after the indentation begins a command (`(!|%).*`), `scripts/utils/yapf_nbformat.py:19`. -/
def isCommand : List Char → Bool
  | [] => false
  | c :: s => (c == '!' || c == '%') && s.all (· != '\n')

/-- `_command_pattern.fullmatch(s)`, `scripts/utils/yapf_nbformat.py:19`.  `!` and `%` are not whitespace, so
`\s*` matches all of the indentation. -/
def matchesCommand (isSpace : Char → Bool) (s : List Char) : Bool := isCommand (s.dropWhile isSpace)

/-- `_command_escape_pattern.fullmatch(s)`, `scripts/utils/yapf_nbformat.py:21-22`. -/
def matchesEscape (isSpace : Char → Bool) (s : List Char) : Bool :=
  let t := s.dropWhile isSpace
  passComment.isPrefixOf t && escapeComment.isSuffixOf (t.drop passComment.length) &&
    isCommand ((t.drop passComment.length).take ((t.drop passComment.length).length - escapeComment.length))

/-- `_wrap_command_line`, `scripts/utils/yapf_nbformat.py:78-91`. -/
def wrapLine (isSpace : Char → Bool) (s : List Char) : List Char :=
  if matchesCommand isSpace s then
    let indent := s.takeWhile isSpace
    indent ++ passComment ++ s.drop indent.length ++ escapeComment
  else s

/-- `_unwrap_command_line`, `scripts/utils/yapf_nbformat.py:94-107`; the last slice ends at
`-len(_command_escape_comment)`. -/
def unwrapLine (isSpace : Char → Bool) (s : List Char) : List Char :=
  if matchesEscape isSpace s then
    let indent := s.takeWhile isSpace
    indent ++ (s.take (s.length - escapeComment.length)).drop (indent.length + 8)
  else s

/-- `str.splitlines`. -/
def splitlines (isBreak : Char → Bool) : List Char → List (List Char)
  | [] => []
  | c :: s =>
    if isBreak c then [] :: splitlines isBreak s
    else
      match splitlines isBreak s with
      | [] => [[c]]
      | l :: ls => (c :: l) :: ls

/-- `"\n".join(lines)`. -/
def joinLines : List (List Char) → List Char
  | [] => []
  | [l] => l
  | l :: l' :: ls => l ++ '\n' :: joinLines (l' :: ls)

/-- The part of a text before the first newline, `s.split("\n", 1)[0]`. -/
def firstLine (s : List Char) : List Char := s.takeWhile (· != '\n')

/-- `t in s` for texts. -/
def contains (t : List Char) : List Char → Bool
  | [] => t.isEmpty
  | c :: s => t.isPrefixOf (c :: s) || contains t s

/-- A cell: its type is `"code"`, its source. -/
structure Cell where
  code : Bool
  source : List Char
  deriving DecidableEq

/-- Parameters: `str.isspace` for a character, line boundaries, `yapf_api.FormatCode` (the formatted text, or
the message of a `YapfError`). -/
structure NbEnv where
  isSpace : Char → Bool
  isBreak : Char → Bool
  format : List Char → Except (List Char) (List Char)

/-- The filters of cells, `scripts/utils/yapf_nbformat.py:134-137`; `str.isspace` of the empty text is
false. -/
def cellSelected (env : NbEnv) (c : Cell) : Bool :=
  c.code && !(c.source != [] && c.source.all env.isSpace) &&
    !contains ignoreTag (firstLine c.source)

/-- The new source of a cell and `src_changed`, `scripts/utils/yapf_nbformat.py:139-149`. -/
def newSource (env : NbEnv) (tagErrors : Bool) (src : List Char) : List Char × Bool :=
  let wrapped := joinLines ((splitlines env.isBreak src).map (wrapLine env.isSpace))
  let r : List Char × Bool :=
    match env.format wrapped with
    | .ok t => (t, false)
    | .error msg =>
      let se := yapfTag ++ msg.drop 9
      if !contains se wrapped && tagErrors then (wrapped ++ '\n' :: se, true) else (wrapped, false)
  let new := joinLines ((splitlines env.isBreak r.1).map (unwrapLine env.isSpace))
  (new, r.2 || src != new)

/-- The loop over the cells, `scripts/utils/yapf_nbformat.py:138-156`: the cells and the numbers of the cells
with a difference.  `difflib.unified_diff` returns a generator, which is true. -/
def formatCells (env : NbEnv) (tagErrors : Bool) : Nat → List Cell → List Cell × List Nat
  | _, [] => ([], [])
  | i, c :: cs =>
    let r := formatCells env tagErrors (i + 1) cs
    if cellSelected env c then
      let n := newSource env tagErrors c.source
      if n.2 then ({ c with source := n.1 } :: r.1, (i + 1) :: r.2) else (c :: r.1, r.2)
    else (c :: r.1, r.2)

/-- `format_nb`, `scripts/utils/yapf_nbformat.py:110-167`: what is written to the file, if anything is, and
the result. -/
def formatNb (env : NbEnv) (dryRun tagErrors : Bool) (cells : List Cell) : Option (List Cell) × Bool :=
  let r := formatCells env tagErrors 0 cells
  if r.2 = [] then (none, false) else (if dryRun then none else some r.1, true)

end Verif.Scripts
