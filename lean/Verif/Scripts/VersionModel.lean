import Mathlib.Data.List.Sort
import Verif.Py

/-!
# The scripts for the changelog (`scripts/utils/make_changelog.py`, `scripts/utils/extract_changelog.py`)

File names are lists of characters.  `int(s)`, `os.path.splitext(f)[0]`, `str.isalpha` and `str.isdigit`
of a character are arbitrary functions.  Parsing of the command line, logging and files are not modelled.
-/

set_option autoImplicit false

namespace Verif.Scripts

/-- `itertools.zip_longest(u, v)`. -/
def zipLongest {α β : Type} : List α → List β → List (Option α × Option β)
  | [], v => v.map fun b => (none, some b)
  | u, [] => u.map fun a => (some a, none)
  | a :: u, b :: v => (some a, some b) :: zipLongest u v

/-- The loop of `_version_compare`, `scripts/utils/make_changelog.py:77-88`. -/
def compareLoop : List (Option Int × Option Int) → Int
  | [] => 0
  | (none, none) :: _ => 0
  | (none, some _) :: _ => -1
  | (some _, none) :: _ => 1
  | (some i, some j) :: l => if i = j then compareLoop l else if i < j then -1 else 1

/-- `_version_compare`, `scripts/utils/make_changelog.py:75-88`. -/
def versionCompare (u v : List Int) : Int := compareLoop (zipLongest u v)

/-- `s.split(sep)` for a separator of one character: the first part and the others. -/
def splitChar (sep : Char) : List Char → List Char × List (List Char)
  | [] => ([], [])
  | c :: s =>
    let r := splitChar sep s
    if c = sep then ([], r.1 :: r.2) else (c :: r.1, r.2)

/-- The list that `s.split(sep)` returns. -/
def split (sep : Char) (s : List Char) : List (List Char) := (splitChar sep s).1 :: (splitChar sep s).2

/-- `tuple(map(int, v))`; `none` where `int` raises `ValueError`. -/
def mapInt (parseInt : List Char → Option Int) : List (List Char) → Option (List Int)
  | [] => some []
  | s :: l =>
    match parseInt s, mapInt parseInt l with
    | some n, some ns => some (n :: ns)
    | _, _ => none

/-- The version in a file name, `scripts/utils/make_changelog.py:104-112`; `none` if the file is skipped.
Simplification: the separator is one character. -/
def versionOf (stem : List Char → List Char) (isAlpha : Char → Bool) (parseInt : List Char → Option Int)
    (sep : Char) (f : List Char) : Option (List Int) :=
  mapInt parseInt (split sep ((stem f).dropWhile isAlpha))

/-- The dictionary `d`, `scripts/utils/make_changelog.py:103-114`, as a list of its items.  Names in a
directory are distinct, so each file that is not skipped has its own key; `join` is
`os.path.join(relpath, f)`. -/
def versions (join : List Char → List Char) (version : List Char → Option (List Int)) :
    List (List Char) → List (List Char × List Int)
  | [] => []
  | f :: fs =>
    match version f with
    | none => versions join version fs
    | some v => (join f, v) :: versions join version fs

/-- `sorted(d.items(), key=_VersionKey(version), reverse=True)`, `scripts/utils/make_changelog.py:115`:
the stable sort in descending order (insertion sort is one). -/
def sortVersions (d : List (List Char × List Int)) : List (List Char × List Int) :=
  d.insertionSort fun a b => versionCompare b.2 a.2 ≤ 0

/-- The lines of the output, `scripts/utils/make_changelog.py:118-120`, joined by newlines in line 121. -/
def changelogLines (d : List (List Char × List Int)) : List (List Char) :=
  "Changelog\n=========\n".toList :: (sortVersions d).map (fun e => ".. mdinclude:: ".toList ++ e.1) ++
    [[]]

/-- The file name looked for, `scripts/utils/extract_changelog.py:53-56`. -/
def changelogFile (isDigit : Char → Bool) (version : List Char) : List Char :=
  'v' :: ((version.map fun c => if c = '.' then '_' else c).takeWhile fun c => c == '_' || isDigit c) ++
    ".md".toList

/-- The loop over the lines, `scripts/utils/extract_changelog.py:59-67`: what is written; `i` is the
variable of the same name. -/
def extractLoop : Bool → List (List Char) → List (List Char)
  | _, [] => []
  | true, r :: fin => r :: extractLoop true fin
  | false, _ :: fin => extractLoop true fin

end Verif.Scripts
