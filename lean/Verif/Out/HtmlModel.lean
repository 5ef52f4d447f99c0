import Verif.Py

/-!
# Parameters of a model as HTML (`sample/ipython.py:37-121`)

Text is a list of characters.  A model is given by its documentation and by the items of `get_params()`.
The file with the page around the body (`collapsible_params.html`) is not modelled.
-/

set_option autoImplicit false

namespace Verif.Html

/-- Text. -/
abbrev Txt := List Char

/-- `\w` (ASCII letters, digits and the underscore; Python has more letters). -/
def isWord (c : Char) : Bool := c.isAlphanum || c == '_'

/-- `\s` (the ASCII part of it). -/
def isSpace (c : Char) : Bool :=
  c == ' ' || c == '\t' || c == '\n' || c == '\r' || c == '\x0b' || c == '\x0c'

/-! ## Documentation -/

/-- What follows the last `` ` `` of a line, if it is not at the start: the end of a match of the greedy
`` .+` ``, `sample/ipython.py:44`. -/
def afterLast : Txt → Option Txt
  | [] => none
  | _ :: [] => none
  | c :: d :: r =>
    if c = '\n' then none
    else
      match afterLast (d :: r) with
      | some t => some t
      | none => if d = '`' then some r else none

/-- A match of the regular expression `` \:\w+\:`.+` `` at the start of a text: the replacement
(`sample/ipython.py:47-49`, between the first two `` ` ``) and the text after the match,
`sample/ipython.py:44`. -/
def matchRole : Txt → Option (Txt × Txt)
  | ':' :: s =>
    if s.takeWhile isWord = [] then none
    else
      match s.dropWhile isWord with
      | ':' :: '`' :: r =>
        match afterLast r with
        | none => none
        | some rest => some (r.takeWhile (· ≠ '`'), rest)
      | _ => none
  | _ => none

/-- `re.sub`, `sample/ipython.py:52-55`: from left to right; `fuel` is at least the length of the text. -/
def unwrapGo : Nat → Txt → Txt
  | 0, s => s
  | _, [] => []
  | fuel + 1, c :: s =>
    match matchRole (c :: s) with
    | some (t, rest) => t ++ unwrapGo fuel rest
    | none => c :: unwrapGo fuel s

/-- `_unwrap_sphinx`, `sample/ipython.py:51-55`. -/
def unwrap (s : Txt) : Txt := unwrapGo s.length s

/-- `Args:` -/
def argsMark : Txt := ['A', 'r', 'g', 's', ':']

/-- The text after the first `Args:`, `sample/ipython.py:63-65`. -/
def afterArgs : Txt → Option Txt
  | [] => none
  | c :: s => if argsMark.isPrefixOf (c :: s) then some ((c :: s).drop 5) else afterArgs s

/-- `str.split("\n")`, `sample/ipython.py:66`. -/
def splitLines : Txt → List Txt
  | [] => [[]]
  | c :: s =>
    if c = '\n' then [] :: splitLines s
    else
      match splitLines s with
      | [] => [[c]]
      | l :: ls => (c :: l) :: ls

/-- Indentation of a line, `sample/ipython.py:71-74`. -/
def indentOf (l : Txt) : Nat := (l.takeWhile isSpace).length

/-- `current_indent <= indent`, `sample/ipython.py:75`; `none` is infinity. -/
def leIndent (n : Nat) : Option Nat → Bool
  | none => true
  | some m => decide (n ≤ m)

/-- The loop over the lines, `sample/ipython.py:67-81`: `s` is the group that is being filled. -/
def groups (indent : Option Nat) (s : List Txt) : List Txt → List (List Txt)
  | [] => [s]
  | d :: ds =>
    if leIndent (indentOf d) indent then
      if s = [] then groups (some (indentOf d)) [d] ds
      else s :: groups (some (indentOf d)) [d] ds
    else groups indent (s ++ [d]) ds

/-- `str.strip`. -/
def strip (s : Txt) : Txt := ((s.dropWhile isSpace).reverse.dropWhile isSpace).reverse

/-- `" ".join`, `sample/ipython.py:82`. -/
def joinWith (sep : Txt) : List Txt → Txt
  | [] => []
  | [l] => l
  | l :: ls => l ++ sep ++ joinWith sep ls

/-- `_parse_docs`, `sample/ipython.py:57-82`. -/
def parseDocs : Option Txt → List Txt
  | none => []
  | some doc =>
    match afterArgs (unwrap doc) with
    | none => []
    | some s =>
      (groups none [] ((splitLines s).filter (· ≠ []))).map fun g => joinWith [' '] (g.map strip)

/-! ## The body -/

mutual
/-- A value of a parameter: not a model, or a model. -/
inductive Val where
  | leaf
  | model (doc : Option Txt) (params : Params)
/-- The items of `get_params()`. -/
inductive Params where
  | nil
  | cons (key : Txt) (v : Val) (rest : Params)
end

/-- A line of the body, `sample/ipython.py:103-115`. -/
inductive Tok where
  | button | plain | text (s : Txt) | endButton | content | endDiv
  deriving DecidableEq

/-- `len(key.split("__", 1)) == 1`, `sample/ipython.py:98`. -/
def hasDunder : Txt → Bool
  | '_' :: '_' :: _ => true
  | _ :: s => hasDunder s
  | [] => false

/-- `re.compile("^" + k + r"\W").match`, `sample/ipython.py:105-106`, for a name `k` without special
characters. -/
def describes (k d : Txt) : Bool :=
  k.isPrefixOf d &&
    match d.drop k.length with
    | [] => false
    | c :: _ => !isWord c

/-- The text of a parameter, `sample/ipython.py:105-107`. -/
def label (docs : List Txt) (k : Txt) : List Txt :=
  if docs.filter (describes k) = [] then [k] else docs.filter (describes k)

/-- The text of a model is one line even if the model has no parameters, `sample/ipython.py:111,113`. -/
def nonempty (l : List Tok) : List Tok := if l = [] then [.text []] else l

mutual
/-- The lines for one parameter, `sample/ipython.py:99-112`. -/
def valToks (docs : List Txt) (k : Txt) : Val → List Tok
  | .leaf => .plain :: (label docs k).map .text ++ [.endDiv]
  | .model doc ps =>
    .button :: (label docs k).map .text ++ [.endButton, .content] ++
      nonempty (paramToks (parseDocs doc) ps) ++ [.endDiv]
/-- The lines for the parameters of a model, `sample/ipython.py:94-113`. -/
def paramToks (docs : List Txt) : Params → List Tok
  | .nil => []
  | .cons k v rest => if hasDunder k then paramToks docs rest else valToks docs k v ++ paramToks docs rest
end

/-- The text of a line, `sample/ipython.py:101,103,109-112`. -/
def Tok.str : Tok → Txt
  | .button => "<button type=\"button\" class=\"collapsible\">".toList
  | .plain => "<div class=\"noncollapsible\">".toList
  | .text s => s
  | .endButton => "</button>".toList
  | .content => "<div class=\"content\">".toList
  | .endDiv => "</div>".toList

/-- The body of the page, `sample/ipython.py:84-91,113,120`: the model is the only parameter of a wrapper whose
documentation has no arguments. -/
def body (name : Txt) (doc : Option Txt) (ps : Params) : Txt :=
  joinWith ['\n'] ((paramToks [] (.cons name (.model doc ps) .nil)).map Tok.str)

end Verif.Html
