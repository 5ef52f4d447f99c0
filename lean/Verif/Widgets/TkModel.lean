import Verif.Py

/-!
# Widget trees, class wrapping, patching and shared attributes (`sample/widgets/utils.py`, `responsive.py`, `pyplot.py`)
-/

set_option autoImplicit false

namespace Verif.Tk

/-! ## `widget_children` -/

/-- A widget with its children in the order of `winfo_children()`. -/
inductive Tree (W : Type) where
  | node (w : W) (children : List (Tree W))

/-- The widget at the root of a tree. -/
def Tree.widget {W : Type} : Tree W → W
  | .node w _ => w

/-- `w.winfo_children()`. -/
def Tree.children {W : Type} : Tree W → List (Tree W)
  | .node _ l => l

mutual
/-- `widget_children(w, include_root)`, `sample/widgets/utils.py:120-136`: the list of what the generator yields if
the widgets do not change meanwhile. -/
def widgetChildren {W : Type} (includeRoot : Bool) : Tree W → List W
  | .node w l => (if includeRoot then [w] else []) ++ childrenOf l

/-- The loops of `sample/widgets/utils.py:134-136`. -/
def childrenOf {W : Type} : List (Tree W) → List W
  | [] => []
  | t :: l => widgetChildren true t ++ childrenOf l
end

/-! ## `responsive` -/

/-- The rows or columns to make responsive: a number or the indices. -/
inductive Which where
  | count (n : Int)
  | list (l : List Int)

/-- `range(it)` for a number, `sample/widgets/responsive.py:47-48`. -/
def Which.indices : Which → List Int
  | .count n => (List.range n.toNat).map fun (i : Nat) => (i : Int)
  | .list l => l

/-- Sets the weight of the given rows (or columns) to 1, one after the other, `sample/widgets/responsive.py:49-50`.
A negative index is an error of Tk (here a `ValueError`), and the weights set until then stay. -/
def setWeights : (Int → Nat) → List Int → (Int → Nat) × Option PyErr
  | w, [] => (w, none)
  | w, i :: l => if i < 0 then (w, some .valueError) else setWeights (fun j => if j = i then 1 else w j) l

/-- The weights of a widget; `hasRows`, `hasCols`: if it has the methods that set them. -/
structure Grid where
  hasRows : Bool
  hasCols : Bool
  rows : Int → Nat
  cols : Int → Nat
  warnings : List String

/-- One turn of the loop of `sample/widgets/responsive.py:39-50`, for the given method. -/
def configure (has : Bool) (meth : String) (it : Option Which) (w : Int → Nat) : (Int → Nat) × Option PyErr × List String :=
  if !has then (w, none, [meth])
  else
    match it with
    | none => (w, none, [])
    | some x => ((setWeights w x.indices).1, (setWeights w x.indices).2, [])

/-- `ResponsiveMixin.responsive`, `sample/widgets/responsive.py:22-51`: rows first. -/
def Grid.responsive (g : Grid) (rows cols : Option Which) : Grid × Option PyErr :=
  let r := configure g.hasRows "grid_rowconfigure" rows g.rows
  let g1 := { g with rows := r.1, warnings := g.warnings ++ r.2.2 }
  match r.2.1 with
  | some e => (g1, some e)
  | none =>
    let c := configure g.hasCols "grid_columnconfigure" cols g.cols
    ({ g1 with cols := c.1, warnings := g1.warnings ++ c.2.2 }, c.2.1)

/-! ## The attributes of the module `responsive` -/

/-- A value of a module: something that is no class, a class of `tkinter`, or a class made by `responsive(cls)`
(`id` is its identity). -/
inductive Obj where
  | other (n : Nat)
  | cls (n : Nat)
  | resp (id : Nat) (base : Nat)
  deriving DecidableEq

/-- The modules: the names of the module `responsive` itself, of `ttkthemes` and `ttk` do not change; those of
`tkinter` do; `cache` is `__responsive_classes`; `made` counts the classes made. -/
structure World where
  own : String → Option Obj
  ttkthemes : String → Option Obj
  ttk : String → Option Obj
  tk : String → Option Obj
  cache : List (Obj × Obj)
  made : Nat

/-- `for m in __tk_modules: if hasattr(m, name)`, `sample/widgets/responsive.py:71-76`. -/
def World.find (s : World) (name : String) : Option Obj :=
  match s.ttkthemes name with
  | some o => some o
  | none =>
    match s.ttk name with
    | some o => some o
    | none => s.tk name

/-- `responsive(cls)`, `sample/widgets/responsive.py:54-62`: a new class.  There is no order of the bases if the
class has `ResponsiveMixin` already: `TypeError`. -/
def World.mix (s : World) : Obj → Except PyErr (Obj × World)
  | .cls n => .ok (.resp s.made n, { s with made := s.made + 1 })
  | _ => .error .typeError

/-- `getattr(responsive, name)`, with the module's `__getattr__`, `sample/widgets/responsive.py:69-81`. -/
def World.get (s : World) (name : String) : Except PyErr Obj × World :=
  match s.own name with
  | some o => (.ok o, s)
  | none =>
    match s.find name with
    | none => (.error .attributeError, s)
    | some (.other n) => (.ok (.other n), s)
    | some c =>
      match s.cache.lookup c with
      | some r => (.ok r, s)
      | none =>
        match s.mix c with
        | .error e => (.error e, s)
        | .ok (r, s') => (.ok r, { s' with cache := (c, r) :: s'.cache })

/-! ## `mock_tk2ttk` -/

/-- What a block ends with. -/
abbrev Block := World → World × Option PyErr

/-- Setting an attribute of `tkinter`. -/
def World.setTk (s : World) (k : String) (v : Option Obj) : World :=
  { s with tk := fun j => if j = k then v else s.tk j }

/-- `with mock.patch.object(tk.tk, k, getattr(tk, k)): body`, `sample/widgets/pyplot.py:28-30`; the attributes are in
the dictionary of the module `tkinter`, so the original value is set again at the end, however the block ends. -/
def patch (k : String) (body : Block) : Block := fun s =>
  match s.get k with
  | (.error e, s') => (s', some e)
  | (.ok v, s') =>
    match s'.tk k with
    | none => (s', some .attributeError)
    | some old =>
      let r := body (s'.setTk k (some v))
      (r.1.setTk k (some old), r.2)

/-- `with mock_tk2ttk(*args): body`, `sample/widgets/pyplot.py:13-33`: the patch of the first name is inside the
context of the others. -/
def mockTk : List String → Block → Block
  | [], body => body
  | k :: ks, body => mockTk ks (patch k body)

/-! ## `RootProperty` -/

/-- The attributes of all widgets. -/
abbrev Store (W V : Type) := W → String → Option V

/-- `fget`, `sample/widgets/utils.py:61-62`; `parent` is `get_root`, 11-19. -/
def propGet {W V : Type} (parent : W → W) (st : Store W V) (w : W) (name : String) : Option V := st (parent w) name

/-- `fset`, `sample/widgets/utils.py:64-65`. -/
def propSet {W V : Type} [DecidableEq W] (parent : W → W) (st : Store W V) (w : W) (name : String) (v : V) : Store W V :=
  fun x n => if x = parent w ∧ n = name then some v else st x n

/-- `DataOnRootMeta.__new__`, `sample/widgets/utils.py:76-82`, on the dictionary of a class, given as its names and
if they are shared attributes. -/
def metaNew (props : Option (List String)) (classdict : List (String × Bool)) : List (String × Bool) :=
  match props with
  | none => classdict
  | some ps => ps.foldl (fun d p => if (d.any fun e => e.1 == p) then d else d ++ [(p, true)]) classdict

end Verif.Tk
