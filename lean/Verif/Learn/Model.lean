import Verif.Py
import Verif.PyDict

/-!
# Model of `sample/utils/learn.py`

`OptionalStorage` (194-295) and `default_property` (13-191).
-/

set_option autoImplicit false
universe u

namespace Verif.Learn

/-! ## `OptionalStorage` -/

/-- An `OptionalStorage` object: the parameter `save` and the attribute `cache_`, which may be
absent (`sample/utils/learn.py:248-293`).  `none` entries of a list are Python's `None`. -/
structure Storage (V : Type u) where
  save : Bool
  cache : Option (Dict (List (Option V)))

variable {V : Type u}

/-- `__init__`, `sample/utils/learn.py:248-249`. -/
def Storage.init (save : Bool) : Storage V := ⟨save, none⟩

/-- `__getitem__`, `sample/utils/learn.py:251-252`. -/
def Storage.getitem (s : Storage V) (key : String) : Except PyErr (List (Option V)) :=
  match (s.cache.getD []).get? key with
  | some l => .ok l
  | none => .error .keyError

/-- `get_state`, `sample/utils/learn.py:254-263`.  Simplification: object identity (deep or shallow
copy) is not modelled. -/
def Storage.getState (s : Storage V) : Dict (List (Option V)) :=
  match s.cache with
  | some d => d
  | none => []

/-- `reset`, `sample/utils/learn.py:265-268`. -/
def Storage.reset (s : Storage V) : Storage V := { s with cache := none }

/-- `l[index] = value` of a list, `sample/utils/learn.py:292`, for any integer index. -/
def listAssign (l : List (Option V)) (index : Int) (value : V) :
    Except PyErr (List (Option V)) :=
  let i := if index < 0 then index + l.length else index
  if i < 0 ∨ (l.length : Int) ≤ i then .error .indexError
  else .ok (l.set i.toNat (some value))

/-- `append`, `sample/utils/learn.py:270-293`: the object afterwards and the outcome of the call
(an exception leaves a modified object). -/
def Storage.append (s : Storage V) (key : String) (value : V) (index : Option Int) :
    Storage V × Except PyErr V :=
  if s.save then
    let d := s.cache.getD []
    let d := if d.has key then d else d.set key []
    let l := (d.get? key).getD []
    match index with
    | none => ({ s with cache := some (d.set key (l ++ [some value])) }, .ok value)
    | some index =>
      let l := if (l.length : Int) ≤ index then
        l ++ List.replicate (index + 1 - l.length).toNat none else l
      match listAssign l index value with
      | .error e => ({ s with cache := some (d.set key l) }, .error e)
      | .ok l => ({ s with cache := some (d.set key l) }, .ok value)
  else (s, .ok value)

/-- A use of the object: calling `append` (or the object itself, line 295), `reset`, or assigning
the parameter `save` (`set_params(save=...)`). -/
inductive Op (V : Type u) where
  | append (key : String) (value : V) (index : Option Int)
  | reset
  | setSave (b : Bool)

/-- Effect of one operation on the object (an exception is caught by the caller). -/
def Storage.step (s : Storage V) : Op V → Storage V
  | .append k v i => (s.append k v i).1
  | .reset => s.reset
  | .setSave b => { s with save := b }

/-- A history of operations. -/
def Storage.run (s : Storage V) (ops : List (Op V)) : Storage V := ops.foldl Storage.step s

/-! ## `default_property` -/

/-- A value: Python's `None`, or a reference to an object. -/
inductive Val where
  | none
  | ref (id : Nat)
  deriving DecidableEq, Repr

/-- The class of a value checked by a defaulter: an arbitrary test on parent and value
(`sample/utils/learn.py:74-82`). -/
abbrev Fdef := Nat → Val → Bool

/-- `_default_fdef`, `sample/utils/learn.py:99-102`. -/
def defaultFdef : Fdef := fun _ v => decide (v = Val.none)

/-- `_constant_fdef`, `sample/utils/learn.py:94-97`. -/
def constantFdef : Fdef := fun _ _ => false

/-- The state of the world: attributes of all objects (`__dict__`s), the defaulter of each default
property (properties are numbered in order of creation), their attribute names, and the number of
objects created so far. -/
structure World where
  attrs : Nat → String → Option Val
  props : List (String × Fdef)
  next : Nat

/-- `_FORBIDDEN_NAMES`, `sample/utils/learn.py:23-27`. -/
def forbidden (name : Option String) : Bool :=
  match name with
  | none => true
  | some n => decide (n = "<lambda>") || decide (n = "_")

/-- The defaulter given at construction, `sample/utils/learn.py:65-67,71,82`. -/
def chooseFdef (fdef : Option (Option Fdef)) : Fdef :=
  match fdef with
  | none => defaultFdef
  | some none => constantFdef
  | some (some f) => f

/-- `_DefaultProperty.__init__`, `sample/utils/learn.py:50-72`: `name` is the argument, `fnName`
the `__name__` of the default function (if any), `fdef` the keyword (`none` if absent,
`some none` if `None`).  Result: the index of the new property.  Simplification: `fget`, `fset` and
`doc` are left at their defaults. -/
def World.define (s : World) (name fnName : Option String) (fdef : Option (Option Fdef)) :
    World × Except PyErr Nat :=
  let name := name.or fnName
  if forbidden name then (s, .error .valueError)
  else
    let f := chooseFdef fdef
    ({ s with props := s.props ++ [("_default_property_" ++ name.getD "", f)] },
      .ok s.props.length)

/-- `defaulter`, `sample/utils/learn.py:74-82`. -/
def World.defaulter (s : World) (p : Nat) (f : Option Fdef) : World × Except PyErr Unit :=
  match s.props[p]? with
  | none => (s, .error .attributeError)
  | some (n, _) => ({ s with props := s.props.set p (n, f.getD constantFdef) }, .ok ())

/-- `_default_fget`, `sample/utils/learn.py:84-86`. -/
def World.get (s : World) (p parent : Nat) : Except PyErr Val :=
  match s.props[p]? with
  | none => .error .attributeError
  | some (n, _) =>
    match s.attrs parent n with
    | none => .error .attributeError
    | some v => .ok v

/-- `setattr(parent, name, v)`. -/
def setattr (attrs : Nat → String → Option Val) (parent : Nat) (name : String) (v : Val) :
    Nat → String → Option Val :=
  fun o n => if o = parent ∧ n = name then some v else attrs o n

/-- `_default_fset`, `sample/utils/learn.py:88-92`.  The default function (line 91) is a
constructor call, as for all default properties of the package: it creates an object. -/
def World.set (s : World) (p parent : Nat) (v : Val) : World × Except PyErr Unit :=
  match s.props[p]? with
  | none => (s, .error .attributeError)
  | some (n, f) =>
    if f parent v then
      ({ s with attrs := setattr s.attrs parent n (.ref s.next), next := s.next + 1 }, .ok ())
    else ({ s with attrs := setattr s.attrs parent n v }, .ok ())

/-- Something a program does with default properties.  `new` creates an object by other means
(parents or explicit values). -/
inductive Act where
  | new
  | define (name fnName : Option String) (fdef : Option (Option Fdef))
  | defaulter (p : Nat) (f : Option Fdef)
  | get (p parent : Nat)
  | set (p parent : Nat) (v : Val)

/-- Effect of an action. -/
def World.step (s : World) : Act → World
  | .new => { s with next := s.next + 1 }
  | .define n fn f => (s.define n fn f).1
  | .defaulter p f => (s.defaulter p f).1
  | .get _ _ => s
  | .set p o v => (s.set p o v).1

/-- A history of actions. -/
def World.run (s : World) (acts : List Act) : World := acts.foldl World.step s

/-- No objects, no properties. -/
def World.empty : World := ⟨fun _ _ => none, [], 0⟩

end Verif.Learn
