import Verif.Py

/-!
# Attributes given by `__getattr__` (`sample/psycho.py:741-760`, `sample/beatsdrop/__init__.py:165-187`)

`getattr(obj, key)` looks for an attribute of the object or of its class, and calls `__getattr__` if there is none.
The lookup can call itself; `fuel` limits the depth, and `none` means that it was too small: an endless recursion
is a `RecursionError` in Python.
-/

set_option autoImplicit false

namespace Verif.Attr

/-- A gammatone filterbank: the attribute `_filters`, `none` before `__init__` has stored it (in a new object that
`copy` or `pickle` fills afterwards); `own` are the other attributes of the object and of the class. -/
structure Bank (F V : Type) where
  filters : Option (List F)
  own : String → Option V

/-- What a lookup gives: `_filters`, another attribute, or a tuple with an attribute of each filter. -/
inductive Res (F V : Type) where
  | filters (l : List F)
  | own (v : V)
  | tuple (l : List V)

/-- `tuple(getattr(f, key) for f in self)`; `none` is an `AttributeError`. -/
def gather {F V : Type} (get : F → String → Option V) (key : String) : List F → Option (List V)
  | [] => some []
  | f :: fs =>
    match get f key with
    | none => none
    | some v =>
      match gather get key fs with
      | none => none
      | some l => some (v :: l)

/-- `getattr(bank, key)`, with `GammatoneFilterbank.__getattr__`, `sample/psycho.py:753-760`, and `__iter__`, 741-743,
which reads `_filters`.  `object` has no `__getattr__`, hence line 760 raises an `AttributeError`. -/
def bankGet {F V : Type} (get : F → String → Option V) (b : Bank F V) : Nat → String → Option (Except PyErr (Res F V))
  | 0, _ => none
  | fuel + 1, key =>
    match (if key = "_filters" then b.filters else none) with
    | some l => some (.ok (.filters l))
    | none =>
      match b.own key with
      | some v => some (.ok (.own v))
      | none =>
        match bankGet get b fuel "_filters" with
        | none => none
        | some (.ok (.filters l)) =>
          match gather get key l with
          | some vs => some (.ok (.tuple vs))
          | none => some (.error .attributeError)
        | some (.ok _) => some (.error .typeError)
        | some (.error .attributeError) => some (.error .attributeError)
        | some (.error e) => some (.error e)

/-- `bank[i]`, `sample/psycho.py:745-747`: from the end for negative numbers. -/
def bankItem {F V : Type} (b : Bank F V) (i : Int) : Except PyErr F :=
  match b.filters with
  | none => .error .attributeError
  | some l =>
    if 0 ≤ i then getE l i.toNat
    else if -(l.length : Int) ≤ i then getE l (i + l.length).toNat
    else .error .indexError

/-- A beat: the dictionary `_graph`, `none` before `__init__` has stored it; `own` are the other attributes of the
object and of the class. -/
structure BeatObj (N V : Type) where
  graph : Option (List (String × N))
  own : String → Option V

/-- What a lookup gives: the graph, another attribute, or `functools.partial(self.compute, output=key)`. -/
inductive BeatRes (N V : Type) where
  | graph (g : List (String × N))
  | own (v : V)
  | compute (key : String)

/-- `getattr(beat, key)`, with `Beat.__getattr__`, `sample/beatsdrop/__init__.py:182-187`. -/
def beatGet {N V : Type} (b : BeatObj N V) : Nat → String → Option (Except PyErr (BeatRes N V))
  | 0, _ => none
  | fuel + 1, key =>
    match (if key = "_graph" then b.graph else none) with
    | some g => some (.ok (.graph g))
    | none =>
      match b.own key with
      | some v => some (.ok (.own v))
      | none =>
        match beatGet b fuel "_graph" with
        | none => none
        | some (.ok (.graph g)) =>
          if (g.any fun e => e.1 == key) then some (.ok (.compute key)) else some (.error .attributeError)
        | some (.ok _) => some (.error .typeError)
        | some (.error e) => some (.error e)

/-- The nodes of a list of names, `sample/beatsdrop/__init__.py:179`; `KeyError` for a name that is no variable. -/
def nodes {N : Type} (g : List (String × N)) : List String → Except PyErr (List N)
  | [] => .ok []
  | k :: ks =>
    match g.lookup k with
    | none => .error .keyError
    | some n =>
      match nodes g ks with
      | .error e => .error e
      | .ok l => .ok (n :: l)

/-- `Beat.compute` for a list of names, `sample/beatsdrop/__init__.py:170-180`; `value n` is what `pg.evaluate` gives for
a node. -/
def computeList {N X : Type} (g : List (String × N)) (value : N → X) (ks : List String) : Except PyErr (List X) :=
  match nodes g ks with
  | .error e => .error e
  | .ok ns => .ok (ns.map value)

/-- `Beat.compute` for one name, `sample/beatsdrop/__init__.py:177-178`. -/
def computeOne {N X : Type} (g : List (String × N)) (value : N → X) (k : String) : Except PyErr X :=
  match computeList g value [k] with
  | .error e => .error e
  | .ok l => getE l 0

/-- `Beat.variables`, `sample/beatsdrop/__init__.py:165-168`. -/
def varNames {N : Type} (g : List (String × N)) : List String := g.map Prod.fst

end Verif.Attr
