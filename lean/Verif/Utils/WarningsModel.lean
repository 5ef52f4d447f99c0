import Verif.Py
import Verif.PyDict

/-!
# Models of `warnings_simplefilter`, `default_kws` and of functions with variants

`sample/utils/__init__.py:60-121, 500-570`.
-/

set_option autoImplicit false

namespace Verif.Utils

universe u v

/-! ## `warnings_simplefilter` -/

/-- An entry of `warnings.filters` made by `warnings.simplefilter`: action, category, line. -/
structure Filter where
  action : String
  category : String
  lineno : Nat
  deriving DecidableEq, Repr

/-- The global state of the module `warnings`, as far as `catch_warnings` touches it: the list of
filters and the current destination of messages (`none`: the standard one, `some i`: the `i`-th list
of records); with the lists of records made so far, and the list `traces` of the decorator. -/
structure World where
  filters : List Filter
  dest : Option Nat
  records : List (List String)
  traces : List (Option Nat)
  deriving DecidableEq, Repr

/-- A function that may look at the state, change it, and return or raise. -/
abbrev WFn (V : Type u) (R : Type v) := List V → Dict V → World → World × Except PyErr R

/-- The arguments of `warnings_simplefilter`, `sample/utils/__init__.py:500-504`: `record` is the
only argument of `catch_warnings` modelled; `filter` and `append` are those of
`warnings.simplefilter`. -/
structure WarnCfg (V : Type u) where
  record : Bool
  traced : Bool
  toggle : Option (String × V)
  filter : Filter
  append : Bool

/-- `warnings.simplefilter` (Python's `_add_filter`): a new filter is moved to the front; an
appended one is added at the end if missing. -/
def simplefilter (f : Filter) (append : Bool) (l : List Filter) : List Filter :=
  if append then (if f ∈ l then l else l ++ [f]) else f :: l.erase f

/-- `catch_warnings.__enter__`: the new state and the yielded value. -/
def enterCatch (record : Bool) (w : World) : World × Option Nat :=
  if record then
    ({ w with dest := some w.records.length, records := w.records ++ [[]] }, some w.records.length)
  else (w, none)

/-- `catch_warnings.__exit__`: filters and destination of the state `w₀` at the entrance. -/
def exitCatch (w₀ w : World) : World := { w with filters := w₀.filters, dest := w₀.dest }

/-- `kws.pop(key, default)`: the value; the key is erased. -/
def popDefault {V : Type u} (kw : Dict V) (t : String × V) : V × Dict V :=
  ((kw.get? t.1).getD t.2, kw.erase t.1)

/-- The filtered call, `sample/utils/__init__.py:531-535`. -/
def WarnCfg.filtered {V : Type u} {R : Type v} (c : WarnCfg V) (f : WFn V R) : WFn V R :=
  fun args kw w =>
    let (w₁, y) := enterCatch c.record w
    let w₂ := { w₁ with filters := simplefilter c.filter c.append w₁.filters }
    let w₃ := if c.traced then { w₂ with traces := w₂.traces ++ [y] } else w₂
    let (w₄, r) := f args kw w₃
    (exitCatch w w₄, r)

/-- The decorated function, `sample/utils/__init__.py:527-535`.  `truthy` is Python's truth
value. -/
def WarnCfg.decorate {V : Type u} {R : Type v} (c : WarnCfg V) (truthy : V → Bool) (f : WFn V R) :
    WFn V R := fun args kw w =>
  match c.toggle with
  | none => c.filtered f args kw w
  | some t =>
    if truthy (popDefault kw t).1 then c.filtered f args (popDefault kw t).2 w
    else f args (popDefault kw t).2 w

/-! ## `default_kws` -/

/-- Dictionary objects in memory; a reference is a position. -/
abbrev Heap (V : Type u) := List (Dict V)

/-- The loop of `default_kws`, `sample/utils/__init__.py:568-569`: `d[k] = d.get(k, v)`. -/
def fillDefaults {V : Type u} (d : Dict V) (defaults : Dict V) : Dict V :=
  defaults.foldl (fun d kv => d.set kv.1 ((d.get? kv.1).getD kv.2)) d

/-- `default_kws(d, **kwargs)`, `sample/utils/__init__.py:540-570`, with `d` as the positional
argument: `None` or a reference.  A default named `d` clashes with the parameter. -/
def defaultKws {V : Type u} (h : Heap V) (d : Option Nat) (kwargs : Dict V) :
    Heap V × Except PyErr Nat :=
  if kwargs.has "d" then (h, .error .typeError)
  else
    match d with
    | none => (h ++ [fillDefaults [] kwargs], .ok h.length)
    | some r =>
      match h[r]? with
      | none => (h, .error .attributeError)
      | some x => (h ++ [fillDefaults x kwargs], .ok h.length)

/-! ## Functions with variants -/

/-- The object made by `function_with_variants`, `sample/utils/__init__.py:84-100`: the option name,
its default value, and `_variants_dict`. -/
structure Variants (F : Type u) where
  key : String
  default : String
  dict : Dict F

/-- `function_with_variants(func, key, default, this)`, `sample/utils/__init__.py:84-86`. -/
def withVariants {F : Type u} (func : F) (key default : String) (this : Option String) :
    Variants F :=
  ⟨key, default, match this with
    | none => []
    | some k => [(k, func)]⟩

/-- `function_variant(main_func, key)`, `sample/utils/__init__.py:120`. -/
def Variants.register {F : Type u} (m : Variants F) (k : String) (f : F) : Variants F :=
  { m with dict := m.dict.set k f }

/-- Values of keyword arguments: a string (usable as an option) or another hashable object. -/
inductive VVal (V : Type v) where
  | str (s : String)
  | other (v : V)

/-- The option of a call, `sample/utils/__init__.py:91`. -/
def Variants.option {F : Type u} {V : Type v} (m : Variants F) (kw : Dict (VVal V)) : VVal V :=
  (kw.get? m.key).getD (.str m.default)

/-- The call of a function with variants, `sample/utils/__init__.py:90-98`: the function that is
called and its keyword arguments.  Simplification: an unhashable option (TypeError) is not
modelled. -/
def Variants.call {F : Type u} {V : Type v} (m : Variants F) (kw : Dict (VVal V)) :
    Except PyErr (F × Dict (VVal V)) :=
  match m.option kw with
  | .other _ => .error .valueError
  | .str k =>
    match m.dict.get? k with
    | none => .error .valueError
    | some f => .ok (f, kw.erase m.key)

/-! ## `add_keyword_arg` -/

/-- Kinds of parameters, in the order of `inspect`. -/
inductive Kind where
  | posOnly
  | posOrKw
  | varPos
  | kwOnly
  | varKw
  deriving DecidableEq, Repr

/-- `int(kind)`. -/
def Kind.rank : Kind → Nat
  | .posOnly => 0
  | .posOrKw => 1
  | .varPos => 2
  | .kwOnly => 3
  | .varKw => 4

/-- `inspect.Parameter`: name, kind, and whether there is a default value. -/
structure Param where
  name : String
  kind : Kind
  hasDefault : Bool
  deriving DecidableEq, Repr

/-- The list of parameters of `add_keyword_arg`, `sample/utils/__init__.py:47-55`. -/
def addKeywordArg (params : List Param) (name : String) (hasDefault : Bool) : List Param :=
  let params := params.filter fun p => !decide (p.name = name)
  let i := params.length
  let i := match params.getLast? with
    | none => i
    | some p => if p.kind = .varKw then i - 1 else i
  params.insertIdx i ⟨name, .kwOnly, hasDefault⟩

/-! ## `Numpy2Paragraph` -/

/-- The cache of operators, `sample/utils/__init__.py:254-300`: name to operator object (numbered
in order of creation); `made` counts the operators made. -/
structure OpCache where
  d : Dict Nat
  made : Nat

/-- `np2pg.<key>` for a name that is not a class attribute, `sample/utils/__init__.py:296-300`;
`inNumpy` tells whether NumPy has the attribute. -/
def OpCache.getattr (inNumpy : String → Bool) (c : OpCache) (k : String) :
    OpCache × Except PyErr Nat :=
  match c.d.get? k with
  | some o => (c, .ok o)
  | none =>
    if inNumpy k then (⟨c.d.set k c.made, c.made + 1⟩, .ok c.made)
    else (c, .error .attributeError)

end Verif.Utils
