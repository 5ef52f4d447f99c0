import Verif.Py

/-!
# Named objects (`sample/utils/__init__.py:215-248`)

`NamedObject(obj, name)` wraps an object; its metaclass chooses `NamedCallable` for an object that can be called.
The nodes of the graph of `sample/beatsdrop/__init__.py:87-111` are such objects.

Not modelled: attributes other than `obj` and `__name__`, which are the only ones that are set.
-/
set_option autoImplicit false

namespace Verif.Utils.Named

/-- The classes: `NamedObject`, `NamedCallable` (`sample/utils/__init__.py:226-248`), and subclasses of them without
methods of their own. -/
inductive Cls where
  | object
  | callable
  | subObject (name : String)
  | subCallable (name : String)
  deriving DecidableEq

/-- Does the class have `__call__`, `sample/utils/__init__.py:242-247`? -/
def Cls.hasCall : Cls → Bool
  | .object => false
  | .callable => true
  | .subObject _ => false
  | .subCallable _ => true

/-- Objects: others (`V`), and instances of the classes, with the wrapped object and the name. -/
inductive Obj (V : Type) where
  | raw (v : V)
  | named (cls : Cls) (obj : Obj V) (name : Option String)

variable {V A R : Type}

/-- `callable(o)`; `prim v` is what calling `v` does, `none` if it cannot be called. -/
def isCallable (prim : V → Option (A → Except PyErr R)) : Obj V → Bool
  | .raw v => (prim v).isSome
  | .named c _ _ => c.hasCall

/-- `o(*args, **kwargs)`, `sample/utils/__init__.py:245-247`: `TypeError` if it cannot be called. -/
def call (prim : V → Option (A → Except PyErr R)) : Obj V → A → Except PyErr R
  | .raw v, a =>
    match prim v with
    | some f => f a
    | none => .error .typeError
  | .named c o _, a => if c.hasCall then call prim o a else .error .typeError

/-- `cls(obj, name)`, `sample/utils/__init__.py:218-223,233-236`. -/
def construct (prim : V → Option (A → Except PyErr R)) (cls : Cls) (o : Obj V) (name : Option String) : Obj V :=
  .named (if isCallable prim o && cls == .object then .callable else cls) o name

/-- `o.__name__`: set in `sample/utils/__init__.py:235-236`; instances have no other. -/
def nameOf (primName : V → Except PyErr String) : Obj V → Except PyErr String
  | .raw v => primName v
  | .named _ _ (some n) => .ok n
  | .named _ _ none => .error .attributeError

/-- `o.obj`. -/
def inner : Obj V → Option (Obj V)
  | .raw _ => none
  | .named _ o _ => some o

end Verif.Utils.Named
