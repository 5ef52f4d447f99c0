import Mathlib.Data.List.Basic
import Verif.Py

/-!
# Model of array functions with an `out` argument (`sample/utils/__init__.py:147-212`)

The functions decorated with `numpy_out` are straight-line sequences of NumPy calls, each of which
reads some arrays and overwrites one array (`out=...`).  Arrays are references into a memory, so
that the same array may be passed as an input and as `out`.

NumPy semantics assumed: one call with an `out` array first reads all of its inputs, then writes
(NumPy guarantees the result of a call with overlapping operands to be as if they did not overlap).
-/

set_option autoImplicit false

namespace Verif.Out

/-- Array variables of a function: its positional array arguments, its `out` argument, the other
arrays it allocates. -/
inductive Var where
  | arg (i : Nat)
  | out
  | tmp (i : Nat)
  deriving DecidableEq, Repr

/-- One NumPy call `np.op(args..., out=dst)`.  Scalar operands are part of `op`. -/
structure Stmt (C : Type) where
  dst : Var
  op : List (List C) → Except PyErr (List C)
  args : List Var

/-- The body of a function. -/
abbrev Prog (C : Type) := List (Stmt C)

/-- Memory: the contents of each array. -/
abbrev Mem (C : Type) := Nat → List C

/-- Which array each variable is. -/
abbrev Binding := Var → Nat

variable {C : Type}

/-- Overwrite the array `r`. -/
def Mem.write (m : Mem C) (r : Nat) (a : List C) : Mem C := fun i => if i = r then a else m i

/-- One NumPy call. -/
def exec (b : Binding) (m : Mem C) (s : Stmt C) : Except PyErr (Mem C) :=
  match s.op (s.args.map fun v => m (b v)) with
  | .error e => .error e
  | .ok a => .ok (m.write (b s.dst) a)

/-- The calls of a function body in sequence. -/
def run (b : Binding) : Mem C → Prog C → Except PyErr (Mem C)
  | m, [] => .ok m
  | m, s :: p =>
    match exec b m s with
    | .error e => .error e
    | .ok m => run b m p

/-- The machine: memory and the first reference that is not in use.  Arrays in use are those below
`next`; the contents of `mem` from `next` on are what `np.empty` finds there. -/
structure Heap (C : Type) where
  mem : Mem C
  next : Nat

/-- The arrays of a call: positional arguments `args`, the array `o` for `out`, and `np.empty_like`
arrays, allocated from `base` on. -/
def bindOf (args : List Nat) (o base : Nat) : Binding
  | .arg i => args.getD i 0
  | .out => o
  | .tmp i => base + i

/-- The array used for `out`, `sample/utils/__init__.py:205-208`. -/
def outRef (h : Heap C) (out : Option Nat) : Nat := out.getD h.next

/-- The first array that the body may allocate. -/
def baseRef (h : Heap C) (out : Option Nat) : Nat :=
  if out.isNone then h.next + 1 else h.next

/-- The array given as `out` has the size of the first argument. -/
def shapes (h : Heap C) (args : List Nat) (out : Option Nat) : Bool :=
  match out, args with
  | some r, a :: _ => decide ((h.mem r).length = (h.mem a).length)
  | _, _ => true

/-- A call of a function decorated with `numpy_out`, `sample/utils/__init__.py:201-210`: without
`out` (or with `out=None`) a new array is made by `np.empty`; the body is run and the `out` array is
returned.  `nt` is the number of arrays that the body allocates.  Result: the memory and the
reference of the returned array.

Simplifications: all arrays are 1-d; a 0-d input is a one-element array and the final `out[()]` of
line 210 is not modelled; data types and casting are not modelled; `np.empty` and `np.empty_like`
find arbitrary contents in the new arrays (the contents of the memory from `next` on), which is
never read by a program that passes `Prog.ok`; broadcasting into a longer `out` is not modelled
(marker `ValueError`, as for sizes that do not agree). -/
def numpyOut (p : Prog C) (nt : Nat) (h : Heap C) (args : List Nat) (out : Option Nat) :
    Except PyErr (Heap C × Nat) :=
  if shapes h args out then
    match run (bindOf args (outRef h out) (baseRef h out)) h.mem p with
    | .error e => .error e
    | .ok m => .ok (⟨m, baseRef h out + nt⟩, outRef h out)
  else .error .valueError

/-- The value of a call without `out` on arrays with the given contents. -/
def ret (p : Prog C) (nt : Nat) (xs : List (List C)) : Except PyErr (List C) :=
  match numpyOut p nt ⟨fun i => xs.getD i [], xs.length⟩ (List.range xs.length) none with
  | .error e => .error e
  | .ok (h, r) => .ok (h.mem r)

/-! ## Reading order -/

/-- Whether each statement of a body (a) writes no argument, (b) reads `out` and the allocated
arrays only after they were written, (c) reads no argument of the list `shared` after `out` was
written.  `w` is the list of variables written so far. -/
def ok (shared : List Nat) : List Var → Prog C → Bool
  | _, [] => true
  | w, s :: p =>
    (match s.dst with
      | .arg _ => false
      | _ => true) &&
    s.args.all (fun v => match v with
      | .arg i => !(decide (i ∈ shared) && decide (Var.out ∈ w))
      | v => decide (v ∈ w)) &&
    ok shared (s.dst :: w) p

/-! ## NumPy calls used by the bodies -/

/-- A call with one array operand, entry by entry. -/
def un (dst : Var) (f : C → C) (a : Var) : Stmt C :=
  ⟨dst, fun
    | [x] => .ok (x.map f)
    | _ => .error .typeError, [a]⟩

/-- A call with two array operands, entry by entry (sizes must agree). -/
def bin (dst : Var) (f : C → C → C) (a b : Var) : Stmt C :=
  ⟨dst, fun
    | [x, y] => if x.length = y.length then .ok (List.zipWith f x y) else .error .valueError
    | _ => .error .typeError, [a, b]⟩

/-- A call whose operands are `a` and a number computed from the array `b`. -/
def red (dst : Var) (f : C → C → C) (r : List C → Except PyErr C) (a b : Var) : Stmt C :=
  ⟨dst, fun
    | [x, y] =>
      match r y with
      | .error e => .error e
      | .ok c => .ok (x.map fun v => f v c)
    | _ => .error .typeError, [a, b]⟩

/-- Rename the variables of a body (a call of another function of the same kind). -/
def Prog.rename (f : Var → Var) (p : Prog C) : Prog C :=
  p.map fun s => ⟨f s.dst, s.op, s.args.map f⟩

end Verif.Out
