import Verif.Out.Functions

/-!
# Arrays with any number of axes, and scalars, in functions with an `out` argument

`numpy_out` (`sample/utils/__init__.py:147-212`) allocates the result with the shape of the *first*
array argument and turns a 0-d result back into a scalar.  Here the bodies of `Out/Functions.lean`
are run on arrays of any shape with NumPy's broadcasting rules: every operand of a call
`np.op(..., out=dst)` has to fit the shape of `dst`, which never changes.
-/

set_option autoImplicit false

namespace Verif.Out.Nd

variable {C : Type}

/-- An array: the lengths of its axes, the *innermost* axis first, and its entries.  The shape `[]`
is a 0-d array or a scalar. -/
structure Arr (C : Type) where
  shape : List Nat
  val : List Nat → C

/-- Whether an operand of shape `s` can be broadcast into an array of shape `T` (NumPy compares
the shapes from the innermost axis on; missing axes and axes of length 1 are repeated). -/
def fits : List Nat → List Nat → Bool
  | [], _ => true
  | _ :: _, [] => false
  | a :: s, b :: T => (a = 1 || a = b) && fits s T

/-- The entry of an operand of shape `s` that is used for the index `i` of the result. -/
def proj (s i : List Nat) : List Nat := List.zipWith (fun n k => if n = 1 then 0 else k) s i

/-- The entry of an array that is used for the index `i` of the result. -/
def Arr.get (a : Arr C) (i : List Nat) : C := a.val (proj a.shape i)

/-- Memory: the arrays. -/
abbrev Mem (C : Type) := Nat → Arr C

/-- Overwrite the array `r`. -/
def Mem.write (m : Mem C) (r : Nat) (a : Arr C) : Mem C := fun i => if i = r then a else m i

/-- One NumPy call.  `ValueError` if an operand cannot be broadcast into the destination.  Otherwise
every entry of the destination is what the call computes for arrays of one entry; the call is one
that works entry by entry (`Stmt.op` of `un` and `bin` never fails on arrays of one entry; the
second branch of `match` is not reached). -/
def exec (b : Binding) (m : Mem C) (s : Stmt C) : Except PyErr (Mem C) :=
  let d := m (b s.dst)
  if s.args.all fun v => fits (m (b v)).shape d.shape then
    .ok (m.write (b s.dst) ⟨d.shape, fun i =>
      match s.op (s.args.map fun v => [(m (b v)).get i]) with
      | .ok (c :: _) => c
      | _ => d.val i⟩)
  else .error .valueError

/-- The calls of a function body in sequence. -/
def run (b : Binding) : Mem C → Prog C → Except PyErr (Mem C)
  | m, [] => .ok m
  | m, s :: p =>
    match exec b m s with
    | .error e => .error e
    | .ok m => run b m p

/-- The machine: memory and the first reference that is not in use. -/
structure Heap (C : Type) where
  mem : Mem C
  next : Nat

/-- What a call returns: a scalar or an array. -/
inductive Res (C : Type) where
  | scalar (c : C)
  | array (r : Nat)
  deriving DecidableEq, Repr

/-- The array used for `out`. -/
def outRef (h : Heap C) (out : Option Nat) : Nat := out.getD h.next

/-- The first array that the body may allocate. -/
def baseRef (h : Heap C) (out : Option Nat) : Nat :=
  if out.isNone then h.next + 1 else h.next

/-- The shape of the `out` array: that of the array that is given, or else that of the first
argument `a` (`np.shape(a)`, lines 205-208). -/
def outShape (h : Heap C) (a : Nat) (out : Option Nat) : List Nat := (h.mem (out.getD a)).shape

/-- Give the shape `T` to the array `r` (`np.empty`; the contents stay what they are). -/
def Mem.reshape (m : Mem C) (r : Nat) (T : List Nat) : Mem C := m.write r ⟨T, (m r).val⟩

/-- `np.empty_like`: `nt` new arrays from `base` on.  `like` tells of each the position of the
argument whose shape it has; the others (`none`) have the shape `T` of `out`. -/
def alloc (m : Mem C) (args : List Nat) (base nt : Nat) (like : Nat → Option Nat) (T : List Nat) :
    Mem C := fun r =>
  if base ≤ r ∧ r < base + nt then
    ⟨match like (r - base) with
      | some k => (m (args.getD k 0)).shape
      | none => T, (m r).val⟩
  else m r

/-- A call of a function decorated with `numpy_out`, `sample/utils/__init__.py:201-210`: `args` are
the positional arguments (after `self`, for a method).  `IndexError` if there are none (lines
193-199: `args[0]`, `args[1]` for a method); without `out` (or with `out=None`) the array that the
body writes has the shape of the first argument, and a 0-d result is returned as a scalar (line
210, `out[()]`); otherwise the array `out` is returned.

Simplifications: data types and casting are not modelled; the arrays that the body allocates are
allocated at once, with the shapes of `out` or of an argument; scalar arguments are 0-d
arrays of the memory; `np.empty` finds arbitrary contents. -/
def numpyOut (p : Prog C) (nt : Nat) (like : Nat → Option Nat) (h : Heap C) (args : List Nat)
    (out : Option Nat) : Except PyErr (Heap C × Res C) :=
  match args with
  | [] => .error .indexError
  | a :: _ =>
    let T := outShape h a out
    let o := outRef h out
    let base := baseRef h out
    match run (bindOf args o base) (alloc (h.mem.reshape o T) args base nt like T) p with
    | .error e => .error e
    | .ok m => .ok (⟨m, base + nt⟩,
        if out.isNone ∧ T = [] then .scalar ((m o).val []) else .array o)

/-- The shapes of the arrays that a body allocates: all like `out` (`np.empty_like(out)`). -/
def likeOut (_ : Nat) : Option Nat := none

/-- The arrays that `_envelope` allocates: both like its argument (`np.empty_like(t)`,
`sample/psycho.py:598-600`). -/
def envelopeLike (_ : Nat) : Option Nat := some 0

/-- The array that `a2db` allocates for a floor in decibel: `db2a(floor)` has the shape of `floor`
(`sample/utils/dsp.py:93-97`). -/
def floorLike (_ : Nat) : Option Nat := some 1

/-- The calls of `GammatoneFilter.wavefun` after the envelope, not analytic,
`sample/psycho.py:653-662`; here `out` is the envelope and `tmp 0` its `tmp`. -/
noncomputable def oscillate (f phi : ℝ) : Prog Cell :=
  [un (.tmp 0) (Option.map (2 * Real.pi * f * ·)) (.arg 0),
   un (.tmp 0) (Option.map (· + phi)) (.tmp 0),
   un (.tmp 0) (Option.map Real.cos) (.tmp 0),
   bin .out (op2 (· * ·)) .out (.tmp 0)]

/-- `GammatoneFilter.wavefun(t, out=out)`, not analytic, `sample/psycho.py:634-664`.  The envelope
of a scalar `t` without `out` is a scalar, so that `np.multiply(out, tmp, out=out)` raises
`TypeError` ("return arrays must be of ArrayType"). -/
noncomputable def wavefun (n : ℤ) (f tc b phi : ℝ) (h : Heap Cell) (t : Nat) (out : Option Nat) :
    Except PyErr (Heap Cell × Res Cell) :=
  match numpyOut (envelope n tc b) 2 envelopeLike h [t] out with
  | .error e => .error e
  | .ok (_, .scalar _) => .error .typeError
  | .ok (h, .array r) =>
    match run (bindOf [t] r h.next)
        (alloc h.mem [t] h.next 1 likeOut (h.mem r).shape) (oscillate f phi) with
    | .error e => .error e
    | .ok m => .ok (⟨m, h.next + 1⟩, .array r)

end Verif.Out.Nd
