import Verif.Out.Functions
import Verif.Out.Lemmas

/-!
# Number types of array functions (`sample/utils/__init__.py:124-212`)

The model of `Verif/Out/Model.lean` computes with real numbers.  Here every array also has a NumPy
number type.  One NumPy call `np.op(args, out=dst)` computes in a type that depends on the types of
the operands only (not on that of `dst`), and the result is then cast to the type of `dst`; the cast
must be of the same kind (`casting='same_kind'`, the default), otherwise NumPy raises
`UFuncTypeError`, a `TypeError`.  Computation in an integer type is modulo the number of its values.

Complex numbers are not modelled; all widths of floating-point numbers are one type without
rounding.  Each body has a list with the rule for the type of each of its calls.
-/

set_option autoImplicit false

namespace Verif.Out

/-- Widths of the integer types of NumPy. -/
inductive Width where
  | w8
  | w16
  | w32
  | w64
  deriving DecidableEq, Repr

/-- Number of bits. -/
def Width.bits : Width → Nat
  | .w8 => 8
  | .w16 => 16
  | .w32 => 32
  | .w64 => 64

/-- Number types. -/
inductive NumTy where
  | bool
  | int (w : Width)
  | uint (w : Width)
  | float
  deriving DecidableEq, Repr

/-- Whether an integer is a value of a type.  (Every integer counts as a floating-point number:
rounding is not modelled.) -/
def NumTy.Has : NumTy → ℤ → Prop
  | .bool, z => z = 0 ∨ z = 1
  | .int w, z => -2 ^ (w.bits - 1) ≤ z ∧ z < 2 ^ (w.bits - 1)
  | .uint w, z => 0 ≤ z ∧ z < 2 ^ w.bits
  | .float, _ => True

instance (t : NumTy) (z : ℤ) : Decidable (t.Has z) := by
  cases t <;> unfold NumTy.Has <;> infer_instance

/-- Conversion of a value to a type: integers modulo the number of values.  (Only integers are ever
converted to an integer type, see `sameKind`.) -/
noncomputable def castCell : NumTy → Cell → Cell
  | .float, c => c
  | .bool, c => c.map fun v => if v = 0 then 0 else 1
  | .int w, c => c.map fun v => ((⌊v⌋.bmod (2 ^ w.bits) : ℤ) : ℝ)
  | .uint w, c => c.map fun v => ((⌊v⌋ % 2 ^ w.bits : ℤ) : ℝ)

/-- `np.can_cast(a, b, casting='same_kind')`. -/
def sameKind : NumTy → NumTy → Bool
  | .bool, _ => true
  | .int _, .int _ => true
  | .int _, .float => true
  | .int _, _ => false
  | .uint _, .bool => false
  | .uint _, _ => true
  | .float, .float => true
  | .float, _ => false

/-- The wider of two. -/
def Width.max : Width → Width → Width
  | .w8, w => w
  | w, .w8 => w
  | .w16, w => w
  | w, .w16 => w
  | .w32, w => w
  | w, .w32 => w
  | .w64, .w64 => .w64

/-- `np.promote_types` of a signed and an unsigned integer type. -/
def promoteMixed : Width → Width → NumTy
  | _, .w64 => .float
  | .w8, .w8 => .int .w16
  | .w8, .w16 => .int .w32
  | .w8, .w32 => .int .w64
  | .w16, .w8 => .int .w16
  | .w16, .w16 => .int .w32
  | .w16, .w32 => .int .w64
  | .w32, .w32 => .int .w64
  | .w32, _ => .int .w32
  | .w64, _ => .int .w64

/-- `np.promote_types`. -/
def promote : NumTy → NumTy → NumTy
  | .float, _ => .float
  | _, .float => .float
  | .bool, b => b
  | a, .bool => a
  | .int a, .int b => .int (a.max b)
  | .uint a, .uint b => .uint (a.max b)
  | .int a, .uint b => promoteMixed a b
  | .uint a, .int b => promoteMixed b a

/-! ## The type of `out` -/

/-- An argument as seen by `np.result_type`: something with a number type (an array, a NumPy or
Python number) or a list or tuple. -/
inductive Inp where
  | num (t : NumTy)
  | seq (l : List Inp)

/-- `np.result_type(a)` for one argument: `TypeError` for a list or tuple.  (An empty list is read as
a type without fields, which has no common type with numbers; also `TypeError` here.) -/
def resultOne : Inp → Except PyErr NumTy
  | .num t => .ok t
  | .seq _ => .error .typeError

/-- `_result_type`, the types collected by its loop, `sample/utils/__init__.py:126-132`. -/
def resultTypes : List Inp → Except PyErr (List NumTy)
  | [] => .ok []
  | a :: l =>
    let ts : Except PyErr (List NumTy) :=
      match resultOne a with
      | .ok t => .ok [t]
      | .error _ =>
        match a with
        | .num t => .ok [t]
        | .seq [] => .error .typeError
        | .seq (i :: is) => (i :: is).mapM resultOne
    match ts with
    | .error e => .error e
    | .ok ts =>
      match resultTypes l with
      | .error e => .error e
      | .ok us => .ok (ts ++ us)

/-- `_result_type`, `sample/utils/__init__.py:124-133`; `ValueError` without arguments. -/
def resultType (l : List Inp) : Except PyErr NumTy :=
  match resultTypes l with
  | .error e => .error e
  | .ok [] => .error .valueError
  | .ok (t :: ts) => .ok (ts.foldl promote t)

/-- `_get_dtype_inner`, `sample/utils/__init__.py:174-186`: `dtype` and `dtype_promote` of the
decorator and the positional arguments. -/
def defaultType (dtype : Option NumTy) (dtypePromote : Bool) (args : List Inp) :
    Except PyErr NumTy :=
  match dtype with
  | none => resultType args
  | some d => if dtypePromote then resultType (.num d :: args) else .ok d

/-- The type of the array for `out`, `sample/utils/__init__.py:188-190,205-208`: that of the given
array; else the `dtype` keyword; else the default.  A `dtype` keyword beside an `out` array is not
removed from the keywords, and the bodies do not accept it: `TypeError`. -/
def outType (dtype : Option NumTy) (dtypePromote : Bool) (args : List Inp)
    (user out : Option NumTy) : Except PyErr NumTy :=
  match out, user with
  | some _, some _ => .error .typeError
  | some t, none => .ok t
  | none, some t => .ok t
  | none, none => defaultType dtype dtypePromote args

/-! ## Bodies with types -/

/-- An array with its type. -/
structure TArr where
  ty : NumTy
  data : List Cell

/-- The type in which a call computes, from the types of its array operands. -/
abbrev Loop := List NumTy → Except PyErr NumTy

/-- The type of an operation with an array of the given type and a Python integer; it depends on the
version of NumPy (`nep50`, `legacy`). -/
abbrev WeakRule := NumTy → ℤ → Except PyErr NumTy

/-- One call: the value is computed, reduced to the type of the computation, then cast to the type of
the destination.  Simplification: if both the shapes and the types are wrong, the exception is that
for the shapes. -/
noncomputable def texec (e : Var → TArr) (s : Stmt Cell) (l : Loop) : Except PyErr (Var → TArr) :=
  match s.op (s.args.map fun v => (e v).data) with
  | .error x => .error x
  | .ok a =>
    match l (s.args.map fun v => (e v).ty) with
    | .error x => .error x
    | .ok t =>
      if sameKind t (e s.dst).ty then
        .ok fun v => if v = s.dst then
          ⟨(e s.dst).ty, a.map fun c => castCell (e s.dst).ty (castCell t c)⟩ else e v
      else .error .typeError

/-- The calls of a body in sequence. -/
noncomputable def tsem : (Var → TArr) → Prog Cell → List Loop → Except PyErr (Var → TArr)
  | e, s :: p, l :: ls =>
    match texec e s l with
    | .error x => .error x
    | .ok e => tsem e p ls
  | e, _, _ => .ok e

/-- Initial variables: the arguments, `out` of type `o`, temporary arrays of type `tmp`. -/
def tinit (xs : List TArr) (o tmp : NumTy) : Var → TArr
  | .arg i => xs.getD i ⟨.float, []⟩
  | .out => ⟨o, []⟩
  | .tmp _ => ⟨tmp, []⟩

/-- The result of a body. -/
noncomputable def tbody (p : Prog Cell) (ls : List Loop) (xs : List TArr) (o tmp : NumTy) :
    Except PyErr TArr :=
  match tsem (tinit xs o tmp) p ls with
  | .error x => .error x
  | .ok e => .ok (e .out)

/-- A call of a function decorated with `numpy_out`, `sample/utils/__init__.py:201-210`, with the
arrays `xs` and further positional numbers of types `nums`; temporary arrays are made by
`np.empty_like(out)`. -/
noncomputable def tcall (p : Prog Cell) (ls : List Loop) (dtype : Option NumTy)
    (dtypePromote : Bool) (xs : List TArr) (nums : List NumTy) (user out : Option NumTy) :
    Except PyErr TArr :=
  match outType dtype dtypePromote ((xs.map fun x => .num x.ty) ++ nums.map .num) user out with
  | .error e => .error e
  | .ok o => tbody p ls xs o o

/-! ## Rules for the types of calls -/

/-- Calls that compute in floating point whatever the operands: `np.true_divide`, logarithms,
exponentials, roots, trigonometric functions, and arithmetic with a Python `float`. -/
def fl : Loop := fun _ => .ok .float

/-- Arithmetic with one array and a Python integer. -/
def lit (W : WeakRule) (z : ℤ) : Loop := fun
  | [t] => W t z
  | _ => .error .typeError

/-- `np.square`: in the type of the operand; `int8` for `bool`. -/
def own : Loop := fun
  | [.bool] => .ok (.int .w8)
  | [t] => .ok t
  | _ => .error .typeError

/-- `np.add`, `np.multiply`, `np.maximum` of two arrays. -/
def join : Loop := fun
  | [a, b] => .ok (promote a b)
  | _ => .error .typeError

/-- `np.subtract` of two arrays: NumPy refuses to subtract boolean arrays. -/
def joinSub : Loop := fun
  | [.bool, .bool] => .error .typeError
  | [a, b] => .ok (promote a b)
  | _ => .error .typeError

/-- Comparisons. -/
def cmp : Loop := fun _ => .ok .bool

/-- The rule of NumPy 2 (NEP 50): a Python integer takes the integer type of the array, or does not
fit and raises `OverflowError`. -/
def nep50 : WeakRule := fun t z =>
  match t with
  | .float => .ok .float
  | .bool => .ok (.int .w64)
  | t => if t.Has z then .ok t else .error .overflowError

/-- `np.min_scalar_type` of an integer (`object` for integers that fit no type is not modelled). -/
def minScalarType (z : ℤ) : NumTy :=
  if 0 ≤ z then
    if z < 2 ^ 8 then .uint .w8 else if z < 2 ^ 16 then .uint .w16
    else if z < 2 ^ 32 then .uint .w32 else .uint .w64
  else if -2 ^ 7 ≤ z then .int .w8 else if -2 ^ 15 ≤ z then .int .w16
  else if -2 ^ 31 ≤ z then .int .w32 else .int .w64

/-- The rule of NumPy 1 for an array and a Python integer: `int64` for a boolean array; otherwise the
common type of the type of the array and the smallest type of the integer; a non-negative integer
counts as signed beside a signed type if it fits the signed type of that width. -/
def legacy : WeakRule := fun t z =>
  match t with
  | .float => .ok .float
  | .bool => .ok (.int .w64)
  | t =>
    .ok (match t, minScalarType z with
      | .int w, .uint v => if (NumTy.int v).Has z then .int (w.max v) else promoteMixed w v
      | t, m => promote t m)

/-! ## The rules of the functions, call by call -/

/-- `normalize`, `sample/utils/dsp.py:12-27`: one division. -/
def normalizePeakLoops : List Loop := [fl]

/-- `_normalize_rms`, `sample/utils/dsp.py:30-43`: the mean is a NumPy `float`. -/
def normalizeRmsLoops : List Loop := [fl, fl]

/-- `_normalize_range`, `sample/utils/dsp.py:46-59`: the minimum has the type of the array. -/
def normalizeRangeLoops : List Loop := [fun
  | [a, b] => joinSub [a, b]
  | _ => .error .typeError, fl]

/-- `db2a`, `sample/utils/dsp.py:62-73`. -/
def db2aLoops : List Loop := [fl, fl]

/-- `_a2db_floorless`, `sample/utils/dsp.py:100-111`. -/
def a2dbFloorlessLoops : List Loop := [fl, fl]

/-- `_a2db_floored`, `sample/utils/dsp.py:117-132`. -/
def a2dbFlooredLoops : List Loop := join :: a2dbFloorlessLoops

/-- `bin2f`, `sample/utils/dsp.py:249-264`: `fs / nfft` is a `float`. -/
def bin2fLoops : List Loop := [fl]

/-- `_hz2bark_zwicker`, `sample/psycho.py:42-64`. -/
def hz2barkZwickerLoops : List Loop := [fl, fl, fl, fl, own, fl, fl, join]

/-- `_hz2bark_traunmuller`, `sample/psycho.py:67-85`. -/
def hz2barkTraunmullerLoops : List Loop := [fl, fl, fl, fl]

/-- `_hz2bark_wang`, `sample/psycho.py:88-103`. -/
def hz2barkWangLoops : List Loop := [fl, fl, fl]

/-- `_bark2hz_traunmuller`, `sample/psycho.py:106-124`. -/
def bark2hzTraunmullerLoops : List Loop := [fl, fl, fl, fl]

/-- `_bark2hz_wang`, `sample/psycho.py:127-142`. -/
def bark2hzWangLoops : List Loop := [fl, fl, fl]

/-- `hz2mel`, `sample/psycho.py:145-161`. -/
def hz2melLoops : List Loop := [fl, fl, fl, fl]

/-- `mel2hz`, `sample/psycho.py:164-180`. -/
def mel2hzLoops : List Loop := [fl, fl, fl, fl]

/-- `_hz2mel_fant`, `sample/psycho.py:183-199`. -/
def hz2melFantLoops : List Loop := [fl, fl, fl, fl]

/-- `_mel2hz_fant`, `sample/psycho.py:202-218`. -/
def mel2hzFantLoops : List Loop := [fl, fl, fl, fl]

/-- `erb`, `sample/psycho.py:221-247`: `np.square(f, out=out)` computes in the type of `f`. -/
def erbLoops : List Loop := [fl, own, fl, join, fl]

/-- `_erb_linear`, `sample/psycho.py:250-266`. -/
def erbLinearLoops (W : WeakRule) : List Loop := [fl, lit W 1, fl]

/-- `hz2cams`, `sample/psycho.py:269-294`: `np.add(f, 312)` and `np.add(f, 14675)` compute in the
type of `f`. -/
def hz2camsLoops (W : WeakRule) : List Loop := [lit W 312, lit W 14675, fl, fl, fl, fl]

/-- `_hz2cams_linear`, `sample/psycho.py:297-312`. -/
def hz2camsLinearLoops (W : WeakRule) : List Loop := [fl, lit W 1, fl, fl]

/-- `cams2hz`, `sample/psycho.py:315-341`: `np.subtract(c, 43)` computes in the type of `c`. -/
def cams2hzLoops (W : WeakRule) : List Loop :=
  [lit W 43, fl, fl, lit W 14675, lit W 312, lit W 1, fl]

/-- `_cams2hz_linear`, `sample/psycho.py:344-359`. -/
def cams2hzLinearLoops (W : WeakRule) : List Loop := [fl, lit W 10, lit W 1, fl]

/-- `a_weighting(f, db=False)`, `sample/psycho.py:378-394`: `np.square(f, out=f2)` computes in the
type of `f`. -/
def aWeightingLoops (W : WeakRule) : List Loop :=
  [own, fl, fl, join, fl, fl, join, lit W 148693636, join, own, lit W 148693636, fl]

/-- `GammatoneFilter._envelope`, `sample/psycho.py:581-611`: the leading time and the bandwidth are
`float`s; `np.power(t_, n - 1)` of floating-point numbers. -/
def envelopeLoops (W : WeakRule) (n : ℤ) : List Loop :=
  [fl, cmp, lit W (n - 1), join, fl, fl, join]

/-- A call of `_envelope`: the temporary arrays are made by `np.empty_like(t)`,
`sample/psycho.py:600-602`. -/
noncomputable def envelopeCall (W : WeakRule) (n : ℤ) (tc b : ℝ) (t : TArr) : Except PyErr TArr :=
  match outType (some .float) true [.num t.ty] none none with
  | .error e => .error e
  | .ok o => tbody (envelope n tc b) (envelopeLoops W n) [t] o t.ty

/-- `modal_energy`, `sample/sample.py:19-36`: `np.square(a, out=out)` computes in the type of `a`. -/
def modalEnergyLoops : List Loop := [own, join, fl]

/-- `Numpy2Paragraph._semisum`, `sample/utils/__init__.py:257-273`: the sum is computed in the common
type of the arrays. -/
def semisumLoops : List Loop := [join, fl]

/-- `Numpy2Paragraph._semidiff`, `sample/utils/__init__.py:275-291`. -/
def semidiffLoops : List Loop := [joinSub, fl]

/-- `ExponentialDecay.__call__`, `sample/beatsdrop/__init__.py:202-215`: the rate is a `float`. -/
def exponentialDecayLoops : List Loop := [fl, fl, fl]

/-- A number given as parameter: a Python integer or a `float`. -/
inductive Lit where
  | int (z : ℤ)
  | flt (v : ℝ)

/-- Its value. -/
noncomputable def Lit.val : Lit → ℝ
  | .int z => z
  | .flt v => v

/-- Its type as an argument. -/
def Lit.ty : Lit → NumTy
  | .int _ => .int .w64
  | .flt _ => .float

/-- Arithmetic with one array and a parameter. -/
def Lit.loop (W : WeakRule) : Lit → Loop
  | .int z => lit W z
  | .flt _ => fl

/-- `hwr`, `sample/psycho.py:925-936`. -/
def hwrLoops (W : WeakRule) (th : Lit) : List Loop := [th.loop W]

/-- `hinge_function`, `sample/hinge.py:14-34`. -/
def hingeLoops (W : WeakRule) (a k q : Lit) : List Loop := [a.loop W, k.loop W, q.loop W]

/-- A call of `hinge_function` with the parameters given by position (`pos`) or by keyword: only
positional arguments are seen by `numpy_out`. -/
noncomputable def hingeCall (W : WeakRule) (x : TArr) (a k q : Lit) (pos : Bool) :
    Except PyErr TArr :=
  tcall (hingeFunction a.val k.val q.val) (hingeLoops W a k q) none true [x]
    (if pos then [a.ty, k.ty, q.ty] else []) none none

end Verif.Out
