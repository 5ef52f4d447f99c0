import Verif.Py

/-!
# Small parts of NumPy used by the modelled code

These model NumPy / Python semantics (not code of the repository): slicing, fancy indexing,
elementwise binary operations on 1-d arrays, slice assignment.  Arrays are lists.
-/

set_option autoImplicit false

namespace Verif.Np

universe u v w

/-- A slice bound of an array of size `n`, as Python clips it. -/
def bound (n : Nat) (i : Int) : Nat :=
  if i < 0 then (Int.ofNat n + i).toNat else min i.toNat n

/-- Lower bound of a slice of an array of size `n`. -/
def lower (n : Nat) : Option Int → Nat
  | none => 0
  | some i => bound n i

/-- Upper bound of a slice of an array of size `n`. -/
def upper (n : Nat) : Option Int → Nat
  | none => n
  | some i => bound n i

/-- `l[a:b]`; `none` is an omitted bound. -/
def slice {α : Type u} (l : List α) (a b : Option Int) : List α :=
  let lo := lower l.length a
  let hi := upper l.length b
  (l.drop lo).take (hi - lo)

/-- `l[i]` with an integer that may be negative. -/
def index {α : Type u} (l : List α) (i : Int) : Except PyErr α :=
  if i < 0 then
    if Int.ofNat l.length + i < 0 then .error .indexError
    else getE l (Int.ofNat l.length + i).toNat
  else getE l i.toNat

/-- `l[idx]` with an integer array. -/
def take {α : Type u} (l : List α) : List Int → Except PyErr (List α)
  | [] => .ok []
  | i :: is =>
    match index l i with
    | .error e => .error e
    | .ok a =>
      match take l is with
      | .error e => .error e
      | .ok as => .ok (a :: as)

/-- Elementwise binary operation with broadcasting of one-element arrays; `ValueError` for
incompatible sizes. -/
def binop {α : Type u} {β : Type v} {γ : Type w} (f : α → β → γ) (a : List α) (b : List β) :
    Except PyErr (List γ) :=
  if a.length = b.length then .ok (List.zipWith f a b)
  else
    match a, b with
    | [x], b => .ok (b.map (f x))
    | a, [y] => .ok (a.map (fun x => f x y))
    | _, _ => .error .valueError

/-- `l[a:b] = src` for a 1-d array: sizes must agree, or `src` has one element. -/
def assign {α : Type u} (l : List α) (a b : Option Int) (src : List α) :
    Except PyErr (List α) :=
  let lo := lower l.length a
  let hi := upper l.length b
  if src.length = hi - lo then .ok (l.take lo ++ src ++ l.drop (lo + (hi - lo)))
  else
    match src with
    | [x] => .ok (l.take lo ++ List.replicate (hi - lo) x ++ l.drop (lo + (hi - lo)))
    | _ => .error .valueError

/-- `np.flatnonzero` of a boolean array. -/
def flatnonzero (l : List Bool) : List Nat :=
  (List.range l.length).filter fun i => l.getD i false

end Verif.Np
