import Verif.Learn.Model

/-!
# Specifications for storages and default properties
-/

set_option autoImplicit false
universe u

namespace Verif.Learn

variable {V : Type u}

/-- Write a value into a list at the end or at a position, with `None` in the holes. -/
def put (l : List (Option V)) (w : V × Option Nat) : List (Option V) :=
  match w.2 with
  | none => l ++ [some w.1]
  | some i => if i < l.length then l.set i (some w.1)
    else l ++ List.replicate (i - l.length) none ++ [some w.1]

/-- The writes for `key` that count in a history: those made while `save` is on (`on` at the
start), after the last reset. -/
def writes (key : String) : Bool → List (Op V) → List (V × Option Nat)
  | _, [] => []
  | on, .append k v i :: ops =>
    if ops.any (fun o => match o with | .reset => true | _ => false) then writes key on ops
    else if on ∧ k = key then (v, i.map Int.toNat) :: writes key on ops
    else writes key on ops
  | on, .reset :: ops => writes key on ops
  | _, .setSave b :: ops => writes key b ops

/-- Indices used in a history are non-negative. -/
def NonnegIndices (ops : List (Op V)) : Prop :=
  ∀ o ∈ ops, match o with
    | .append _ _ (some i) => 0 ≤ i
    | _ => True

/-- A value refers to an object created before. -/
def Val.Exists (s : World) : Val → Prop
  | .none => True
  | .ref id => id < s.next

/-- A program can only assign objects that exist. -/
def ValidActs (s : World) : List Act → Prop
  | [] => True
  | a :: as => (match a with | .set _ _ v => v.Exists s | _ => True) ∧ ValidActs (s.step a) as

/-- The action assigns, on the object `o`, a default property named as property `p`. -/
def Assigns (s : World) (p o : Nat) (a : Act) : Prop :=
  ∃ q v, a = .set q o v ∧ (s.props[q]?).map Prod.fst = (s.props[p]?).map Prod.fst

/-- None of the actions assigns property `p` (by name) of object `o`. -/
def NoAssign (s : World) (p o : Nat) : List Act → Prop
  | [] => True
  | a :: as => ¬ Assigns s p o a ∧ NoAssign (s.step a) p o as

end Verif.Learn
