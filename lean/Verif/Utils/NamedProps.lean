import Verif.Utils.NamedModel

/-!
# Named objects (C174)
-/
set_option autoImplicit false
set_option linter.unusedSectionVars false
set_option linter.unusedSimpArgs false

namespace Verif.Utils.Named

variable {V A R : Type}

/-- Objects of the examples: `true` is a function that adds one, `false` cannot be called. -/
def exPrim : Bool → Option (Nat → Except PyErr Nat)
  | true => some (fun n => if n = 0 then .error .zeroDivisionError else .ok (n + 1))
  | false => none

/-- C174: `NamedObject(o, name)` can be called exactly if `o` can, calling it does what calling `o` does, with the
same results and exceptions, and the wrapped object is `o`. -/
theorem C174_call (prim : V → Option (A → Except PyErr R)) (o : Obj V) (name : Option String) :
    isCallable prim (construct prim .object o name) = isCallable prim o
      ∧ (∀ a, call prim (construct prim .object o name) a = call prim o a)
      ∧ inner (construct prim .object o name) = some o := by
  refine ⟨?_, ?_, rfl⟩
  · cases h : isCallable prim o <;> simp only [construct, h] <;> rfl
  · intro a
    cases h : isCallable prim o
    · have : call prim o a = .error .typeError := by
        cases o with
        | raw v =>
          have hv : prim v = none := by simpa [isCallable] using h
          simp [call, hv]
        | named c o n =>
          have hc : c.hasCall = false := h
          simp [call, hc]
      simp [construct, h, call, Cls.hasCall, this]
    · simp [construct, h, call, Cls.hasCall]

example : (call exPrim (construct exPrim .object (.raw true) (some "f")) 4) = .ok 5
    ∧ (call exPrim (construct exPrim .object (.raw true) (some "f")) 0) = .error .zeroDivisionError
    ∧ isCallable exPrim (construct exPrim .object (.raw false) none) = false := ⟨rfl, rfl, rfl⟩

/-- C174: the name is the given one, whatever the name of the wrapped object; without a name there is none, also if
the wrapped object has one. For every class. -/
theorem C174_name (prim : V → Option (A → Except PyErr R)) (primName : V → Except PyErr String) (cls : Cls)
    (o : Obj V) (n : String) :
    nameOf primName (construct prim cls o (some n)) = .ok n
      ∧ nameOf primName (construct prim cls o none) = .error .attributeError := ⟨rfl, rfl⟩

example : nameOf (fun _ => .ok "g") (construct exPrim .object (.raw true) (some "a0")) = .ok "a0" := rfl

/-- C174: wrapping again and again changes neither what calling does nor whether it is possible; the name is the one
of the last wrapping. -/
theorem C174_chain (prim : V → Option (A → Except PyErr R)) (primName : V → Except PyErr String)
    (names : List (Option String)) (last : String) (o : Obj V) :
    let w := (names ++ [some last]).foldl (construct prim .object) o
    isCallable prim w = isCallable prim o ∧ (∀ a, call prim w a = call prim o a) ∧ nameOf primName w = .ok last := by
  have key : ∀ (l : List (Option String)) (o : Obj V),
      isCallable prim (l.foldl (construct prim .object) o) = isCallable prim o
        ∧ ∀ a, call prim (l.foldl (construct prim .object) o) a = call prim o a := by
    intro l
    induction l with
    | nil => intro o; exact ⟨rfl, fun _ => rfl⟩
    | cons n l ih =>
      intro o
      obtain ⟨h1, h2⟩ := ih (construct prim .object o n)
      obtain ⟨h3, h4, _⟩ := C174_call prim o n
      exact ⟨h1.trans h3, fun a => (h2 a).trans (h4 a)⟩
  refine ⟨(key _ o).1, (key _ o).2, ?_⟩
  rw [List.foldl_append]
  rfl

example : call exPrim ([some "a", none, some "b"].foldl (construct exPrim .object) (.raw true)) 2 = .ok 3 := rfl

/-- C174: `NamedCallable(o)` itself can always be called, as far as `callable` tells, and then does what `o` does: a
`TypeError` if `o` cannot be called. -/
theorem C174_callable (prim : V → Option (A → Except PyErr R)) (o : Obj V) (name : Option String) :
    isCallable prim (construct prim .callable o name) = true
      ∧ (∀ a, call prim (construct prim .callable o name) a = call prim o a)
      ∧ (∀ v, o = .raw v → prim v = none → ∀ a,
          call prim (construct prim .callable o name) a = .error .typeError) := by
  refine ⟨by simp [construct, isCallable, Cls.hasCall], fun a => by simp [construct, call, Cls.hasCall], ?_⟩
  rintro v rfl hv a
  simp [construct, call, Cls.hasCall, hv]

example : isCallable exPrim (construct exPrim .callable (.raw false) none) = true
    ∧ call exPrim (construct exPrim .callable (.raw false) none) 1 = .error .typeError := ⟨rfl, rfl⟩

/-- C174: the choice is made for `NamedObject` only: an instance of a subclass of it cannot be called, also if the
wrapped object can; subclasses of `NamedCallable` call it. -/
theorem C174_subclass (prim : V → Option (A → Except PyErr R)) (s : String) (o : Obj V) (name : Option String) :
    isCallable prim (construct prim (.subObject s) o name) = false
      ∧ (∀ a, call prim (construct prim (.subObject s) o name) a = .error .typeError)
      ∧ isCallable prim (construct prim (.subCallable s) o name) = true
      ∧ ∀ a, call prim (construct prim (.subCallable s) o name) a = call prim o a := by
  refine ⟨?_, fun a => ?_, ?_, fun a => ?_⟩ <;> simp [construct, isCallable, call, Cls.hasCall]

example : call exPrim (construct exPrim (.subObject "Mine") (.raw true) none) 1 = .error .typeError := rfl

end Verif.Utils.Named
