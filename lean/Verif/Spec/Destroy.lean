import Verif.Model.Heap

/-!
# Specification of the calls of destructors

What happens to the objects of a program, in the order in which it happens.
-/

namespace SPVM.Destroy

open SPVM.Heap

/-- An event in the life of the object with address `a`. -/
inductive Ev
  /-- an object of class `cls` is created -/
  | created (a cls : Nat)
  /-- `DESTROY` is called for the object; `h` is the heap at the call -/
  | destroy (a : Nat) (h : Heap)
  /-- the memory of the object is freed -/
  | freed (a cls : Nat)
  /-- the object is kept after `DESTROY`, since a new reference to it was stored somewhere in the meantime -/
  | kept (a cls : Nat)

/-- The object an event is about. -/
def Ev.addr : Ev → Nat
  | .created a _ => a
  | .destroy a _ => a
  | .freed a _ => a
  | .kept a _ => a

/-- Is it a call of `DESTROY` for `a`? -/
def Ev.isDestroy (a : Nat) : Ev → Bool
  | .destroy b _ => b == a
  | _ => false

/-- Is it the end of `a`? -/
def Ev.isFreed (a : Nat) : Ev → Bool
  | .freed b _ => b == a
  | _ => false

/-- Was `a` kept after its destructor? -/
def Ev.isKept (a : Nat) : Ev → Bool
  | .kept b _ => b == a
  | _ => false

/-- What must have happened before an event, given the classes with a destructor: an object is created once; its destructor is
called, and it is freed or kept, only after its creation and not after it was freed; and before it is freed or kept the destructor
of its class was called. -/
def Fits (hasDtor : Nat → Bool) (before : List Ev) (e : Ev) : Prop :=
  (∀ c, Ev.freed e.addr c ∉ before) ∧
  match e with
  | .created a _ => ∀ c, Ev.created a c ∉ before
  | .destroy a _ => ∃ c, Ev.created a c ∈ before ∧ hasDtor c = true
  | .freed a c => Ev.created a c ∈ before ∧ (hasDtor c = true → ∃ h, Ev.destroy a h ∈ before)
  | .kept a c => Ev.created a c ∈ before ∧ (hasDtor c = true → ∃ h, Ev.destroy a h ∈ before)

/-- Every event fits what happened before. -/
def Chrono (hasDtor : Nat → Bool) (lg : List Ev) : Prop :=
  ∀ before e after, lg = before ++ e :: after → Fits hasDtor before e

/-- Every call of `DESTROY` is over before the next one for the same object: the object is freed or kept in between. -/
def Settled (lg : List Ev) : Prop :=
  ∀ before a h after, lg = before ++ .destroy a h :: after →
    ∃ during e rest, after = during ++ e :: rest ∧ (Ev.isFreed a e = true ∨ Ev.isKept a e = true) ∧ ∀ g, Ev.destroy a g ∉ during

end SPVM.Destroy
