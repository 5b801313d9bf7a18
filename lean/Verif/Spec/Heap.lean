import Verif.Base
/-!
# Vocabulary for object references: where references are stored and what a program can do with them

A reference is stored in a variable, on the mortal stack, or in a slot of an object (an object field or an element of
an object array).  A stored reference is strong or weak.
-/
namespace SPVM.Heap

/-- A place that can hold a reference. -/
inductive Loc where
  | var (i : Nat)
  | mortal (i : Nat)
  | slot (a : Nat) (i : Nat)
  deriving DecidableEq, Repr

/-- A reference to the object with address `addr`. -/
structure Ptr where
  addr : Nat
  weak : Bool
  deriving DecidableEq, Repr

/-- The contents of a place: `none` is `undef`. -/
abbrev Cell := Option Ptr

/-- Where a program finds an object it works on: one of its variables, or a value it holds on the mortal stack. -/
inductive Ref where
  | var (i : Nat)
  | mortal (i : Nat)
  deriving DecidableEq, Repr

/-- What a program (or a native method) can do to the heap. -/
inductive Op where
  /-- `$x = new C` for an object of class `cls` with `n` object fields (or an object array with `n` elements) -/
  | new (x n cls : Nat)
  /-- `$x = $y` -/
  | move (x : Nat) (y : Ref)
  /-- `$x = undef` -/
  | clear (x : Nat)
  /-- `$x = $y->{i}` -/
  | getField (x : Nat) (y : Ref) (i : Nat)
  /-- `$y->{i} = $x` -/
  | setField (y : Ref) (i : Nat) (x : Ref)
  /-- `$y->{i} = undef` -/
  | clearField (y : Ref) (i : Nat)
  /-- `weaken $y->{i}` -/
  | weaken (y : Ref) (i : Nat)
  /-- `unweaken $y->{i}` -/
  | unweaken (y : Ref) (i : Nat)
  /-- `env->push_mortal($y)` -/
  | pushMortal (y : Ref)
  /-- `enter_scope`, the operations, `leave_scope` -/
  | scope (body : List Op)

/-- Outcome of running code on the heap.  `ub` is a memory error (use of freed memory, out of bounds), `refill` is
explained at `Heap.go`, `limit` is "the given number of steps was not enough" or an allocation limit. -/
inductive Res (α : Type) where
  | ok (a : α)
  | ub
  | refill
  | limit
  deriving Repr, DecidableEq

def Res.bind (x : Res α) (f : α → Res β) : Res β :=
  match x with
  | .ok a => f a
  | .ub => .ub
  | .refill => .refill
  | .limit => .limit

instance : Monad Res where
  pure := Res.ok
  bind := Res.bind

@[simp] theorem Res.ok_bind (a : α) (f : α → Res β) : (Res.ok a >>= f) = f a := rfl
@[simp] theorem Res.ub_bind (f : α → Res β) : ((Res.ub : Res α) >>= f) = .ub := rfl
@[simp] theorem Res.refill_bind (f : α → Res β) : ((Res.refill : Res α) >>= f) = .refill := rfl
@[simp] theorem Res.limit_bind (f : α → Res β) : ((Res.limit : Res α) >>= f) = .limit := rfl

end SPVM.Heap
