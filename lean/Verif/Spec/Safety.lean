import Verif.Model.Safety
import Verif.Spec.Types
/-!
# Specification of type safety and of read-only strings

Of the model only the data types, the declarations of a program and the states are used here, none of its functions, but: `Along` follows the execution, `Ends` is about the test
of the compiler.
-/
namespace SPVM
namespace Spec
namespace Safety
open SPVM.Types (World Ty Method)
open SPVM.Safety (Obj Body St Program Rhs Instr)
open Spec.Types

/-- An object of the basic type `b` and the dimension `dim` may be in a place of the type `t`: it can be assigned to the type `t`.  For interface types
and arrays of them only: it is an instance of a class, or an array of the same dimension of instances. -/
def Fits (w : World) (t : Ty) (b dim : Nat) : Prop :=
  (HasCat w t.bt .iface → dim = t.dim ∧ (HasCat w b .cls ∨ HasCat w b .iface)) ∧
  (¬ HasCat w t.bt .iface → Assignable w false { bt := t.bt, dim := t.dim } { bt := b, dim := dim })

/-- The reference `v` may be in a place of the type `t`: it is `undef` or the address of an object that fits. -/
def Holds (w : World) (h : List Obj) (t : Ty) (v : Option Nat) : Prop :=
  ∀ j, v = some j → ∃ ob, h[j]? = some ob ∧ Fits w t ob.bt ob.dim

/-- The contents of an object are what its type says. -/
def ObjOk (P : Program) (h : List Obj) (ob : Obj) : Prop :=
  WfTy P.w { bt := ob.bt, dim := ob.dim } ∧
  match ob.body with
  | .data _ => (ob.bt = 9 ∧ ob.dim = 0) ∨ (0 < ob.dim ∧ ¬ IsObj P.w { bt := ob.bt, dim := ob.dim - 1 })
  | .refs xs => 0 < ob.dim ∧ IsObj P.w { bt := ob.bt, dim := ob.dim - 1 } ∧ ∀ v ∈ xs, Holds P.w h { bt := ob.bt, dim := ob.dim - 1 } v
  | .inst f => ob.dim = 0 ∧ HasCat P.w ob.bt .cls ∧ ∀ k, Holds P.w h (P.fty k) (f k)

/-- Every variable, every field and every array element holds `undef` or an object of its type. -/
structure TypeSafe (P : Program) (st : St) : Prop where
  vars : ∀ x, Holds P.w st.heap (P.vty x) (st.vars x)
  objs : ∀ (j : Nat) (ob : Obj), st.heap[j]? = some ob → ObjOk P st.heap ob

/-- A program that the compiler accepts: its types exist and variables and fields are of object types (those of numeric types are not modelled).  The last
condition is not tested by the compiler: no class extends `Byte`, ..., `Double`. -/
structure WfProg (P : Program) : Prop where
  world : Wf P.w
  vars : ∀ x, WfTy P.w (P.vty x) ∧ IsObj P.w (P.vty x)
  fields : ∀ k, WfTy P.w (P.fty k) ∧ IsObj P.w (P.fty k)
  boxes : ∀ p c, 11 ≤ p → p ≤ 16 → ¬ Ancestor P.w p c

/-- The comparisons of classes with interfaces end, for every pair of them; they do not if two interfaces have methods with arrays of each other in their
signatures (`c35_interface_recursion_violated`). -/
structure Ends (w : World) (n : Nat) : Prop where
  fuel : w.length < n
  iface : ∀ i j, ∃ b, SPVM.Types.hasInterface w n i j = .ok b

/-- The types in the operation exist. -/
def WfInstr (w : World) : Instr → Prop
  | .set _ (.cast t _) => WfTy w t
  | .set _ (.newArray t _) => WfTy w t
  | .ret dm sm _ _ => WfTy w dm.ret ∧ WfTy w sm.ret
  | .pass dm _ _ _ _ => ∀ t ∈ dm.args, WfTy w t
  | _ => True

/-- What the compiler and the run time do not test: a `(mutable string)` cast of an `object` is applied to a string, a `(string)` cast of a `byte[]` is not
applied to `undef`, and a store into an array goes into one that was created with the static type, unless the static type is `object[]` or an array of an interface. -/
def Careful (P : Program) (st : St) : Instr → Prop
  | .set _ (.cast t y) =>
    (t.bt = 9 → t.dim = 0 → t.isMut = true → (P.vty y).bt = 10 → ∀ j ob, st.vars y = some j → st.heap[j]? = some ob → ob.bt = 9 ∧ ob.dim = 0) ∧
    (t.bt = 9 → t.dim = 0 → (P.vty y).bt = 3 → (P.vty y).dim = 1 → st.vars y ≠ none)
  | .setElem y _ _ => ¬ ((P.vty y).dim = 1 ∧ (HasCat P.w (P.vty y).bt .iface ∨ HasCat P.w (P.vty y).bt .anyObject)) →
    ∀ j ob, st.vars y = some j → st.heap[j]? = some ob → ob.bt = (P.vty y).bt ∧ ob.dim = (P.vty y).dim
  | .makeReadOnly y => st.vars y ≠ none
  | .memcpy _ i _ => 0 ≤ i
  | _ => True

/-- The condition `C` is met at every operation of an execution. -/
def Along (P : Program) (C : St → Instr → Prop) : St → List Instr → Prop
  | _, [] => True
  | st, i :: l => C st i ∧
    match SPVM.Safety.exec P st i with
    | .ok st' => Along P C st' l
    | .die _ => Along P C st l
    | .ub => True

/-- The type is `mutable string`. -/
def MutStr (t : Ty) : Prop := t.bt = 9 ∧ t.dim = 0 ∧ t.isMut = true

/-- The object at the address `j` is a read-only string with the characters `s`, and no variable or field of the type `mutable string` refers to it. -/
structure Frozen (P : Program) (st : St) (j : Nat) (s : List Nat) : Prop where
  str : st.heap[j]? = some { bt := 9, dim := 0, ro := true, body := .data s }
  vars : ∀ x, MutStr (P.vty x) → st.vars x ≠ some j
  fields : ∀ (i : Nat) (ob : Obj) f, st.heap[i]? = some ob → ob.body = .inst f → ∀ k, MutStr (P.fty k) → f k ≠ some j

/-- A `mutable string` parameter of the method that is executed is one of the method that the compiler has found, too. -/
def SameMut : Instr → Prop
  | .pass dm sm k _ _ => ∀ dt st, dm.args[k]? = some dt → sm.args[k]? = some st → MutStr st → MutStr dt
  | _ => True

end Safety
end Spec
end SPVM
