import Verif.Model.Cast
/-!
# Objects in variables, fields and array elements

Models the operations that move references to objects: the checks of lib/SPVM/Builder/src/spvm_check.c, the opcodes that spvm_opcode_builder.c chooses
and what they do (lib/SPVM/Builder/include/spvm_implement.h, spvm_api.c).

Simplifications: the model is a sequence of executed operations, whatever control flow led to it; an exception ends one operation and the sequence
goes on with the state before it.  Every local variable of every call, every class variable and temporary variable is one variable `x` with its declared
type.  A field is named by its declaration (the layout is C53), its place in the object is not modelled.  Numbers in arrays are abstract; memory is never
exhausted and objects are never freed (C32).  Numeric values and conversions of them to objects are left out.
-/
namespace SPVM
namespace Safety
open Types

/-- What is stored in an object. -/
inductive Body where
  /-- the characters of a string, the elements of a numeric or multi-numeric array -/
  | data (xs : List Nat)
  /-- the elements of an object array -/
  | refs (xs : List (Option Nat))
  /-- the object fields of an instance of a class -/
  | inst (f : Nat → Option Nat)

/-- `SPVM_OBJECT`, spvm_object.h: type, read-only flag and contents. -/
structure Obj where
  bt : Nat
  dim : Nat := 0
  ro : Bool := false
  body : Body

/-- The objects by their address, and the variables. -/
structure St where
  heap : List Obj
  vars : Nat → Option Nat

/-- The declarations of a program. -/
structure Program where
  w : World
  /-- bound of the recursion of type tests, see Model/Types -/
  n : Nat
  /-- the types of the variables -/
  vty : Nat → Ty
  /-- the types of the fields -/
  fty : Nat → Ty
  /-- the classes that declare them -/
  owner : Nat → Nat
  /-- what the compiler finds in `is_check_type`, which is not initialized for arrays of arrays: spvm_opcode_builder.c 4752-4766 -/
  garbage : Bool

/-- The type of `$y->[$i]`, `SPVM_OP_C_ID_ELEMENT_ACCESS` in `SPVM_CHECK_get_type`, spvm_check.c 4415-4429. -/
def elemTy (t : Ty) : Ty :=
  if t.bt = 10 ∧ t.dim = 1 then { bt := 10 } else { bt := t.bt, dim := t.dim - 1 }

/-- The right side of an assignment. -/
inductive Rhs where
  | undef
  | var (y : Nat)
  /-- a string literal -/
  | lit (s : List Nat)
  | field (y k : Nat)
  | elem (y : Nat) (i : Int)
  | cast (t : Ty) (y : Nat)
  | copy (y : Nat)
  /-- `$y . $z` -/
  | concat (y z : Nat)
  | newString (len : Int)
  | newArray (t : Ty) (len : Int)
  | newObject (c : Nat)

/-- One operation. -/
inductive Instr where
  | set (x : Nat) (r : Rhs)
  | setField (y k z : Nat)
  | setElem (y : Nat) (i : Int) (z : Nat)
  /-- `$y->[$i] = c` for a string -/
  | setChar (y : Nat) (i : Int) (c : Nat)
  /-- `$y->[$i] = c` for a numeric array -/
  | setNum (y : Nat) (i : Int) (c : Nat)
  | makeReadOnly (y : Nat)
  /-- `Fn->memcpy` and `Fn->memmove` with `$y` as destination -/
  | memcpy (y : Nat) (i : Int) (xs : List Nat)
  /-- passing `$y` as argument number `k` of a call that the compiler resolved to `dm` and that is executed as `sm`; `p` is the variable of the callee -/
  | pass (dm sm : Method) (k y p : Nat)
  /-- `return $y` in `sm`, called as `dm`, with the result stored in `x` -/
  | ret (dm sm : Method) (y x : Nat)

/-- A test of the compiler or of the run time that says yes. -/
def yes (o : Out Bool) : Bool :=
  match o with
  | .ok b => b
  | _ => false

/-- The field `k` is one of the class `c` or of a super class, `SPVM_CHECK_check_field_access`, spvm_check.c 1013-1054. -/
def hasField (P : Program) (c k : Nat) : Bool := P.owner k == c || yes (isSuperClass P.w P.n (P.owner k) c)

/-- The checks of the operand and the type of an expression, spvm_check.c 2068-2115 (concat), 2116-2177 (`new`), 2463-2477 (`copy`), 3172-3209 (element access),
3211-3256 (field access), 3363-3402 (cast), `SPVM_CHECK_get_type` 4348-4646; `none` is a compile error.  Simplification: of casts, only those between object types. -/
def rhsType (P : Program) : Rhs → Option Ty
  | .undef => some { bt := 1 }
  | .var y => some (P.vty y)
  | .lit _ => some { bt := 9 }
  | .field y k => if isClass P.w (P.vty y) && hasField P (P.vty y).bt k then some (P.fty k) else none
  | .elem y _ => if isObjectArray P.w (P.vty y) then some (elemTy (P.vty y)) else none
  | .cast t y => if isObject P.w t && yes (cast P.w P.n t (P.vty y)) then some t else none
  | .copy y =>
    if isString (P.vty y) || isNumericArray (P.vty y) || isMulnumArray P.w (P.vty y) then some (P.vty y) else none
  | .concat y z => if isString (P.vty y) && isString (P.vty z) then some { bt := 9 } else none
  | .newString _ => some { bt := 9 }
  | .newArray t _ => if isArray t && !(t.bt == 10 && decide (1 < t.dim)) then some { bt := t.bt, dim := t.dim } else none
  | .newObject c => if isClass P.w { bt := c } then some { bt := c } else none

/-- The call of `dm` may be executed as `sm`: it is the same method, or `sm` has passed the test of the class against its super class or its interface,
`SPVM_BASIC_TYPE_has_interface_common`, spvm_basic_type.c 238-310, called from spvm_check.c 786-817. -/
def mayRun (P : Program) (dm sm : Method) : Bool :=
  dm == sm || yes (satisfyMethod (assign P.w P.n false true) dm sm)

/-- The checks of the compiler: spvm_check.c 2367-2405 (assignment), 2905-2915 (`make_read_only`), 1125-1251 (call), `SPVM_CHECK_check_assign` 4214-4266. -/
def accepts (P : Program) : Instr → Bool
  | .set x r =>
    match rhsType P r with
    | some s => yes (assignPlain P.w P.n (P.vty x) s)
    | none => false
  | .setField y k z => isClass P.w (P.vty y) && hasField P (P.vty y).bt k && yes (assignPlain P.w P.n (P.fty k) (P.vty z))
  | .setElem y _ z => isObjectArray P.w (P.vty y) && yes (assignPlain P.w P.n (elemTy (P.vty y)) (P.vty z))
  | .setChar y _ _ => isString (P.vty y) && (P.vty y).isMut
  | .setNum y _ _ => isNumericArray (P.vty y)
  | .makeReadOnly y => isString (P.vty y)
  | .memcpy y _ _ => isObject P.w (P.vty y)
  | .pass dm sm k y p =>
    match dm.args[k]?, sm.args[k]? with
    | some dt, some st => yes (assignPlain P.w P.n dt (P.vty y)) && st == P.vty p && mayRun P dm sm
    | _, _ => false
  | .ret dm sm y x =>
    yes (assignPlain P.w P.n sm.ret (P.vty y)) && yes (assignPlain P.w P.n (P.vty x) dm.ret) && mayRun P dm sm

/-- `SPVM_API_isa`, spvm_api.c 4552-4572: the flags of the types are not looked at. -/
def isa (P : Program) (h : List Obj) (t : Ty) : Option Nat → Out Bool
  | none => .ok true
  | some j =>
    match h[j]? with
    | some ob => assignPlain P.w P.n { bt := t.bt, dim := t.dim } { bt := ob.bt, dim := ob.dim }
    | none => .ub

/-- The opcode of a cast of a reference, spvm_vm.c and spvm_implement.h 384-407, 2073-2390; new objects are put at the end of the heap. -/
def castRef (P : Program) (h : List Obj) : CastOp → Option Nat → Out (Option Nat × List Obj)
  | .skip, v => .ok (v, h)
  | .moveUndef, _ => .ok (none, h)
  | .move, v => .ok (v, h)
  | .check bt dim, v => do
    let b ← isa P h { bt := bt, dim := dim } v
    if b then .ok (v, h) else .die "A non-assignable type cannot be assigned."
  | .checkReadOnly, none => .ok (none, h)
  | .checkReadOnly, some j =>
    match h[j]? with
    | some ob =>
      if ob.bt = 9 ∧ ob.dim = 0 ∧ ob.ro = true then .die "A read-only string cannnot be cast to mutable string type."
      else .ok (some j, h)
    | none => .ub
  | .bytesToString, some j =>
    match h[j]? with
    | some ob =>
      match ob.body with
      | .data xs => .ok (some h.length, h ++ [{ bt := 9, body := .data xs }])
      | _ => .ub
    | none => .ub
  | .stringToBytes, none => .ok (none, h)
  | .stringToBytes, some j =>
    match h[j]? with
    | some ob =>
      match ob.body with
      | .data xs => .ok (some h.length, h ++ [{ bt := 3, dim := 1, body := .data xs }])
      | _ => .ub
    | none => .ub
  | _, _ => .ub

/-- The characters of a string variable. -/
def charsOf (h : List Obj) : Option Nat → Out (List Nat)
  | none => .die "The string must be defined."
  | some j =>
    match h[j]? with
    | some ob =>
      match ob.body with
      | .data xs => .ok xs
      | _ => .ub
    | none => .ub

/-- The contents of a new array, spvm_api.c 3890-4124. -/
def newBody (w : World) (t : Ty) (len : Nat) : Body :=
  if isObjectArray w t then .refs (List.replicate len none) else .data (List.replicate len 0)

/-- The value of the right side: spvm_implement.h 397-407 (casts), 419-437 (concat), 565-781 (new), 899-916 (element access), 1188-1199 (field access),
1428-1431 (copy). -/
def eval (P : Program) (st : St) : Rhs → Out (Option Nat × List Obj)
  | .undef => .ok (none, st.heap)
  | .var y => .ok (st.vars y, st.heap)
  | .lit s => .ok (some st.heap.length, st.heap ++ [{ bt := 9, ro := true, body := .data s }])
  | .field y k =>
    match st.vars y with
    | none => .die "The invocant of the field access must be defined."
    | some j =>
      match st.heap[j]? with
      | some ob =>
        match ob.body with
        | .inst f => if hasField P ob.bt k then .ok (f k, st.heap) else .ub
        | _ => .ub
      | none => .ub
  | .elem y i =>
    match st.vars y with
    | none => .die "The array must be defined."
    | some j =>
      match st.heap[j]? with
      | some ob =>
        match ob.body with
        | .refs xs => if 0 ≤ i ∧ i < xs.length then .ok ((xs[i.toNat]?).join, st.heap) else .die "The index is out of range."
        | _ => .ub
      | none => .ub
  | .cast t y => do
    let op ← castOp P.w P.n t (P.vty y)
    castRef P st.heap op (st.vars y)
  | .copy y =>
    match st.vars y with
    | none => .ok (none, st.heap)
    | some j =>
      match st.heap[j]? with
      | some ob =>
        match ob.body with
        | .data xs => .ok (some st.heap.length, st.heap ++ [{ bt := ob.bt, dim := ob.dim, body := .data xs }])
        | _ => .ub
      | none => .ub
  | .concat y z => do
    let a ← charsOf st.heap (st.vars y)
    let b ← charsOf st.heap (st.vars z)
    .ok (some st.heap.length, st.heap ++ [{ bt := 9, body := .data (a ++ b) }])
  | .newString len =>
    if len < 0 then .die "The length must be greater than or equal to 0."
    else .ok (some st.heap.length, st.heap ++ [{ bt := 9, body := .data (List.replicate len.toNat 0) }])
  | .newArray t len =>
    if len < 0 then .die "The length must be greater than or equal to 0."
    else .ok (some st.heap.length, st.heap ++ [{ bt := t.bt, dim := t.dim, body := newBody P.w { bt := t.bt, dim := t.dim } len.toNat }])
  | .newObject c => .ok (some st.heap.length, st.heap ++ [{ bt := c, body := .inst fun _ => none }])

/-- Assignment to a variable. -/
def St.put (st : St) (x : Nat) (v : Option Nat) (h : List Obj) : St := ⟨h, fun y => if y = x then v else st.vars y⟩

/-- Whether `SET_ARRAY_ELEMENT_OBJECT_CHECK_TYPE` is chosen, spvm_opcode_builder.c 4611 and 4752-4773. -/
def storeChecked (P : Program) (t : Ty) : Bool :=
  if isAnyObjectArray t then true
  else if t.dim = 1 then cat P.w t.bt == .iface || cat P.w t.bt == .anyObject
  else P.garbage

/-- Writing a number or a character, spvm_implement.h 918-1024. -/
def setData (h : List Obj) (v : Option Nat) (i : Int) (c : Nat) : Out (List Obj) :=
  match v with
  | none => .die "The array must be defined."
  | some j =>
    match h[j]? with
    | some ob =>
      match ob.body with
      | .data xs =>
        if 0 ≤ i ∧ i < xs.length then .ok (h.set j { ob with body := .data (xs.set i.toNat c) }) else .die "The index is out of range."
      | _ => .ub
    | none => .ub

/-- One operation. -/
def exec (P : Program) (st : St) : Instr → Out St
  | .set x r => do
    let p ← eval P st r
    .ok (st.put x p.1 p.2)
  | .setField y k z =>
    match st.vars y with
    | none => .die "The invocant of the field access must be defined."
    | some j =>
      match st.heap[j]? with
      | some ob =>
        match ob.body with
        | .inst f =>
          if hasField P ob.bt k then
            .ok { st with heap := st.heap.set j { ob with body := .inst fun l => if l = k then st.vars z else f l } }
          else .ub
        | _ => .ub
      | none => .ub
  | .setElem y i z =>
    match st.vars y with
    | none => .die "The array must be defined."
    | some j =>
      match st.heap[j]? with
      | some ob =>
        match ob.body with
        | .refs xs =>
          if 0 ≤ i ∧ i < xs.length then do
            let b ← if storeChecked P (P.vty y) then isa P st.heap { bt := ob.bt, dim := ob.dim - 1 } (st.vars z) else .ok true
            if b then .ok { st with heap := st.heap.set j { ob with body := .refs (xs.set i.toNat (st.vars z)) } }
            else .die "The element type is not assignable."
          else .die "The index is out of range."
        | _ => .ub
      | none => .ub
  | .setChar y i c => do
    let h ← setData st.heap (st.vars y) i c
    .ok { st with heap := h }
  | .setNum y i c => do
    let h ← setData st.heap (st.vars y) i c
    .ok { st with heap := h }
  /- `SPVM_API_make_read_only`, spvm_api.c 3667-3672, reads the type of the string (4140-4143) before it is tested whether it is `undef`. -/
  | .makeReadOnly y =>
    match st.vars y with
    | none => .ub
    | some j =>
      match st.heap[j]? with
      | some ob => .ok { st with heap := st.heap.set j { ob with ro := true } }
      | none => .ub
  /- lib/SPVM/Fn.c 346-460; a negative offset is out of the object.  Simplifications: the offset and the length are in elements, without overflow; the
  copied bytes are given. -/
  | .memcpy y i xs =>
    match st.vars y with
    | none => .die "The destination must be defined."
    | some j =>
      match st.heap[j]? with
      | some ob =>
        match ob.body with
        | .data ys =>
          if ob.ro then .die "The destination cannnot be be a read-only string."
          else if 0 ≤ i ∧ i + xs.length ≤ ys.length then
            .ok { st with heap := st.heap.set j { ob with body := .data (ys.take i.toNat ++ xs ++ ys.drop (i.toNat + xs.length)) } }
          else if xs = [] then .ok st
          else if (ys.length : Int) < i + xs.length then .die "The offset + the length must be less than or equal to the length."
          else .ub
        | _ => .die "The type of the destination must be string type, a numeric array type, or a multi-numeric array type."
      | none => .ub
  /- `SPVM_API_call_method_common`, spvm_api.c 4806-4832: the arguments of instance methods are tested. -/
  | .pass _ sm _ y p => do
    let b ← if sm.isClass then .ok true else isa P st.heap (P.vty p) (st.vars y)
    if b then .ok (st.put p (st.vars y) st.heap)
    else .die "The object must be assigned to the type of the argument."
  | .ret _ _ y x => .ok (st.put x (st.vars y) st.heap)

/-- Executing a sequence of operations; after an exception execution goes on somewhere with the state before the operation. -/
def execAll (P : Program) : St → List Instr → Out St
  | st, [] => .ok st
  | st, i :: l =>
    match exec P st i with
    | .ok st' => execAll P st' l
    | .die _ => execAll P st l
    | .ub => .ub

/-- Nothing has been executed. -/
def St.init : St := ⟨[], fun _ => none⟩

end Safety
end SPVM
