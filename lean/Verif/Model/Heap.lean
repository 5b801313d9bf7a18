import Verif.Spec.Heap
/-!
# Reference counting, weak references and mortal scopes (lib/SPVM/Builder/src/spvm_api.c)

Simplifications:
* one thread (the runtime mutex is not modelled);
* an object is its reference count, its list of weak back references, its reference slots (object fields or object
  array elements) and its class; other data is left out;
* a freed address is not handed out again by the allocator.  No place refers to a freed object (this is proved), so
  the reuse of addresses by `malloc` is not observable;
* the reference count is an unbounded integer (`int32_t` in include/spvm_object.h: 2^31 references to one object need
  16 GiB of references), and allocations succeed;
* the body of a destructor is an arbitrary function from the heap at the call to the list of heap operations it
  performs; an exception thrown in it only ends this list (spvm_api.c 5203-5223).
-/
namespace SPVM.Heap

/-- include/spvm_object.h 12-31. -/
structure Obj where
  count : Int
  backrefs : List Loc
  slots : List Cell
  cls : Nat
  deriving Repr, DecidableEq

/-- All memory.  `objs a = none`: `a` is not allocated (never was, or was freed).  `mortals` is the allocated block of
the mortal stack and `top` its current top (spvm_api.c 2672-2697). -/
structure Heap where
  objs : Nat → Option Obj
  next : Nat
  vars : List Cell
  mortals : List Cell
  top : Nat

/-- A new stack: `n` variables, a mortal stack with capacity 1 (spvm_api.c 2672-2697), no objects. -/
def Heap.init (n : Nat) : Heap :=
  { objs := fun _ => none, next := 0, vars := List.replicate n none, mortals := [none], top := 0 }

/-- Dereference an object pointer; a freed object is a memory error. -/
def Heap.obj (h : Heap) (a : Nat) : Res Obj :=
  match h.objs a with
  | some o => .ok o
  | none => .ub

/-- The heap with object `a` replaced. -/
def Heap.setObj (h : Heap) (a : Nat) (o : Option Obj) : Heap :=
  { h with objs := fun b => if b = a then o else h.objs b }

/-- Contents of a place; `none`: there is no such place. -/
def Heap.cell (h : Heap) : Loc → Option Cell
  | .var i => h.vars[i]?
  | .mortal i => h.mortals[i]?
  | .slot a i =>
    match h.objs a with
    | some o => o.slots[i]?
    | none => none

/-- C `*ref`. -/
def Heap.read (h : Heap) (l : Loc) : Res Cell :=
  match h.cell l with
  | some c => .ok c
  | none => .ub

/-- C `*ref = c`. -/
def Heap.write (h : Heap) (l : Loc) (c : Cell) : Res Heap :=
  match l with
  | .var i => if i < h.vars.length then .ok { h with vars := h.vars.set i c } else .ub
  | .mortal i => if i < h.mortals.length then .ok { h with mortals := h.mortals.set i c } else .ub
  | .slot a i =>
    match h.objs a with
    | some o => if i < o.slots.length then .ok (h.setObj a (some { o with slots := o.slots.set i c })) else .ub
    | none => .ub

/-- `SPVM_API_inc_ref_count`, `SPVM_API_dec_ref_count` (spvm_api.c 5273-5299). -/
def Heap.addCount (h : Heap) (a : Nat) (d : Int) : Res Heap := do
  let o ← h.obj a
  .ok (h.setObj a (some { o with count := o.count + d }))

/-- Replaces the list of weak back references of `a`. -/
def Heap.setBackrefs (h : Heap) (a : Nat) (f : List Loc → List Loc) : Res Heap := do
  let o ← h.obj a
  .ok (h.setObj a (some { o with backrefs := f o.backrefs }))

/-- `SPVM_API_unweaken_thread_unsafe` (spvm_api.c 5053-5093): drop the tag, increment, remove the first back reference
to this place. -/
def Heap.unweaken (h : Heap) (l : Loc) : Res Heap := do
  let c ← h.read l
  match c with
  | none => .ok h
  | some p =>
    if p.weak then do
      let h ← h.write l (some ⟨p.addr, false⟩)
      let h ← h.addCount p.addr 1
      h.setBackrefs p.addr (fun ls => ls.erase l)
    else .ok h

/-- `SPVM_API_isweak` (spvm_api.c 4966-4985): the tag bit of the place. -/
def Heap.isweak (h : Heap) (l : Loc) : Res Bool := do
  let c ← h.read l
  .ok (match c with
    | none => false
    | some p => p.weak)

/-- `SPVM_API_free_weaken_backrefs` (spvm_api.c 5117-5134): every place on the list becomes `undef`. -/
def Heap.freeBackrefs (h : Heap) : List Loc → Res Heap
  | [] => .ok h
  | l :: ls => do
    let h ← h.write l none
    h.freeBackrefs ls

/-- The end of a destruction (spvm_api.c 5247-5267): decrement; at 0 clear the weak references and free the memory. -/
def Heap.finish (h : Heap) (a : Nat) : Res Heap := do
  let h ← h.addCount a (-1)
  let o ← h.obj a
  if o.count = 0 then do
    let h ← h.freeBackrefs o.backrefs
    .ok (h.setObj a none)
  else .ok h

/-- `if (object) inc_ref_count(object)` (spvm_api.c 5153-5155). -/
def Heap.incOpt (h : Heap) : Option Nat → Res Heap
  | some a => h.addCount a 1
  | none => .ok h

/-- First half of `SPVM_API_assign_object` (spvm_api.c 5143-5161), under the mutex.  Also gives the released object. -/
def Heap.store (h : Heap) (l : Loc) (object : Option Nat) : Res (Option Nat × Heap) := do
  let c ← h.read l
  let h ← h.unweaken l
  let h ← h.incOpt object
  let h ← h.write l (object.map fun a => ⟨a, false⟩)
  .ok (c.map Ptr.addr, h)

/-- The growth of the mortal stack in `SPVM_API_push_mortal` (spvm_api.c 4905-4920): when the stack is full, a zeroed
block of twice the capacity gets the old contents.  A capacity above `INT_MAX` is outside the model (`limit`). -/
def Heap.growMortals (h : Heap) : Res Heap :=
  if h.top ≥ h.mortals.length then
    if h.mortals.length * 2 ≤ 2147483647 then
      .ok { h with mortals := h.mortals ++ List.replicate h.mortals.length none }
    else .limit
  else .ok h

/-- A new object with `n` empty slots and reference count 0 (spvm_api.c 3773-3809, 3980-4004). -/
def Heap.alloc (h : Heap) (n cls : Nat) : Heap :=
  { h.setObj h.next (some { count := 0, backrefs := [], slots := List.replicate n none, cls := cls })
    with next := h.next + 1 }

/-- The object a program operand refers to: the tag bit is dropped
(include/spvm_implement.h 1187-1199, `SPVM_IMPLEMENT_GET_FIELD_OBJECT`); `none` for `undef`. -/
def Heap.val (h : Heap) (r : Ref) : Option Nat :=
  match h.cell (match r with | .var i => Loc.var i | .mortal i => Loc.mortal i) with
  | some (some p) => some p.addr
  | _ => none

/-- The slot `i` of the object an operand refers to, with its contents; `none` if the operand is `undef` or there is no
such slot (an exception in the code, include/spvm_implement.h 1112-1338, or rejected by the compiler). -/
def Heap.slotOf (h : Heap) (r : Ref) (i : Nat) : Option (Nat × Cell) :=
  match h.val r with
  | none => none
  | some a =>
    match h.cell (.slot a i) with
    | none => none
    | some c => some (a, c)

/-- The class of every destructor: `hasDtor cls` says whether the class has `DESTROY`, `body a h` is the list of
operations `DESTROY` performs when it is called for object `a` in heap `h`. -/
structure Dtors where
  hasDtor : Nat → Bool
  body : Nat → Heap → List Op

/-- Pieces of the runtime that call each other. -/
inductive Cmd where
  /-- `assign_object(ref, object)` (spvm_api.c 5136-5271) -/
  | assign (l : Loc) (object : Option Nat)
  /-- second half of `assign_object`: the released object loses one reference (spvm_api.c 5163-5270) -/
  | release (a : Nat)
  /-- the loop over the slots of a released object (spvm_api.c 5184-5189, 5228-5243), `n` slots left from `i` on -/
  | clearSlots (a i n : Nat)
  /-- the call of `DESTROY`, if the class has one, for `a` (spvm_api.c 5200-5225).  The callee's `$self` is a place of
  its own in the callee's frame; it is modelled as an entry of the mortal stack that is released at the end of the call -/
  | dtor (a cls : Nat)
  /-- `push_mortal(object)` for a defined object (spvm_api.c 4899-4926) -/
  | push (a : Nat)
  /-- the loop of `leave_scope(k)` from index `i` on (spvm_api.c 4928-4944) -/
  | leave (k i : Nat)
  /-- `weaken(ref)` (spvm_api.c 4987-5051) -/
  | weaken (l : Loc)
  /-- one program operation -/
  | op (o : Op)
  /-- a sequence of program operations -/
  | ops (os : List Op)

/-- Runs a command; the first argument bounds the depth of nested calls (`limit` if it does not suffice).

`dying` lists the objects whose slots are being cleared at this moment.  With `strict = false` this is the code.
With `strict = true` the run stops with the outcome `refill` when a program stores an object into a slot of an object
whose slots are being cleared (only a destructor of another object can do that).  The list `dying` does not exist in
the code and does not influence a run with `strict = false`.

Operations on `undef` or on a slot that does not exist throw an exception and change nothing
(include/spvm_implement.h 1187-1338); a variable index that does not exist is not a program and is skipped. -/
def go (D : Dtors) (strict : Bool) : Nat → List Nat → Cmd → Heap → Res Heap
  | 0, _, _, _ => .limit
  | f + 1, dying, .assign l object, h => do
    let (released, h) ← h.store l object
    match released with
    | none => .ok h
    | some a => go D strict f dying (.release a) h
  | f + 1, dying, .release a, h => do
    let o ← h.obj a
    if o.count > 1 then h.addCount a (-1)
    else do
      let h ← go D strict f dying (.dtor a o.cls) h
      let o ← h.obj a
      let h ← go D strict f (a :: dying) (.clearSlots a 0 o.slots.length) h
      h.finish a
  | _ + 1, _, .clearSlots _ _ 0, h => .ok h
  | f + 1, dying, .clearSlots a i (n + 1), h => do
    let h ← go D strict f dying (.assign (.slot a i) none) h
    go D strict f dying (.clearSlots a (i + 1) n) h
  | f + 1, dying, .dtor a cls, h =>
    if D.hasDtor cls then do
      let h1 ← go D strict f dying (.push a) h
      let h2 ← go D strict f dying (.ops (D.body a h1)) h1
      go D strict f dying (.leave h.top h.top) h2
    else .ok h
  | f + 1, dying, .push a, h => do
    let h ← h.growMortals
    let h ← go D strict f dying (.assign (.mortal h.top) (some a)) h
    .ok { h with top := h.top + 1 }
  | f + 1, dying, .leave k i, h =>
    if i < h.top then do
      let h ← go D strict f dying (.assign (.mortal i) none) h
      go D strict f dying (.leave k (i + 1)) h
    else .ok { h with top := k }
  | f + 1, dying, .weaken l, h => do
    let c ← h.read l
    match c with
    | none => .ok h
    | some p =>
      if p.weak then .ok h
      else do
        let o ← h.obj p.addr
        if o.count = 1 then do
          let h ← h.write l none
          go D strict f dying (.release p.addr) h
        else do
          let h ← h.write l (some ⟨p.addr, true⟩)
          let h ← h.addCount p.addr (-1)
          h.setBackrefs p.addr (fun ls => ls ++ [l])
  | f + 1, dying, .op (.new x n cls), h =>
    if x < h.vars.length then go D strict f dying (.assign (.var x) (some h.next)) (h.alloc n cls) else .ok h
  | f + 1, dying, .op (.move x y), h =>
    if x < h.vars.length then go D strict f dying (.assign (.var x) (h.val y)) h else .ok h
  | f + 1, dying, .op (.clear x), h =>
    if x < h.vars.length then go D strict f dying (.assign (.var x) none) h else .ok h
  | f + 1, dying, .op (.getField x y i), h =>
    match h.slotOf y i with
    | none => .ok h
    | some (_, c) => if x < h.vars.length then go D strict f dying (.assign (.var x) (c.map Ptr.addr)) h else .ok h
  | f + 1, dying, .op (.setField y i x), h =>
    match h.slotOf y i with
    | none => .ok h
    | some (a, _) =>
      if strict = true ∧ a ∈ dying ∧ h.val x ≠ none then .refill
      else go D strict f dying (.assign (.slot a i) (h.val x)) h
  | f + 1, dying, .op (.clearField y i), h =>
    match h.slotOf y i with
    | none => .ok h
    | some (a, _) => go D strict f dying (.assign (.slot a i) none) h
  | f + 1, dying, .op (.weaken y i), h =>
    match h.slotOf y i with
    | none => .ok h
    | some (a, _) => go D strict f dying (.weaken (.slot a i)) h
  | _ + 1, _, .op (.unweaken y i), h =>
    match h.slotOf y i with
    | none => .ok h
    | some (a, _) => h.unweaken (.slot a i)
  | f + 1, dying, .op (.pushMortal y), h =>
    match h.val y with
    | none => .ok h
    | some a => go D strict f dying (.push a) h
  | f + 1, dying, .op (.scope body), h => do
    let h1 ← go D strict f dying (.ops body) h
    go D strict f dying (.leave h.top h.top) h1
  | _ + 1, _, .ops [], h => .ok h
  | f + 1, dying, .ops (o :: rest), h => do
    let h1 ← go D strict f dying (.op o) h
    go D strict f dying (.ops rest) h1

/-- A program run on the heap as the code executes it. -/
def run (D : Dtors) (fuel : Nat) (os : List Op) (h : Heap) : Res Heap := go D false fuel [] (.ops os) h

end SPVM.Heap
