import Verif.Model.Types
/-!
# Fields of a class: merging with the super classes, offsets, access

`SPVM_CHECK_check_basic_types` lines 325-400 and `SPVM_CHECK_check_field_offset`, lib/SPVM/Builder/src/spvm_check.c, and the
field access of the virtual machine, lib/SPVM/Builder/include/spvm_implement.h 1112-1297.

Simplifications: a class is given by the list of the field declarations (`unmerged_fields`) of its super classes from the root
down and of its own.  The super classes form a finite chain (C35 proves that for every program the compiler accepts).  The
symbol tables are the maps C38 proves them to be; that the names in one class are different is checked at spvm_op.c 844-848
(`Redeclaration of field`).  Error messages are not modelled.  The only type flags considered are those of Model/Types.
-/
namespace SPVM
namespace Fields
open VM (Bytes)
open Types (Ty World)

/-- A field declaration (`SPVM_FIELD`, spvm_field.h): name and type. -/
structure Field where
  name : Bytes
  ty : Ty
deriving DecidableEq, Repr

/-- `SPVM_CHECK_search_unmerged_field`, spvm_check.c 3937-3960; `supers` holds the declarations of the class itself and of its
super classes, nearest first. -/
def search : List (List Field) → Bytes → Option Field
  | [], _ => none
  | fs :: rest, name =>
    match fs.find? (fun f => f.name == name) with
    | some f => some f
    | none => search rest name

/-- `SPVM_TYPE_equals`, spvm_type.c: the same basic type, dimension and flags. -/
def tyEquals (a b : Ty) : Bool := a.bt == b.bt && a.dim == b.dim && a.ref == b.ref && a.isMut == b.isMut

/-- The inner loop over the fields of one class, spvm_check.c 351-380: it appends a field to the merged fields unless a super
class has one of that name; in that case it checks the type (`none` is the compile error) and leaves the loop (`break`). -/
def mergeOne (supers : List (List Field)) (acc : List Field) : List Field → Option (List Field)
  | [] => some acc
  | f :: fs =>
    match search supers f.name with
    | some g => if tyEquals g.ty f.ty then some acc else none
    | none => mergeOne supers (acc ++ [f]) fs

/-- The outer loop, spvm_check.c 345-384: from the root class down to the class itself.  A cloned field keeps its name and
type. -/
def mergeLoop (supers : List (List Field)) (acc : List Field) : List (List Field) → Option (List Field)
  | [] => some acc
  | c :: cs =>
    match mergeOne supers acc c with
    | none => none
    | some acc => mergeLoop (c :: supers) acc cs

/-- spvm_check.c 325-389: the merged fields of a class; `chain` holds the declarations from the root class to the class.  More
than 65535 fields are a compile error. -/
def merge (chain : List (List Field)) : Option (List Field) :=
  match mergeLoop [] [] chain with
  | none => none
  | some fs => if fs.length ≤ 65535 then some fs else none

/-- The size of the field in the object, spvm_check.c 1081-1103 (pointers have 8 bytes); `none` is `assert(0)`. -/
def fieldSize (w : World) (t : Ty) : Option Int :=
  if t.dim = 0 ∧ t.ref = false ∧ (t.bt = 8 ∨ t.bt = 6) then some 8
  else if t.dim = 0 ∧ t.ref = false ∧ (t.bt = 7 ∨ t.bt = 5) then some 4
  else if t.dim = 0 ∧ t.ref = false ∧ t.bt = 4 then some 2
  else if t.dim = 0 ∧ t.ref = false ∧ t.bt = 3 then some 1
  else if Types.isObject w t then some 8
  else none

/-- spvm_check.c 1107-1109. -/
def alignOwn (size next offset : Int) : Out Int :=
  if next % size ≠ 0 then do
    let r ← sub32 size (offset % size)
    add32 offset r
  else .ok offset

/-- spvm_check.c 1111-1120; `alignment_size` is 8.  The result is `alignment_index` and `offset`. -/
def alignBlock (next index offset : Int) : Out (Int × Int) := do
  let index' ← add32 index 1
  let lim ← mul32 8 index'
  if next = lim then .ok (index', offset)
  else if next > lim then do
    let r ← sub32 8 (offset % 8)
    let o ← add32 offset r
    if o % 8 = 0 then .ok (index', o) else .ub
  else .ok (index, offset)

/-- The loop body, spvm_check.c 1105-1125: the field's offset, the new `alignment_index` and the new `offset`. -/
def place (size index offset : Int) : Out (Int × Int × Int) := do
  let next ← add32 offset size
  let o1 ← alignOwn size next offset
  let r ← alignBlock next index o1
  let e ← add32 r.2 size
  .ok (r.2, r.1, e)

/-- The loop of `SPVM_CHECK_check_field_offset`, spvm_check.c 1073-1126: the offsets of the fields and `fields_size`. -/
def layoutLoop (w : World) : Int → Int → List Field → Out (List Int × Int)
  | _, offset, [] => .ok ([], offset)
  | index, offset, f :: fs =>
    match fieldSize w f.ty with
    | none => .ub
    | some size => do
      let p ← place size index offset
      let r ← layoutLoop w p.2.1 p.2.2 fs
      .ok (p.1 :: r.1, r.2)

/-- `SPVM_CHECK_check_field_offset`, spvm_check.c 1056-1129. -/
def layout (w : World) (fs : List Field) : Out (List Int × Int) := layoutLoop w 0 0 fs

/-- `SPVM_IMPLEMENT_GET_FIELD_*`, spvm_implement.h 1112-1190: `*(T*)(object + header + offset)` where `sizeof(T)` is `size`.
`mem` is the data area of the object, which is 8-byte aligned; a read outside of it, or one that is not aligned for `T`, is
undefined.  (Weak flags and reference counts are in Model/Heap.lean.) -/
def getField (mem : List UInt8) (offset size : Int) : Out (List UInt8) :=
  if 0 ≤ offset ∧ 0 < size ∧ offset + size ≤ mem.length ∧ offset % size = 0 then
    .ok ((mem.drop offset.toNat).take size.toNat)
  else .ub

/-- `SPVM_IMPLEMENT_SET_FIELD_*`, spvm_implement.h 1201-1297; `bytes` is the representation of the value. -/
def setField (mem : List UInt8) (offset : Int) (bytes : List UInt8) : Out (List UInt8) :=
  if 0 ≤ offset ∧ 0 < bytes.length ∧ offset + bytes.length ≤ mem.length ∧ offset % bytes.length = 0 then
    .ok (mem.take offset.toNat ++ bytes ++ mem.drop (offset.toNat + bytes.length))
  else .ub

/-- The data area of a new object, `SPVM_API_new_object_no_mortal`, spvm_api.c 3790-3809: `fields_size` zero bytes (the memory
comes from `calloc`). -/
def newMem (fieldsSize : Int) : List UInt8 := List.replicate fieldsSize.toNat 0

end Fields
end SPVM
