import Verif.Base
import Verif.Spec.Exchange

/-!
# Model of the data exchange with Perl (SPVM.xs)

The functions of `SPVM::ExchangeAPI`, `SPVM::BlessedObject::Array` and `SPVM::BlessedObject::String` that turn Perl data
into SPVM objects and back.  Perl's own conversions of floating point numbers and strings to numbers are parameters
(`Perl`), so the theorems hold for every Perl.
-/

namespace SPVM.Exch

/-- `sizeof` of an element (SPVM.xs 3500-3528). -/
def NumK.size : NumK → Nat
  | .byte => 1
  | .short => 2
  | .int => 4
  | .long => 8
  | .float => 4
  | .double => 8

/-- A machine cell holding one number of the type. -/
abbrev Cell (k : NumK) : Type := BitVec (8 * k.size)

/-- `SvIV`: the integer of a scalar, 64 bits. -/
def svIV (P : Perl) : Sv → BitVec 64
  | .undef => 0
  | .int n => BitVec.ofInt 64 n
  | .nv b => P.nvIV b
  | .pv s => P.pvIV s
  | _ => P.refIV

/-- `SvUV`. -/
def svUV (P : Perl) : Sv → BitVec 64
  | .undef => 0
  | .int n => BitVec.ofInt 64 n
  | .nv b => P.nvUV b
  | .pv s => P.pvUV s
  | _ => P.refIV

/-- `SvNV`: the double of a scalar. -/
def svNV (P : Perl) : Sv → BitVec 64
  | .undef => P.intNV 0
  | .int n => P.intNV n
  | .nv b => b
  | .pv s => P.pvNV s
  | _ => P.refNV

/-- `SvOK(sv) && !SvROK(sv)`. -/
def isPlain : Sv → Bool
  | .int _ | .nv _ | .pv _ => true
  | _ => false

/-- `SvPV` of a defined scalar that is not a reference. -/
def svPV (P : Perl) : Sv → List UInt8
  | .int n => P.intPV n
  | .nv b => P.nvPV b
  | .pv s => s
  | _ => []

/-- The contents of an object. -/
inductive Body
  | nums (k : NumK) (cells : List (Cell k))
  | objs (es : List (Option Nat))
  | str (s : List UInt8)
  | inst
deriving Repr

/-- An object: type, dimension, array length, contents and reference count. -/
structure Obj where
  ty : BT
  dim : Nat
  len : Nat
  body : Body
  rc : Nat

/-- The objects that exist; the address of an object is its position. -/
abbrev Heap : Type := List Obj

/-- The type relation of the loaded program: may an object of the first type and dimension be assigned to the second
(`SPVM_API_isa`, lib/SPVM/Builder/src/spvm_api.c 4552-4572; the relation itself is the subject of C50). -/
structure World where
  isa : BT → Nat → BT → Nat → Bool

/-- A call of an exchange function. -/
abbrev X (α : Type) : Type := Prog Heap α

/-- Undefined behaviour. -/
def crash : X α := Prog.lift .ub

/-- The object a pointer points to; the null pointer must not be followed. -/
def deref (o : Option Nat) : X Obj := fun h =>
  match o with
  | none => (.ub, h)
  | some a => match h[a]? with
    | some ob => (.ok ob, h)
    | none => (.ub, h)

/-- A new object with reference count 0 (`SPVM_API_new_byte_array_no_mortal` and its siblings; memory is assumed to be
available). -/
def alloc (ob : Obj) : X Nat := fun h => (.ok h.length, h ++ [{ ob with rc := 0 }])

/-- Change of an object in place. -/
def update (a : Nat) (f : Obj → Obj) : X Unit := fun h =>
  match h[a]? with
  | some ob => (.ok (), h.set a (f ob))
  | none => (.ub, h)

/-- `env->assign_object` into a field that held nothing: the count of the object goes up. -/
def retain (o : Option Nat) : X Unit :=
  match o with
  | none => pure ()
  | some a => update a fun ob => { ob with rc := ob.rc + 1 }

/-- `SPVM_XS_UTIL_new_sv_blessed_object`, SPVM.xs 127-158. -/
def bless (k : Kind) (o : Option Nat) : X Sv := do
  retain o
  pure (.obj k o)

/-- `SPVM_XS_UTIL_get_spvm_object`, SPVM.xs 82-97: nothing checks that the scalar is a blessed object. -/
def objectOf : Sv → X (Option Nat)
  | .undef => pure none
  | .obj _ o => pure o
  | _ => crash

/-- The value of a scalar as an element of the type: `(int8_t)SvIV(sv)` and its siblings, `(int8_t)SvUV(sv)` in the unsigned
variants (SPVM.xs 254-848, line 300 for `byte`). -/
def cellOf (P : Perl) (u : Bool) (k : NumK) (v : Sv) : Cell k :=
  match k with
  | .byte => (if u then svUV P v else svIV P v).setWidth 8
  | .short => (if u then svUV P v else svIV P v).setWidth 16
  | .int => (if u then svUV P v else svIV P v).setWidth 32
  | .long => if u then svUV P v else svIV P v
  | .float => P.narrow (svNV P v)
  | .double => svNV P v

/-- `newSViv` or `newSVnv` of an element (SPVM.xs 4061-4113). -/
def svOf (P : Perl) (k : NumK) (c : Cell k) : Sv :=
  match k with
  | .byte => .int (BitVec.toInt (n := 8) c)
  | .short => .int (BitVec.toInt (n := 16) c)
  | .int => .int (BitVec.toInt (n := 32) c)
  | .long => .int (BitVec.toInt (n := 64) c)
  | .float => .nv (P.widen c)
  | .double => .nv c

/-- The element loop of `SPVM_XS_UTIL_new_byte_array` and its siblings, SPVM.xs 290-301. -/
def numLoop (P : Perl) (u : Bool) (k : NumK) : Nat → List Sv → List (Cell k) → Out (List (Cell k))
  | _, [], cells => .ok cells
  | i, v :: vs, cells =>
    if isPlain v then
      if i < cells.length then numLoop P u k (i + 1) vs (cells.set i (cellOf P u k v)) else .ub
    else .die s!"'s {i + 1}th element must be a non-reference scalar"

/-- `SPVM_XS_UTIL_new_byte_array`, `_short_`, `_int_`, `_long_`, `_float_`, `_double_` and the `_unsigned` variants,
SPVM.xs 254-847 (lines 254-312 for `byte`).  The array is allocated before its elements are checked.  Arrays of 2³¹ elements
and more, where `(int32_t)` cuts the length, are left out. -/
def newNumArray (P : Perl) (u : Bool) (k : NumK) (v : Sv) : X Sv :=
  match v with
  | .undef => pure .undef
  | .obj .arr o => do
    let ob ← deref o
    if ob.ty = .num k ∧ ob.dim = 1 then pure v
    else Prog.die ": If it is an SPVM::BlessedObject::Array object, the type must be the numeric array type"
  | .aref es =>
    if es.length < 2147483648 then do
      let a ← alloc { ty := .num k, dim := 1, len := es.length, body := .nums k (List.replicate es.length 0), rc := 0 }
      let cells ← Prog.lift (numLoop P u k 0 es (List.replicate es.length 0))
      update a fun ob => { ob with body := .nums k cells }
      bless .arr (some a)
    else crash
  | _ => Prog.die ": If it is a reference, it must be an array reference"

/-- `SPVM_XS_UTIL_new_string`, SPVM.xs 176-208. -/
def newString (P : Perl) (v : Sv) : X Sv :=
  match v with
  | .undef => pure .undef
  | .obj .str _ => pure v
  | .int _ | .nv _ | .pv _ =>
    if (svPV P v).length < 2147483648 then do
      let a ← alloc { ty := .string, dim := 0, len := (svPV P v).length, body := .str (svPV P v), rc := 0 }
      bless .str (some a)
    else crash
  | _ => Prog.die " cannnot be a reference"

/-- `SPVM_XS_UTIL_new_address_object`, SPVM.xs 210-252: `is_type_by_name` is asked for dimension 1.  A number is taken as
the address. -/
def newAddress (v : Sv) : X Sv :=
  match v with
  | .undef => pure .undef
  | .obj .cls o => do
    let ob ← deref o
    if ob.ty = .cls "Address" ∧ ob.dim = 1 then pure v
    else Prog.die ": If it is an SPVM::BlessedObject::Class object, it must be the Address type"
  | .int _ | .nv _ | .pv _ => do
    let a ← alloc { ty := .cls "Address", dim := 0, len := 0, body := .inst, rc := 0 }
    bless .cls (some a)
  | _ => Prog.die " cannnot be a reference"

/-- `env->set_elem_object` (lib/SPVM/Builder/src/spvm_api.c 4211-4216): the element must be an object element.  The count of
the object replaced goes down. -/
def setElem (a : Nat) (i : Nat) (o : Option Nat) : X Unit := do
  let ob ← deref (some a)
  match ob.body with
  | .objs es =>
    match es[i]? with
    | none => crash
    | some old => do
      retain o
      update a fun ob => { ob with body := .objs (es.set i o) }
      match old with
      | none => pure ()
      | some b => update b fun ob => { ob with rc := ob.rc - 1 }
  | _ => crash

/-- The element loop of `SPVM_XS_UTIL_new_string_array`, SPVM.xs 888-901. -/
def strLoop (P : Perl) (a : Nat) : Nat → List Sv → X Unit
  | _, [] => pure ()
  | i, v :: vs => do
    if (match v with | .aref _ | .href _ | .sref _ | .code | .obj .cls _ | .obj .arr _ => true | _ => false) then
      Prog.die s!"'s {i + 1}th element must be a non-reference scalar"
    else do
      let w ← newString P v
      let o ← objectOf w
      setElem a i o
      strLoop P a (i + 1) vs

/-- `SPVM_XS_UTIL_new_string_array`, SPVM.xs 849-911. -/
def newStrArray (P : Perl) (v : Sv) : X Sv :=
  match v with
  | .undef => pure .undef
  | .obj .arr o => do
    let ob ← deref o
    if ob.ty = .string ∧ ob.dim = 1 then pure v
    else Prog.die ": If it is an SPVM::BlessedObject::Array object, the type must be the string[] type"
  | .aref es =>
    if es.length < 2147483648 then do
      let a ← alloc { ty := .string, dim := 1, len := es.length, body := .objs (List.replicate es.length none), rc := 0 }
      strLoop P a 0 es
      bless .arr (some a)
    else crash
  | _ => Prog.die ": If it is a reference, it must be an array reference"

/-- `SPVM_API_isa`, spvm_api.c 4552-4572. -/
def isa (W : World) (o : Option Nat) (t : BT) (d : Nat) : X Bool :=
  match o with
  | none => pure true
  | some _ => do
    let ob ← deref o
    pure (W.isa ob.ty ob.dim t d)

/-- The element loop of `SPVM_XS_UTIL_new_object_array` and `SPVM_XS_UTIL_new_muldim_array`, SPVM.xs 947-973, 1021-1047. -/
def objLoop (W : World) (t : BT) (d : Nat) (a : Nat) : Nat → List Sv → X Unit
  | _, [] => pure ()
  | i, v :: vs =>
    match v with
    | .undef => do
      setElem a i none
      objLoop W t d a (i + 1) vs
    | .obj _ o => do
      let ok ← isa W o t (d - 1)
      if ok then do
        setElem a i o
        objLoop W t d a (i + 1) vs
      else Prog.die s!"'s {i + 1}th element must be the assignable type"
    | _ => Prog.die s!"'s {i + 1}th element must be an SPVM::BlessedObject or undef"

/-- `SPVM_XS_UTIL_new_object_array` (dimension 1), SPVM.xs 911-983, and `SPVM_XS_UTIL_new_muldim_array`, SPVM.xs 985-1056. -/
def newObjArray (W : World) (t : BT) (d : Nat) (v : Sv) : X Sv :=
  match v with
  | .undef => pure .undef
  | .obj .arr o => do
    let ok ← isa W o t d
    if ok then pure v
    else Prog.die ": If it is an SPVM::BlessedObject::Array object, the type must be assignable"
  | .aref es =>
    if es.length < 2147483648 then do
      let a ← alloc { ty := t, dim := d, len := es.length, body := .objs (List.replicate es.length none), rc := 0 }
      objLoop W t d a 0 es
      bless .arr (some a)
    else crash
  | _ => Prog.die ": If it is a reference, it must be an array reference"

/-- `hv_fetch`. -/
def fetch (es : List (String × Sv)) (f : String) : Option Sv := (es.find? (·.1 == f)).map (·.2)

/-- The field loop of one element of `SPVM_XS_UTIL_new_mulnum_array`, SPVM.xs 1113-1158. -/
def fieldLoop (P : Perl) (k : NumK) (n index : Nat) (es : List (String × Sv)) :
    Nat → List String → List (Cell k) → Out (List (Cell k))
  | _, [], cells => .ok cells
  | fi, f :: fs, cells =>
    match fetch es f with
    | none => .die s!"'s {index + 1}th element's hash reference must have the key for the field"
    | some v =>
      if n * index + fi < cells.length then
        fieldLoop P k n index es (fi + 1) fs (cells.set (n * index + fi) (cellOf P false k v))
      else .ub

/-- The element loop of `SPVM_XS_UTIL_new_mulnum_array`, SPVM.xs 1092-1165. -/
def mulLoop (P : Perl) (k : NumK) (fs : List String) : Nat → List Sv → List (Cell k) → Out (List (Cell k))
  | _, [], cells => .ok cells
  | i, v :: vs, cells =>
    match v with
    | .href es => (fieldLoop P k fs.length i es 0 fs cells).bind fun cells => mulLoop P k fs (i + 1) vs cells
    | .obj _ _ => .ub
    | _ => .die s!"'s {i + 1}th element must be a hash reference"

/-- `SPVM_XS_UTIL_new_mulnum_array`, SPVM.xs 1058-1177.  An SPVM object among the elements is a blessed hash reference; what is
read from its fields is left out (`ub`). -/
def newMulArray (P : Perl) (W : World) (fs : List String) (k : NumK) (v : Sv) : X Sv :=
  match v with
  | .undef => pure .undef
  | .obj .arr o => do
    let ok ← isa W o (.mul fs k) 1
    if ok then pure v
    else Prog.die ": If it is an SPVM::BlessedObject::Array object, the type must be assignable"
  | .aref es =>
    if es.length < 2147483648 then do
      let zeros := List.replicate (es.length * fs.length) 0
      let a ← alloc { ty := .mul fs k, dim := 1, len := es.length, body := .nums k zeros, rc := 0 }
      let cells ← Prog.lift (mulLoop P k fs 0 es zeros)
      update a fun ob => { ob with body := .nums k cells }
      bless .arr (some a)
    else crash
  | _ => Prog.die ": If it is a reference, it must be an array reference"

/-- Elements `0 .. n-1` read one after the other. -/
def readAll (f : Nat → Out α) : Nat → Nat → Out (List α)
  | 0, _ => .ok []
  | n + 1, i => (f i).bind fun x => (readAll f n (i + 1)).bind fun xs => .ok (x :: xs)

/-- Element `i` of the cells, which must exist. -/
def cellAt (cells : List α) (i : Nat) : Out α :=
  match cells[i]? with
  | some c => .ok c
  | none => .ub

/-- The fields of element `i` of a multi-numeric array as a hash, SPVM.xs 3979-4024. -/
def fieldsOf (P : Perl) (k : NumK) (cells : List (Cell k)) (n i : Nat) : Nat → List String → Out (List (String × Sv))
  | _, [] => .ok []
  | fi, f :: fs => (cellAt cells (n * i + fi)).bind fun c =>
      (fieldsOf P k cells n i (fi + 1) fs).bind fun r => .ok ((f, svOf P k c) :: r)

/-- Object elements as Perl values, SPVM.xs 4027-4057. -/
def blessAll (k : Kind) : List (Option Nat) → X (List Sv)
  | [] => pure []
  | none :: os => do
    let r ← blessAll k os
    pure (.undef :: r)
  | some a :: os => do
    let v ← bless k (some a)
    let r ← blessAll k os
    pure (v :: r)

/-- The Perl class of the elements of an object array, SPVM.xs 4027-4057: the basic type `string` is asked for before the
dimension. -/
def elemKind (t : BT) (d : Nat) : Kind :=
  if t = .string then .str else if d - 1 > 0 then .arr else .cls

/-- `SPVM::BlessedObject::Array::to_elems`, SPVM.xs 3923-4128. -/
def toElems (P : Perl) (v : Sv) : X Sv := do
  let o ← objectOf v
  let ob ← deref o
  match ob.body with
  | .objs es => do
    let r ← blessAll (elemKind ob.ty ob.dim) es
    pure (.aref r)
  | .nums k cells =>
    match ob.ty with
    | .mul fs _ => do
      let r ← Prog.lift (readAll (fun i => (fieldsOf P k cells fs.length i 0 fs).bind fun r => .ok (Sv.href r)) ob.len 0)
      pure (.aref r)
    | _ => do
      let r ← Prog.lift (readAll (fun i => (cellAt cells i).bind fun c => .ok (svOf P k c)) ob.len 0)
      pure (.aref r)
  | _ => crash

/-- `SPVM::BlessedObject::Array::length`, SPVM.xs 3884-3920. -/
def arrayLength (v : Sv) : X Sv := do
  let o ← objectOf v
  let ob ← deref o
  pure (.int ob.len)

/-- The `n` low bytes of a number in memory, least significant first (a little-endian machine). -/
def bytesOf : Nat → Nat → List UInt8
  | 0, _ => []
  | n + 1, x => UInt8.ofNat (x % 256) :: bytesOf n (x / 256)

/-- The number whose bytes in memory these are. -/
def ofBytes : List UInt8 → Nat
  | [] => 0
  | b :: bs => b.toNat + 256 * ofBytes bs

/-- The memory of an array of numbers. -/
def cellBytes (k : NumK) (cells : List (Cell k)) : List UInt8 := cells.flatMap fun c => bytesOf k.size c.toNat

/-- The first `n` numbers in a piece of memory. -/
def bytesCells (k : NumK) : Nat → List UInt8 → List (Cell k)
  | 0, _ => []
  | n + 1, bs => BitVec.ofNat _ (ofBytes (bs.take k.size)) :: bytesCells k n (bs.drop k.size)

/-- `SPVM::BlessedObject::Array::to_bin`, SPVM.xs 4131-4280: the number of bytes is computed with `int32_t`. -/
def toBin (v : Sv) : X Sv := do
  let o ← objectOf v
  let ob ← deref o
  match ob.body with
  | .nums k cells => do
    let n := match ob.ty with | .mul fs _ => fs.length * ob.len | _ => ob.len
    let bytes ← Prog.lift (chk32 (n * k.size : Nat))
    if n ≤ cells.length then pure (.pv ((cellBytes k cells).take bytes.toNat)) else crash
  | .objs _ => Prog.die "The object array cannnot be converted to a binary"
  | _ => crash

/-- `new_byte_array_from_bin` and its siblings, SPVM.xs 2516-2553 (`byte`, no check of the length), 2651-2694 (`short`), 2792,
2932, 3042, 3152. -/
def fromBin (P : Perl) (k : NumK) (v : Sv) : X Sv :=
  if isPlain v then do
    let b := svPV P v
    if b.length < 2147483648 then
      if b.length % k.size = 0 then do
        let a ← alloc { ty := .num k, dim := 1, len := b.length / k.size,
                        body := .nums k (bytesCells k (b.length / k.size) b), rc := 0 }
        bless .arr (some a)
      else Prog.die s!"The length of $binary must be divisible by {k.size}"
    else crash
  else Prog.die "$binary must be a defined non-reference scalar"

/-- `new_mulnum_array_from_bin`, SPVM.xs 3448-3594. -/
def mulFromBin (P : Perl) (fs : List String) (k : NumK) (v : Sv) : X Sv :=
  if isPlain v then do
    let b := svPV P v
    if b.length < 2147483648 then
      if b.length % (k.size * fs.length) = 0 then do
        let n := b.length / fs.length / k.size
        let a ← alloc { ty := .mul fs k, dim := 1, len := n, body := .nums k (bytesCells k (fs.length * n) b), rc := 0 }
        bless .arr (some a)
      else Prog.die s!"The length of $binary must be divisible by {k.size} * {fs.length}"
    else crash
  else Prog.die "$binary must be a defined non-reference scalar"

/-- `SPVM::BlessedObject::String::to_bin`, SPVM.xs 3845-3880. -/
def strToBin (v : Sv) : X Sv := do
  let o ← objectOf v
  let ob ← deref o
  match ob.body with
  | .str s => pure (.pv s)
  | _ => crash

/-- `(int32_t)SvIV(sv_index)`, SPVM.xs 4305, 4442. -/
def indexOf (P : Perl) (v : Sv) : Int := ((svIV P v).setWidth 32).toInt

/-- `SPVM::BlessedObject::Array::set`, SPVM.xs 4283-4418: the type of the element is checked only for a multi-dimensional array,
and a multi-numeric array is treated as an array of objects. -/
def setAt (P : Perl) (W : World) (v iv ev : Sv) : X Unit := do
  let o ← objectOf v
  let ob ← deref o
  if 0 ≤ indexOf P iv ∧ indexOf P iv < ob.len then
    match o with
    | none => crash
    | some a =>
      match ob.ty, ob.dim with
      | .num _, 1 =>
        match ob.body with
        | .nums k cells =>
          if (indexOf P iv).toNat < cells.length then
            update a fun ob => { ob with body := .nums k (cells.set (indexOf P iv).toNat (cellOf P false k ev)) }
          else crash
        | _ => crash
      | _, 1 => do
        let e ← objectOf ev
        setElem a (indexOf P iv).toNat e
      | t, d => do
        let e ← objectOf ev
        let ok ← isa W e t (d - 1)
        if ok then setElem a (indexOf P iv).toNat e
        else Prog.die "$elem must be assigned to the element of the array"
  else Prog.die "$index must be greatr than or equal to 0 and less than the length of the array"

/-- `SPVM::BlessedObject::Array::get`, SPVM.xs 4421-4543: a string element becomes a `Class` object, an undefined element an
object that holds nothing, and a multi-numeric array is treated as an array of objects. -/
def getAt (P : Perl) (v iv : Sv) : X Sv := do
  let o ← objectOf v
  let ob ← deref o
  if 0 ≤ indexOf P iv ∧ indexOf P iv < ob.len then
    match ob.ty, ob.dim with
    | .num _, 1 =>
      match ob.body with
      | .nums k cells => do
        let c ← Prog.lift (cellAt cells (indexOf P iv).toNat)
        pure (svOf P k c)
      | _ => crash
    | _, d =>
      match ob.body with
      | .objs es => do
        let e ← Prog.lift (cellAt es (indexOf P iv).toNat)
        bless (if d - 1 = 0 then .cls else .arr) e
      | _ => crash
  else Prog.die "$index must be greater than or equal to 0 and less than the length of the array"

end SPVM.Exch
