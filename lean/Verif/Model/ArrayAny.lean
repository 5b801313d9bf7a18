import Verif.Model.ArrayOps

/-!
# Functions of `Array` for arrays of every type (lib/SPVM/Array.spvm 1129-1431)

An array of numbers or of multi-numeric values is the list of its elements, each the bytes it has in memory.  An element of a `string[]`
is a reference and the bytes of the string.
-/

namespace SPVM.ArrayAny

open FnMem VM

/-- What `Fn->is_string_array`, `is_object_array` and `is_any_numeric_array` (Fn.spvm 1379-1388, 1479-1492, Fn.c 278-327) say about an array
type, and the size of an element (spvm_api.c 2936-2990). -/
inductive Kind where
  | num (es : Nat)
  | str
  | obj
deriving DecidableEq

inductive Data where
  | num (elems : List Bytes)
  | str (elems : List (Option (Nat × Bytes)))
  | obj (elems : List (Option Nat))
deriving DecidableEq

/-- An argument of type `object`. -/
inductive Val where
  | undef
  | other
  | arr (ty : String) (d : Data)
deriving DecidableEq

/-- The object that `Fn->memcmp` and `Fn->memcpy` see. -/
def memObj (es : Nat) (elems : List Bytes) : MemObj := ArrayOps.numObj es elems.length elems.flatten

/-- `!=` on references, and `ne` on strings (C31), Array.spvm 488-493, 442-462. -/
def refNe (a b : Option (Nat × Bytes)) : Bool := a.map (·.1) != b.map (·.1)
def strNe (a b : Option (Nat × Bytes)) : Bool := a.map (·.2) != b.map (·.2)

/-- `Array->equals`, Array.spvm 1335-1395.  `kind` is the kind of an array type; `objEq` is `equals_object` with the default equality
checker (C85).  Simplification: a type and its name are the same. -/
def equals (kind : String → Kind) (objEq : List (Option Nat) → List (Option Nat) → Out Int) (a b : Val) (shallow : Bool := false) : Out Int :=
  match a, b with
  | .undef, .undef => .ok 1
  | _, .undef => .ok 0
  | .undef, _ => .ok 0
  | .other, _ => .die "The type of the array $array1 must be an array type."
  | _, .other => .die "The type of the array $array2 must be an array type."
  | .arr t1 d1, .arr t2 d2 =>
    if t1 ≠ t2 then .ok 0
    else
      match kind t1, d1, d2 with
      | .str, .str x, .str y =>
        if shallow then ArrayOps.equals refNe (some x) (some y)
        else ArrayOps.equals strNe (some x) (some y)
      | .obj, .obj x, .obj y =>
        if shallow then ArrayOps.equals (fun p q => p != q) (some x) (some y)
        else objEq x y
      | .num es, .num x, .num y =>
        if alen x = alen y then do
          let n ← mul32 es (alen x)
          let r ← FnMem.memcmp (some (memObj es x)) 0 (some (memObj es y)) 0 n
          .ok (if r = 0 then 1 else 0)
        else .ok 0
      | _, _, _ => .ub

/-- `Array->copy_any_numeric`, Array.spvm 1397-1431: the bytes of the new array. -/
def copyAny (limit : Nat) (kind : String → Kind) (v : Val) (offset : Int := 0) (length : Int := -1) : Out Bytes :=
  match v with
  | .undef => .die ArrayOps.msgArrayUndef
  | .other => .die "The type of the array $array must be a numeric array type or a multi-numeric type."
  | .arr t d =>
    match kind t, d with
    | .num es, .num x =>
      if ¬ offset ≥ 0 then .die ArrayOps.msgOffsetNeg
      else do
        let len ← ArrayOps.effLength (alen x) offset length
        let e ← add32 offset len
        if ¬ e ≤ alen x then .die ArrayOps.msgRange
        else do
          let new ← ArrayOps.newProtoAny limit (List.replicate es (0 : UInt8)) len
          let so ← mul32 es offset
          let n ← mul32 es len
          FnMem.memcpy false (new.map (memObj es)) 0 (some (memObj es x)) so n
    | _, .num _ => .ub
    | _, _ => .die "The type of the array $array must be a numeric array type or a multi-numeric type."

/-! ### Boxes -/

/-- `(Int)$array->[$i]`: a new object of the numeric object class, spvm_implement.h 2180-2290.  The boxes of one class are a list; a
reference is a position in it. -/
def box (h : List α) (x : α) : List α × Nat := (h ++ [x], h.length)

/-- `(int)$object_array->[$i]`, spvm_implement.h 2317-2334. -/
def unbox (h : List α) : Option Nat → Out α
  | none => .die "An unboxing conversion cannot be performed on undef."
  | some k =>
    match h[k]? with
    | none => .ub
    | some x => .ok x

/-- `Array->to_object_array_byte` ... `to_object_array_double`, Array.spvm 1129-1229. -/
def toObjectArray (limit : Nat) (h : List α) (array : Option (List α)) : Out (List α × List (Option Nat)) :=
  match array with
  | none => .die ArrayOps.msgArrayUndef
  | some a => do
    let new ← newArray limit (none : Option Nat) (alen a)
    forLoop 0 a.length (fun i s => do
      let x ← aGet a i
      let b := box s.1 x
      let r ← aSet s.2 i (some b.2)
      .ok (b.1, r)) (h, new)

/-- `Array->to_array_byte` ... `to_array_double`, Array.spvm 1231-1331. -/
def toArray (limit : Nat) (zero : α) (h : List α) (array : Option (List (Option Nat))) : Out (List α) :=
  match array with
  | none => .die "The array $object_array must be defined."
  | some a => do
    let new ← newArray limit zero (alen a)
    forLoop 0 a.length (fun i s => do
      let o ← aGet a i
      let x ← unbox h o
      aSet s i x) new

end SPVM.ArrayAny
