import Verif.Model.ArrayC
import Verif.Model.VM
/-!
# Native memory functions of `Fn` (lib/SPVM/Fn.c)
-/
namespace SPVM
namespace FnMem
open VM (Bytes)

/-- What `Fn->memcpy`, `memmove` and `memcmp` look at in an object.
* `isMem`: `is_string || is_numeric_array || is_mulnum_array` (Fn.c 358, 366);
* `readOnly`: `env->is_read_only`;
* `elemSize`: `SPVM_API_get_elem_size`, spvm_api.c 2936-2990;
* `length`: the object's `length`;
* `bytes`: the data area. -/
structure MemObj where
  isMem : Bool
  readOnly : Bool
  elemSize : Int
  length : Int
  bytes : Bytes

/-- A (mutable) string object: element size 1. -/
def MemObj.str (b : Bytes) (readOnly : Bool := false) : MemObj :=
  { isMem := true, readOnly := readOnly, elemSize := 1, length := b.length, bytes := b }

def msgDestType : String := "The type of the dest $dest must be string type, a numeric array type, or a multi-numeric array type."
def msgSourceType : String := "The type of the source $source must be string type, a numeric array type, or a multi-numeric array type."
def msgReadOnly : String := "The destination $dest cannnot be be a read-only string."
def msgDestRange : String := "The offset $dest_offset + the length $length must be less than or equal to the length of the dest $obj_dest."
def msgSourceRange : String := "The offset $source_offset + the length $length must be less than or equal to the length of the source $source."

/-- `SPVM__Fn__memcpy` (Fn.c 346-403) and `SPVM__Fn__memmove` (Fn.c 405-462): the same checks in the same order (the
texts of some messages differ, not modelled), then the raw C call.  The result is the new data of the destination. -/
def copyCommon (raw : Bytes → Int → Bytes → Int → Int → Out Bytes)
    (dest : Option MemObj) (destOffset : Int) (source : Option MemObj) (sourceOffset length : Int) : Out Bytes :=
  match dest with
  | none => .die msgDestUndef
  | some dst =>
    if dst.isMem = false then .die msgDestType
    else match source with
    | none => .die msgSourceUndef
    | some src =>
      if src.isMem = false then .die msgSourceType
      else if dst.readOnly = true then .die msgReadOnly
      else if ¬ length ≥ 0 then .die msgLengthNeg
      else if length = 0 then .ok dst.bytes
      else do
        let destByteLength ← mul32 dst.elemSize dst.length
        let dEnd ← add32 destOffset length
        if ¬ dEnd ≤ destByteLength then .die msgDestRange
        else do
          let sourceByteLength ← mul32 src.elemSize src.length
          let sEnd ← add32 sourceOffset length
          if ¬ sEnd ≤ sourceByteLength then .die msgSourceRange
          else raw dst.bytes destOffset src.bytes sourceOffset length

/-- `Fn->memcpy`, Fn.c 346-403; `same`: both arguments are the same object. -/
def memcpy (same : Bool) := copyCommon (rawCopy same)
/-- `Fn->memmove`, Fn.c 405-462. -/
def memmove := copyCommon rawMove

def msgData1Undef : String := "The data1 $data1 must be defined."
def msgData2Undef : String := "The data2 $data2 must be defined."
def msgData1Range : String := "The offset $data1_offset + the length $length must be less than or equal to the length of the data1 $obj_data1."
def msgData2Range : String := "The offset $data2_offset + the length $length must be less than or equal to the length of the data2 $data2."

/-- The bytes from `offset` on; undefined when the pointer leaves the block. -/
def pointer (b : Bytes) (offset : Int) : Out Bytes :=
  if 0 ≤ offset ∧ offset ≤ b.length then .ok (b.drop offset.toNat) else .ub

/-- `Fn->memcmp`, Fn.c 811-862. -/
def memcmp (data1 : Option MemObj) (data1Offset : Int) (data2 : Option MemObj) (data2Offset length : Int) : Out Int :=
  match data1 with
  | none => .die msgData1Undef
  | some d1 =>
    if d1.isMem = false then .die msgDestType
    else match data2 with
    | none => .die msgData2Undef
    | some d2 =>
      if d2.isMem = false then .die msgSourceType
      else if ¬ length ≥ 0 then .die msgLengthNeg
      else do
        let l1 ← mul32 d1.elemSize d1.length
        let e1 ← add32 data1Offset length
        if ¬ e1 ≤ l1 then .die msgData1Range
        else do
          let l2 ← mul32 d2.elemSize d2.length
          let e2 ← add32 data2Offset length
          if ¬ e2 ≤ l2 then .die msgData2Range
          else do
            let p1 ← pointer d1.bytes data1Offset
            let p2 ← pointer d2.bytes data2Offset
            VM.memcmp p1 p2 length.toNat

end FnMem
end SPVM
