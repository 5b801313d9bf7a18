import Verif.Model.FnMem
/-!
# Strings: creation, concatenation, `Fn->substr`, `Fn->memset_char`
-/
namespace SPVM
namespace Str
open VM (Bytes)

def msgNewStringLen : String := "A new_string_len operator failed. The length must be a non-negative integer."
def msgNewStringMem : String := "A new_string_len operator failed. Memory allocation failed."

/-- `new_string_len length` (`SPVM_IMPLEMENT_NEW_STRING_LEN`, spvm_implement.h 762-779; `SPVM_API_new_string_no_mortal`,
spvm_api.c 3858-3877).  `limit` is the largest length that can be allocated; the bytes are zero. -/
def newStringLen (limit : Nat) (length : Int) : Out Bytes :=
  if length ≥ 0 then
    if length.toNat ≤ limit then .ok (List.replicate length.toNat 0) else .die msgNewStringMem
  else .die msgNewStringLen

/-- `Fn->memcpy` between two different strings, the destination being mutable (Fn.c 346-403). -/
def memcpy (dst : Bytes) (d : Int) (src : Bytes) (s len : Int) : Out Bytes :=
  FnMem.memcpy false (some (.str dst)) d (some (.str src)) s len

/-- `Fn->memmove` inside one string (Fn.c 405-462). -/
def memmove (b : Bytes) (d s len : Int) : Out Bytes :=
  FnMem.memmove (some (.str b)) d (some (.str b)) s len

/-- The conversion `(byte)$char` of an `int`, as the stored byte: the low 8 bits (`SPVM_IMPLEMENT_TYPE_CONVERSION_INT_TO_BYTE`,
spvm_implement.h 2022-2051; implementation-defined truncation in C, two's complement assumed). -/
def toByte (c : Int) : UInt8 := UInt8.ofNat (c % 256).toNat

/-- `Fn->memset_char`, Fn.spvm 1252-1275: the text is that of `Array->memset_*` (Array.spvm 666-829) with `(byte)$char`. -/
def memsetChar (s : Bytes) (c : Int) (offset : Int := 0) (length : Int := -1) : Out Bytes :=
  arrayMemset s (toByte c) offset length

/-- The operator `.` on defined strings (`SPVM_IMPLEMENT_STRING_CONCAT`, spvm_implement.h 419-436;
`SPVM_API_concat_no_mortal`, spvm_api.c 3273-3295): the length is an `int32_t` sum.  A failed allocation gives `undef`
(`none`), not an exception. -/
def concat (limit : Nat) (a b : Bytes) : Out (Option Bytes) := do
  let n ← add32 a.length b.length
  .ok (if n.toNat ≤ limit then some (a ++ b) else none)

def msgStringUndef : String := "The string $string must be defined."
def msgOffsetNeg : String := "The offset $offset must be greater than or equal to 0."
def msgRange : String := "The offset $offset + the length $length must be less than or equal to the length of the string $string."
def msgConcatUndef : String := "A string concatenation failed. The operand must be defined."

/-- `Fn->substr` without replacement, Fn.spvm 801-831. -/
def substr (limit : Nat) (string : Option Bytes) (offset : Int) (length : Int := -1) : Out Bytes :=
  match string with
  | none => .die msgStringUndef
  | some s =>
    if ¬ offset ≥ 0 then .die msgOffsetNeg
    else do
      let length ← if length < 0 then sub32 s.length offset else .ok length
      let e ← add32 offset length
      if ¬ e ≤ s.length then .die msgRange
      else do
        let sub ← newStringLen limit length
        memcpy sub 0 s offset length

/-- `x . y` where `x` is the result of an earlier `.`, spvm_implement.h 423-431. -/
def concatOpt (limit : Nat) (a : Option Bytes) (b : Bytes) : Out (Option Bytes) :=
  match a with
  | none => .die msgConcatUndef
  | some a => concat limit a b

/-- `Fn->substr` with a replacement, Fn.spvm 801-831. The result is `undef` (`none`) if a concatenation runs out of
memory at the last step. -/
def substrReplace (limit : Nat) (string : Option Bytes) (offset length : Int) (replacement : Bytes) : Out (Option Bytes) :=
  match string with
  | none => .die msgStringUndef
  | some s =>
    if ¬ offset ≥ 0 then .die msgOffsetNeg
    else do
      let length ← if length < 0 then sub32 s.length offset else .ok length
      let e ← add32 offset length
      if ¬ e ≤ s.length then .die msgRange
      else do
        let left ← substr limit (some s) 0 offset
        let l1 ← concat limit left replacement
        let e' ← add32 offset length
        let right ← substr limit (some s) e'
        concatOpt limit l1 right

end Str
end SPVM
