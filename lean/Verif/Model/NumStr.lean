import Verif.Model.VM
import Verif.Spec.Decimal
/-!
# Numbers and strings

The conversions between integer types and `string`, lib/SPVM/Builder/include/spvm_implement.h 2053-2181, and
`Fn->to_int_with_base`, `Fn->to_long_with_base`, lib/SPVM/Fn.c 548-606.

`strtoll` is a function of the C library: it is modelled here after its text in the C standard (C11 7.22.1.4) and the loop of
the GNU C library, for the C locale and the bases 2, 8, 10 and 16 (without the `0b` prefix C23 allows).  `long` has 64 bits, so
`strtol` is the same function.  `snprintf` of an integer is `Spec.decimal`, cut to the size of the buffer.
-/
namespace SPVM
namespace NumStr
open VM (Bytes)

/-- What C functions see of an SPVM string: the bytes before the first NUL (a string is followed by a NUL). -/
def cstr (s : Bytes) : Bytes := s.takeWhile (fun b => b ≠ 0)

/-- `isspace` in the C locale. -/
def isSpace (b : UInt8) : Bool := (9 ≤ b.toNat && b.toNat ≤ 13) || b.toNat == 32

/-- The value of a digit or letter in `strtoll`; 99 for every other byte. -/
def dv (b : UInt8) : Nat :=
  if 48 ≤ b.toNat ∧ b.toNat ≤ 57 then b.toNat - 48
  else if 65 ≤ b.toNat ∧ b.toNat ≤ 90 then b.toNat - 55
  else if 97 ≤ b.toNat ∧ b.toNat ≤ 122 then b.toNat - 87
  else 99

/-- The digit loop: an unsigned 64-bit accumulator and an overflow flag.  The result is the accumulator, the flag, whether a
digit was read, and the rest of the string. -/
def digitLoop (base : Nat) (acc : Nat) (ovf any : Bool) : Bytes → Nat × Bool × Bool × Bytes
  | [] => (acc, ovf, any, [])
  | b :: bs =>
    if dv b < base then
      if acc > 18446744073709551615 / base ∨
          (acc = 18446744073709551615 / base ∧ dv b > 18446744073709551615 % base) then
        digitLoop base acc true true bs
      else digitLoop base (acc * base + dv b) ovf true bs
    else (acc, ovf, any, b :: bs)

/-- The result of `strtoll`: the value, whether `errno` is `ERANGE`, and the text from `end` on. -/
structure Parsed where
  num : Int
  erange : Bool
  rest : Bytes
deriving DecidableEq, Repr

/-- The sign of the number and the text after it. -/
def sign : Bytes → Bool × Bytes
  | [] => (false, [])
  | b :: bs => if b = 45 then (true, bs) else if b = 43 then (false, bs) else (false, b :: bs)

/-- Whether the text starts with `0x` or `0X`. -/
def hasPrefix : Bytes → Bool
  | a :: b :: _ => a == 48 && (b == 120 || b == 88)
  | _ => false

/-- After the digits. -/
def convert (neg : Bool) (acc : Nat) (ovf : Bool) (rest : Bytes) : Parsed :=
  if ovf || (acc > if neg then 9223372036854775808 else 9223372036854775807) then
    ⟨if neg then -9223372036854775808 else 9223372036854775807, true, rest⟩
  else ⟨if neg then -(acc : Int) else acc, false, rest⟩

/-- `strtoll(s, &end, base)`. -/
def strtoll (s : Bytes) (base : Nat) : Parsed :=
  let t := (cstr s).dropWhile isSpace
  let u := (sign t).2
  if base = 16 ∧ hasPrefix u then
    let r := digitLoop base 0 false false (u.drop 2)
    if r.2.2.1 then convert (sign t).1 r.1 r.2.1 r.2.2.2 else ⟨0, false, u.drop 1⟩
  else
    let r := digitLoop base 0 false false u
    if r.2.2.1 then convert (sign t).1 r.1 r.2.1 r.2.2.2 else ⟨0, false, cstr s⟩

/-- `SPVM_NATIVE_C_STACK_TMP_BUFFER_SIZE`, lib/SPVM/Builder/include/spvm_native.h. -/
def tmpBufferSize : Nat := 512

/-- `SPVM_IMPLEMENT_TYPE_CONVERSION_{BYTE,SHORT,INT,LONG}_TO_STRING`, spvm_implement.h 2053-2091: `snprintf` to the buffer of
512 bytes (it writes at most 511 and a NUL) and a new string of the length `strlen` finds. -/
def toStr (x : Int) : Bytes := cstr ((Spec.decimal x).take (tmpBufferSize - 1))

/-- `SPVM_IMPLEMENT_TYPE_CONVERSION_STRING_TO_{BYTE,SHORT,INT}`, spvm_implement.h 2113-2168, for the type with the bounds `lo`
and `hi`. -/
def clampTo (lo hi num : Int) : Int := if num > hi then hi else if num < lo then lo else num

/-- `SPVM_IMPLEMENT_TYPE_CONVERSION_STRING_TO_BYTE`, spvm_implement.h 2113-2130; `none` is `undef`. -/
def strToByte : Option Bytes → Int
  | none => 0
  | some s => clampTo (-128) 127 (strtoll s 10).num

/-- `SPVM_IMPLEMENT_TYPE_CONVERSION_STRING_TO_SHORT`, spvm_implement.h 2132-2149. -/
def strToShort : Option Bytes → Int
  | none => 0
  | some s => clampTo (-32768) 32767 (strtoll s 10).num

/-- `SPVM_IMPLEMENT_TYPE_CONVERSION_STRING_TO_INT`, spvm_implement.h 2151-2168. -/
def strToInt : Option Bytes → Int
  | none => 0
  | some s => clampTo (-2147483648) 2147483647 (strtoll s 10).num

/-- `SPVM_IMPLEMENT_TYPE_CONVERSION_STRING_TO_LONG`, spvm_implement.h 2170-2181. -/
def strToLong : Option Bytes → Int
  | none => 0
  | some s => (strtoll s 10).num

def msgUndef : String := "The string $string must be defined."
def msgBase : String := "The digit $digit must be one of 2, 8, 10, or 16."
def msgParse32 : String := "The string $string must be the string that can be parsed as a %d-digit 32-bit integer"
def msgRange32 : String := "The string $string must be a 32-bit integer in correct range."
def msgParse64 : String := "The string $string must be the string that can be parsed as a %d-digit 64-bit integer"
def msgRange64 : String := "The string $string must be a 64-bit integer in correct range."

/-- `SPVM__Fn__to_int_with_base`, Fn.c 548-576. -/
def toIntWithBase (string : Option Bytes) (digit : Int) : Out Int :=
  match string with
  | none => .die msgUndef
  | some s =>
    if ¬ (digit = 2 ∨ digit = 8 ∨ digit = 10 ∨ digit = 16) then .die msgBase
    else
      let p := strtoll s digit.toNat
      if p.rest ≠ [] then .die msgParse32
      else if p.erange ∨ p.num < -2147483648 ∨ p.num > 2147483647 then .die msgRange32
      else .ok p.num

/-- `SPVM__Fn__to_long_with_base`, Fn.c 578-606. -/
def toLongWithBase (string : Option Bytes) (digit : Int) : Out Int :=
  match string with
  | none => .die msgUndef
  | some s =>
    if ¬ (digit = 2 ∨ digit = 8 ∨ digit = 10 ∨ digit = 16) then .die msgBase
    else
      let p := strtoll s digit.toNat
      if p.rest ≠ [] then .die msgParse64
      else if p.erange then .die msgRange64
      else .ok p.num

/-- `Fn->to_int`, Fn.spvm 857-859. -/
def toInt (string : Option Bytes) : Out Int := toIntWithBase string 10
/-- `Fn->to_long`, Fn.spvm 863-865. -/
def toLong (string : Option Bytes) : Out Int := toLongWithBase string 10

end NumStr
end SPVM
