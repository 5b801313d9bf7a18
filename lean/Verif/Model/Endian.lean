import Verif.Model.Str
import Verif.Model.ArrayOps
/-!
# Byte order (lib/SPVM/Fn.spvm 1689-1752)

The string is passed mutable; the result is its new content.
-/
namespace SPVM
namespace Endian
open VM (Bytes)
open Str

/-- `Fn->change_endian`, Fn.spvm 1689-1720.  `none` is `undef`; the buffer is a new string, so `memcpy` sees two objects. -/
def changeEndian (limit : Nat) (binary : Option Bytes) (size : Int) (offset : Int := 0) : Out Bytes :=
  match binary with
  | none => .die "The binary data $binary must be defined."
  | some b =>
    if ¬ size > 0 then .die "The byte size $size must be greater than 0."
    else if ¬ offset ≥ 0 then .die "The offset $offset must be greater than or equal to 0."
    else do
      let e ← add32 offset size
      if ¬ e ≤ b.length then .die "The byte size $size must be less than or equal to the offset $offset plus the length of the binary data $binary."
      else if size = 1 then .ok b
      else do
        let buf ← newStringLen limit size
        let buf ← memcpy buf 0 b offset size
        let buf ← ArrayOps.reverseInplace buf
        memcpy b offset buf 0 size

/-- A method that changes the byte order under a condition; a string that is left alone is not examined. -/
def whenSwap (c : Bool) (limit : Nat) (binary : Option Bytes) (size offset : Int) : Out (Option Bytes) :=
  if c then do
    let b ← changeEndian limit binary size offset
    .ok (some b)
  else .ok binary

/-- `Fn->big_endian_to_system_endian`, Fn.spvm 1722-1728.  `le` is the result of `Fn->system_is_little_endian` (Fn.c 864-883). -/
def bigToSystem (le : Bool) (limit : Nat) (binary : Option Bytes) (size : Int) (offset : Int := 0) : Out (Option Bytes) :=
  whenSwap le limit binary size offset
/-- `Fn->system_endian_to_big_endian`, Fn.spvm 1730-1736. -/
def systemToBig (le : Bool) (limit : Nat) (binary : Option Bytes) (size : Int) (offset : Int := 0) : Out (Option Bytes) :=
  whenSwap le limit binary size offset
/-- `Fn->little_endian_to_system_endian`, Fn.spvm 1738-1744. -/
def littleToSystem (le : Bool) (limit : Nat) (binary : Option Bytes) (size : Int) (offset : Int := 0) : Out (Option Bytes) :=
  whenSwap (!le) limit binary size offset
/-- `Fn->system_endian_to_little_endian`, Fn.spvm 1746-1752. -/
def systemToLittle (le : Bool) (limit : Nat) (binary : Option Bytes) (size : Int) (offset : Int := 0) : Out (Option Bytes) :=
  whenSwap (!le) limit binary size offset

end Endian
end SPVM
