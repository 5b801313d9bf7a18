import Verif.Model.Utf8
/-!
# The `dump` operator

Models `SPVM_API_dump_recursive` (lib/SPVM/Builder/src/spvm_api.c 3350-3665) and `SPVM_API_dump_no_mortal` (3316-3337), which the operator
`dump` calls.

Simplifications.  The heap is a map from addresses to objects; memory layout and field offsets are C53 and C48.  The types of the
object decide what is stored: an element or field that is a reference is the stored word, which has its lowest bit set if it is
weakened (C33).  `address_symtable` is the map of C38, the string buffer the one of C40.  `%g` of a floating point number is given with
the number.  `%p` is a parameter `p`: C leaves it to the implementation.  The recursion takes fuel, running out of it is `ub`; the
size of the C stack and allocation failures are left out.
-/
namespace SPVM
namespace Dump
open VM (Bytes)

/-- The characters of a string literal of the code. -/
def lit (s : String) : Bytes := s.toUTF8.toList

/-- A number in a field or an array: `byte`, `short`, `int`, `long`, or `float`, `double` with what `%g` prints. -/
inductive Num where
  | int (i : Int)
  | flo (text : Bytes)
deriving DecidableEq, Repr

/-- The value of a field. -/
inductive FVal where
  | num (n : Num)
  | ref (word : Nat)
deriving DecidableEq, Repr

/-- An object (`SPVM_OBJECT`): a string, a numeric array, a multi-numeric array with the fields of each element, an object array with its
dimension, an object of a class. -/
inductive Obj where
  | str (s : Bytes)
  | nums (elem : Bytes) (els : List Num)
  | muls (elem : Bytes) (els : List (List (Bytes × Num)))
  | objs (elem : Bytes) (dim : Nat) (els : List Nat)
  | inst (cls : Bytes) (fields : List (Bytes × FVal))
deriving DecidableEq, Repr

abbrev Heap := Nat → Option Obj

/-- `SPVM_API_get_object_no_weaken_address`, spvm_api.c 4959-4964. -/
def noWeaken (w : Nat) : Nat := w / 2 * 2

/-- `snprintf("%d")`, `snprintf("%lld")`. -/
def showInt (i : Int) : Bytes :=
  if i < 0 then 45 :: lit (String.ofList (Nat.toDigits 10 i.natAbs)) else lit (String.ofList (Nat.toDigits 10 i.natAbs))

def showNum : Num → Bytes
  | .int i => showInt i
  | .flo t => t

/-- `SPVM_STRING_BUFFER_add(string_buffer, "  ")` as often as the depth says. -/
def pad : Nat → Bytes
  | 0 => []
  | d + 1 => 32 :: 32 :: pad d

/-- One digit of `%X`. -/
def hexDigit (n : Nat) : UInt8 := if n < 10 then UInt8.ofNat (48 + n) else UInt8.ofNat (55 + n)

/-- `snprintf("\\x{%02X}", c & 0xFF)`. -/
def escByte (c : UInt8) : Bytes := [92, 120, 123, hexDigit (c.toNat / 16), hexDigit (c.toNat % 16), 125]

/-- `isprint` for ASCII. -/
def isprint (c : Nat) : Bool := 0x20 ≤ c && c ≤ 0x7e

/-- The loop over the characters of a string, spvm_api.c 3370-3400.  The decoder is given the length of the whole string at every
offset. -/
def strLoop (s : Bytes) : Nat → Nat → Bytes → Out Bytes
  | 0, _, _ => .ub
  | k + 1, offset, buf =>
    if offset ≥ s.length then .ok buf
    else
      match Utf8.iterate (s ++ [0]) offset s.length with
      | .ok (n, _) =>
        if n > 0 then
          if n = 1 ∧ ¬ isprint ((s ++ [0]).getD offset 0).toNat then
            strLoop s k (offset + n.toNat) (buf ++ escByte ((s ++ [0]).getD offset 0))
          else strLoop s k (offset + n.toNat) (buf ++ ((s ++ [0]).drop offset).take n.toNat)
        else strLoop s k (offset + 1) (buf ++ escByte ((s ++ [0]).getD offset 0))
      | .die m => .die m
      | .ub => .ub

/-- The string buffer and the keys of `address_symtable`. -/
structure St where
  buf : Bytes
  seen : List Bytes

def St.add (st : St) (b : Bytes) : St := { st with buf := st.buf ++ b }

/-- The loops over the elements of an array and the fields of an object, spvm_api.c 3412-3541 and 3573-3655: indent, show, and a comma
unless it is the last one. -/
def loop (show_ : α → St → Out St) (d : Nat) : List α → St → Out St
  | [], st => .ok st
  | x :: xs, st => do
    let st ← show_ x (st.add (pad d))
    loop show_ d xs (st.add (if xs.isEmpty then lit "\n" else lit ",\n"))

/-- A multi-numeric element, spvm_api.c 3418-3482. -/
def showMul (d : Nat) (fs : List (Bytes × Num)) (st : St) : Out St := do
  let st ← loop (fun (f : Bytes × Num) st => .ok ((st.add (f.1 ++ lit " => ")).add (showNum f.2))) (d + 2) fs (st.add (lit "{\n"))
  return st.add (lit "  }")

/-- The end of an array, spvm_api.c 3543-3557. -/
def arrEnd (p : Nat → Bytes) (d : Nat) (elem : Bytes) (dim a : Nat) (st : St) : St :=
  (((st.add (pad d)).add (lit "]" ++ lit " : ")).add (elem ++ (List.replicate dim (lit "[]")).flatten)).add (lit "(" ++ p a ++ lit ")")

/-- A field of an object, spvm_api.c 3585-3647; `rec` is the recursive call. -/
def showField (rec : Nat → St → Out St) (f : Bytes × FVal) (st : St) : Out St :=
  match f.2 with
  | .num n => .ok (((st.add f.1).add (lit " => ")).add (showNum n))
  | .ref w => rec (noWeaken w) ((st.add f.1).add (lit " => "))

/-- `SPVM_API_dump_recursive`, spvm_api.c 3350-3665, of the object at an address, NULL is 0. -/
def dumpRec (p : Nat → Bytes) (H : Heap) : Nat → Nat → Nat → St → Out St
  | 0, _, _, _ => .ub
  | k + 1, a, d, st =>
    if a = 0 then .ok (st.add (lit "undef"))
    else
      match H a with
      | none => .ub
      | some (.str s) => do
        let buf ← strLoop s (s.length + 1) 0 (st.buf ++ [34])
        return { st with buf := buf ++ [34] }
      | some (.nums elem els) => do
        let st ← loop (fun n st => .ok (st.add (showNum n))) (d + 1) els (st.add (lit "[\n"))
        return arrEnd p d elem 1 a st
      | some (.muls elem els) => do
        let st ← loop (showMul d) (d + 1) els (st.add (lit "[\n"))
        return arrEnd p d elem 1 a st
      | some (.objs elem dim els) => do
        let st ← loop (fun w st => dumpRec p H k (noWeaken w) (d + 1) st) (d + 1) els (st.add (lit "[\n"))
        return arrEnd p d elem dim a st
      | some (.inst cls fields) =>
        if st.seen.contains (p (noWeaken a)) then .ok (st.add (lit "REUSE_OBJECT(" ++ p (noWeaken a) ++ lit ")"))
        else do
          let st : St := { st with seen := p (noWeaken a) :: st.seen }
          let st := ((st.add cls).add (lit " (" ++ p a ++ lit ") ")).add (lit "{\n")
          let st ← loop (showField (fun a st => dumpRec p H k a (d + 1) st)) (d + 1) fields st
          return (st.add (pad d)).add (lit "}")

/-- `SPVM_API_dump_no_mortal`, spvm_api.c 3316-3337. -/
def dump (p : Nat → Bytes) (H : Heap) (k : Nat) (a : Nat) : Out Bytes := do
  let st ← dumpRec p H k a 0 { buf := [], seen := [] }
  return st.buf

end Dump
end SPVM
