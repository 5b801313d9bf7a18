import Verif.Model.Endian
import Verif.Model.Format
import Verif.Model.NumStr
import Verif.Spec.Packer
/-!
# `Packer` (lib/SPVM/Packer.spvm, lib/SPVM/Packer/Specifier.spvm)

`Fn->pack` and `Fn->unpack` are these methods (Fn.spvm 1754-1760).  The two `List` objects that collect specifiers and objects
are lists (`List->push`, `List->to_array` without their memory).
-/
namespace SPVM
namespace Packer
open VM (Bytes)
open Str
open Spec.Packer (Num Value)

/-- The `type` of a specifier, Packer/Specifier.spvm 7-18. -/
inductive Kind where
  | str | hexLow | hexHigh
  | num (t : Num)
deriving DecidableEq, Repr

/-- The `endian` of a specifier, Packer/Specifier.spvm 20-24. -/
inductive Endian where
  | none | little | big
deriving DecidableEq, Repr

/-- `Packer::Specifier`, Packer/Specifier.spvm 26-35. -/
structure Specifier where
  kind : Kind
  isNumericObject : Bool
  length : Int
  wildcard : Bool
  endian : Endian
deriving DecidableEq, Repr

/-! ## _parse_template, Packer.spvm 481-633 -/

/-- The type of a letter, Packer.spvm 497-556; `none` throws. -/
def kindOf (ch : UInt8) : Option Kind :=
  if ch = 97 then some .str
  else if ch = 104 then some .hexLow
  else if ch = 72 then some .hexHigh
  else if ch = 99 then some (.num .byte)
  else if ch = 67 then some (.num .byte)
  else if ch = 115 then some (.num .short)
  else if ch = 83 then some (.num .short)
  else if ch = 108 then some (.num .int)
  else if ch = 76 then some (.num .int)
  else if ch = 113 then some (.num .long)
  else if ch = 81 then some (.num .long)
  else if ch = 102 then some (.num .float)
  else if ch = 100 then some (.num .double)
  else none

/-- The byte order mark, Packer.spvm 560-573: the index and the order. -/
def readEndian (t : Bytes) (i : Int) : Out (Int × Endian) := do
  let big ← Format.looksAt t i 62
  if big then do let j ← add32 i 1; .ok (j, .big)
  else do
    let little ← Format.looksAt t i 60
    if little then do let j ← add32 i 1; .ok (j, .little)
    else .ok (i, .none)

/-- The digits of a length, Packer.spvm 584-598 (the loop 585-598), with fuel (`ub` when it runs out): `.=` of short strings is assumed to find
memory. -/
def digitLoop (t : Bytes) : Nat → Int → Bytes → Out (Int × Bytes)
  | 0, i, s => if i < t.length then .ub else .ok (i, s)
  | n + 1, i, s =>
    if i < t.length then do
      let c ← aGet t i
      if FnStr.isDigit (FnStr.sbyte c) then do
        let j ← add32 i 1
        digitLoop t n j (s ++ [c])
      else .ok (i, s)
    else .ok (i, s)

/-- The length of a specifier from its digits, Packer.spvm 600-611: the length and `is_numeric_object`. -/
def lengthOf (digits : Bytes) : Out (Int × Bool) :=
  if (digits.length : Int) ≠ 0 then do
    let n ← NumStr.toInt (some digits)
    if ¬ n > 0 then .die "The data length $length in the template must be a positive value."
    else .ok (n, false)
  else .ok (1, true)

/-- The length part, Packer.spvm 575-612: index, wildcard, length, `is_numeric_object`. -/
def readLength (t : Bytes) (i : Int) : Out (Int × Bool × Int × Bool) := do
  let star ← Format.looksAt t i 42
  if star then do
    let j ← add32 i 1
    .ok (j, true, 0, false)
  else do
    let r ← digitLoop t t.length i []
    let l ← lengthOf r.2
    .ok (r.1, false, l.1, l.2)

/-- One turn of the loop, Packer.spvm 495-627: the index behind the specifier and the specifier. -/
def readSpecifier (t : Bytes) (i : Int) : Out (Int × Specifier) := do
  let ch ← aGet t i
  match kindOf ch with
  | none => .die "Invalid specifier in the template."
  | some kind => do
    let i ← add32 i 1
    let e ← readEndian t i
    let l ← readLength t e.1
    if kind = .str ∧ l.2.2.2 = true then .die "The data length $length for \"a\" in the template must be specified."
    else .ok (l.1, { kind := kind, isNumericObject := l.2.2.2, length := l.2.2.1, wildcard := l.2.1, endian := e.2 })

/-- The loop, Packer.spvm 489-628, with fuel (`ub` when it runs out). -/
def parseLoop (t : Bytes) : Nat → Int → List Specifier → Out (List Specifier)
  | 0, i, acc => if i < t.length then .ub else .ok acc
  | n + 1, i, acc =>
    if i < t.length then do
      let r ← readSpecifier t i
      parseLoop t n r.1 (acc ++ [r.2])
    else .ok acc

/-- `_parse_template`, Packer.spvm 481-633. -/
def parseTemplate (t : Bytes) : Out (List Specifier) := parseLoop t t.length 0 []

/-! ## pack, Packer.spvm 18-273 -/

/-- The size of an element, Packer.spvm 62, 69, 127, 146, 165, 184, 203, 222 and 311-341. -/
def Kind.size : Kind → Nat
  | .num t => t.size
  | _ => 1

/-- What `memcpy` and `Fn->length` see of a numeric array. -/
def numericArray (t : Num) (es : List Bytes) : FnMem.MemObj :=
  { isMem := true, readOnly := false, elemSize := t.size, length := es.length, bytes := es.flatten }

/-- The cast `(string)$object`; `none` is `undef`. -/
def asStr : Value → Out (Option Bytes)
  | .text s => .ok (some s)
  | .undef => .ok none
  | _ => .die "The type of the element cannot be cast to string."

/-- The second digit of a pair, Packer.spvm 84-90; the check is of the first digit again. -/
def lowDigit (hex : Bytes) (i : Int) (high : UInt8) : Out UInt8 := do
  let j ← add32 i 1
  if j < hex.length then do
    let c ← aGet hex j
    if ¬ FnStr.isHexDigit (FnStr.sbyte high) then .die "Input contains non hex character."
    else .ok c
  else .ok 48

/-- `Fn->chr($a) . Fn->chr($b)`, Packer.spvm 94, 97. -/
def chrPair (a b : UInt8) : Out Bytes :=
  match Utf8.chr (FnStr.sbyte a), Utf8.chr (FnStr.sbyte b) with
  | some x, some y => .ok (x ++ y)
  | _, _ => .die msgConcatUndef

/-- One turn of the loop over a hexadecimal string, Packer.spvm 78-105. -/
def hexStep (limit : Nat) (low : Bool) (hex : Bytes) (k : Nat) : Prog StrBuf Unit := do
  let i : Int := 2 * k
  let high ← Prog.lift (aGet hex i)
  if ¬ FnStr.isHexDigit (FnStr.sbyte high) then Prog.die "Input contains non hex character."
  else do
    let lowc ← Prog.lift (lowDigit hex i high)
    let pair ← Prog.lift (if low then chrPair lowc high else chrPair high lowc)
    let n ← Prog.lift (FnStr.hex (some pair))
    StrBuf.pushChar limit n

/-- The loop `for (my $i = 0; $i < $hex_string_length; $i += 2)`, Packer.spvm 76-106: `n` turns are left. -/
def hexLoop (limit : Nat) (low : Bool) (hex : Bytes) : Nat → Nat → Prog StrBuf Unit
  | 0, _ => pure ()
  | n + 1, k => do
    hexStep limit low hex k
    let _ ← Prog.lift (add32 (2 * k) 2)
    hexLoop limit low hex n (k + 1)

/-- Packer.spvm 72-108: a hexadecimal string as bytes (`length undef` is 0). -/
def hexBytes (limit : Nat) (low : Bool) (o : Value) : Out Bytes := do
  let s ← asStr o
  let b ← StrBuf.new limit none
  let hex := s.getD []
  ((do
    hexLoop limit low hex ((hex.length + 1) / 2) 0
    StrBuf.toString limit : Prog StrBuf Bytes) b).1

/-- A numeric specifier: the single number or the array, Packer.spvm 112-126 and the like. -/
def numValues (t : Num) (single : Bool) (o : Value) : Out FnMem.MemObj :=
  match single, o with
  | true, .number t' b => if t' = t then .ok (numericArray t [b]) else .die "The type of the element in the objects must be the numeric class."
  | false, .array t' es => if t' = t then .ok (numericArray t es) else .die "The type of the element in the objects must be the array type."
  | true, _ => .die "The type of the element in the objects must be the numeric class."
  | false, _ => .die "The type of the element in the objects must be the array type."

/-- `$values`, Packer.spvm 57-227; `none` is `undef`. -/
def valuesOf (limit : Nat) (sp : Specifier) (o : Value) : Out (Option FnMem.MemObj) :=
  match sp.kind with
  | .str => do
    let s ← asStr o
    .ok (s.map fun b => .str b)
  | .hexLow => do
    let b ← hexBytes limit true o
    .ok (some (.str b))
  | .hexHigh => do
    let b ← hexBytes limit false o
    .ok (some (.str b))
  | .num t => do
    let m ← numValues t sp.isNumericObject o
    .ok (some m)

/-- `Fn->length($values)`, Fn.spvm 1493-1511. -/
def lengthOfValues (values : Option FnMem.MemObj) : Out Int :=
  match values with
  | none => .die "$array_or_string must be defined."
  | some m => .ok m.length

/-- `($process_length + 1) / 2` for hexadecimal strings, Packer.spvm 237-239, 349-351. -/
def halve (kind : Kind) (n : Int) : Out Int :=
  if kind = .hexLow ∨ kind = .hexHigh then do
    let m ← add32 n 1
    VM.divInt m 2
  else .ok n

/-- The loop that changes the byte order, Packer.spvm 255-265: it runs once for each element, each time at offset 0. -/
def toOrder (le : Bool) (limit : Nat) (e : Endian) (size : Int) (n : Nat) (part : Bytes) : Out (Option Bytes) :=
  match e with
  | .none => .ok (some part)
  | .big => forLoop 0 n (fun _ b => Endian.systemToBig le limit b size) (some part)
  | .little => forLoop 0 n (fun _ b => Endian.systemToLittle le limit b size) (some part)

/-- The length to process, Packer.spvm 229-235. -/
def packLength (sp : Specifier) (values : Option FnMem.MemObj) : Out Int :=
  if sp.wildcard then lengthOfValues values else .ok sp.length

/-- The number of bytes to copy, Packer.spvm 243-249. -/
def copySizeOf (size l n : Int) : Out Int := if l < n then mul32 size l else mul32 size n

/-- One turn of the loop of `pack`, Packer.spvm 40-265: the bytes of one object. -/
def packPart (le : Bool) (limit : Nat) (sp : Specifier) (o : Value) : Out (Option Bytes) := do
  let values ← valuesOf limit sp o
  let n ← packLength sp values
  let n ← halve sp.kind n
  let partSize ← mul32 sp.kind.size n
  let l ← lengthOfValues values
  let copySize ← copySizeOf sp.kind.size l n
  let part ← newStringLen limit partSize
  let part ← FnMem.memcpy false (some (.str part)) 0 values 0 copySize
  toOrder le limit sp.endian sp.kind.size n.toNat part

/-- The loop of `pack`, Packer.spvm 38-268. -/
def packLoop (le : Bool) (limit : Nat) : List Specifier → List Value → Prog StrBuf Unit
  | [], _ => pure ()
  | _ :: _, [] => Prog.die "The index is out of range."
  | sp :: sps, o :: os => do
    let part ← Prog.lift (packPart le limit sp o)
    StrBuf.push limit part
    packLoop le limit sps os

/-- `pack`, Packer.spvm 18-273; `none` is `undef`. -/
def pack (le : Bool) (limit : Nat) (template : Option Bytes) (objects : Option (List Value)) : Out Bytes :=
  match template, objects with
  | none, _ => .die "The template $template must be defined."
  | some _, none => .die "The objects $objects must be defined."
  | some t, some os => do
    let sps ← parseTemplate t
    if ¬ sps.length ≤ os.length then .die "The length of the specifiers in the template must be less than or equal to the length of the objects."
    else do
      let b ← StrBuf.new limit none
      ((do
        packLoop le limit sps os
        StrBuf.toString limit : Prog StrBuf Bytes) b).1

/-! ## unpack, Packer.spvm 275-479 -/

/-- The byte order loop of `unpack`, Packer.spvm 363-373. -/
def fromOrder (le : Bool) (limit : Nat) (e : Endian) (size : Int) (n : Nat) (part : Bytes) : Out (Option Bytes) :=
  match e with
  | .none => .ok (some part)
  | .big => forLoop 0 n (fun _ b => Endian.bigToSystem le limit b size) (some part)
  | .little => forLoop 0 n (fun _ b => Endian.littleToSystem le limit b size) (some part)

/-- The data of an array as elements of `size` bytes. -/
def chunks (size : Nat) : Nat → Bytes → List Bytes
  | 0, _ => []
  | n + 1, b => b.take size :: chunks size n (b.drop size)

/-- `Fn->repeat`, Fn.spvm 620-637: the loop. -/
def repeatLoop (limit : Nat) (s : Bytes) : Nat → Prog StrBuf Unit
  | 0 => pure ()
  | n + 1 => do
    StrBuf.push limit (some s)
    repeatLoop limit s n

/-- `Fn->repeat`, Fn.spvm 620-637. -/
def repeatString (limit : Nat) (s : Bytes) (count : Int) : Out Bytes :=
  if ¬ count ≥ 0 then .die "The repeat count $count must be a non-negative integer."
  else do
    let b ← StrBuf.new limit none
    ((do
      repeatLoop limit s count.toNat
      StrBuf.toString limit : Prog StrBuf Bytes) b).1

/-- Packer.spvm 398-404: the digits of each byte swapped. -/
def swapDigits (n : Nat) (s : Bytes) : Out Bytes :=
  forLoop 0 n (fun i s => do
    let x ← aGet s (2 * i : Nat)
    let y ← aGet s (2 * i + 1 : Nat)
    let s ← aSet s (2 * i : Nat) y
    aSet s (2 * i + 1 : Nat) x) s

/-- Packer.spvm 383-410: the hexadecimal string of the bytes.  `Fn->shorten` (Fn.c 480-496, spvm_api.c 4477-4508) cuts a string
that is longer. -/
def unpackHex (limit : Nat) (low : Bool) (sp : Specifier) (n : Int) (part : Bytes) : Out Value := do
  let _ ← newArray limit () n
  let format ← repeatString limit [37, 120] n
  let env : Format.Env Unit := { textF := fun _ _ => [], textG := fun _ _ => [], addr := fun _ => 0 }
  let s ← Format.sprintf env limit (some format) (some (part.map fun b => .int b.toNat))
  let s ← if low then swapDigits n.toNat s else .ok s
  .ok (.text (if sp.wildcard then s else s.take sp.length.toNat))

/-- A numeric object from the bytes, Packer.spvm 412-465. -/
def unpackNum (limit : Nat) (t : Num) (single : Bool) (n partSize : Int) (part : Bytes) : Out Value := do
  let es ← newArray limit (List.replicate t.size 0) n
  let data ← FnMem.memcpy false (some (numericArray t es)) 0 (some (.str part)) 0 partSize
  if single then do
    let e ← aGet (chunks t.size n.toNat data) 0
    .ok (.number t e)
  else .ok (.array t (chunks t.size n.toNat data))

/-- The object of a specifier, Packer.spvm 375-470. -/
def objectOf (limit : Nat) (sp : Specifier) (n partSize : Int) (part : Bytes) : Out Value :=
  match sp.kind with
  | .str => .ok (.text part)
  | .hexLow => unpackHex limit true sp n part
  | .hexHigh => unpackHex limit false sp n part
  | .num t => unpackNum limit t sp.isNumericObject n partSize part

/-- `$binary_part`; the byte order loop always leaves it defined. -/
def defined (o : Option Bytes) : Out Bytes :=
  match o with
  | some b => .ok b
  | none => .die "The binary data $binary must be defined."

/-- The length to process, Packer.spvm 343-347. -/
def unpackLength (sp : Specifier) (binaryLength offset : Int) : Out Int :=
  if sp.wildcard then do
    let d ← sub32 binaryLength offset
    VM.divInt d sp.kind.size
  else .ok sp.length

/-- One turn of the loop of `unpack`, Packer.spvm 295-474: the object and the new offset. -/
def unpackPart (le : Bool) (limit : Nat) (sp : Specifier) (binary : Bytes) (offset : Int) : Out (Value × Int) := do
  let n ← unpackLength sp binary.length offset
  let n ← halve sp.kind n
  let partSize ← mul32 sp.kind.size n
  let e ← add32 offset partSize
  if ¬ e ≤ binary.length then .die "The current offset plus the size must be less than the length of the binary data."
  else do
    let part ← newStringLen limit partSize
    let part ← memcpy part 0 binary offset partSize
    let part ← fromOrder le limit sp.endian sp.kind.size n.toNat part
    let part ← defined part
    let o ← objectOf limit sp n partSize part
    let offset ← add32 offset partSize
    .ok (o, offset)

/-- The loop of `unpack`, Packer.spvm 295-474. -/
def unpackLoop (le : Bool) (limit : Nat) (binary : Bytes) : List Specifier → Int → Out (List Value)
  | [], _ => .ok []
  | sp :: sps, offset => do
    let r ← unpackPart le limit sp binary offset
    let os ← unpackLoop le limit binary sps r.2
    .ok (r.1 :: os)

/-- `unpack`, Packer.spvm 275-479; `none` is `undef`. -/
def unpack (le : Bool) (limit : Nat) (template binary : Option Bytes) : Out (List Value) :=
  match template, binary with
  | none, _ => .die "The template $template must be defined."
  | some _, none => .die "The binary data $binary must be defined."
  | some t, some b => do
    let sps ← parseTemplate t
    unpackLoop le limit b sps 0

end Packer
end SPVM
