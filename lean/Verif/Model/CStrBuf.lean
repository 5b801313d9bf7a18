import Verif.Model.ArrayC
import Verif.Model.VM
import Verif.Spec.Decimal
/-!
# `SPVM_STRING_BUFFER` (lib/SPVM/Builder/src/spvm_string_buffer.c)

Allocation is assumed to succeed.  `sprintf` is modelled by the text the C standard prescribes, followed by the terminating
`NUL`, written at the given place (`ub` if it does not fit into the block).
-/
namespace SPVM
namespace CStrBuf
open VM (Bytes)

/-- `SPVM_STRING_BUFFER` (spvm_string_buffer.h); `buf` is the whole block, its length is `capacity`. -/
structure Buf where
  buf : Bytes
  length : Nat
deriving DecidableEq, Repr

/-- `SPVM_STRING_BUFFER_new`, spvm_string_buffer.c 15-48 (for a non-negative capacity). -/
def new (capacity : Nat) : Buf := { buf := List.replicate (if capacity = 0 then 16 else capacity) 0, length := 0 }

/-- Bytes written at a place in the block. -/
def write (buf : Bytes) (pos : Nat) (bs : Bytes) : Out Bytes :=
  if pos + bs.length ≤ buf.length then .ok (blit buf pos bs 0 bs.length) else .ub

/-- `SPVM_STRING_BUFFER_maybe_extend`, spvm_string_buffer.c 60-93.  A block of size 0, for which the loop would not end, is `ub`. -/
def extend (newLength : Nat) (b : Buf) : Out Buf :=
  if newLength + 1 > b.buf.length then
    if b.buf.length = 0 then .ub
    else if h : 2 * b.buf.length ≤ 2147483647 then
      if hl : b.length ≤ b.buf.length then
        extend newLength { b with buf := b.buf.take b.length ++ List.replicate (2 * b.buf.length - b.length) 0 }
      else .ub
    else .ub
  else .ok b
termination_by newLength + 1 - b.buf.length
decreasing_by simp; omega

/-- `SPVM_STRING_BUFFER_maybe_extend` with the `int32_t` check of `new_length + 1`. -/
def maybeExtend (newLength : Nat) (b : Buf) : Out Buf := do
  let _ ← add32 newLength 1
  extend newLength b

/-- The common shape of the adding functions: make room for `room` bytes, write `bs`, add `len` to the length; the result is
the old length. -/
def addCommon (room : Nat) (bs : Bytes) (len : Nat) (b : Buf) : Out (Nat × Buf) := do
  let id := b.length
  let _ ← add32 b.length room
  let b ← maybeExtend (b.length + room) b
  let buf ← write b.buf b.length bs
  .ok (id, { buf := buf, length := b.length + len })

/-- The bytes of a C string: those before the first `NUL`. -/
def cstr (mem : Bytes) : Option Bytes := if 0 ∈ mem then some (mem.takeWhile (· ≠ 0)) else none

/-- `SPVM_STRING_BUFFER_add`, spvm_string_buffer.c 95-111; `mem` is the memory the argument points to. -/
def add (mem : Bytes) (b : Buf) : Out (Nat × Buf) :=
  match cstr mem with
  | some s => addCommon s.length s s.length b
  | none => .ub

/-- `SPVM_STRING_BUFFER_add_len`, spvm_string_buffer.c 113-127. -/
def addLen (mem : Bytes) (n : Nat) (b : Buf) : Out (Nat × Buf) :=
  if n ≤ mem.length then addCommon n (mem.take n) n b else .ub

/-- `SPVM_STRING_BUFFER_add_len_nullstr`, spvm_string_buffer.c 129-144. -/
def addLenNullstr (mem : Bytes) (n : Nat) (b : Buf) : Out (Nat × Buf) :=
  if n ≤ mem.length then addCommon (n + 1) (mem.take n ++ [0]) (n + 1) b else .ub

/-- `SPVM_STRING_BUFFER_add_hex_char`, spvm_string_buffer.c 146-160: `sprintf(..., "\\x%02X", ch & 0xFF)`. -/
def addHexChar (ch : UInt8) (b : Buf) : Out (Nat × Buf) :=
  addCommon 4 ([92, 120] ++ Spec.hex2 ch ++ [0]) 4 b

/-- `SPVM_STRING_BUFFER_add_byte` and `_add_short`, spvm_string_buffer.c 162-196. -/
def addSmall (value : Int) (b : Buf) : Out (Nat × Buf) :=
  let text := Spec.decimal value
  addCommon 20 (text ++ [0]) text.length b

/-- `SPVM_STRING_BUFFER_add_int`, spvm_string_buffer.c 198-220. -/
def addInt (value : Int) (b : Buf) : Out (Nat × Buf) :=
  let text := if value = -2147483648 then Spec.ascii "INT32_MIN" else Spec.decimal value
  addCommon 20 (text ++ [0]) text.length b

/-- `SPVM_STRING_BUFFER_add_long`, spvm_string_buffer.c 222-244. -/
def addLong (value : Int) (b : Buf) : Out (Nat × Buf) :=
  let text := if value = -9223372036854775808 then Spec.ascii "INT64_MIN" else Spec.decimal value ++ Spec.ascii "LL"
  addCommon (20 + 2) (text ++ [0]) text.length b

/-- C `strstr` (does `needle` occur in `hay`?). -/
def strstr (hay needle : Bytes) : Bool :=
  needle.isPrefixOf hay || match hay with
    | [] => false
    | _ :: hay => strstr hay needle

/-- `SPVM_STRING_BUFFER_contains`, spvm_string_buffer.c 262-271. -/
def contains (offset : Nat) (mem : Bytes) (b : Buf) : Out Int :=
  if offset ≤ b.buf.length then
    match cstr (b.buf.drop offset), cstr mem with
    | some hay, some needle => .ok (if strstr hay needle then 1 else 0)
    | _, _ => .ub
  else .ub

/-- The adding calls. -/
inductive Op where
  | add (mem : Bytes)
  | addLen (mem : Bytes) (n : Nat)
  | addLenNullstr (mem : Bytes) (n : Nat)
  | addHexChar (ch : UInt8)
  | addByte (value : Int)
  | addShort (value : Int)
  | addInt (value : Int)
  | addLong (value : Int)
deriving DecidableEq, Repr

/-- One call. -/
def step (b : Buf) : Op → Out (Nat × Buf)
  | .add mem => add mem b
  | .addLen mem n => addLen mem n b
  | .addLenNullstr mem n => addLenNullstr mem n b
  | .addHexChar ch => addHexChar ch b
  | .addByte v => addSmall v b
  | .addShort v => addSmall v b
  | .addInt v => addInt v b
  | .addLong v => addLong v b

/-- A history of calls and the values they return. -/
def run (b : Buf) : List Op → Out (List Nat × Buf)
  | [] => .ok ([], b)
  | op :: ops => do
    let (id, b) ← step b op
    let (ids, b) ← run b ops
    .ok (id :: ids, b)

end CStrBuf
end SPVM
