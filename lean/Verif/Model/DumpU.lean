import Verif.Model.Format
import Verif.Model.Str
import Verif.Spec.DumpU

/-!
# `Array->dump_unsigned_byte`, `_int`, `_long`, `_short` (lib/SPVM/Array.spvm 236-333)

The four methods differ in the argument and the format of the call of `Format->sprintf` only.  The number `sprintf` prints for `%p` of the
array is the parameter `addr` of `Format.Env`; the array is there an object of another class than those `sprintf` knows.  The name of the
type (operator `type_name`) is that of the element type with `[]`.
-/

namespace SPVM.DumpU
open VM (Bytes)
open Spec.DumpU (Ty)
open Spec.Format (Arg)

/-- The operator `.` when both operands may be `undef`, spvm_implement.h 419-436. -/
def cat (limit : Nat) (a b : Option Bytes) : Out (Option Bytes) :=
  match a, b with
  | some a, some b => Str.concat limit a b
  | _, _ => .die Str.msgConcatUndef

/-- The operator `&` on `int` (32 bits, two's complement). -/
def and32 (a b : Int) : Int := (BitVec.ofInt 32 a &&& BitVec.ofInt 32 b).toInt

/-- The format of an element, Array.spvm 245, 269, 293, 316. -/
def format : Ty → Bytes
  | .byte | .short | .int => [37, 117]
  | .long => [37, 108, 117]

/-- The argument made of an element, Array.spvm 245, 269, 293, 316. -/
def argument {D : Type} (t : Ty) (v : Int) : Arg D :=
  match t with
  | .byte => .int (and32 v 255)
  | .short => .int (and32 v 65535)
  | .int => .int v
  | .long => .long v

/-- The loop, Array.spvm 244-253: `n` turns are left, `i` is the index. -/
def loop {D : Type} (E : Format.Env D) (limit : Nat) (t : Ty) (array : List Int) : Nat → Nat → Option Bytes → Out (Option Bytes)
  | 0, _, dump => .ok dump
  | n + 1, i, dump => do
    let v ← aGet array i
    let string ← Format.sprintf E limit (some (format t)) (some [argument t v])
    let line ← cat limit (some [32, 32]) (some string)
    let dump ← cat limit dump line
    let last ← sub32 array.length 1
    let dump ← if (i : Int) ≠ last then cat limit dump (some [44, 10]) else cat limit dump (some [10])
    loop E limit t array n (i + 1) dump

/-- `Array->dump_unsigned_*`, Array.spvm 236-333; `none` is `undef`. -/
def dumpUnsigned {D : Type} (E : Format.Env D) (limit : Nat) (t : Ty) (array : Option (List Int)) : Out (Option Bytes) :=
  match array with
  | none => .ok (some "undef".toUTF8.toList)
  | some array => do
    let dump ← loop E limit t array array.length 0 (some [91, 10])
    let e ← cat limit (some [93, 32, 58, 32]) (some t.arrayName.toUTF8.toList)
    let e ← cat limit e (some [40])
    let p ← Format.sprintf E limit (some [37, 112]) (some [.other])
    let e ← cat limit e (some p)
    let e ← cat limit e (some [41])
    cat limit dump e

end SPVM.DumpU
