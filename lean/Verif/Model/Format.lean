import Verif.Model.StrBuf
import Verif.Model.FnStr
import Verif.Model.Utf8
import Verif.Spec.Format
/-!
# `Format->sprintf` (lib/SPVM/Format.spvm, lib/SPVM/Format.c)

`Fn->sprintf` is the same method (Fn.spvm 1608-1610).  The texts C's `snprintf` makes of a `double` are a parameter of the
model (`Env`); those of integers are `Spec.decimal`, `Spec.digits` and `hexDigits`.
-/
namespace SPVM
namespace Format
open VM (Bytes)
open Str (substr)

open Spec.Format (Arg)

/-- What the model does not compute: the text of `snprintf("%f")`, `snprintf("%.<precision>f")` (precision -1: none), the same
for `%g`, and the address of an object. -/
structure Env (D : Type) where
  textF : D → Int → Bytes
  textG : D → Int → Bytes
  addr : Arg D → Nat

/-- A hexadecimal digit in lower case. -/
def hexDigit (d : Nat) : UInt8 := UInt8.ofNat (if d < 10 then 48 + d else 87 + d)

/-- `snprintf("%x")`. -/
def hexDigits (n : Nat) : Bytes :=
  if n < 16 then [hexDigit n] else hexDigits (n / 16) ++ [hexDigit (n % 16)]

/-! ## Format.c -/

/-- `snprintf(buffer, cap, ...)` where `text` is the full text and the buffer has `cap` bytes, followed by `new_string(buffer,
length)` with the length `snprintf` returns, which is that of the full text.  Reading past the buffer is undefined. -/
def native (cap : Int) (text : Bytes) : Out Bytes :=
  if 0 < cap ∧ (text.length : Int) ≤ cap then
    .ok ((text.take (cap.toNat - 1) ++ List.replicate cap.toNat 0).take text.length)
  else .ub

/-- `_native_snprintf_d`, Format.c 12-24. -/
def nativeD (v : Int) : Out Bytes := native 12 (Spec.decimal v)
/-- `_native_snprintf_ld`, Format.c 80-92. -/
def nativeLd (v : Int) : Out Bytes := native 21 (Spec.decimal v)
/-- `_native_snprintf_lu`, Format.c 94-106. -/
def nativeLu (v : Int) : Out Bytes := native 21 (Spec.digits (v % 18446744073709551616).toNat)
/-- `_native_snprintf_lx`, Format.c 108-120. -/
def nativeLx (v : Int) : Out Bytes := native 17 (hexDigits (v % 18446744073709551616).toNat)
/-- `_native_snprintf_u`, Format.c 138-150. -/
def nativeU (v : Int) : Out Bytes := native 11 (Spec.digits (v % 4294967296).toNat)
/-- `_native_snprintf_x`, Format.c 152-164. -/
def nativeX (v : Int) : Out Bytes := native 9 (hexDigits (v % 4294967296).toNat)
/-- `_native_snprintf_p`, Format.c 121-136. -/
def nativeP (a : Nat) : Out Bytes := native 33 (48 :: 120 :: hexDigits a)
/-- `_native_snprintf_f` and `_native_snprintf_g`, Format.c 26-78: `max_length = 20 + 1 + precision`, the buffer has one byte
more. -/
def nativeFG (text : Bytes) (precision : Int) : Out Bytes := do
  let m ← add32 21 precision
  let cap ← add32 m 1
  native cap text

/-! ## Arguments -/

def msgType : String := "The type of the argument is wrong."

/-- `(Int)$args->[$arg_count]`, unboxed by the call. -/
def asInt : Arg D → Out Int
  | .int v => .ok v
  | _ => .die msgType
/-- `(Long)$args->[$arg_count]`, unboxed by the call. -/
def asLong : Arg D → Out Int
  | .long v => .ok v
  | _ => .die msgType
/-- Format.spvm 202-208. -/
def asChar : Arg D → Out Int
  | .byte v => .ok v
  | .int v => .ok v
  | _ => .die msgType
/-- Format.spvm 221-228, 233-240. -/
def asDouble : Arg D → Out D
  | .float v => .ok v
  | .double v => .ok v
  | _ => .die msgType
/-- `(string)$args->[$arg_count]`; `none` is `undef`. -/
def asStr : Arg D → Out (Option Bytes)
  | .str s => .ok (some s)
  | .undef => .ok none
  | _ => .die msgType

/-! ## The fields of a specifier -/

/-- `_push_formatted_string_signed`, Format.spvm 352-356, 359-363: the loops that pad. -/
def pushPad (limit : Nat) (pad : UInt8) : Nat → Prog StrBuf Unit
  | 0 => pure ()
  | n + 1 => do
    StrBuf.pushChar limit (FnStr.sbyte pad)
    pushPad limit pad n

/-- Pushing the plus sign, Format.spvm 346-348, 365-367. -/
def pushPlus (limit : Nat) (plus : Bool) : Prog StrBuf Unit :=
  if plus then StrBuf.pushChar limit 43 else pure ()

/-- `--$space_count` for a plus sign, Format.spvm 341-343. -/
def lessOne (plus : Bool) (n : Int) : Out Int := if plus then sub32 n 1 else .ok n

/-- `_push_formatted_string_signed`, Format.spvm 334-371; `none` is `undef`. -/
def pushSigned (limit : Nat) (value : Option Bytes) (width : Int) (pad : UInt8) (left plusSign : Bool) : Prog StrBuf Unit :=
  match value with
  | none => Prog.die "Element access on undef."
  | some v => do
    let c ← Prog.lift (aGet v 0)
    let plus := c != 45 && plusSign
    let n ← Prog.lift (sub32 width v.length)
    let n ← Prog.lift (lessOne plus n)
    if left then do
      pushPlus limit plus
      StrBuf.push limit (some v)
      pushPad limit pad n.toNat
    else do
      pushPad limit pad n.toNat
      pushPlus limit plus
      StrBuf.push limit (some v)

/-- `_push_formatted_string_unsigned`, Format.spvm 326-332. -/
def pushUnsigned (limit : Nat) (value : Option Bytes) (width : Int) (pad : UInt8) (left : Bool) : Prog StrBuf Unit :=
  pushSigned limit value width pad left false

/-- The conversions; `bad` is the specifier `""`. -/
inductive Conv where
  | X | c | d | f | g | lX | ld | lu | lx | p | s | u | x | bad
deriving DecidableEq, Repr

/-- The parsed part of a specifier before its type. -/
structure Flags where
  pad : UInt8 := 32
  plus : Bool := false
  left : Bool := false
deriving DecidableEq, Repr

/-- The loop that reads the flags, Format.spvm 64-87; the fuel is the length of the format, `ub` when it runs out.  A byte
other than `0`, `+`, `-` ends the loop. -/
def flagLoop (fmt : Bytes) : Nat → Int → Flags → Out (Int × Flags)
  | 0, i, fl => if i < fmt.length then .ub else .ok (i, fl)
  | n + 1, i, fl =>
    if i < fmt.length then do
      let c ← aGet fmt i
      let j ← add32 i 1
      if c = 48 then flagLoop fmt n j { fl with pad := 48 }
      else if c = 43 then flagLoop fmt n j { fl with plus := true }
      else if c = 45 then flagLoop fmt n j { fl with left := true }
      else .ok (i, fl)
    else .ok (i, fl)

/-- The loops that read the digits of the width (Format.spvm 95-102) and of the precision (109-117): the index, the number and
whether there was a digit. -/
def numLoop (fmt : Bytes) : Nat → Int → Int → Bool → Out (Int × Int × Bool)
  | 0, i, v, h => if i < fmt.length then .ub else .ok (i, v, h)
  | n + 1, i, v, h =>
    if i < fmt.length then do
      let c ← aGet fmt i
      if c.toNat < 48 ∨ 57 < c.toNat then .ok (i, v, h)
      else do
        let v1 ← mul32 v 10
        let v2 ← add32 v1 c.toNat
        let v3 ← sub32 v2 48
        let j ← add32 i 1
        numLoop fmt n j v3 true
    else .ok (i, v, h)

/-- Whether the byte at the index is `b`, for an index inside the format: `$index < $format_length && $format->[$index] == b`. -/
def looksAt (fmt : Bytes) (i : Int) (b : UInt8) : Out Bool :=
  if i < fmt.length then do
    let c ← aGet fmt i
    .ok (c == b)
  else .ok false

/-- Format.spvm 105-121: the precision, -1 when there is none. -/
def readPrecision (fmt : Bytes) (i : Int) : Out (Int × Int × Bool) := do
  let dot ← looksAt fmt i 46
  if dot then do
    let j ← add32 i 1
    let r ← numLoop fmt fmt.length j 0 false
    .ok (r.1, if r.2.2 then r.2.1 else -1, r.2.2)
  else .ok (i, -1, false)

/-- Format.spvm 153-173: the second letter after `l`. -/
def readLong (fmt : Bytes) (i : Int) : Out (Int × Conv) := do
  let x ← looksAt fmt i 88
  if x then do let j ← add32 i 1; .ok (j, .lX)
  else do
    let d ← looksAt fmt i 100
    if d then do let j ← add32 i 1; .ok (j, .ld)
    else do
      let u ← looksAt fmt i 117
      if u then do let j ← add32 i 1; .ok (j, .lu)
      else do
        let y ← looksAt fmt i 120
        if y then do let j ← add32 i 1; .ok (j, .lx)
        else .ok (i, .bad)

/-- Format.spvm 128-190: the type of the specifier from its first letter. -/
def readConv (fmt : Bytes) (c : UInt8) (i : Int) : Out (Int × Conv) :=
  if c = 88 then .ok (i, .X)
  else if c = 99 then .ok (i, .c)
  else if c = 100 then .ok (i, .d)
  else if c = 102 then .ok (i, .f)
  else if c = 103 then .ok (i, .g)
  else if c = 108 then readLong fmt i
  else if c = 112 then .ok (i, .p)
  else if c = 115 then .ok (i, .s)
  else if c = 117 then .ok (i, .u)
  else if c = 120 then .ok (i, .x)
  else .ok (i, .bad)

/-- Format.spvm 274-282: the text and the width of `%s`. -/
def cutString (limit : Nat) (arg : Option Bytes) (width precision : Int) (hasPrecision : Bool) : Out (Option Bytes × Int) :=
  if hasPrecision then
    if precision < (arg.getD []).length then do
      let t ← substr limit arg 0 precision
      .ok (some t, precision)
    else .ok (arg, width)
  else .ok (arg, width)

/-- Format.spvm 192-298: format one argument. -/
def emit (E : Env D) (limit : Nat) (conv : Conv) (fl : Flags) (width precision : Int) (hasPrecision : Bool) (a : Arg D) :
    Prog StrBuf Unit :=
  match conv with
  | .X => do
    let v ← Prog.lift (asInt a)
    let t ← Prog.lift (nativeX v)
    let t ← Prog.lift (FnStr.uc limit (some t))
    pushUnsigned limit (some t) width fl.pad fl.left
  | .c => do
    let v ← Prog.lift (asChar a)
    pushUnsigned limit (some ((Utf8.chr v).getD [63])) width fl.pad fl.left
  | .d => do
    let v ← Prog.lift (asInt a)
    let t ← Prog.lift (nativeD v)
    pushSigned limit (some t) width fl.pad fl.left fl.plus
  | .f => do
    let v ← Prog.lift (asDouble a)
    let t ← Prog.lift (nativeFG (E.textF v precision) precision)
    pushSigned limit (some t) width fl.pad fl.left fl.plus
  | .g => do
    let v ← Prog.lift (asDouble a)
    let t ← Prog.lift (nativeFG (E.textG v precision) precision)
    pushSigned limit (some t) width fl.pad fl.left fl.plus
  | .lX => do
    let v ← Prog.lift (asLong a)
    let t ← Prog.lift (nativeLx v)
    let t ← Prog.lift (FnStr.uc limit (some t))
    pushUnsigned limit (some t) width fl.pad fl.left
  | .ld => do
    let v ← Prog.lift (asLong a)
    let t ← Prog.lift (nativeLd v)
    pushSigned limit (some t) width fl.pad fl.left fl.plus
  | .lu => do
    let v ← Prog.lift (asLong a)
    let t ← Prog.lift (nativeLu v)
    pushUnsigned limit (some t) width fl.pad fl.left
  | .lx => do
    let v ← Prog.lift (asLong a)
    let t ← Prog.lift (nativeLx v)
    pushUnsigned limit (some t) width fl.pad fl.left
  | .p => do
    let t ← Prog.lift (nativeP (E.addr a))
    pushSigned limit (some t) width fl.pad fl.left fl.plus
  | .s => do
    let v ← Prog.lift (asStr a)
    let r ← Prog.lift (cutString limit v width precision hasPrecision)
    pushUnsigned limit r.1 r.2 fl.pad fl.left
  | .u => do
    let v ← Prog.lift (asInt a)
    let t ← Prog.lift (nativeU v)
    pushUnsigned limit (some t) width fl.pad fl.left
  | .x => do
    let v ← Prog.lift (asInt a)
    let t ← Prog.lift (nativeX v)
    pushUnsigned limit (some t) width fl.pad fl.left
  | .bad => Prog.die "Invalid specifier."

/-! ## The main loop -/

/-- Push the constant string read so far, Format.spvm 27-33, 43-48, 305-310: the new index. -/
def flush (limit : Nat) (fmt : Bytes) (index csl : Int) : Prog StrBuf Int :=
  if csl > 0 then do
    let part ← Prog.lift (substr limit (some fmt) index csl)
    StrBuf.push limit (some part)
    Prog.lift (add32 index csl)
  else pure index

/-- `$args->[$arg_count]` after `$arg_count < @$args`, Format.spvm 51-53; `none` is `undef`. -/
def nextArg (args : Option (List (Arg D))) (argc : Nat) : Out (Arg D) :=
  match args with
  | none => .die "The array must be defined."
  | some as =>
    match as[argc]? with
    | some a => .ok a
    | none => .die "Missing argument in sprintf."

/-- Reading a specifier from its `%` on, Format.spvm 56-190: the index behind it, flags, width, precision, whether there is a
precision, the type. -/
def readSpec (fmt : Bytes) (index : Int) : Out (Int × Flags × Int × Int × Bool × Conv) := do
  let i ← add32 index 1
  let (i, fl) ← flagLoop fmt fmt.length i {}
  let fl := if fl.left then { fl with pad := 32 } else fl
  let w ← numLoop fmt fmt.length i 0 false
  let p ← readPrecision fmt w.1
  if ¬ p.1 < fmt.length then .die "Invalid conversion in sprintf."
  else do
    let c ← aGet fmt p.1
    let i ← add32 p.1 1
    let r ← readConv fmt c i
    .ok (r.1, fl, w.2.1, p.2.1, p.2.2, r.2)

/-- One turn of the main loop for a specifier, Format.spvm 41-301: the index behind it. -/
def doSpec (E : Env D) (limit : Nat) (fmt : Bytes) (args : Option (List (Arg D))) (index csl : Int) (argc : Nat) :
    Prog StrBuf Int := do
  let index ← flush limit fmt index csl
  let a ← Prog.lift (nextArg args argc)
  let r ← Prog.lift (readSpec fmt index)
  emit E limit r.2.2.2.2.2 r.2.1 r.2.2.1 r.2.2.2.1 r.2.2.2.2.1 a
  pure r.1

/-- The main loop, Format.spvm 16-302, with fuel (`ub` when it runs out), and the constant string behind it, 304-310. -/
def mainLoop (E : Env D) (limit : Nat) (fmt : Bytes) (args : Option (List (Arg D))) :
    Nat → Int → Int → Nat → Prog StrBuf Unit
  | 0, _, _, _ => Prog.lift .ub
  | n + 1, index, csl, argc => do
    let pos ← Prog.lift (add32 index csl)
    if pos < fmt.length then do
      let c ← Prog.lift (aGet fmt pos)
      if c ≠ 37 then do
        let csl ← Prog.lift (add32 csl 1)
        mainLoop E limit fmt args n index csl argc
      else do
        let pos1 ← Prog.lift (add32 pos 1)
        let twice ← Prog.lift (looksAt fmt pos1 37)
        if twice then do
          let csl ← Prog.lift (add32 csl 1)
          let index ← flush limit fmt index csl
          let index ← Prog.lift (add32 index 1)
          mainLoop E limit fmt args n index 0 argc
        else if pos1 ≥ fmt.length then Prog.die "Invalid conversion in sprintf: end of string."
        else do
          let index ← doSpec E limit fmt args index csl argc
          mainLoop E limit fmt args n index 0 (argc + 1)
    else do
      let _ ← flush limit fmt index csl
      pure ()

/-- `Format->sprintf`, Format.spvm 8-314; `none` is `undef` (the length of `undef` is 0). -/
def sprintf (E : Env D) (limit : Nat) (format : Option Bytes) (args : Option (List (Arg D))) : Out Bytes :=
  match StrBuf.new limit none with
  | .ok b =>
    (do
      mainLoop E limit (format.getD []) args ((format.getD []).length + 1) 0 0 0
      StrBuf.toString limit : Prog StrBuf Bytes) b |>.1
  | .die m => .die m
  | .ub => .ub

end Format
end SPVM
