import Verif.Model.Str
import Verif.Spec.StrBuf
/-!
# `StringBuffer` (lib/SPVM/StringBuffer.spvm)
-/
namespace SPVM
open VM (Bytes)

/-- The fields of `StringBuffer`, StringBuffer.spvm 17-22. -/
structure StrBuf where
  capacity : Int
  length : Int
  string : Bytes
deriving DecidableEq, Repr

namespace StrBuf
open Str

def msgLenNeg : String := "The length $length must be greater than or equal to 0."

/-- `new_len`, StringBuffer.spvm 43-63. -/
def newLen (limit : Nat) (length : Int) (capacity : Int := -1) : Out StrBuf :=
  if ¬ length ≥ 0 then .die msgLenNeg
  else do
    let capacity := if capacity < 0 then 4 else capacity
    let capacity := if length > capacity then length else capacity
    let s ← newStringLen limit capacity
    .ok { capacity := capacity, length := length, string := s }

/-- `new`, StringBuffer.spvm 25-41. -/
def new (limit : Nat) (string : Option Bytes) (capacity : Int := -1) : Out StrBuf :=
  match string with
  | none => newLen limit 0 capacity
  | some s => do
    let b ← newLen limit s.length capacity
    let str ← memcpy b.string 0 s 0 s.length
    .ok { b with string := str }

/-- `_maybe_extend`, StringBuffer.spvm 158-179. -/
def extend (limit : Nat) (minCapacity : Int) : Prog StrBuf Unit := do
  let b ← Prog.get
  if ¬ minCapacity > b.capacity then pure ()
  else do
    let capacity := if b.capacity < minCapacity then minCapacity else b.capacity
    let newCapacity ← Prog.lift (mul32 capacity 2)
    let buf ← Prog.lift (newStringLen limit newCapacity)
    let buf ← Prog.lift (memcpy buf 0 b.string 0 b.length)
    Prog.set { b with string := buf, capacity := newCapacity }

def msgPushRange : String := "The offset $offset + the length $length must be less than or equal to the length of the string."

/-- `push`, StringBuffer.spvm 66-92.  The message of the range error interpolates the string; it is a constant here. -/
def push (limit : Nat) (string : Option Bytes) (offset : Int := 0) (length : Int := -1) : Prog StrBuf Unit :=
  match string with
  | none => Prog.die msgStringUndef
  | some s =>
    if ¬ offset ≥ 0 then Prog.die msgOffsetNeg
    else do
      let length ← Prog.lift (if length = -1 then sub32 s.length offset else .ok length)
      let e ← Prog.lift (add32 offset length)
      if ¬ e ≤ s.length then Prog.die msgPushRange
      else do
        let b ← Prog.get
        let newLength ← Prog.lift (add32 b.length length)
        extend limit newLength
        let b' ← Prog.get
        let str ← Prog.lift (memcpy b'.string b.length s offset length)
        Prog.set { b' with string := str }
        let b ← Prog.get
        let l ← Prog.lift (add32 b.length length)
        Prog.set { b with length := l }

/-- `push_char`, StringBuffer.spvm 94-101. -/
def pushChar (limit : Nat) (char : Int) : Prog StrBuf Unit := do
  let b ← Prog.get
  let newLength ← Prog.lift (add32 b.length 1)
  extend limit newLength
  let b ← Prog.get
  let l ← Prog.lift (add32 b.length 1)
  Prog.set { b with length := l }
  let s ← Prog.lift (aSet b.string b.length (toByte char))
  Prog.set { b with length := l, string := s }

def msgRemNeg : String := "The removal length $remove_length must be greater than or equal to 0."
def msgRemRange : String := "$offset + $removing length must be less than or equal to the length of $string buffer."

/-- The copy of the replacement in `replace`, StringBuffer.spvm 125-127. -/
def storeReplace (s : Bytes) (offset : Int) (replace : Option Bytes) (replaceLength : Int) : Out Bytes :=
  match replace with
  | some r => memcpy s offset r 0 replaceLength
  | none => .ok s

/-- The part of `replace` after `_maybe_extend`, StringBuffer.spvm 121-130. -/
def replaceTail (offset removeLength : Int) (replace : Option Bytes) (replaceLength newLength : Int) : Prog StrBuf Unit := do
  let b ← Prog.get
  let moveLength ← Prog.lift (do let t ← sub32 b.length offset; sub32 t removeLength)
  let dOff ← Prog.lift (add32 offset replaceLength)
  let sOff ← Prog.lift (add32 offset removeLength)
  let s ← Prog.lift (memmove b.string dOff sOff moveLength)
  Prog.set { b with string := s }
  let s ← Prog.lift (storeReplace s offset replace replaceLength)
  Prog.set { b with string := s, length := newLength }

/-- `replace`, StringBuffer.spvm 103-131. -/
def replace (limit : Nat) (offset removeLength : Int) (replace : Option Bytes) : Prog StrBuf Unit :=
  if ¬ offset ≥ 0 then Prog.die msgOffsetNeg
  else if ¬ removeLength ≥ 0 then Prog.die msgRemNeg
  else do
    let b ← Prog.get
    let e ← Prog.lift (add32 offset removeLength)
    if ¬ e ≤ b.length then Prog.die msgRemRange
    else do
      let replaceLength : Int := (replace.getD []).length
      let newLength ← Prog.lift (do let t ← sub32 b.length removeLength; add32 t replaceLength)
      extend limit newLength
      replaceTail offset removeLength replace replaceLength newLength

def msgCapNeg : String := "The new capacity $new_capacity must be greater than or equal to 0."

/-- `reserve`, StringBuffer.spvm 133-147. -/
def reserve (limit : Nat) (newCapacity : Int) : Prog StrBuf Unit :=
  if ¬ newCapacity ≥ 0 then Prog.die msgCapNeg
  else do
    let b ← Prog.get
    if newCapacity > b.capacity then do
      let buf ← Prog.lift (newStringLen limit newCapacity)
      let buf ← Prog.lift (memcpy buf 0 b.string 0 b.length)
      Prog.set { b with string := buf, capacity := newCapacity }
    else pure ()

/-- `to_string`, StringBuffer.spvm 149-152. -/
def toString (limit : Nat) : Prog StrBuf Bytes := do
  let b ← Prog.get
  Prog.lift (substr limit (some b.string) 0 b.length)

/-- `set_length`, StringBuffer.spvm 181-195. -/
def setLength (limit : Nat) (length : Int) : Prog StrBuf Unit :=
  if ¬ length ≥ 0 then Prog.die msgLenNeg
  else do
    extend limit length
    let b ← Prog.get
    Prog.set { b with length := length }
    let s ← Prog.lift (if length < b.capacity then do
        let n ← sub32 b.capacity length
        memsetChar b.string 0 length n
      else .ok b.string)
    Prog.set { b with length := length, string := s }

/-- `set`, StringBuffer.spvm 197-202. -/
def set (limit : Nat) (string : Option Bytes) : Prog StrBuf Unit := do
  setLength limit 0
  push limit string

/-- `clone`, StringBuffer.spvm 204-211. -/
def clone (limit : Nat) (b : StrBuf) : Out StrBuf := do
  let s ← (toString limit b).1
  new limit (some s)

/-- `cmp`, StringBuffer.spvm 213-266. -/
def cmp (a b : Option StrBuf) : Out Int :=
  match a, b with
  | none, none => .ok 0
  | some _, none => .ok 1
  | none, some _ => .ok (-1)
  | some a, some b => do
    let short := if a.length < b.length then a.length else b.length
    let r ← FnMem.memcmp (some (.str a.string)) 0 (some (.str b.string)) 0 short
    if r ≠ 0 then .ok (if r < 0 then -1 else 1)
    else if a.length = b.length then .ok 0
    else .ok (if a.length < b.length then -1 else 1)

/-- `eq`, StringBuffer.spvm 268-286. -/
def eq (a b : Option StrBuf) : Out Int :=
  match a, b with
  | some a, some b => do
    let c ← cmp (some a) (some b)
    .ok (if c = 0 then 1 else 0)
  | some _, none => .ok 0
  | none, some _ => .ok 0
  | none, none => .ok 1

open Spec.StrBuf (Op Res)

/-- Dispatch of one API call. -/
def step (limit : Nat) : Op → Prog StrBuf Res
  | .push s o n => do push limit s o n; pure .unit
  | .pushChar c => do pushChar limit c; pure .unit
  | .replace o n r => do replace limit o n r; pure .unit
  | .reserve n => do reserve limit n; pure .unit
  | .set s => do set limit s; pure .unit
  | .setLength n => do setLength limit n; pure .unit
  | .toString => do let s ← toString limit; pure (.str s)
  | .length => do let b ← Prog.get; pure (.num b.length)

/-- A history of calls; a caller that catches every exception. -/
def run (limit : Nat) (b : StrBuf) : List Op → List (Out Res)
  | [] => []
  | op :: ops => (step limit op b).1 :: run limit (step limit op b).2 ops

end StrBuf
end SPVM
