import Verif.Model.Hash
import Verif.Model.Sort
import Verif.Spec.HashTyped
/-!
# The typed methods of `Hash` (lib/SPVM/Hash.spvm 75-86, 265-626)

The values are the objects `Val`.  The classes `Byte`, `Short`, ... are those the compiler creates
(lib/SPVM/Builder/src/spvm_compiler.c 526-572); `Byte->new` and `Short->new` convert their `int` by a C cast.  Creating such an
object is assumed to succeed.  `(byte)$object` for a `Byte` object is its value (the unboxing cast, see C58).
-/
namespace SPVM
namespace Hash
open Spec.Hash (Bytes Op Res Item)
open Spec.HashTyped (Val Kind Answer TOp TRes)

/-- `set_byte`, Hash.spvm 287-289; `Byte->new`, spvm_compiler.c 530. -/
def setByte (hash : Bytes → BitVec 64) (limit : Nat) (key : Option Bytes) (value : BitVec 32) : Prog (Hash Val) Unit :=
  set hash limit key (some (.byte (value.setWidth 8)))
/-- `set_short`, Hash.spvm 290-292; `Short->new`, spvm_compiler.c 538. -/
def setShort (hash : Bytes → BitVec 64) (limit : Nat) (key : Option Bytes) (value : BitVec 32) : Prog (Hash Val) Unit :=
  set hash limit key (some (.short (value.setWidth 16)))
/-- `set_int`, Hash.spvm 293-295. -/
def setInt (hash : Bytes → BitVec 64) (limit : Nat) (key : Option Bytes) (value : BitVec 32) : Prog (Hash Val) Unit :=
  set hash limit key (some (.int value))
/-- `set_string`, Hash.spvm 296-298. -/
def setString (hash : Bytes → BitVec 64) (limit : Nat) (key : Option Bytes) (value : Option Bytes) : Prog (Hash Val) Unit :=
  set hash limit key (value.map .string)
/-- `set_long`, Hash.spvm 299-301. -/
def setLong (hash : Bytes → BitVec 64) (limit : Nat) (key : Option Bytes) (value : BitVec 64) : Prog (Hash Val) Unit :=
  set hash limit key (some (.long value))
/-- `set_float`, Hash.spvm 302-304. -/
def setFloat (hash : Bytes → BitVec 64) (limit : Nat) (key : Option Bytes) (value : BitVec 32) : Prog (Hash Val) Unit :=
  set hash limit key (some (.float value))
/-- `set_double`, Hash.spvm 305-307. -/
def setDouble (hash : Bytes → BitVec 64) (limit : Nat) (key : Option Bytes) (value : BitVec 64) : Prog (Hash Val) Unit :=
  set hash limit key (some (.double value))

/-- The messages of the getters, Hash.spvm 313, 331, 352, 376, 386, 396, 406 (without the key and the type names). -/
def msgType : String := "The type of the value for the key must be ..."

/-- `get_byte`, Hash.spvm 309-317. -/
def getByte (hash : Bytes → BitVec 64) (key : Option Bytes) : Prog (Hash Val) (BitVec 32) := do
  let object ← get hash key
  match object with
  | some (.byte v) => pure (v.signExtend 32)
  | _ => Prog.die msgType

/-- `get_short`, Hash.spvm 319-335. -/
def getShort (hash : Bytes → BitVec 64) (key : Option Bytes) : Prog (Hash Val) (BitVec 32) := do
  let object ← get hash key
  match object with
  | some (.byte v) => pure (v.signExtend 32)
  | some (.short v) => pure (v.signExtend 32)
  | _ => Prog.die msgType

/-- `get_int`, Hash.spvm 337-356. -/
def getInt (hash : Bytes → BitVec 64) (key : Option Bytes) : Prog (Hash Val) (BitVec 32) := do
  let object ← get hash key
  match object with
  | some (.byte v) => pure (v.signExtend 32)
  | some (.short v) => pure (v.signExtend 32)
  | some (.int v) => pure v
  | _ => Prog.die msgType

/-- `get_long`, Hash.spvm 358-380. -/
def getLong (hash : Bytes → BitVec 64) (key : Option Bytes) : Prog (Hash Val) (BitVec 64) := do
  let object ← get hash key
  match object with
  | some (.byte v) => pure (v.signExtend 64)
  | some (.short v) => pure (v.signExtend 64)
  | some (.int v) => pure (v.signExtend 64)
  | some (.long v) => pure v
  | _ => Prog.die msgType

/-- `get_float`, Hash.spvm 382-390. -/
def getFloat (hash : Bytes → BitVec 64) (key : Option Bytes) : Prog (Hash Val) (BitVec 32) := do
  let object ← get hash key
  match object with
  | some (.float v) => pure v
  | _ => Prog.die msgType

/-- `get_double`, Hash.spvm 392-400. -/
def getDouble (hash : Bytes → BitVec 64) (key : Option Bytes) : Prog (Hash Val) (BitVec 64) := do
  let object ← get hash key
  match object with
  | some (.double v) => pure v
  | _ => Prog.die msgType

/-- `get_string`, Hash.spvm 402-410. -/
def getString (hash : Bytes → BitVec 64) (key : Option Bytes) : Prog (Hash Val) (Option Bytes) := do
  let object ← get hash key
  match object with
  | none => pure none
  | some (.string s) => pure (some s)
  | _ => Prog.die msgType

/-- The getter of a kind. -/
def getKind (hash : Bytes → BitVec 64) : (kind : Kind) → Option Bytes → Prog (Hash Val) (Answer kind)
  | .byte, key => getByte hash key
  | .short, key => getShort hash key
  | .int, key => getInt hash key
  | .long, key => getLong hash key
  | .float, key => getFloat hash key
  | .double, key => getDouble hash key
  | .string, key => getString hash key
  | .object, key => get hash key

/-- The common body of `get_or_default_byte`, ..., `get_or_default`, Hash.spvm 412-423, 425-436, 438-449, 451-462, 464-475,
477-488, 490-501, 503-514: they differ in the getter only. -/
def getOrDefault (hash : Bytes → BitVec 64) (kind : Kind) (key : Option Bytes) (default : Answer kind) :
    Prog (Hash Val) (Answer kind) := do
  let e ← exist hash key
  if e ≠ 0 then getKind hash kind key else pure default

/-- The common body of `delete_or_default_byte`, ..., `delete_or_default`, Hash.spvm 516-626. -/
def deleteOrDefault (hash : Bytes → BitVec 64) (kind : Kind) (key : Option Bytes) (default : Answer kind) :
    Prog (Hash Val) (Answer kind) := do
  let e ← exist hash key
  if e ≠ 0 then do
    let value ← getKind hash kind key
    let _ ← delete hash key
    pure value
  else pure default

/-- `Sort->sort_string_asc`, `sort_string_desc` applied to the keys, Hash.spvm 269-274. -/
def sortKeys (limit : Nat) (sort : BitVec 32) (keys : List (Option Bytes)) : Out (List (Option Bytes)) :=
  if sort.toInt > 0 then
    match MSort.sort limit none (some MSort.strAscCmp) (some keys) () with
    | (.ok _, keys, _) => .ok keys
    | (.die m, _, _) => .die m
    | (.ub, _, _) => .ub
  else if sort.toInt < 0 then
    match MSort.sort limit none (some MSort.strDescCmp) (some keys) () with
    | (.ok _, keys, _) => .ok keys
    | (.die m, _, _) => .die m
    | (.ub, _, _) => .ub
  else .ok keys

/-- `to_array`, Hash.spvm 265-285. -/
def toArraySort (hash : Bytes → BitVec 64) (limit : Nat) (sort : BitVec 32) (h : Hash α) : Out (List (Item α)) := do
  let ks ← (keys limit h).1
  let n0 := ks.length
  let ks ← sortKeys limit sort ks
  let n ← mul32 n0 2
  let a ← newArray limit (Item.value none) n
  forLoop 0 n0 (toArrayBody hash h ks) a

/-- The loop of `copy`, Hash.spvm 78-80. -/
def copyLoop (hash hash' : Bytes → BitVec 64) (limit : Nat) (self : Hash α) : List (Option Bytes) → Prog (Hash α) Unit
  | [] => pure ()
  | k :: ks => do
    let v ← Prog.lift (get hash k self).1
    set hash' limit k v
    copyLoop hash hash' limit self ks

/-- `copy` and `clone`, Hash.spvm 75-86: `hash'` is the hash function with the seed of the new object.  `new` without pairs. -/
def copy (hash hash' : Bytes → BitVec 64) (limit : Nat) (self : Hash α) : Out (Hash α) := do
  let ret ← empty limit
  let ks ← (keys limit self).1
  match copyLoop hash hash' limit self ks ret with
  | (.ok _, ret) => .ok ret
  | (.die m, _) => .die m
  | (.ub, _) => .ub

/-- Dispatch of one call. -/
def tstep (hash : Bytes → BitVec 64) (limit : Nat) : TOp → Prog (Hash Val) TRes
  | .base op => do let r ← step hash limit op; pure (.base r)
  | .setByte k v => do setByte hash limit k v; pure (.base .unit)
  | .setShort k v => do setShort hash limit k v; pure (.base .unit)
  | .setInt k v => do setInt hash limit k v; pure (.base .unit)
  | .setLong k v => do setLong hash limit k v; pure (.base .unit)
  | .setFloat k v => do setFloat hash limit k v; pure (.base .unit)
  | .setDouble k v => do setDouble hash limit k v; pure (.base .unit)
  | .setString k v => do setString hash limit k v; pure (.base .unit)
  | .get kind k => do let a ← getKind hash kind k; pure (.answer kind a)
  | .getOr kind k d => do let a ← getOrDefault hash kind k d; pure (.answer kind a)
  | .deleteOr kind k d => do let a ← deleteOrDefault hash kind k d; pure (.answer kind a)
  | .toArray sort => do let h ← Prog.get; let xs ← Prog.lift (toArraySort hash limit sort h); pure (.base (.items xs))

/-- A history of calls; a caller that catches every exception. -/
def trun (hash : Bytes → BitVec 64) (limit : Nat) (h : Hash Val) : List TOp → List (Out TRes)
  | [] => []
  | op :: ops => (tstep hash limit op h).1 :: trun hash limit (tstep hash limit op h).2 ops

/-- The hash after a history. -/
def trunState (hash : Bytes → BitVec 64) (limit : Nat) (h : Hash Val) : List TOp → Hash Val
  | [] => h
  | op :: ops => trunState hash limit (tstep hash limit op h).2 ops

end Hash
end SPVM
