import Verif.Model.VM
import Verif.Model.ArrayC
import Verif.Spec.Hash
/-!
# `Hash` (lib/SPVM/Hash.spvm)
-/
namespace SPVM
open VM (Bytes)

/-- `Hash::Entry` (lib/SPVM/Hash/Entry.spvm 4-10).  `next_entry` is the position in the chain; `weak` is the weak flag of the
reference stored in the field `value` (spvm_api.c 4966-4985). -/
structure HEntry (α : Type) where
  key : Bytes
  value : Option α
  weak : Bool
deriving DecidableEq, Repr

/-- The fields of `Hash`, Hash.spvm 13-20; a bucket is the list of the entries of its chain.  The seed is fixed at
creation and only used by the hash function, which is a parameter of the model. -/
structure Hash (α : Type) where
  keysLength : Int
  entries : List (List (HEntry α))
deriving DecidableEq, Repr

namespace Hash
variable {α : Type}
open Spec.Hash (Op Res Item)

def msgKey : String := "The key $key must be defined."

/-- `_index_by_key`, Hash.spvm 635-642: `(int)($hash mod_ulong (long)$entries_length)`; `hash` is `_siphash13` with the
seed of this object (Hash.c 87-170), any function of the key. -/
def indexByKey (hash : Bytes → BitVec 64) (key : Bytes) (entriesLength : Int) : Out Int := do
  let r ← VM.moduloUnsigned (hash key) (BitVec.ofInt 64 entriesLength)
  .ok (r.toNat : Int)

/-- The search loop of `get_entry` and `exists`, Hash.spvm 160-169, 183-191. -/
def findEntry (key : Bytes) : List (HEntry α) → Option (HEntry α)
  | [] => none
  | e :: es => if e.key = key then some e else findEntry key es

/-- The chain part of `_set_to_container`, Hash.spvm 653-694: overwrites the value (the assignment clears a weak flag,
spvm_api.c 5136-5160) or appends a new entry; the flag tells whether an entry was added.  Allocation of an entry and the
copy of a key that is not read-only are assumed to succeed. -/
def setChain (key : Bytes) (value : Option α) : List (HEntry α) → List (HEntry α) × Bool
  | [] => ([{ key := key, value := value, weak := false }], true)
  | e :: es =>
    if e.key = key then ({ e with value := value, weak := false } :: es, false)
    else
      let r := setChain key value es
      (e :: r.1, r.2)

/-- `_set_to_container`, Hash.spvm 644-695, on explicit entries and key count. -/
def setToContainer (hash : Bytes → BitVec 64) (entries : List (List (HEntry α))) (entriesLength keysLength : Int)
    (key : Bytes) (value : Option α) : Out (List (List (HEntry α)) × Int) := do
  let index ← indexByKey hash key entriesLength
  let chain ← aGet entries index
  let r := setChain key value chain
  let entries ← aSet entries index r.1
  let n ← if r.2 then add32 keysLength 1 else .ok keysLength
  .ok (entries, n)

/-- The inner `while` loop of `_rehash`, Hash.spvm 706-709. -/
def rehashChain (hash : Bytes → BitVec 64) (newLength : Int) :
    List (HEntry α) → List (List (HEntry α)) × Int → Out (List (List (HEntry α)) × Int)
  | [], s => .ok s
  | e :: es, s => do
    let s' ← setToContainer hash s.1 newLength s.2 e.key e.value
    rehashChain hash newLength es s'

/-- `_rehash`, Hash.spvm 697-712. The new key count is not stored by the code. -/
def rehash (hash : Bytes → BitVec 64) (limit : Nat) : Prog (Hash α) Unit := do
  let h ← Prog.get
  let newLength ← Prog.lift (mul32 (alen h.entries) 2)
  let newEntries ← Prog.lift (newArray limit [] newLength)
  let s ← Prog.lift (forLoop 0 h.entries.length (fun i s => do
    let chain ← aGet h.entries i
    rehashChain hash newLength chain s) (newEntries, 0))
  Prog.set { h with entries := s.1 }

/-- The load factor test of `set`, Hash.spvm 94: `(double)keys_length / entries_length > 0.75`.  For `int` operands the
double quotient is above 0.75 exactly when the rational one is: they differ by at least 2^-33. -/
def overloaded (h : Hash α) : Prop := 4 * h.keysLength > 3 * alen h.entries

instance (h : Hash α) : Decidable (overloaded h) := by unfold overloaded; infer_instance

/-- The rehash step of `set`, Hash.spvm 93-96. -/
def maybeRehash (hash : Bytes → BitVec 64) (limit : Nat) : Prog (Hash α) Unit := do
  let h ← Prog.get
  if overloaded h then rehash hash limit else pure ()

/-- `set`, Hash.spvm 88-101. -/
def set (hash : Bytes → BitVec 64) (limit : Nat) (key : Option Bytes) (value : Option α) : Prog (Hash α) Unit :=
  match key with
  | none => Prog.die msgKey
  | some key => do
    maybeRehash hash limit
    let h ← Prog.get
    let r ← Prog.lift (setToContainer hash h.entries (alen h.entries) h.keysLength key value)
    Prog.set { keysLength := r.2, entries := r.1 }

/-- `get_entry`, Hash.spvm 150-170. -/
def getEntry (hash : Bytes → BitVec 64) (h : Hash α) (key : Option Bytes) : Out (Option (HEntry α)) :=
  match key with
  | none => .die msgKey
  | some key => do
    let index ← indexByKey hash key (alen h.entries)
    let chain ← aGet h.entries index
    .ok (findEntry key chain)

/-- `get`, Hash.spvm 103-114. -/
def get (hash : Bytes → BitVec 64) (key : Option Bytes) : Prog (Hash α) (Option α) := do
  let h ← Prog.get
  let e ← Prog.lift (getEntry hash h key)
  pure (e.bind (·.value))

/-- `exists`, Hash.spvm 172-192. -/
def exist (hash : Bytes → BitVec 64) (key : Option Bytes) : Prog (Hash α) Int := do
  let h ← Prog.get
  let e ← Prog.lift (getEntry hash h key)
  pure (if e.isSome then 1 else 0)

/-- `isweak`, Hash.spvm 138-148. -/
def isweak (hash : Bytes → BitVec 64) (key : Option Bytes) : Prog (Hash α) Int := do
  let h ← Prog.get
  let e ← Prog.lift (getEntry hash h key)
  pure (match e with
    | some e => if e.weak then 1 else 0
    | none => 0)

/-- Change the entry of `key` in a chain in place. -/
def updateChain (key : Bytes) (f : HEntry α → HEntry α) : List (HEntry α) → List (HEntry α)
  | [] => []
  | e :: es => if e.key = key then f e :: es else e :: updateChain key f es

/-- The entry found by `get_entry` is changed in place. -/
def updateEntry (hash : Bytes → BitVec 64) (key : Option Bytes) (f : HEntry α → HEntry α) : Prog (Hash α) Unit := do
  let h ← Prog.get
  let _ ← Prog.lift (getEntry hash h key)
  let key := key.getD []
  let index ← Prog.lift (indexByKey hash key (alen h.entries))
  let chain ← Prog.lift (aGet h.entries index)
  let entries ← Prog.lift (aSet h.entries index (updateChain key f chain))
  Prog.set { h with entries := entries }

/-- `weaken`, Hash.spvm 116-125: an undefined value is not affected (spvm_api.c 4999).  Simplification: the object is
referenced from somewhere else too; otherwise `weaken` destroys it at once (spvm_api.c 5011-5015) and the value becomes
undef. -/
def weaken (hash : Bytes → BitVec 64) (key : Option Bytes) : Prog (Hash α) Unit :=
  updateEntry hash key (fun e => { e with weak := e.value.isSome })

/-- `unweaken`, Hash.spvm 127-136. -/
def unweaken (hash : Bytes → BitVec 64) (key : Option Bytes) : Prog (Hash α) Unit :=
  updateEntry hash key (fun e => { e with weak := false })

/-- The loop of `delete`, Hash.spvm 202-222: the value of the entry and the chain without it. -/
def deleteChain (key : Bytes) : List (HEntry α) → Option (Option α × List (HEntry α))
  | [] => none
  | e :: es =>
    if e.key = key then some (e.value, es)
    else (deleteChain key es).map (fun r => (r.1, e :: r.2))

/-- `delete` after the chain was searched, Hash.spvm 204-213. -/
def finishDelete (h : Hash α) (index : Int) : Option (Option α × List (HEntry α)) → Prog (Hash α) (Option α)
  | none => pure none
  | some (v, chain) => do
    let entries ← Prog.lift (aSet h.entries index chain)
    let n ← Prog.lift (sub32 h.keysLength 1)
    Prog.set { keysLength := n, entries := entries }
    pure v

/-- `delete`, Hash.spvm 194-223. -/
def delete (hash : Bytes → BitVec 64) (key : Option Bytes) : Prog (Hash α) (Option α) :=
  match key with
  | none => Prog.die msgKey
  | some key => do
    let h ← Prog.get
    let index ← Prog.lift (indexByKey hash key (alen h.entries))
    let chain ← Prog.lift (aGet h.entries index)
    finishDelete h index (deleteChain key chain)

/-- The inner loop of `keys` and `values`, Hash.spvm 232-235, 257-260: `$array->[$n++] = ...`. -/
def writeChain (f : HEntry α → β) : List (HEntry α) → List β × Int → Out (List β × Int)
  | [], s => .ok s
  | e :: es, s => do
    let a ← aSet s.1 s.2 (f e)
    let n ← add32 s.2 1
    writeChain f es (a, n)

/-- The common shape of `keys` (Hash.spvm 225-238) and `values` (Hash.spvm 250-263). -/
def collect (limit : Nat) (undef : β) (f : HEntry α → β) (h : Hash α) : Out (List β) := do
  let a ← newArray limit undef h.keysLength
  let s ← forLoop 0 h.entries.length (fun i s => do
    let chain ← aGet h.entries i
    writeChain f chain s) (a, 0)
  .ok s.1

/-- `keys`, Hash.spvm 225-238. -/
def keys (limit : Nat) : Prog (Hash α) (List (Option Bytes)) := do
  let h ← Prog.get
  Prog.lift (collect limit none (fun e => some e.key) h)

/-- `values`, Hash.spvm 250-263. -/
def values (limit : Nat) : Prog (Hash α) (List (Option α)) := do
  let h ← Prog.get
  Prog.lift (collect limit none (·.value) h)

/-- `has_keys`, Hash.spvm 240-248. -/
def hasKeys : Prog (Hash α) Int := do
  let h ← Prog.get
  pure (if h.keysLength > 0 then 1 else 0)

/-- The loop body of `to_array`, Hash.spvm 277-282. -/
def toArrayBody (hash : Bytes → BitVec 64) (h : Hash α) (ks : List (Option Bytes)) (i : Nat) (a : List (Item α)) :
    Out (List (Item α)) := do
  let k ← aGet ks i
  let j ← mul32 i 2
  let a ← aSet a j (Item.key k)
  let v ← (get hash k h).1
  let j ← add32 j 1
  aSet a j (Item.value v)

/-- `to_array` with `$sort = 0`, Hash.spvm 265-285. (The sorted variants sort the keys first.) -/
def toArray (hash : Bytes → BitVec 64) (limit : Nat) (h : Hash α) : Out (List (Item α)) := do
  let ks ← (keys limit h).1
  let n ← mul32 (alen ks) 2
  let a ← newArray limit (Item.value none) n
  forLoop 0 ks.length (toArrayBody hash h ks) a

/-- The empty hash of `new`, Hash.spvm 28-38 (`DEFALUT_ENTRIES_LENGTH = 1`). -/
def empty (limit : Nat) : Out (Hash α) := do
  let entries ← newArray limit [] 1
  .ok { keysLength := 0, entries := entries }

def msgEven : String := "The length of the elements in the key-value pairs $key_values must be an even number."
def msgKeyString : String := "The key in the key-value pairs $key_values must be string."

/-- The loop of `new`, Hash.spvm 52-61, over the elements; `asString` tells the bytes of an element that is a string. -/
def setPairs (hash : Bytes → BitVec 64) (limit : Nat) (asString : α → Option Bytes) : List (Option α) → Prog (Hash α) Unit
  | [] => pure ()
  | [_] => pure ()
  | k :: v :: rest =>
    match k.bind asString with
    | none => Prog.die msgKeyString
    | some key => do
      set hash limit (some key) v
      setPairs hash limit asString rest

/-- `new`, Hash.spvm 28-65. -/
def new (hash : Bytes → BitVec 64) (limit : Nat) (asString : α → Option Bytes) (keyValues : Option (List (Option α))) :
    Out (Hash α) := do
  let h ← empty limit
  match keyValues with
  | none => .ok h
  | some kvs =>
    if kvs.length % 2 ≠ 0 then .die msgEven
    else match setPairs hash limit asString kvs h with
      | (.ok _, h') => .ok h'
      | (.die m, _) => .die m
      | (.ub, _) => .ub

/-- Dispatch of one API call. -/
def step (hash : Bytes → BitVec 64) (limit : Nat) : Op α → Prog (Hash α) (Res α)
  | .set k v => do set hash limit k v; pure .unit
  | .get k => do let v ← get hash k; pure (.value v)
  | .exist k => do let n ← exist hash k; pure (.num n)
  | .delete k => do let v ← delete hash k; pure (.value v)
  | .weaken k => do weaken hash k; pure .unit
  | .unweaken k => do unweaken hash k; pure .unit
  | .isweak k => do let n ← isweak hash k; pure (.num n)
  | .keysLength => do let h ← Prog.get; pure (.num h.keysLength)
  | .hasKeys => do let n ← hasKeys; pure (.num n)
  | .keys => do let ks ← keys limit; pure (.keys ks)
  | .values => do let vs ← values limit; pure (.values vs)
  | .toArray => do let h ← Prog.get; let xs ← Prog.lift (toArray hash limit h); pure (.items xs)

/-- A history of calls; a caller that catches every exception. -/
def run (hash : Bytes → BitVec 64) (limit : Nat) (h : Hash α) : List (Op α) → List (Out (Res α))
  | [] => []
  | op :: ops => (step hash limit op h).1 :: run hash limit (step hash limit op h).2 ops

end Hash
end SPVM
