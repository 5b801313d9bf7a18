import Verif.Model.VM
import Verif.Model.CList
import Verif.Spec.CHash
/-!
# `SPVM_HASH` (lib/SPVM/Builder/src/spvm_hash.c)

A chain of entries linked by `next_entry` is a list; `SPVM_HASH_ENTRY` is a pair of the (copied) key and the value.
Allocation is assumed to succeed.  Everything is parametrised by the outcome of the hash function, because the C code of
`SPVM_HASH_calc_hash_value` overflows `int32_t`, which is undefined in C; `hashWrap` is what two's complement machines
compute, `hashStrict` is what the C standard says.
-/
namespace SPVM
namespace CHash
open VM (Bytes)
variable {ν : Type}

/-- One round of the loop in `SPVM_HASH_calc_hash_value`, wrapping. -/
def roundWrap (h : BitVec 32) (c : UInt8) : BitVec 32 := ((h <<< 5) + h) + BitVec.ofNat 32 c.toNat

/-- `SPVM_HASH_calc_hash_value`, spvm_hash.c 313-328, with two's complement wrap-around. -/
def hashWrap (key : Bytes) : Out Int :=
  let h := key.foldl roundWrap 5381#32
  let h := if h.toInt < 0 then ~~~h else h
  .ok h.toInt

/-- One round of the loop with the C rules for signed `<<` and `+`. -/
def roundStrict (h : Int) (c : UInt8) : Out Int := do
  let s ← VM.leftShift 32 h 5
  let t ← add32 s h
  add32 t c.toNat

/-- `SPVM_HASH_calc_hash_value`, spvm_hash.c 313-328, with the C rules for signed arithmetic. -/
def hashStrict (key : Bytes) : Out Int := do
  let h ← key.foldlM roundStrict 5381
  .ok (if h < 0 then -h - 1 else h)

abbrev Entry (ν : Type) := Bytes × ν

/-- `SPVM_HASH` (spvm_hash.h); `table_capacity` is the length of `table`. -/
structure CHash (ν : Type) where
  table : List (List (Entry ν))
  keysLength : Nat
deriving DecidableEq, Repr

/-- `SPVM_HASH_new`, spvm_hash.c 11-53. -/
def new (capacity : Int) : Out (CHash ν) :=
  if ¬ capacity ≥ 0 then .ub
  else .ok { table := List.replicate (if capacity = 0 then 1 else capacity.toNat) [], keysLength := 0 }

/-- The key test, spvm_hash.c 78-85 and 122-129. -/
def keyMatch (key entryKey : Bytes) : Out Bool :=
  if key.length = 0 ∧ entryKey.length = 0 then .ok true
  else if entryKey.length = key.length then do
    let r ← VM.memcmp key entryKey key.length
    .ok (decide (r = 0))
  else .ok false

/-- `hash_value % table_capacity` (C `%` on `int32_t`). -/
def tableIndex (hf : Bytes → Out Int) (key : Bytes) (capacity : Nat) : Out Int := do
  let hashValue ← hf key
  if capacity = 0 then .ub else VM.cRem VM.minInt hashValue capacity

/-- `table[table_index]`. -/
def bucket (table : List (List (Entry ν))) (i : Int) : Out (List (Entry ν)) :=
  if i < 0 then .ub else match table[i.toNat]? with
    | some c => .ok c
    | none => .ub

/-- A write to `table[table_index]`. -/
def setBucket (table : List (List (Entry ν))) (i : Int) (c : List (Entry ν)) : Out (List (List (Entry ν))) :=
  if 0 ≤ i ∧ i.toNat < table.length then .ok (table.set i.toNat c) else .ub

/-- The search loop of `SPVM_HASH_get`, spvm_hash.c 74-95. -/
def search (key : Bytes) : List (Entry ν) → Out (Option ν)
  | [] => .ok none
  | e :: es => do
    let m ← keyMatch key e.1
    if m then .ok (some e.2) else search key es

/-- `SPVM_HASH_get`, spvm_hash.c 64-96. -/
def get (hf : Bytes → Out Int) (null : ν) (h : CHash ν) (key : Bytes) : Out ν := do
  let i ← tableIndex hf key h.table.length
  let c ← bucket h.table i
  let r ← search key c
  .ok (r.getD null)

/-- The loop of `SPVM_HASH_set` over a chain, spvm_hash.c 117-143 (and 145-148 for an empty chain): overwrite the value of
the matching entry or append a new one; the flag tells that an entry was added (`keys_length++` in
`SPVM_HASH_new_hash_entry`, 223-254). -/
def setChain (key : Bytes) (value : ν) : List (Entry ν) → Out (List (Entry ν) × Bool)
  | [] => .ok ([(key, value)], true)
  | e :: es => do
    let m ← keyMatch key e.1
    if m then .ok ((e.1, value) :: es, false)
    else do
      let (es, added) ← setChain key value es
      .ok (e :: es, added)

/-- `SPVM_HASH_set_entry`, spvm_hash.c 152-177: append to the chain. -/
def setEntry (hf : Bytes → Out Int) (table : List (List (Entry ν))) (e : Entry ν) : Out (List (List (Entry ν))) := do
  let i ← tableIndex hf e.1 table.length
  let c ← bucket table i
  setBucket table i (c ++ [e])

/-- The inner loop of `SPVM_HASH_rehash`, spvm_hash.c 279-292. -/
def rehashChain (hf : Bytes → Out Int) (table : List (List (Entry ν))) : List (Entry ν) → Out (List (List (Entry ν)))
  | [] => .ok table
  | e :: es => do
    let table ← setEntry hf table e
    rehashChain hf table es

/-- The outer loop of `SPVM_HASH_rehash`, spvm_hash.c 275-294. -/
def rehashTable (hf : Bytes → Out Int) (table : List (List (Entry ν))) : List (List (Entry ν)) → Out (List (List (Entry ν)))
  | [] => .ok table
  | c :: cs => do
    let table ← rehashChain hf table c
    rehashTable hf table cs

/-- `SPVM_HASH_rehash`, spvm_hash.c 256-311. -/
def rehash (hf : Bytes → Out Int) (h : CHash ν) (newCapacity : Int) : Out (CHash ν) := do
  if ¬ newCapacity > 0 then .ub
  else do
    let t ← rehashTable hf (List.replicate newCapacity.toNat []) h.table
    .ok { h with table := t }

/-- The growth test of `SPVM_HASH_set`, spvm_hash.c 104-109; `keys_length > table_capacity * 0.75` is exact in `double`. -/
def maybeRehash (hf : Bytes → Out Int) (h : CHash ν) : Out (CHash ν) :=
  if 4 * h.keysLength > 3 * h.table.length then do
    let n ← mul32 h.table.length 2
    let n ← add32 n 1
    rehash hf h n
  else .ok h

/-- `SPVM_HASH_set`, spvm_hash.c 98-150. -/
def set (hf : Bytes → Out Int) (h : CHash ν) (key : Bytes) (value : ν) : Out (CHash ν) := do
  let h ← maybeRehash hf h
  let i ← tableIndex hf key h.table.length
  let c ← bucket h.table i
  let (c, added) ← setChain key value c
  let t ← setBucket h.table i c
  .ok { table := t, keysLength := if added then h.keysLength + 1 else h.keysLength }

/-- A history of calls. -/
def run (hf : Bytes → Out Int) (null : ν) (h : CHash ν) : List (Spec.CHash.Op Bytes ν) → Out (List (Option ν))
  | [] => .ok []
  | .set k v :: ops => do
    let h ← set hf h k v
    let rs ← run hf null h ops
    .ok (none :: rs)
  | .get k :: ops => do
    let v ← get hf null h k
    let rs ← run hf null h ops
    .ok (some v :: rs)

end CHash
end SPVM
