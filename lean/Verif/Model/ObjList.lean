import Verif.Model.VM
import Verif.Spec.Seq
/-!
# Object lists (lib/SPVM/List.spvm)

`List` stores its elements in a ring: element `i` is at `(offset + i) % capacity` of the internal array.  An element is
`none` for `undef`.  `accept v` says whether the object `v` may be stored in the internal array: that array has the type
of the array given to the constructor, and a store into it is checked at run time (`SPVM_API_elem_isa`).
-/
namespace SPVM

/-- `for (my $i = start; $i < start + n; $i++) body` for object methods. -/
def Prog.loopUp (start n : Nat) (body : Nat → Prog σ Unit) : Prog σ Unit :=
  match n with
  | 0 => pure ()
  | n + 1 => do
    body start
    Prog.loopUp (start + 1) n body

/-- `for (my $i = n - 1; $i >= 0; $i--) body` for object methods. -/
def Prog.loopDown (n : Nat) (body : Nat → Prog σ Unit) : Prog σ Unit :=
  match n with
  | 0 => pure ()
  | n + 1 => do
    body n
    Prog.loopDown n body

/-- `Array->memcpy_object_address`, Array.spvm 574-609, for two different array objects.  `accept` belongs to the
destination. -/
def memcpyObj (accept : α → Bool) (dest : List (Option α)) (destOffset : Int) (source : List (Option α))
    (sourceOffset length : Int) : Out (List (Option α)) :=
  if ¬ length ≥ 0 then .die msgLengthNeg
  else if ¬ destOffset ≥ 0 then .die msgDestOffNeg
  else if ¬ sourceOffset ≥ 0 then .die msgSourceOffNeg
  else do
    let dEnd ← add32 destOffset length
    if ¬ dEnd ≤ alen dest then .die msgDestRange
    else do
      let sEnd ← add32 sourceOffset length
      if ¬ sEnd ≤ alen source then .die msgSourceRange
      else
        forLoop 0 length.toNat (fun i dst => do
          let j ← add32 destOffset i
          let k ← add32 sourceOffset i
          let x ← aGet source k
          VM.setElementChecked accept dst j x) dest

/-- `Array->new_proto`, Array.spvm 1039-1041 and Array.c 622-644.  Simplification: when the allocation fails the real
function returns `undef`, and its callers in List.spvm throw at the following `memcpy_object_address` (except `init_len`);
here it throws itself. -/
def newProto (limit : Nat) (length : Int) : Out (List (Option α)) :=
  if ¬ length ≥ 0 then .die "The length $length must be greater than or equal to 0."
  else if length.toNat ≤ limit then .ok (List.replicate length.toNat none)
  else .die msgDestUndef

/-- The fields of a `List` object (List.spvm 14-20). -/
structure ObjList (α : Type) where
  capacity : Int
  length : Int
  array : List (Option α)
  offset : Int
deriving Repr, DecidableEq

namespace ObjList
variable {α : Type} (limit : Nat) (accept : α → Bool)

def msgIdxNeg : String := "The index $index must be greater than or equal to 0."
def msgIdxLt : String := "The index $index must be less than the length of $list."
def msgIdxLe : String := "The index $index must be less than or equal to the length of $list."
def msgEmpty : String := "The length of the list $list must be greater than 0."

/-- `init_len` / `new_len`, List.spvm 50-79. -/
def newLen (length : Int) (capacity : Int := -1) : Out (ObjList α) :=
  if ¬ length ≥ 0 then .die "The length $length must be greater than or equal to 0."
  else do
    let capacity := if capacity < 0 then 4 else capacity
    let capacity := if length > capacity then length else capacity
    let array ← newProto limit capacity
    return { capacity := capacity, length := length, array := array, offset := 0 }

/-- The length of an optional array argument. -/
def optLen (a : Option (List β)) : Int :=
  match a with
  | some a => alen a
  | none => 0

/-- `init` / `new`, List.spvm 23-48. -/
def new (array : Option (List (Option α))) (capacity : Int := -1) : Out (ObjList α) := do
  let length := optLen array
  let l ← newLen limit length capacity
  match array with
  | some a => do
    let arr ← memcpyObj accept l.array 0 a 0 length
    return { l with array := arr }
  | none => return l

/-- `_extend`, List.spvm 352-393. -/
def extend (newCapacityAtLeast : Int) (just : Bool := false) : Prog (ObjList α) Unit := do
  let l ← Prog.get
  let capacity := l.capacity
  if ¬ newCapacityAtLeast > capacity then return ()
  else do
    let newCapacity ← Prog.lift (
      if just then .ok newCapacityAtLeast
      else
        let base := if capacity < newCapacityAtLeast then newCapacityAtLeast else capacity
        mul32 base 2)
    let newArr ← Prog.lift (newProto limit newCapacity)
    if ¬ capacity = alen l.array then
      Prog.die "[Unexpected Error]The capacity field must be equal to the length of the array field."
    else do
      let n ← Prog.lift (sub32 capacity l.offset)
      let newArr ← Prog.lift (memcpyObj accept newArr l.offset l.array l.offset n)
      let newArr ← Prog.lift (memcpyObj accept newArr capacity l.array 0 l.offset)
      Prog.set { l with array := newArr, capacity := newCapacity }

/-- The position of element `index` in the ring, List.spvm 93-97 and 273-277. -/
def realIndex (l : ObjList α) (index : Int) : Out Int := do
  let s ← add32 l.offset index
  VM.modInt s l.capacity

/-- `get`, List.spvm 82-102. -/
def get (index : Int) : Prog (ObjList α) (Option α) := do
  let l ← Prog.get
  let length := l.length
  if ¬ index ≥ 0 then Prog.die msgIdxNeg
  else if ¬ index < length then Prog.die msgIdxLt
  else do
    let r ← Prog.lift (realIndex l index)
    Prog.lift (aGet l.array r)

/-- `set`, List.spvm 262-280. -/
def set (index : Int) (element : Option α) : Prog (ObjList α) Unit := do
  let l ← Prog.get
  let length := l.length
  if ¬ index ≥ 0 then Prog.die msgIdxNeg
  else if ¬ index < length then Prog.die msgIdxLt
  else do
    let r ← Prog.lift (realIndex l index)
    let arr ← Prog.lift (VM.setElementChecked accept l.array r element)
    Prog.set { l with array := arr }

/-- `pop`, List.spvm 127-143. -/
def pop : Prog (ObjList α) (Option α) := do
  let l ← Prog.get
  let length := l.length
  if ¬ length > 0 then Prog.die msgEmpty
  else do
    let index ← Prog.lift (sub32 length 1)
    let ret ← get index
    set accept index none
    let l ← Prog.get
    let n ← Prog.lift (sub32 l.length 1)
    Prog.set { l with length := n }
    return ret

/-- `push`, List.spvm 145-160. -/
def push (element : Option α) : Prog (ObjList α) Unit := do
  let l ← Prog.get
  let length := l.length
  let newLength ← Prog.lift (add32 length 1)
  extend limit accept newLength
  let index := length
  let l ← Prog.get
  Prog.set { l with length := newLength }
  set accept index element

/-- The part of `replace` that moves the elements behind the removed range, List.spvm 202-225. -/
def moveTail (index removeLength replaceLength : Int) : Prog (ObjList α) Unit := do
  let diffLength ← Prog.lift (sub32 replaceLength removeLength)
  let l ← Prog.get
  if diffLength = 0 then pure ()
  else if diffLength > 0 then do
    let moveLength ← Prog.lift (do let t ← sub32 l.length index; sub32 t removeLength)
    let len ← Prog.lift (add32 l.length diffLength)
    Prog.set { l with length := len }
    Prog.loopDown moveLength.toNat (fun i => do
      let src ← Prog.lift (do let t ← add32 index removeLength; add32 t i)
      let element ← get src
      let dst ← Prog.lift (do let t ← add32 index replaceLength; add32 t i)
      set accept dst element)
  else do
    let moveLength ← Prog.lift (do let t ← sub32 l.length index; sub32 t removeLength)
    Prog.loopUp 0 moveLength.toNat (fun i => do
      let src ← Prog.lift (do let t ← add32 index removeLength; add32 t i)
      let element ← get src
      let dst ← Prog.lift (do let t ← add32 index replaceLength; add32 t i)
      set accept dst element
      set accept src none)

/-- The part of `replace` that stores the replacement, List.spvm 229-234 (`repl = []` for `undef`). -/
def storeRepl (index : Int) (repl : List (Option α)) : Prog (ObjList α) Unit :=
  Prog.loopUp 0 repl.length (fun i => do
    let element ← Prog.lift (aGet repl i)
    let dst ← Prog.lift (add32 index i)
    set accept dst element)

/-- `replace`, List.spvm 182-236. -/
def replace (index removeLength : Int) (repl : Option (List (Option α))) : Prog (ObjList α) Unit := do
  let l ← Prog.get
  if ¬ index ≥ 0 then Prog.die msgIdxNeg
  else if ¬ removeLength ≥ 0 then Prog.die "The removal length $remove_length must be greater than or equal to 0."
  else do
    let e ← Prog.lift (add32 index removeLength)
    if ¬ e ≤ l.length then
      Prog.die "The index $index + the removal length $remove_length must be less than or equal to the length of this list."
    else do
      let replaceLength := optLen repl
      let newLength ← Prog.lift (do let t ← sub32 l.length removeLength; add32 t replaceLength)
      extend limit accept newLength
      moveTail accept index removeLength replaceLength
      let l ← Prog.get
      Prog.set { l with length := newLength }
      storeRepl accept index (repl.getD [])

/-- `insert`, List.spvm 104-125: the replacement array holds the element, or is `undef` when the element is `undef`.
Simplification: creating the one-element array does not fail. -/
def insert (index : Int) (element : Option α) : Prog (ObjList α) Unit := do
  let l ← Prog.get
  let length := l.length
  if ¬ index ≥ 0 then Prog.die msgIdxNeg
  else if ¬ index ≤ length then Prog.die msgIdxLe
  else replace limit accept index 0 (element.map fun e => [some e])

/-- `remove`, List.spvm 162-180. -/
def remove (index : Int) : Prog (ObjList α) (Option α) := do
  if ¬ index ≥ 0 then Prog.die msgIdxNeg
  else do
    let l ← Prog.get
    let length := l.length
    if ¬ index < length then Prog.die msgIdxLt
    else do
      let removeValue ← get index
      replace limit accept index 1 none
      return removeValue

/-- `reserve`, List.spvm 238-241. -/
def reserve (newCapacity : Int) : Prog (ObjList α) Unit :=
  extend limit accept newCapacity true

/-- The middle part of `resize`, List.spvm 251-258. -/
def resizeFill (length newLength : Int) : Prog (ObjList α) Unit :=
  if newLength > length then extend limit accept newLength
  else if newLength < length then
    Prog.loopUp newLength.toNat (length - newLength).toNat (fun index => set accept index none)
  else pure ()

/-- `resize`, List.spvm 243-260. -/
def resize (newLength : Int) : Prog (ObjList α) Unit := do
  let l ← Prog.get
  if ¬ newLength ≥ 0 then Prog.die "The new length $new_length must be greater than or equal to 0."
  else do
    resizeFill limit accept l.length newLength
    let l ← Prog.get
    Prog.set { l with length := newLength }

/-- `shift`, List.spvm 282-305. -/
def shift : Prog (ObjList α) (Option α) := do
  let l ← Prog.get
  if ¬ l.length > 0 then Prog.die msgEmpty
  else do
    let element ← get 0
    set accept 0 none
    let l ← Prog.get
    let n ← Prog.lift (sub32 l.length 1)
    Prog.set { l with length := n }
    let l ← Prog.get
    let o ← Prog.lift (add32 l.offset 1)
    Prog.set { l with offset := if o ≥ l.capacity then o - l.capacity else o }
    return element

/-- `to_array`, List.spvm 307-329. -/
def toArray : Prog (ObjList α) (List (Option α)) := do
  let l ← Prog.get
  let length := l.length
  let newArr ← Prog.lift (newProto limit length)
  let leftover ← Prog.lift (do let t ← sub32 l.capacity l.offset; sub32 length t)
  if leftover > 0 then do
    let n ← Prog.lift (sub32 length leftover)
    let newArr ← Prog.lift (memcpyObj accept newArr 0 l.array l.offset n)
    Prog.lift (memcpyObj accept newArr n l.array 0 leftover)
  else
    Prog.lift (memcpyObj accept newArr 0 l.array l.offset length)

/-- `unshift`, List.spvm 331-350. -/
def unshift (element : Option α) : Prog (ObjList α) Unit := do
  let l ← Prog.get
  let newLength ← Prog.lift (add32 l.length 1)
  extend limit accept newLength
  let l ← Prog.get
  let o ← Prog.lift (sub32 l.offset 1)
  let n ← Prog.lift (add32 l.length 1)
  Prog.set { l with offset := if o < 0 then l.capacity - 1 else o, length := n }
  set accept 0 element

/-- Method dispatch for the user-visible operations (`length`: the generated reader, List.spvm 16). -/
def step : Spec.Seq.Op (Option α) → Prog (ObjList α) (Spec.Seq.Res (Option α))
  | .length => do let l ← Prog.get; return .num l.length
  | .get i => do let a ← get i; return .elem a
  | .toArray => do let a ← toArray limit accept; return .arr a
  | .set i e => do set accept i e; return .unit
  | .push e => do push limit accept e; return .unit
  | .pop => do let a ← pop accept; return .elem a
  | .unshift e => do unshift limit accept e; return .unit
  | .shift => do let a ← shift accept; return .elem a
  | .insert i e => do insert limit accept i e; return .unit
  | .remove i => do let a ← remove limit accept i; return .elem a
  | .replace o n r => do replace limit accept o n r; return .unit
  | .resize n => do resize limit accept n; return .unit
  | .reserve n => do reserve limit accept n; return .unit

/-- A history of method calls, each wrapped in `eval`. -/
def run (l : ObjList α) : List (Spec.Seq.Op (Option α)) → List (Out (Spec.Seq.Res (Option α)))
  | [] => []
  | op :: ops => (step limit accept op l).1 :: run (step limit accept op l).2 ops

end ObjList
end SPVM
