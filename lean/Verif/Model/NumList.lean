import Verif.Model.ArrayC
import Verif.Spec.Seq
/-!
# Numeric lists (lib/SPVM/IntList.spvm)

`ByteList`, `ShortList`, `LongList`, `FloatList` and `DoubleList` are textual copies of `IntList.spvm` with another
element type (checked with `diff`; ByteList/ShortList additionally cast the `int` argument to the element type before
storing it), so the model is generic in the element type `α` with its zero value.  `limit` is the allocation limit of
`newArray`.  The internal array is a value: aliasing through `get_array_unsafe` (262-264) is not modelled.
-/
namespace SPVM

/-- The fields of an `IntList` object (IntList.spvm 14-16). -/
structure NumList (α : Type) where
  capacity : Int
  length : Int
  array : List α
deriving Repr, DecidableEq

namespace NumList
variable {α : Type} (limit : Nat) (zero : α)

def msgIdxNeg : String := "The index $index must be greater than or equal to 0."
def msgIdxLt : String := "The index $index must be less than the length of $list."
def msgIdxLe : String := "The index $index must be less than or equal to the length of $list."
def msgEmpty : String := "The length of the list $list must be greater than 0."

/-- The length of an optional array argument, 0 for `undef` (IntList.spvm 20-26 and 164-167). -/
def optLen (a : Option (List α)) : Int :=
  match a with
  | some a => alen a
  | none => 0

/-- `new_len`, IntList.spvm 37-57. -/
def newLen (length : Int) (capacity : Int := -1) : Out (NumList α) :=
  if ¬ length ≥ 0 then .die "The length $length must be greater than or equal to 0."
  else do
    let capacity := if capacity < 0 then 4 else capacity
    let capacity := if length > capacity then length else capacity
    let array ← newArray limit zero capacity
    return { capacity := capacity, length := length, array := array }

/-- `new`, IntList.spvm 19-35. -/
def new (array : Option (List α)) (capacity : Int := -1) : Out (NumList α) := do
  let length := optLen array
  let self ← newLen limit zero length capacity
  match array with
  | some a => do
    let arr ← arrayMemcpy false (some self.array) 0 (some a) 0 length
    return { self with array := arr }
  | none => return self

/-- `_maybe_extend`, IntList.spvm 281-301. -/
def maybeExtend (minCapacity : Int) : Prog (NumList α) Unit := do
  let self ← Prog.get
  let capacity := self.capacity
  if ¬ minCapacity > capacity then return ()
  else do
    let capacity := if capacity < minCapacity then minCapacity else capacity
    let newCapacity ← Prog.lift (mul32 capacity 2)
    let newArr ← Prog.lift (newArray limit zero newCapacity)
    let length := self.length
    let newArr ← Prog.lift (arrayMemcpy false (some newArr) 0 (some self.array) 0 length)
    Prog.set { self with array := newArr, capacity := newCapacity }

/-- `get`, IntList.spvm 60-74. -/
def get (index : Int) : Prog (NumList α) α := do
  let self ← Prog.get
  let length := self.length
  if ¬ index ≥ 0 then Prog.die msgIdxNeg
  else if ¬ index < length then Prog.die msgIdxLt
  else Prog.lift (aGet self.array index)

/-- `insert`, IntList.spvm 76-99. -/
def insert (index : Int) (element : α) : Prog (NumList α) Unit := do
  let self ← Prog.get
  let length := self.length
  if ¬ index ≥ 0 then Prog.die msgIdxNeg
  else if ¬ index ≤ length then Prog.die msgIdxLe
  else do
    let newLength ← Prog.lift (add32 length 1)
    maybeExtend limit zero newLength
    let self ← Prog.get
    let elements ← Prog.lift (
      if index ≠ length then do
        let distIndex ← add32 index 1
        let moveLength ← sub32 length index
        arrayMemmove (some self.array) distIndex (some self.array) index moveLength
      else .ok self.array)
    Prog.set { self with array := elements }
    let elements ← Prog.lift (aSet elements index element)
    Prog.set { self with array := elements, length := newLength }

/-- `pop`, IntList.spvm 101-115. -/
def pop : Prog (NumList α) α := do
  let self ← Prog.get
  let length := self.length
  if ¬ length > 0 then Prog.die msgEmpty
  else do
    let last ← Prog.lift (sub32 length 1)
    let element ← Prog.lift (aGet self.array last)
    let arr ← Prog.lift (aSet self.array last zero)
    Prog.set { self with array := arr, length := last }
    return element

/-- `push`, IntList.spvm 117-126. -/
def push (element : α) : Prog (NumList α) Unit := do
  let self ← Prog.get
  let length := self.length
  let newLength ← Prog.lift (add32 length 1)
  maybeExtend limit zero newLength
  let self ← Prog.get
  let arr ← Prog.lift (aSet self.array length element)
  Prog.set { self with array := arr, length := newLength }

/-- `remove`, IntList.spvm 128-150. -/
def remove (index : Int) : Prog (NumList α) α := do
  let self ← Prog.get
  let length := self.length
  if ¬ index ≥ 0 then Prog.die msgIdxNeg
  else if ¬ index < length then Prog.die msgIdxLt
  else do
    let elements := self.array
    let removeValue ← Prog.lift (aGet elements index)
    let distIndex := index
    let srcIndex ← Prog.lift (add32 index 1)
    let moveLength ← Prog.lift (do let t ← sub32 length index; sub32 t 1)
    let elements ← Prog.lift (arrayMemmove (some elements) distIndex (some elements) srcIndex moveLength)
    let newLength ← Prog.lift (sub32 length 1)
    Prog.set { self with array := elements, length := newLength }
    return removeValue

/-- `replace`, IntList.spvm 152-180. -/
def replace (offset removeLength : Int) (repl : Option (List α)) : Prog (NumList α) Unit := do
  let self ← Prog.get
  if ¬ offset ≥ 0 then Prog.die "The offset $offset must be greater than or equal to 0."
  else if ¬ removeLength ≥ 0 then Prog.die "The removal length $remove_length must be greater than or equal to 0."
  else do
    let e ← Prog.lift (add32 offset removeLength)
    if ¬ e ≤ self.length then
      Prog.die "$offset + $removing length must be less than or equal to the length of $list."
    else do
      let replaceLength := optLen repl
      let newLength ← Prog.lift (do let t ← sub32 self.length removeLength; add32 t replaceLength)
      maybeExtend limit zero newLength
      let self ← Prog.get
      let moveLength ← Prog.lift (do let t ← sub32 self.length offset; sub32 t removeLength)
      let d ← Prog.lift (add32 offset replaceLength)
      let s ← Prog.lift (add32 offset removeLength)
      let arr ← Prog.lift (arrayMemmove (some self.array) d (some self.array) s moveLength)
      Prog.set { self with array := arr }
      let arr ← Prog.lift (match repl with
        | some r => arrayMemcpy false (some arr) offset (some r) 0 replaceLength
        | none => .ok arr)
      Prog.set { self with array := arr, length := newLength }

/-- `reserve`, IntList.spvm 182-196. -/
def reserve (newCapacity : Int) : Prog (NumList α) Unit := do
  let self ← Prog.get
  if ¬ newCapacity ≥ 0 then Prog.die "The new capacity $new_capacity must be greater than or equal to 0."
  else if newCapacity > self.capacity then do
    let length := self.length
    let newArr ← Prog.lift (newArray limit zero newCapacity)
    let newArr ← Prog.lift (arrayMemcpy false (some newArr) 0 (some self.array) 0 length)
    Prog.set { self with array := newArr, capacity := newCapacity }
  else return ()

/-- `resize`, IntList.spvm 198-214. -/
def resize (newLength : Int) : Prog (NumList α) Unit := do
  let self ← Prog.get
  if ¬ newLength ≥ 0 then Prog.die "The new length $new_length must be greater than or equal to 0."
  else do
    let length := self.length
    if newLength > length then do
      maybeExtend limit zero newLength
      let self ← Prog.get
      let n ← Prog.lift (sub32 newLength length)
      let arr ← Prog.lift (arrayMemset self.array zero length n)
      Prog.set { self with array := arr, length := newLength }
    else if newLength < length then do
      let n ← Prog.lift (sub32 length newLength)
      let arr ← Prog.lift (arrayMemset self.array zero newLength n)
      Prog.set { self with array := arr, length := newLength }
    else
      Prog.set { self with length := newLength }

/-- `set`, IntList.spvm 216-228. -/
def set (index : Int) (element : α) : Prog (NumList α) Unit := do
  let self ← Prog.get
  let length := self.length
  if ¬ index ≥ 0 then Prog.die msgIdxNeg
  else if ¬ index < length then Prog.die msgIdxLt
  else do
    let arr ← Prog.lift (aSet self.array index element)
    Prog.set { self with array := arr }

/-- `shift`, IntList.spvm 230-248. -/
def shift : Prog (NumList α) α := do
  let self ← Prog.get
  let length := self.length
  if ¬ length > 0 then Prog.die msgEmpty
  else do
    let elements := self.array
    let element ← Prog.lift (aGet elements 0)
    let n ← Prog.lift (sub32 length 1)
    let elements ← Prog.lift (arrayMemmove (some elements) 0 (some elements) 1 n)
    Prog.set { self with array := elements }
    let elements ← Prog.lift (aSet elements n zero)
    Prog.set { self with array := elements, length := n }
    return element

/-- `to_array`, IntList.spvm 250-260. -/
def toArray : Prog (NumList α) (List α) := do
  let self ← Prog.get
  let length := self.length
  let newArr ← Prog.lift (newArray limit zero length)
  Prog.lift (arrayMemcpy false (some newArr) 0 (some self.array) 0 length)

/-- `unshift`, IntList.spvm 266-279. -/
def unshift (element : α) : Prog (NumList α) Unit := do
  let self ← Prog.get
  let length := self.length
  let newLength ← Prog.lift (add32 length 1)
  maybeExtend limit zero newLength
  let self ← Prog.get
  let elements ← Prog.lift (arrayMemmove (some self.array) 1 (some self.array) 0 length)
  Prog.set { self with array := elements }
  let elements ← Prog.lift (aSet elements 0 element)
  Prog.set { self with array := elements, length := newLength }

/-- Method dispatch: the method call for each user-visible operation (`length` is the generated reader of the field,
IntList.spvm 15). -/
def step : Spec.Seq.Op α → Prog (NumList α) (Spec.Seq.Res α)
  | .length => do let self ← Prog.get; return .num self.length
  | .get i => do let a ← get i; return .elem a
  | .toArray => do let a ← toArray limit zero; return .arr a
  | .set i e => do set i e; return .unit
  | .push e => do push limit zero e; return .unit
  | .pop => do let a ← pop zero; return .elem a
  | .unshift e => do unshift limit zero e; return .unit
  | .shift => do let a ← shift zero; return .elem a
  | .insert i e => do insert limit zero i e; return .unit
  | .remove i => do let a ← remove i; return .elem a
  | .replace o n r => do replace limit zero o n r; return .unit
  | .resize n => do resize limit zero n; return .unit
  | .reserve n => do reserve limit zero n; return .unit

/-- A history of method calls, each wrapped in `eval` (exceptions are caught and the history goes on). -/
def run (self : NumList α) : List (Spec.Seq.Op α) → List (Out (Spec.Seq.Res α))
  | [] => []
  | op :: ops => (step limit zero op self).1 :: run (step limit zero op self).2 ops

end NumList
end SPVM
