import Verif.Model.ArrayC
/-!
# The memory block accounting of the compiler (lib/SPVM/Builder/src/spvm_allocator.c)

Blocks are numbered by allocation.  `live` is the set of blocks `calloc` has given out and `free` has not taken back;
freeing any other block is `ub` (double free).  Whether `calloc` succeeds is a parameter of each call (`avail`).
-/
namespace SPVM
namespace Alloc

/-- The C heap. -/
structure Heap where
  next : Nat
  live : List Nat
deriving DecidableEq, Repr

/-- `SPVM_ALLOCATOR_alloc_memory_block_unmanaged`, spvm_allocator.c 30-43. (`size > SIZE_MAX` never holds.) -/
def calloc (h : Heap) (size : Nat) (avail : Bool) : Option Nat × Heap :=
  if size < 1 then (none, h)
  else if avail then (some h.next, { next := h.next + 1, live := h.next :: h.live })
  else (none, h)

/-- `SPVM_ALLOCATOR_free_memory_block_unmanaged`, spvm_allocator.c 45-47: C `free`. -/
def cfree (h : Heap) (b : Option Nat) : Out Heap :=
  match b with
  | none => .ok h
  | some b => if b ∈ h.live then .ok { h with live := h.live.erase b } else .ub

/-- `SPVM_ALLOCATOR` (spvm_allocator.h) with the heap.  `permBlocks` are the cells of `permanent_memory_blocks` (its length is
the capacity); `self` and `array` are the blocks of the structure and of that array. -/
structure Allocator where
  heap : Heap
  self : Nat
  array : Nat
  permBlocks : List (Option Nat)
  permLength : Nat
  countTmp : Int
  countPerm : Int
deriving DecidableEq, Repr

/-- `SPVM_ALLOCATOR_new`, spvm_allocator.c 11-22, from an empty heap; its two allocations are assumed to succeed. -/
def new : Allocator :=
  { heap := { next := 2, live := [1, 0] }, self := 0, array := 1, permBlocks := List.replicate 1024 none, permLength := 0,
    countTmp := 0, countPerm := 0 }

/-- `SPVM_ALLOCATOR_get_memory_blocks_count`, spvm_allocator.c 24-28. -/
def count (a : Allocator) : Out Int := add32 a.countTmp a.countPerm

/-- `SPVM_ALLOCATOR_alloc_memory_block_tmp`, spvm_allocator.c 49-59. -/
def allocTmp (a : Allocator) (size : Nat) (avail : Bool) : Out (Option Nat × Allocator) :=
  match calloc a.heap size avail with
  | (some b, h) => do
    let n ← add32 a.countTmp 1
    .ok (some b, { a with heap := h, countTmp := n })
  | (none, h) => .ok (none, { a with heap := h })

/-- `SPVM_ALLOCATOR_free_memory_block_tmp`, spvm_allocator.c 61-68. -/
def freeTmp (a : Allocator) (b : Option Nat) : Out Allocator :=
  match b with
  | some b => do
    let h ← cfree a.heap (some b)
    let n ← sub32 a.countTmp 1
    .ok { a with heap := h, countTmp := n }
  | none => .ok a

/-- The growth of the array, spvm_allocator.c 78-88 (the allocation of the new array is assumed to succeed). -/
def grow (a : Allocator) : Out Allocator :=
  if a.permLength ≥ a.permBlocks.length then do
    let n ← mul32 a.permBlocks.length 2
    let (b, h) := calloc a.heap 1 true
    let cells ← rawMove (List.replicate n.toNat none) 0 a.permBlocks 0 a.permBlocks.length
    let h ← cfree h (some a.array)
    match b with
    | some b => .ok { a with heap := h, array := b, permBlocks := cells }
    | none => .ub
  else .ok a

/-- `SPVM_ALLOCATOR_alloc_memory_block_permanent`, spvm_allocator.c 70-95. -/
def allocPerm (a : Allocator) (size : Nat) (avail : Bool) : Out (Option Nat × Allocator) := do
  let (b, h) := calloc a.heap size avail
  let n ← add32 a.countPerm 1
  let a ← grow { a with heap := h, countPerm := n }
  if a.permLength < a.permBlocks.length then
    .ok (b, { a with permBlocks := a.permBlocks.set a.permLength b, permLength := a.permLength + 1 })
  else .ub

/-- The loop of `SPVM_ALLOCATOR_free`, spvm_allocator.c 108-114, with `SPVM_ALLOCATOR_free_memory_block_permanent`, 97-103:
the heap and the counter. -/
def freeLoop : List (Option Nat) → Heap × Int → Out (Heap × Int)
  | [], s => .ok s
  | none :: bs, s => freeLoop bs s
  | some b :: bs, (h, n) => do
    let h ← cfree h (some b)
    let n ← sub32 n 1
    freeLoop bs (h, n)

/-- `SPVM_ALLOCATOR_free`, spvm_allocator.c 105-122: the heap afterwards and the two counters the final `assert`s look at. -/
def free (a : Allocator) : Out (Heap × Int × Int) := do
  let (h, n) ← freeLoop (a.permBlocks.take a.permLength) (a.heap, a.countPerm)
  let h ← cfree h (some a.array)
  let h ← cfree h (some a.self)
  .ok (h, a.countTmp, n)

/-- The calls clients make. -/
inductive Op where
  | allocTmp (size : Nat) (avail : Bool)
  | freeTmp (b : Option Nat)
  | allocPerm (size : Nat) (avail : Bool)
deriving DecidableEq, Repr

/-- One call: the pointer returned. -/
def step (a : Allocator) : Op → Out (Option Nat × Allocator)
  | .allocTmp size avail => allocTmp a size avail
  | .freeTmp b => do let a ← freeTmp a b; .ok (none, a)
  | .allocPerm size avail => allocPerm a size avail

end Alloc
end SPVM
