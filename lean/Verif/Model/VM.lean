import Verif.Model.ArrayC
/-!
# Virtual machine operations (lib/SPVM/Builder/include/spvm_implement.h)
-/
namespace SPVM
namespace VM

def msgDivZero : String := "Integral type values cannot be divided by 0."

/-- The smallest `int` / `long`. -/
def minInt : Int := -2147483648
def minLong : Int := -9223372036854775808

/-- Signed C division of operands of a type with minimum `lo`: truncates, undefined for `lo / -1`. -/
def cDiv (lo a b : Int) : Out Int := if a = lo ∧ b = -1 then .ub else .ok (a.tdiv b)
/-- Signed C remainder (same definedness as division, C11 6.5.5p6). -/
def cRem (lo a b : Int) : Out Int := if a = lo ∧ b = -1 then .ub else .ok (a.tmod b)

/-- `SPVM_IMPLEMENT_DIVIDE_INT` / `_LONG`, spvm_implement.h 211-231 (`lo` selects the type). -/
def divide (lo a b : Int) : Out Int :=
  if b = 0 then .die msgDivZero else cDiv lo a b

/-- `SPVM_IMPLEMENT_MODULO_INT` / `_LONG`, spvm_implement.h 259-283. -/
def modulo (lo a b : Int) : Out Int :=
  if b = 0 then .die msgDivZero
  else do
    let ret ← cRem lo a b
    -- `ret += in2` in the type of the operands
    if ((decide (a < 0)) != (decide (b < 0))) ∧ ret ≠ 0 then
      (if lo ≤ ret + b ∧ ret + b ≤ -lo - 1 then .ok (ret + b) else .ub)
    else .ok ret

/-- `SPVM_IMPLEMENT_DIVIDE_UNSIGNED_INT` / `_LONG`, spvm_implement.h 237-257: operands reinterpreted as unsigned. -/
def divideUnsigned {w : Nat} (a b : BitVec w) : Out (BitVec w) :=
  if b = 0 then .die msgDivZero else .ok (BitVec.ofNat w (a.toNat / b.toNat))

/-- `SPVM_IMPLEMENT_MODULO_UNSIGNED_INT` / `_LONG`, spvm_implement.h 285-305. -/
def moduloUnsigned {w : Nat} (a b : BitVec w) : Out (BitVec w) :=
  if b = 0 then .die msgDivZero else .ok (BitVec.ofNat w (a.toNat % b.toNat))

/-- `$a % $b` on `int`. -/
abbrev modInt (a b : Int) : Out Int := modulo minInt a b
/-- `$a / $b` on `int`. -/
abbrev divInt (a b : Int) : Out Int := divide minInt a b

/-- Shift amount valid for C on a `w`-bit operand. -/
def shiftOk (w : Nat) (n : Int) : Prop := 0 ≤ n ∧ n < w
instance (w n) : Decidable (shiftOk w n) := by unfold shiftOk; infer_instance

/-- `SPVM_IMPLEMENT_LEFT_SHIFT_INT`/`_LONG`, spvm_implement.h 307-308: C `<<` on a signed operand is undefined for a
shift count outside `0..w-1`, for a negative operand, and when the product is not representable (C11 6.5.7p4). -/
def leftShift (w : Nat) (a n : Int) : Out Int :=
  if shiftOk w n ∧ 0 ≤ a ∧ a * 2 ^ n.toNat < 2 ^ (w - 1) then .ok (a * 2 ^ n.toNat) else .ub

/-- `SPVM_IMPLEMENT_RIGHT_ARITHMETIC_SHIFT_INT`/`_LONG`, spvm_implement.h 310-311 (arithmetic shift, as all supported
compilers implement `>>` on negative operands). -/
def rightArithShift (w : Nat) (a n : Int) : Out Int :=
  if shiftOk w n then .ok (a / 2 ^ n.toNat) else .ub

/-- `SPVM_IMPLEMENT_RIGHT_LOGICAL_SHIFT_INT`/`_LONG`, spvm_implement.h 313-314. -/
def rightLogicShift {w : Nat} (a : BitVec w) (n : Int) : Out (BitVec w) :=
  if shiftOk w n then .ok (a >>> n.toNat) else .ub

/-! ## Element access -/

/-- `SPVM_IMPLEMENT_GET_ARRAY_ELEMENT_*`, spvm_implement.h 785-916, including the `undef` check. -/
def getElement (array : Option (List α)) (index : Int) : Out α :=
  match array with
  | none => .die msgArrayUndef
  | some a => aGet a index

/-- `SPVM_IMPLEMENT_SET_ARRAY_ELEMENT_*`, spvm_implement.h 918-1023; result: the new contents of the array. -/
def setElement (array : Option (List α)) (index : Int) (x : α) : Out (List α) :=
  match array with
  | none => .die msgArrayUndef
  | some a => aSet a index x

def msgElemType : String := "An element assignment failed. The element must be assigned to the element type of the array."

/-- `SPVM_IMPLEMENT_SET_ARRAY_ELEMENT_OBJECT_CHECK_TYPE`, spvm_implement.h 1045-1070, for an `object[]`.  `accept` is
`SPVM_API_elem_isa` (spvm_api.c 4510-4524) for this array; `undef` (`none`) is always accepted
(`SPVM_API_isa`, spvm_api.c 4552-4572). -/
def setElementChecked (accept : α → Bool) (a : List (Option α)) (index : Int) (x : Option α) : Out (List (Option α)) :=
  if index < 0 ∨ index ≥ alen a then .die msgIndexRange
  else match x with
    | none => aSet a index none
    | some v => if accept v then aSet a index (some v) else .die msgElemType

/-! ## Multi-numeric arrays

The block of a multi-numeric array holds `fields_length * (length + 1)` cells. -/

/-- A multi-numeric array object: its length and the cells of its block. -/
structure MulArray (α : Type) where
  length : Int
  cells : List α
deriving Repr, DecidableEq

def msgMulLen : String := "A new operator to create a multi-numeric array failed. The length must be a non-negative integer."

/-- `SPVM_IMPLEMENT_NEW_MULNUM_ARRAY` (spvm_implement.h 616-640) with `SPVM_API_new_mulnum_array_no_mortal` (spvm_api.c
4051-4089): the size `unit_size * fields_length * (length + 1)` is computed in `int` (all three factors are `int32_t`). -/
def newMulArray (limit : Nat) (zero : α) (unitSize fieldsLength length : Int) : Out (MulArray α) :=
  if length ≥ 0 then do
    let t ← mul32 unitSize fieldsLength
    let l1 ← add32 length 1
    let size ← mul32 t l1
    if size.toNat ≤ limit then .ok { length := length, cells := List.replicate (fieldsLength * l1).toNat zero }
    else .die msgNewArrayMem
  else .die msgMulLen

/-- One cell of a block: undefined outside the block. -/
def cell (cells : List α) (k : Int) : Out α :=
  if 0 ≤ k then match cells[k.toNat]? with
    | some x => .ok x
    | none => .ub
  else .ub

def setCell (cells : List α) (k : Int) (x : α) : Out (List α) :=
  if 0 ≤ k ∧ k.toNat < cells.length then .ok (cells.set k.toNat x) else .ub

/-- `SPVM_IMPLEMENT_GET_MULNUM_ARRAY_FIELD_*`, spvm_implement.h 1756-1862. -/
def getMulField (array : Option (MulArray α)) (index fieldIndex fieldsLength : Int) : Out α :=
  match array with
  | none => .die msgArrayUndef
  | some a =>
    if index < 0 ∨ index ≥ a.length then .die msgIndexRange
    else do
      let p ← mul32 fieldsLength index
      let k ← add32 p fieldIndex
      cell a.cells k

/-- `SPVM_IMPLEMENT_SET_MULNUM_ARRAY_FIELD_*`, spvm_implement.h 1864-1970. -/
def setMulField (array : Option (MulArray α)) (index fieldIndex fieldsLength : Int) (x : α) : Out (MulArray α) :=
  match array with
  | none => .die msgArrayUndef
  | some a =>
    if index < 0 ∨ index ≥ a.length then .die msgIndexRange
    else do
      let p ← mul32 fieldsLength index
      let k ← add32 p fieldIndex
      let c ← setCell a.cells k x
      return { a with cells := c }

/-- `SPVM_IMPLEMENT_GET_MULNUM_ARRAY_*`, spvm_implement.h 1504-1628: reads all fields of one element. -/
def getMulElement (array : Option (MulArray α)) (index fieldsLength : Int) : Out (List α) :=
  match array with
  | none => .die msgArrayUndef
  | some a =>
    if index < 0 ∨ index ≥ a.length then .die msgIndexRange
    else
      forLoop 0 fieldsLength.toNat (fun f out => do
        let p ← mul32 fieldsLength index
        let k ← add32 p f
        let x ← cell a.cells k
        return out ++ [x]) []

/-- `SPVM_IMPLEMENT_SET_MULNUM_ARRAY_*`, spvm_implement.h 1630-1754: writes all fields `ins` of one element. -/
def setMulElement (array : Option (MulArray α)) (index : Int) (ins : List α) : Out (MulArray α) :=
  match array with
  | none => .die msgArrayUndef
  | some a =>
    if index < 0 ∨ index ≥ a.length then .die msgIndexRange
    else do
      let c ← forLoop 0 ins.length (fun f cells => do
        let p ← mul32 ins.length index
        let k ← add32 p f
        let x ← cell ins f
        setCell cells k x) a.cells
      return { a with cells := c }

/-! ## String comparison -/

/-- Byte strings. -/
abbrev Bytes := List UInt8

/-- C `memcmp` on the first `n` bytes (only the sign is used by the callers): the difference of the first differing
bytes as `unsigned char`. Undefined if a block is shorter than `n`. -/
def memcmp : Bytes → Bytes → Nat → Out Int
  | _, _, 0 => .ok 0
  | a :: as, b :: bs, n + 1 => if a = b then memcmp as bs n else .ok ((a.toNat : Int) - b.toNat)
  | _, _, _ + 1 => .ub

/-- The `cmp` part of `SPVM_IMPLEMENT_STRING_COMPARISON`, spvm_implement.h 488-524. -/
def stringCmp (s1 s2 : Option Bytes) : Out Int :=
  match s1, s2 with
  | none, none => .ok 0
  | some _, none => .ok 1
  | none, some _ => .ok (-1)
  | some b1, some b2 => do
    let short := if b1.length < b2.length then b1.length else b2.length
    let ret ← memcmp b1 b2 short
    if ret ≠ 0 then return (if ret < 0 then -1 else 1)
    else if b1.length = b2.length then return 0
    else return (if b1.length < b2.length then -1 else 1)

/-- The seven string comparison operators. -/
inductive StrOp | eq | ne | gt | ge | lt | le | cmp
deriving DecidableEq, Repr

/-- The `switch` of `SPVM_IMPLEMENT_STRING_COMPARISON`, spvm_implement.h 526-556. -/
def stringComparison (op : StrOp) (s1 s2 : Option Bytes) : Out Int := do
  let cmp ← stringCmp s1 s2
  let b2i (b : Bool) : Int := if b then 1 else 0
  return match op with
  | .eq => b2i (cmp == 0)
  | .ne => b2i (cmp != 0)
  | .gt => b2i (decide (cmp > 0))
  | .ge => b2i (decide (cmp ≥ 0))
  | .lt => b2i (decide (cmp < 0))
  | .le => b2i (decide (cmp ≤ 0))
  | .cmp => cmp

/-- `SPVM_IMPLEMENT_NUMERIC_COMPARISON_CMP_INT`/`_LONG`, spvm_implement.h 480-481. -/
def numCmp (a b : Int) : Int := if a > b then 1 else if a < b then -1 else 0

end VM
end SPVM
