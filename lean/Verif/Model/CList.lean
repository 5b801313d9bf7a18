import Verif.Model.ArrayC
import Verif.Spec.CList
/-!
# `SPVM_LIST` (lib/SPVM/Builder/src/spvm_list.c)

Allocation (`calloc`) is assumed to succeed; the choice between temporary and permanent blocks does not change the
values.  Violated `assert`s and accesses outside the block are `ub`.
-/
namespace SPVM
namespace CList
variable {α : Type}

/-- `SPVM_LIST` (spvm_list.h): `values` is the whole block, its length is `capacity`. -/
structure CList (α : Type) where
  values : List α
  length : Nat
deriving DecidableEq, Repr

/-- `list->capacity`. -/
def CList.capacity (l : CList α) : Nat := l.values.length

/-- `SPVM_LIST_new`, spvm_list.c 11-53. -/
def new (null : α) (capacity : Int) : Out (CList α) :=
  if ¬ capacity ≥ 0 then .ub
  else if capacity = 0 then .ok { values := [null], length := 0 }
  else .ok { values := List.replicate capacity.toNat null, length := 0 }

/-- `SPVM_LIST_maybe_extend`, spvm_list.c 64-101. -/
def maybeExtend (null : α) (l : CList α) : Out (CList α) :=
  if l.length ≥ l.capacity then do
    let newCapacity ← mul32 l.capacity 2
    let newValues := List.replicate newCapacity.toNat null
    let newValues ← rawMove newValues 0 l.values 0 l.capacity
    .ok { l with values := newValues }
  else .ok l

/-- A write to `list->values[i]`. -/
def write (values : List α) (i : Nat) (v : α) : Out (List α) := if i < values.length then .ok (values.set i v) else .ub
/-- A read of `list->values[i]`. -/
def read (values : List α) (i : Nat) : Out α := match values[i]? with
  | some v => .ok v
  | none => .ub

/-- `SPVM_LIST_push`, spvm_list.c 119-127. -/
def push (null : α) (l : CList α) (v : α) : Out (CList α) := do
  let l ← maybeExtend null l
  let values ← write l.values l.length v
  .ok { values := values, length := l.length + 1 }

/-- `SPVM_LIST_unshift`, spvm_list.c 129-139. -/
def unshift (null : α) (l : CList α) (v : α) : Out (CList α) := do
  let l ← maybeExtend null l
  let values ← rawMove l.values 1 l.values 0 l.length
  let values ← write values 0 v
  .ok { values := values, length := l.length + 1 }

/-- `SPVM_LIST_get`, spvm_list.c 141-148. -/
def get (l : CList α) (index : Int) : Out α :=
  if ¬ index ≥ 0 then .ub
  else if ¬ index < l.length then .ub
  else read l.values index.toNat

/-- `SPVM_LIST_set`, spvm_list.c 150-157. -/
def set (l : CList α) (index : Int) (v : α) : Out (CList α) :=
  if ¬ index ≥ 0 then .ub
  else if ¬ index < l.length then .ub
  else do
    let values ← write l.values index.toNat v
    .ok { l with values := values }

/-- `SPVM_LIST_pop`, spvm_list.c 159-170. -/
def pop (null : α) (l : CList α) : Out (α × CList α) :=
  if l.length = 0 then .ok (null, l)
  else do
    let v ← read l.values (l.length - 1)
    .ok (v, { l with length := l.length - 1 })

/-- `SPVM_LIST_clear`, spvm_list.c 172-177 (counting `length` down to 0). -/
def clear (l : CList α) : CList α := { l with length := 0 }

/-- One round of the loop of `SPVM_LIST_shift`: `values[i] = values[i + 1]`. -/
def shiftBody (i : Nat) (values : List α) : Out (List α) := do
  let v ← read values (i + 1)
  write values i v

/-- `SPVM_LIST_shift`, spvm_list.c 179-195. -/
def shift (null : α) (l : CList α) : Out (α × CList α) :=
  if l.length = 0 then .ok (null, l)
  else do
    let ret ← read l.values 0
    let values ← forLoop 0 (l.length - 1) shiftBody l.values
    .ok (ret, { values := values, length := l.length - 1 })

/-- One call of the interface. -/
def step (null : α) (l : CList α) : Spec.CList.Op α → Out (Spec.CList.Res α × CList α)
  | .push v => do let l ← push null l v; .ok (.unit, l)
  | .unshift v => do let l ← unshift null l v; .ok (.unit, l)
  | .get i => do let v ← get l i; .ok (.ptr v, l)
  | .set i v => do let l ← set l i v; .ok (.unit, l)
  | .pop => do let (v, l) ← pop null l; .ok (.ptr v, l)
  | .shift => do let (v, l) ← shift null l; .ok (.ptr v, l)
  | .clear => .ok (.unit, clear l)
  | .length => .ok (.num l.length, l)

/-- A history of calls. -/
def run (null : α) (l : CList α) : List (Spec.CList.Op α) → Out (List (Spec.CList.Res α) × CList α)
  | [] => .ok ([], l)
  | op :: ops => do
    let (r, l) ← step null l op
    let (rs, l) ← run null l ops
    .ok (r :: rs, l)

end CList
end SPVM
