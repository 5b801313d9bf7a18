/-!
# Specification of the runtime's pointer list (spvm_list.h)

A list is a mathematical sequence of pointers.  `none` = the caller broke the interface contract (an index outside the
list).  `pop` and `shift` of the empty list return `NULL`.
-/
namespace SPVM.Spec.CList

inductive Op (α : Type) where
  | push (v : α)
  | unshift (v : α)
  | get (i : Int)
  | set (i : Int) (v : α)
  | pop
  | shift
  | clear
  | length
deriving Repr, DecidableEq

inductive Res (α : Type) where
  | unit
  | ptr (v : α)
  | num (n : Int)
deriving Repr, DecidableEq

def step (null : α) (xs : List α) : Op α → Option (Res α × List α)
  | .push v => some (.unit, xs ++ [v])
  | .unshift v => some (.unit, v :: xs)
  | .get i => if 0 ≤ i then (xs[i.toNat]?).map fun v => (.ptr v, xs) else none
  | .set i v => if 0 ≤ i ∧ i < xs.length then some (.unit, xs.set i.toNat v) else none
  | .pop => some (.ptr (xs.getLast?.getD null), xs.dropLast)
  | .shift => some (.ptr (xs.head?.getD null), xs.tail)
  | .clear => some (.unit, [])
  | .length => some (.num xs.length, xs)

/-- A history: the results and the final sequence. -/
def run (null : α) (xs : List α) : List (Op α) → Option (List (Res α) × List α)
  | [] => some ([], xs)
  | op :: ops => do
    let (r, ys) ← step null xs op
    let (rs, zs) ← run null ys ops
    some (r :: rs, zs)

end SPVM.Spec.CList
