import Verif.Model.Alloc
/-!
# Specification of the allocator's clients

What the clients own: temporary blocks (to be freed one by one) and permanent blocks (freed with the allocator).
-/
namespace SPVM.Spec.Alloc
open SPVM.Alloc (Op)

structure Owned where
  tmp : List Nat
  perm : List Nat
deriving DecidableEq, Repr

/-- The contract: only an owned temporary block (or `NULL`) is freed; permanent allocations have a size and succeed. -/
def Owned.allows (o : Owned) : Op → Prop
  | .allocTmp _ _ => True
  | .freeTmp none => True
  | .freeTmp (some b) => b ∈ o.tmp
  | .allocPerm size avail => 1 ≤ size ∧ avail = true

/-- What is owned after a call that returned `ret`. -/
def Owned.next (o : Owned) (ret : Option Nat) : Op → Owned
  | .allocTmp _ _ => { o with tmp := ret.toList ++ o.tmp }
  | .freeTmp none => o
  | .freeTmp (some b) => { o with tmp := o.tmp.erase b }
  | .allocPerm _ _ => { o with perm := o.perm ++ ret.toList }

end SPVM.Spec.Alloc
