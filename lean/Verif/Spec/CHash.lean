import Verif.Spec.Map
/-!
# Specification of the runtime's symbol table (spvm_hash.h)

A map from byte strings to pointers.  Looking up an absent key gives `NULL`.
-/
namespace SPVM.Spec.CHash
open SPVM.Spec.Map

inductive Op (κ ν : Type) where
  | set (key : κ) (value : ν)
  | get (key : κ)
deriving Repr, DecidableEq

/-- What each call of a history returns (`none` for `set`), starting from map `m`. -/
def run [DecidableEq κ] (null : ν) (m : Map κ ν) : List (Op κ ν) → List (Option ν)
  | [] => []
  | .set k v :: ops => none :: run null (put m k (some v)) ops
  | .get k :: ops => some ((m k).getD null) :: run null m ops

end SPVM.Spec.CHash
