import Verif.Spec.HashTyped
/-!
# Specification: option arrays

Options are an array of names and values, `{name1 => value1, name2 => value2, ...}`: the elements with an even index are the
names.
-/
namespace SPVM.Spec.Options
open Spec.HashTyped (Val Before)
open Spec.Hash (Bytes)

/-- The array of the pairs `ps`. -/
def spell (ps : List (Bytes × Option Val)) : List (Option Val) := ps.flatMap fun p => [some (.string p.1), p.2]

/-- The elements with an even index. -/
def names : List α → List α
  | [] => []
  | [n] => [n]
  | n :: _ :: rest => n :: names rest

/-- `qs` are the pairs `ps` in the order of their names, and pairs with the same name keep their order. -/
structure InOrder (ps qs : List (Bytes × Option Val)) : Prop where
  perm : qs.Perm ps
  sorted : qs.Pairwise fun p q => ¬ Before q.1 p.1
  stable : ∀ n, (qs.filter fun p => p.1 = n) = ps.filter fun p => p.1 = n

end SPVM.Spec.Options
