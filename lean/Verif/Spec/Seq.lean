import Verif.Base
/-!
# Specification: sequences

A mathematical sequence (`List α`) with the operations users of the list classes rely on.  Written without reference to
the implementation.  `none` means "the operation throws and the sequence is unchanged".
-/
namespace SPVM.Spec.Seq

/-- The user-visible operations. -/
inductive Op (α : Type) where
  | length
  | get (index : Int)
  | toArray
  | set (index : Int) (element : α)
  | push (element : α)
  | pop
  | unshift (element : α)
  | shift
  | insert (index : Int) (element : α)
  | remove (index : Int)
  | replace (offset removeLength : Int) (replacement : Option (List α))
  | resize (newLength : Int)
  | reserve (newCapacity : Int)
deriving Repr, DecidableEq

/-- What an operation returns. -/
inductive Res (α : Type) where
  | unit
  | num (n : Int)
  | elem (a : α)
  | arr (l : List α)
deriving Repr, DecidableEq

/-- One operation on a sequence.  `zero` is the value of fresh elements (`resize`). -/
def step (zero : α) (xs : List α) : Op α → Option (Res α × List α)
  | .length => some (.num xs.length, xs)
  | .get i => if 0 ≤ i then (xs[i.toNat]?).map fun a => (.elem a, xs) else none
  | .toArray => some (.arr xs, xs)
  | .set i e => if 0 ≤ i ∧ i < xs.length then some (.unit, xs.set i.toNat e) else none
  | .push e => some (.unit, xs ++ [e])
  | .pop => (xs.getLast?).map fun a => (.elem a, xs.dropLast)
  | .unshift e => some (.unit, e :: xs)
  | .shift => match xs with
    | [] => none
    | a :: rest => some (.elem a, rest)
  | .insert i e => if 0 ≤ i ∧ i ≤ xs.length then some (.unit, xs.take i.toNat ++ e :: xs.drop i.toNat) else none
  | .remove i => if 0 ≤ i then (xs[i.toNat]?).map fun a => (.elem a, xs.eraseIdx i.toNat) else none
  | .replace o n r =>
    if 0 ≤ o ∧ 0 ≤ n ∧ o + n ≤ xs.length then
      some (.unit, xs.take o.toNat ++ r.getD [] ++ xs.drop (o + n).toNat)
    else none
  | .resize n => if 0 ≤ n then some (.unit, xs.take n.toNat ++ List.replicate (n.toNat - xs.length) zero) else none
  | .reserve n => if 0 ≤ n then some (.unit, xs) else none

/-- The sequence after one operation (unchanged if it throws). -/
def next (zero : α) (xs : List α) (op : Op α) : List α :=
  match step zero xs op with
  | some (_, ys) => ys
  | none => xs

/-- The results of a history of operations; an operation that throws yields `none` and the history goes on (the caller
caught the exception with `eval`). -/
def run (zero : α) (xs : List α) : List (Op α) → List (Option (Res α))
  | [] => []
  | op :: ops => (step zero xs op).map (·.1) :: run zero (next zero xs op) ops

end SPVM.Spec.Seq

namespace SPVM.Spec.Seq

/-- One operation on a sequence of objects (`none` = `undef`).  As `step`, fresh elements are `undef`, and `reserve`
never throws (the documentation of `List->reserve` gives no exception). -/
def stepObj (xs : List (Option α)) : Op (Option α) → Option (Res (Option α) × List (Option α))
  | .reserve _ => some (.unit, xs)
  | op => step none xs op

/-- The sequence after one operation on objects. -/
def nextObj (xs : List (Option α)) (op : Op (Option α)) : List (Option α) :=
  match stepObj xs op with
  | some (_, ys) => ys
  | none => xs

end SPVM.Spec.Seq
