/-!
# Specification of sorting
-/
namespace SPVM.Spec.Sort

/-- A comparison function (negative or zero: may come first) that is a total preorder. -/
structure Preorder (c : α → α → Int) : Prop where
  total : ∀ x y, c x y ≤ 0 ∨ c y x ≤ 0
  trans : ∀ x y z, c x y ≤ 0 → c y z ≤ 0 → c x z ≤ 0

def Sorted (c : α → α → Int) (xs : List α) : Prop := xs.Pairwise (fun x y => c x y ≤ 0)

/-- `x` ranks like `z`. -/
def same (c : α → α → Int) (z x : α) : Bool := decide (c z x ≤ 0 ∧ c x z ≤ 0)

/-- `zs` is the stable sort of `xs`: same elements, in order, elements that rank alike in their old order. -/
structure StableSort (c : α → α → Int) (xs zs : List α) : Prop where
  perm : zs.Perm xs
  sorted : Sorted c zs
  stable : ∀ z, zs.filter (same c z) = xs.filter (same c z)

end SPVM.Spec.Sort
