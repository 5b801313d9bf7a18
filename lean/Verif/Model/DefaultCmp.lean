import Verif.Model.Sort

/-!
# `Comparator->default_comparator` (lib/SPVM/Comparator.spvm 10-31)

`cls` gives the class of an object and `cmpOf` the `cmp` method of a class (`Comparable`, lib/SPVM/Comparable.spvm 7), found by the class of
the invocant (C36).
-/

namespace SPVM.MSort

/-- The method that `default_comparator` returns, Comparator.spvm 13-28.  `none` is `undef`. -/
def defaultComparator {τ α κ : Type} (cls : α → κ) (cmpOf : κ → Cmp τ α) : Cmp τ (Option α) := fun t o1 o2 =>
  match o1, o2 with
  | some x, some y => cmpOf (cls x) t x y
  | some _, none => (.ok 1, t)
  | none, some _ => (.ok (-1), t)
  | none, none => (.ok 0, t)

end SPVM.MSort
