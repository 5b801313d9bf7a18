import Verif.Spec.Sort

namespace SPVM.MSort

/-- Specification: undef is less than every object, objects rank by `c`. -/
def undefFirst (c : α → α → Int) : Option α → Option α → Int
  | none, none => 0
  | none, some _ => -1
  | some _, none => 1
  | some x, some y => c x y

end SPVM.MSort
