import Verif.Base
/-!
# Specification: array algebra
-/
namespace SPVM.Spec.Array

/-- The elements `offset, ..., offset + length - 1`. -/
def slice (a : List α) (offset length : Nat) : List α := (a.drop offset).take length

/-- `length` of `-1` (any negative number) means "up to the end". -/
def effLength (a : List α) (offset length : Int) : Int := if length < 0 then a.length - offset else length

/-- The range lies inside the array. -/
def InRange (a : List α) (offset length : Int) : Prop :=
  0 ≤ offset ∧ 0 ≤ effLength a offset length ∧ offset + effLength a offset length ≤ a.length

/-- `count` copies of the array, one after the other. -/
def times (a : List α) (count : Nat) : List α := (List.replicate count a).flatten

end SPVM.Spec.Array
