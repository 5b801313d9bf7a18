import Verif.Model.Complex

namespace SPVM.Complex

open VM

/-- Specification: the pairs of an array of complex numbers, written one after the other. -/
def pairsOf (z : List Z) : List Bytes := z.flatMap fun c => [c.1, c.2]

/-- Every part has `es` bytes. -/
def Parts (es : Nat) (z : List Z) : Prop := ∀ c ∈ z, c.1.length = es ∧ c.2.length = es

end SPVM.Complex
