import Verif.Model.Mulnum

namespace SPVM.Mulnum

/-- The letters of the documentation (lib/SPVM/Document/Language/Class.pm 760-841, "Multi-Numeric Type Suffix"): `b`, `s`, `i`, `l`, `f`, `d`. -/
def docLetter : Num → Char
  | .byte => 'b'
  | .short => 's'
  | .int => 'i'
  | .long => 'l'
  | .float => 'f'
  | .double => 'd'

/-- The name ends with an underscore, the number of the fields and the letter of their type. -/
def NameSays (name : Bytes) (n : Nat) (t : Num) : Prop :=
  ∃ stem, name = stem ++ ("_".toUTF8.toList ++ Spec.digits n ++ [(docLetter t).toNat.toUInt8])

/-- A well formed multi-numeric type with `n` fields of type `t`. -/
def Good (c : Cls) (n : Nat) (t : Num) : Prop :=
  c.fields = List.replicate n ⟨.num t, 0⟩ ∧ 1 ≤ n ∧ n ≤ 255 ∧ NameSays c.name n t ∧ (∀ m ∈ c.methods, m = true) ∧ c.classVars = 0

end SPVM.Mulnum
