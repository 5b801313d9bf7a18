import Verif.Spec.Format

/-!
# The text of `Array->dump_unsigned_byte`, `_short`, `_int`, `_long`
-/

namespace SPVM.Spec.DumpU

/-- The element types. -/
inductive Ty where
  | byte | short | int | long
deriving DecidableEq, Repr

/-- The number of bits of an element. -/
def Ty.bits : Ty → Nat
  | .byte => 8
  | .short => 16
  | .int => 32
  | .long => 64

/-- The name of the array type. -/
def Ty.arrayName : Ty → String
  | .byte => "byte[]"
  | .short => "short[]"
  | .int => "int[]"
  | .long => "long[]"

/-- A value the (signed) element type can hold. -/
def Ty.Holds (t : Ty) (v : Int) : Prop := -(2 : Int) ^ (t.bits - 1) ≤ v ∧ v < (2 : Int) ^ (t.bits - 1)

/-- The number with the same bits, read without a sign. -/
def Ty.unsigned (t : Ty) (v : Int) : Nat := (if v < 0 then v + (2 : Int) ^ t.bits else v).toNat

/-- One line for each element: two spaces and the number; all but the last end with a comma. -/
def lines (t : Ty) : List Int → List UInt8
  | [] => []
  | [v] => [32, 32] ++ digits (t.unsigned v) ++ [10]
  | v :: vs => [32, 32] ++ digits (t.unsigned v) ++ [44, 10] ++ lines t vs

/-- `[`, the lines, `]`, the type and the address. -/
def text (t : Ty) (vs : List Int) (address : Nat) : List UInt8 :=
  [91, 10] ++ lines t vs ++ [93, 32, 58, 32] ++ t.arrayName.toUTF8.toList ++ [40, 48, 120] ++
    Format.hex Format.lowerHex address ++ [41]

end SPVM.Spec.DumpU
