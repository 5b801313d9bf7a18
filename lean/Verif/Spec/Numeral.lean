/-!
# Numerals (specification of the texts that denote an integer)
-/
namespace SPVM.Spec

/-- The value of a digit in bases up to 16; letters of both cases count. -/
def digitValue (b : UInt8) : Option Nat :=
  if 48 ≤ b.toNat ∧ b.toNat ≤ 57 then some (b.toNat - 48)
  else if 97 ≤ b.toNat ∧ b.toNat ≤ 102 then some (b.toNat - 97 + 10)
  else if 65 ≤ b.toNat ∧ b.toNat ≤ 70 then some (b.toNat - 65 + 10)
  else none

/-- `b` is a digit in this base. -/
def IsDigit (base : Nat) (b : UInt8) : Prop := ∃ d, digitValue b = some d ∧ d < base

/-- Positional notation: the value of the digits `ds`, most significant first. -/
inductive Denotes (base : Nat) : List UInt8 → Nat → Prop where
  | one {b d} : digitValue b = some d → d < base → Denotes base [b] d
  | snoc {ds n b d} : Denotes base ds n → digitValue b = some d → d < base → Denotes base (ds ++ [b]) (n * base + d)

/-- White space: horizontal tab, line feed, vertical tab, form feed, carriage return, space. -/
def IsWhite (b : UInt8) : Prop := b = 9 ∨ b = 10 ∨ b = 11 ∨ b = 12 ∨ b = 13 ∨ b = 32

/-- A sign and a number without sign make an integer. -/
def Signed (sg : List UInt8) (n : Nat) (z : Int) : Prop :=
  (sg = [] ∧ z = n) ∨ (sg = [43] ∧ z = n) ∨ (sg = [45] ∧ z = -(n : Int))

/-- `t` is white space, an optional sign, in base 16 optionally `0x` or `0X`, and digits; it denotes `z`. -/
def Numeral (base : Nat) (t : List UInt8) (z : Int) : Prop :=
  ∃ ws sg pre ds n, t = ws ++ sg ++ pre ++ ds ∧ (∀ b ∈ ws, IsWhite b) ∧
    (pre = [] ∨ (base = 16 ∧ (pre = [48, 120] ∨ pre = [48, 88]))) ∧ Denotes base ds n ∧ Signed sg n z

end SPVM.Spec
