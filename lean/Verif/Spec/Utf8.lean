/-!
# Specification of UTF-8 (RFC 3629)
-/
namespace SPVM.Spec.Utf8

/-- A Unicode scalar value: a code point that is not a surrogate. -/
def IsScalar (cp : Nat) : Prop := cp < 0xD800 ∨ (0xE000 ≤ cp ∧ cp < 0x110000)

instance (cp : Nat) : Decidable (IsScalar cp) := by unfold IsScalar; infer_instance

/-- The UTF-8 encoding of a scalar value: the table of RFC 3629, section 3. -/
def encode (cp : Nat) : List UInt8 :=
  if cp < 0x80 then [UInt8.ofNat cp]
  else if cp < 0x800 then [UInt8.ofNat (0xC0 + cp / 64), UInt8.ofNat (0x80 + cp % 64)]
  else if cp < 0x10000 then
    [UInt8.ofNat (0xE0 + cp / 4096), UInt8.ofNat (0x80 + cp / 64 % 64), UInt8.ofNat (0x80 + cp % 64)]
  else
    [UInt8.ofNat (0xF0 + cp / 262144), UInt8.ofNat (0x80 + cp / 4096 % 64), UInt8.ofNat (0x80 + cp / 64 % 64),
      UInt8.ofNat (0x80 + cp % 64)]

/-- The encoding of a sequence of scalar values. -/
def encodeAll (cps : List Nat) : List UInt8 := cps.flatMap encode

/-- Valid UTF-8. -/
def Valid (s : List UInt8) : Prop := ∃ cps, (∀ c ∈ cps, IsScalar c) ∧ s = encodeAll cps

/-- A non-empty byte string that does not begin with the encoding of any scalar value. -/
def Stuck (rest : List UInt8) : Prop := rest ≠ [] ∧ ∀ cp, IsScalar cp → ¬ encode cp <+: rest

/-- The code point `tr` puts in place of `cp`. -/
def trMap (min max replMin cp : Nat) : Nat := if min ≤ cp ∧ cp ≤ max then replMin + (cp - min) else cp

/-- The range a `tr` pattern denotes: `a` is `a-a`, `a-b` with `a ≤ b` is itself. -/
def RangeOf (p : List UInt8) (min max : Nat) : Prop :=
  IsScalar min ∧ IsScalar max ∧ min ≤ max ∧ (p = encode min ∧ max = min ∨ p = encode min ++ [45] ++ encode max)

end SPVM.Spec.Utf8
