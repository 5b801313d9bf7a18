import Verif.Spec.Numeral
/-!
# Numeric literals (specification)

After lib/SPVM/Document/Language/Tokenization.pm, "Integer Literals" and "Floating Point Literals".
-/
namespace SPVM.Spec

/-- What an integer literal of this base begins with: `0x`, `0X`, `0b`, `0B`, `0`, or nothing. -/
def Prefix (base : Nat) (pre : List UInt8) : Prop :=
  (base = 16 ∧ (pre = [48, 120] ∨ pre = [48, 88])) ∨ (base = 2 ∧ (pre = [48, 98] ∨ pre = [48, 66])) ∨
  (base = 8 ∧ pre = [48]) ∨ (base = 10 ∧ pre = [])

/-- A text without its underlines. -/
def noUnderlines (t : List UInt8) : List UInt8 := t.filter (fun b => b != 95)

/-- The digits of an integer literal: without the underlines they denote `n`.  A decimal literal is `0` or begins with a
digit that is not zero. -/
def Body (base : Nat) (body : List UInt8) (n : Nat) : Prop :=
  Denotes base (noUnderlines body) n ∧ (base = 10 → body = [48] ∨ ∃ d t, body = d :: t ∧ d ≠ 48 ∧ d ≠ 95)

/-- Letters, digits, `_` and `.`. -/
def IsWord (b : UInt8) : Prop :=
  (48 ≤ b.toNat ∧ b.toNat ≤ 57) ∨ (65 ≤ b.toNat ∧ b.toNat ≤ 90) ∨ (97 ≤ b.toNat ∧ b.toNat ≤ 122) ∨ b = 95 ∨ b = 46

/-- The literal ends here: the source ends, or goes on with something else than letters, digits, `_` and `.`. -/
def LitEnd (rest : List UInt8) : Prop := ∀ b r, rest = b :: r → ¬ IsWord b

/-- The number a literal of a signed type with `bits` bits denotes, if it is in range.  A decimal literal denotes the number with
its sign; in the other notations the digits are the bits of the number, and the sign negates it. -/
def intMeaning (bits base : Nat) (neg : Bool) (n : Nat) : Option Int :=
  if base = 10 then
    if neg then (if n ≤ 2 ^ (bits - 1) then some (-(n : Int)) else none)
    else (if n < 2 ^ (bits - 1) then some n else none)
  else if n < 2 ^ bits then
    let z : Int := if n < 2 ^ (bits - 1) then n else n - 2 ^ bits
    some (if neg then -z else z)
  else none

/-- The suffix selects the type: none for the 32 bits of `int`, `L` or `l` for the 64 bits of `long`. -/
def IntSuffix (bits : Nat) (sfx : List UInt8) : Prop := (bits = 32 ∧ sfx = []) ∨ (bits = 64 ∧ (sfx = [76] ∨ sfx = [108]))

/-- A literal can begin with a minus. -/
def Minus (sg : List UInt8) (neg : Bool) : Prop := (sg = [] ∧ neg = false) ∨ (sg = [45] ∧ neg = true)

/-- Decimal digits and underlines. -/
def DigitsU (t : List UInt8) : Prop := ∀ b ∈ t, (48 ≤ b.toNat ∧ b.toNat ≤ 57) ∨ b = 95

/-- The exponent of a floating point literal. -/
def Exponent (t : List UInt8) : Prop :=
  ∃ e sg ds, t = e :: (sg ++ ds) ∧ (e = 101 ∨ e = 69) ∧ (sg = [] ∨ sg = [43] ∨ sg = [45]) ∧ DigitsU ds

/-- A decimal floating point literal without its suffix: an integer part that begins with a digit, and a fraction and an exponent
that can be missing.  The integer part does not begin with `0` unless it is `0`. -/
def FloatText (t : List UInt8) : Prop :=
  ∃ d ip fr ex, t = d :: (ip ++ (fr ++ ex)) ∧ (48 ≤ d.toNat ∧ d.toNat ≤ 57) ∧ DigitsU ip ∧ (d = 48 → ip = []) ∧
    (fr = [] ∨ ∃ f, fr = 46 :: f ∧ DigitsU f) ∧ (ex = [] ∨ Exponent ex)

/-- Hexadecimal digits and underlines. -/
def HexDigitsU (t : List UInt8) : Prop :=
  ∀ b ∈ t, (48 ≤ b.toNat ∧ b.toNat ≤ 57) ∨ (65 ≤ b.toNat ∧ b.toNat ≤ 70) ∨ (97 ≤ b.toNat ∧ b.toNat ≤ 102) ∨ b = 95

/-- A hexadecimal floating point literal without its suffix: `0x` or `0X`, a hexadecimal digit, more of them, a fraction that can be
missing, and an exponent of decimal digits that ends with a digit. -/
def HexFloatText (t : List UInt8) : Prop :=
  ∃ x d ip fr c sg ds l, t = 48 :: x :: d :: (ip ++ (fr ++ (c :: (sg ++ (ds ++ [l]))))) ∧ (x = 120 ∨ x = 88) ∧ d ≠ 95 ∧ HexDigitsU [d] ∧ HexDigitsU ip ∧
    (fr = [] ∨ ∃ f, fr = 46 :: f ∧ HexDigitsU f) ∧ (c = 112 ∨ c = 80) ∧ (sg = [] ∨ sg = [43] ∨ sg = [45]) ∧ DigitsU ds ∧ (48 ≤ l.toNat ∧ l.toNat ≤ 57)

/-- The literal has a fraction or an exponent. -/
def HasPoint (t : List UInt8) : Prop := 46 ∈ t ∨ 101 ∈ t ∨ 69 ∈ t

end SPVM.Spec
