/-!
# Specification of the string functions of `Fn`

Strings are lists of bytes.
-/
namespace SPVM.Spec.FnStr

/-- `sub` occurs in `s` at position `p`. -/
def OccursAt (sub s : List UInt8) (p : Nat) : Prop := ∃ a b, s = a ++ sub ++ b ∧ a.length = p

/-- `r` is the least position from `lo` on at which `sub` occurs in `s` ending not after `hi`, or `-1` if there is none. -/
def IsFirst (sub s : List UInt8) (lo hi : Nat) (r : Int) : Prop :=
  (r = -1 ∧ ∀ p, lo ≤ p → p + sub.length ≤ hi → ¬ OccursAt sub s p) ∨
  (∃ p : Nat, r = p ∧ lo ≤ p ∧ p + sub.length ≤ hi ∧ OccursAt sub s p ∧ ∀ q, lo ≤ q → q < p → ¬ OccursAt sub s q)

/-- `r` is the greatest position from `lo` on at which `sub` occurs in `s` ending not after `hi`, or `-1`. -/
def IsLast (sub s : List UInt8) (lo hi : Nat) (r : Int) : Prop :=
  (r = -1 ∧ ∀ p, lo ≤ p → p + sub.length ≤ hi → ¬ OccursAt sub s p) ∨
  (∃ p : Nat, r = p ∧ lo ≤ p ∧ p + sub.length ≤ hi ∧ OccursAt sub s p ∧
    ∀ q, p < q → q + sub.length ≤ hi → ¬ OccursAt sub s q)

/-- The exclusive end of the searched range for the argument `end` (documented default: up to the end of the string;
an `end` below the length names the *last byte* of the range). -/
def searchEnd (s : List UInt8) (e : Int) : Nat := if e < 0 ∨ e = s.length then s.length else e.toNat + 1

/-- The ASCII white-space characters HT, LF, VT, FF, CR, SP. -/
def isSpace (b : UInt8) : Bool := b = 9 ∨ b = 10 ∨ b = 11 ∨ b = 12 ∨ b = 13 ∨ b = 32

/-- ASCII lower case of a byte. -/
def lowerByte (b : UInt8) : UInt8 := if 65 ≤ b ∧ b ≤ 90 then b + 32 else b
/-- ASCII upper case of a byte. -/
def upperByte (b : UInt8) : UInt8 := if 97 ≤ b ∧ b ≤ 122 then b - 32 else b

/-- The value of a hexadecimal digit. -/
def hexDigitValue (b : UInt8) : Option Nat :=
  if 48 ≤ b ∧ b ≤ 57 then some (b.toNat - 48)
  else if 97 ≤ b ∧ b ≤ 102 then some (b.toNat - 97 + 10)
  else if 65 ≤ b ∧ b ≤ 70 then some (b.toNat - 65 + 10)
  else none

/-- The value of a hexadecimal numeral, most significant digit first. -/
def hexValue : List UInt8 → Option Nat
  | [] => some 0
  | b :: s => do
    let d ← hexDigitValue b
    let v ← hexValue s
    some (d * 16 ^ s.length + v)

/-- `ps` are the parts of `s` between the successive leftmost occurrences of `sep`. -/
inductive IsSplit (sep : List UInt8) : List UInt8 → List (List UInt8) → Prop
  | last {s} : (∀ p, ¬ OccursAt sep s p) → IsSplit sep s [s]
  | cons {a rest ps} : (∀ p, p < a.length → ¬ OccursAt sep (a ++ sep ++ rest) p) → IsSplit sep rest ps →
      IsSplit sep (a ++ sep ++ rest) (a :: ps)

/-- As `IsSplit`, with at most `n + 1` parts: after `n` separators the rest is kept whole. -/
inductive IsSplitN (sep : List UInt8) : Nat → List UInt8 → List (List UInt8) → Prop
  | stop {s} : IsSplitN sep 0 s [s]
  | last {n s} : (∀ p, ¬ OccursAt sep s p) → IsSplitN sep n s [s]
  | cons {n a rest ps} : (∀ p, p < a.length → ¬ OccursAt sep (a ++ sep ++ rest) p) → IsSplitN sep n rest ps →
      IsSplitN sep (n + 1) (a ++ sep ++ rest) (a :: ps)

/-- Concatenation of strings with a separator between them. -/
def joined (sep : List UInt8) : List (List UInt8) → List UInt8
  | [] => []
  | [p] => p
  | p :: q :: ps => p ++ sep ++ joined sep (q :: ps)

end SPVM.Spec.FnStr
