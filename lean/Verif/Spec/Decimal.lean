/-!
# Decimal and hexadecimal notation (specification of `printf("%d")`, `printf("%02X")`)
-/
namespace SPVM.Spec

/-- The ASCII code of a decimal digit. -/
def digit (d : Nat) : UInt8 := UInt8.ofNat (48 + d)

/-- The decimal digits of a number, most significant first, without leading zeros (0 is "0"). -/
def digits (n : Nat) : List UInt8 :=
  if n < 10 then [digit n] else digits (n / 10) ++ [digit (n % 10)]

/-- The decimal notation of an integer. -/
def decimal (z : Int) : List UInt8 := if z < 0 then 45 :: digits z.natAbs else digits z.natAbs

/-- An upper case hexadecimal digit. -/
def hexDigit (d : Nat) : UInt8 := UInt8.ofNat (if d < 10 then 48 + d else 55 + d)

/-- Two upper case hexadecimal digits. -/
def hex2 (b : UInt8) : List UInt8 := [hexDigit (b.toNat / 16), hexDigit (b.toNat % 16)]

/-- ASCII text. -/
def ascii (s : String) : List UInt8 := s.toList.map fun c => UInt8.ofNat c.toNat

theorem digits_length (n k : Nat) (hk : 0 < k) (h : n < 10 ^ k) : (digits n).length ≤ k := by
  induction k generalizing n with
  | zero => omega
  | succ k ih =>
    unfold digits
    split
    · simp
    · rename_i h10
      have hk0 : 0 < k := by
        rcases Nat.eq_zero_or_pos k with rfl | hp
        · simp at h; omega
        · exact hp
      have := ih (n / 10) hk0 (by rw [Nat.pow_succ] at h; omega)
      simp; omega

theorem digit_ne_zero {d : Nat} (h : d < 10) : digit d ≠ 0 := by
  intro he
  have := congrArg UInt8.toNat he
  simp [digit] at this
  omega

theorem digits_ne_zero (n : Nat) : ∀ b ∈ digits n, b ≠ 0 := by
  induction n using Nat.strongRecOn with
  | ind n ih =>
    unfold digits
    split
    · rename_i h; simpa using digit_ne_zero h
    · rename_i h
      intro b hb
      simp only [List.mem_append, List.mem_singleton] at hb
      rcases hb with hb | rfl
      · exact ih (n / 10) (by omega) b hb
      · exact digit_ne_zero (Nat.mod_lt _ (by omega))

end SPVM.Spec
