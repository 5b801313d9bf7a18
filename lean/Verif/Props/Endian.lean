import Verif.Model.Endian
import Verif.Lemmas.Str
import Verif.Props.ArrayOps
/-!
# C27: byte order conversion
-/
set_option linter.unusedSimpArgs false
namespace SPVM
namespace Endian
open VM (Bytes)
open Str

/-- The bytes `[off, off + size)` of `b` reversed, the others as they were. -/
def reversedAt (b : Bytes) (off size : Nat) : Bytes := b.take off ++ (((b.drop off).take size).reverse ++ b.drop (off + size))

theorem reversedAt_length (b : Bytes) (off size : Nat) : (reversedAt b off size).length = b.length := by
  simp [reversedAt]; omega

/-- Reversing a byte is nothing. -/
theorem reversedAt_one (b : Bytes) (off : Nat) (h : off + 1 ≤ b.length) : reversedAt b off 1 = b := by
  unfold reversedAt
  have : ((b.drop off).take 1).reverse = (b.drop off).take 1 := by
    cases b.drop off <;> simp
  rw [this, ← List.append_assoc, ← List.take_add, List.take_append_drop]

/-- **C27** (effect): for every string, size and offset whose field lies inside the string, `change_endian` reverses exactly
the bytes of the field. -/
theorem c27_change (limit : Nat) (b : Bytes) (size off : Nat) (hs : 0 < size) (h : off + size ≤ b.length) (hb : b.length ≤ 2147483647)
    (hl : size ≤ limit) :
    changeEndian limit (some b) size off = .ok (reversedAt b off size) := by
  unfold changeEndian
  simp only []
  rw [if_neg (fun hn => hn (by omega)), if_neg (fun hn => hn (by omega)), add32_ok (by unfold I32; omega), Out.ok_bind,
    if_neg (fun hn => hn (by omega))]
  by_cases h1 : size = 1
  · subst h1
    rw [if_pos (by rfl), reversedAt_one b off h]
  · rw [if_neg (by omega), newStringLen_ok (by omega) (by omega), Out.ok_bind,
      memcpy_ok (by omega) (by omega) (by omega) (by simp) (by omega) (by simp; omega) (by omega), Out.ok_bind]
    have e1 : blit (List.replicate (Int.toNat size) 0) (Int.toNat 0) b (Int.toNat off) (Int.toNat size) = (b.drop off).take size := by
      simp [blit]
    have hlen : ((b.drop off).take size).length = size := by simp; omega
    rw [e1, ArrayOps.c25_reverse _ (by omega), Out.ok_bind,
      memcpy_ok (by omega) (by omega) (by omega) (by omega) (by simp; omega) (by omega) (by simp; omega)]
    congr 1
    unfold blit reversedAt
    simp only [Int.toNat_natCast]
    rw [show (Int.toNat 0) = 0 from rfl, List.drop_zero, List.take_of_length_le (l := ((b.drop off).take size).reverse) (by simp; omega)]

/-- The hypotheses of `c27_change` hold for four bytes inside six. -/
example : changeEndian 100 (some [1, 2, 3, 4, 5, 6]) 4 1 = .ok [1, 5, 4, 3, 2, 6] := by decide +kernel

theorem reversedAt_twice (b : Bytes) (off size : Nat) (h : off + size ≤ b.length) : reversedAt (reversedAt b off size) off size = b := by
  have hlen : ((b.drop off).take size).length = size := by simp; omega
  have hoff : (b.take off).length = off := by simp; omega
  have e1 : (reversedAt b off size).take off = b.take off := by
    unfold reversedAt
    rw [List.take_append_of_le_length (by omega), List.take_of_length_le (by omega)]
  have e2 : ((reversedAt b off size).drop off) = ((b.drop off).take size).reverse ++ b.drop (off + size) := by
    unfold reversedAt
    rw [List.drop_append, hoff, List.drop_of_length_le (by omega)]
    simp
  have e3 : (reversedAt b off size).drop (off + size) = b.drop (off + size) := by
    rw [← List.drop_drop, e2, List.drop_append, List.drop_of_length_le (by simp; omega)]
    simp [Nat.min_eq_left (show size ≤ b.length - off by omega)]
  rw [reversedAt, e1, e2, e3, List.take_append_of_le_length (by simp; omega),
    List.take_of_length_le (l := ((b.drop off).take size).reverse) (by simp; omega)]
  rw [List.reverse_reverse, ← List.append_assoc, ← List.take_add, List.take_append_drop]

/-- **C27** (involution): changing the byte order twice restores the string. -/
theorem c27_involution (limit : Nat) (b : Bytes) (size off : Nat) (hs : 0 < size) (h : off + size ≤ b.length) (hb : b.length ≤ 2147483647)
    (hl : size ≤ limit) :
    (do let b' ← changeEndian limit (some b) size off; changeEndian limit (some b') size off) = .ok b := by
  rw [c27_change limit b size off hs h hb hl, Out.ok_bind,
    c27_change limit _ size off hs (by rw [reversedAt_length]; exact h) (by rw [reversedAt_length]; exact hb) hl, reversedAt_twice b off size h]

/-- **C27** (bytes outside the field are untouched, and inside it byte `i` becomes byte `size - 1 - i`). -/
theorem c27_bytes (limit : Nat) (b : Bytes) (size off : Nat) (hs : 0 < size) (h : off + size ≤ b.length) (hb : b.length ≤ 2147483647)
    (hl : size ≤ limit) :
    ∃ b', changeEndian limit (some b) size off = .ok b' ∧ b'.length = b.length ∧
      (∀ i, i < off ∨ off + size ≤ i → b'[i]? = b[i]?) ∧ ∀ i, i < size → b'[off + i]? = b[off + (size - 1 - i)]? := by
  refine ⟨_, c27_change limit b size off hs h hb hl, reversedAt_length _ _ _, ?_, ?_⟩
  · intro i hi
    unfold reversedAt
    rcases hi with hi | hi
    · rw [List.getElem?_append_left (by simp; omega), List.getElem?_take_of_lt hi]
    · rw [List.getElem?_append_right (by simp; omega), List.getElem?_append_right (by simp; omega), List.getElem?_drop]
      congr 1
      simp
      omega
  · intro i hi
    unfold reversedAt
    rw [List.getElem?_append_right (by simp; omega), List.getElem?_append_left (by simp; omega)]
    rw [List.getElem?_reverse (by simp; omega)]
    rw [List.getElem?_take_of_lt (by simp; omega), List.getElem?_drop]
    congr 1
    simp
    omega

/-- **C27** (errors): a size that is not positive, a negative offset, a field beyond the string and an undefined string all throw. -/
theorem c27_throws (limit : Nat) (binary : Option Bytes) (size off : Int) (hov : off + size ≤ 2147483647)
    (h : binary = none ∨ size ≤ 0 ∨ off < 0 ∨ ∃ b, binary = some b ∧ (b.length : Int) < off + size) :
    (changeEndian limit binary size off).isDie := by
  unfold changeEndian
  cases binary with
  | none => rfl
  | some b =>
    simp only []
    by_cases h1 : size > 0
    · by_cases h2 : off ≥ 0
      · have h3 : (b.length : Int) < off + size := by
          rcases h with h | h | h | ⟨b', e, h⟩
          · cases h
          · omega
          · omega
          · cases e; exact h
        rw [if_neg (fun hn => hn h1), if_neg (fun hn => hn h2), add32_ok (by unfold I32; omega), Out.ok_bind, if_pos (by omega)]
        rfl
      · rw [if_neg (fun hn => hn h1), if_pos h2]; rfl
    · rw [if_pos h1]; rfl

/-- A case for `c27_throws`. -/
example : (changeEndian 100 (some [1, 2, 3]) 2 2).isDie := by decide +kernel

/-- **C27** (conversions to and from a byte order): on every machine, system to big endian and back, and system to little
endian and back, restore the string; one of the two conversions changes nothing and the other reverses the field. -/
theorem c27_system (le : Bool) (limit : Nat) (b : Bytes) (size off : Nat) (hs : 0 < size) (h : off + size ≤ b.length) (hb : b.length ≤ 2147483647)
    (hl : size ≤ limit) :
    (do let x ← systemToBig le limit (some b) size off; bigToSystem le limit x size off) = .ok (some b) ∧
    (do let x ← systemToLittle le limit (some b) size off; littleToSystem le limit x size off) = .ok (some b) ∧
    systemToBig le limit (some b) size off = .ok (some (if le then reversedAt b off size else b)) ∧
    systemToLittle le limit (some b) size off = .ok (some (if le then b else reversedAt b off size)) := by
  have e1 := c27_change limit b size off hs h hb hl
  have e2 := c27_change limit (reversedAt b off size) size off hs (by rw [reversedAt_length]; exact h) (by rw [reversedAt_length]; exact hb) hl
  rw [reversedAt_twice b off size h] at e2
  cases le <;> simp [systemToBig, bigToSystem, systemToLittle, littleToSystem, whenSwap, e1, e2]

/-- **C27, violated** (range check overflows): with an offset near the largest `int` the sum of offset and size overflows and
the check is undefined instead of throwing. -/
theorem c27_overflow_violated : changeEndian 100 (some [1, 2, 3, 4]) 4 2147483647 = .ub := by decide +kernel

end Endian
end SPVM
