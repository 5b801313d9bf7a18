import Verif.Lemmas.NumStr
/-!
# C43: numbers to strings and back
-/
namespace SPVM
namespace NumStr
open VM (Bytes)

/-! ## Decimal notation -/

theorem digits_denotes (n : Nat) : Spec.Denotes 10 (Spec.digits n) n := by
  induction n using Nat.strongRecOn with
  | ind n ih =>
    have hd : ∀ d, d < 10 → Spec.digitValue (Spec.digit d) = some d := by
      intro d hd
      have : (Spec.digit d).toNat = 48 + d := by simp [Spec.digit]; omega
      unfold Spec.digitValue
      rw [if_pos (by omega)]; congr 1; omega
    unfold Spec.digits
    split
    · rename_i h; exact .one (hd n h) h
    · rename_i h
      have := Spec.Denotes.snoc (ih (n / 10) (by omega)) (hd (n % 10) (by omega)) (show n % 10 < 10 by omega)
      rwa [show n / 10 * 10 + n % 10 = n by omega] at this

theorem decimal_numeral (x : Int) : Spec.Numeral 10 (Spec.decimal x) x := by
  unfold Spec.decimal
  split
  · exact ⟨[], [45], [], Spec.digits x.natAbs, x.natAbs, by simp, by simp, .inl rfl, digits_denotes _,
      .inr (.inr ⟨rfl, by omega⟩)⟩
  · exact ⟨[], [], [], Spec.digits x.natAbs, x.natAbs, by simp, by simp, .inl rfl, digits_denotes _,
      .inl ⟨rfl, by omega⟩⟩

theorem cstr_of_ne_zero {s : Bytes} (h : ∀ b ∈ s, b ≠ 0) : cstr s = s := by
  have := takeWhile_append (p := fun b : UInt8 => decide (b ≠ 0)) (l := s) (r := []) (by simpa using h) (by simp)
  simpa [cstr] using this.1

theorem decimal_ne_zero (x : Int) : ∀ b ∈ Spec.decimal x, b ≠ 0 := by
  unfold Spec.decimal
  split
  · intro b hb
    rcases List.mem_cons.1 hb with e | e
    · subst e; decide
    · exact Spec.digits_ne_zero _ b e
  · exact Spec.digits_ne_zero _

theorem decimal_length {x : Int} (h : I64 x) : (Spec.decimal x).length ≤ 21 := by
  unfold I64 at h
  have := Spec.digits_length x.natAbs 20 (by omega) (by omega)
  unfold Spec.decimal
  split
  · simp; omega
  · omega

/-- **C43.**  An integer of any of the integer types becomes its decimal notation: the buffer is never too small. -/
theorem c43_to_string (x : Int) (h : I64 x) : toStr x = Spec.decimal x := by
  unfold toStr tmpBufferSize
  rw [List.take_of_length_le (by have := decimal_length h; omega), cstr_of_ne_zero (decimal_ne_zero x)]

/-! ## Strings to numbers -/

/-- The value within the bounds of a type (specification). -/
def Clamp (lo hi z r : Int) : Prop := (z < lo ∧ r = lo) ∨ (lo ≤ z ∧ z ≤ hi ∧ r = z) ∨ (hi < z ∧ r = hi)

theorem strtoll_clamp {s t rest : Bytes} {z : Int} (hs : cstr s = t ++ rest) (hn : Spec.Numeral 10 t z)
    (hr : ∀ b r, rest = b :: r → ¬ Spec.IsDigit 10 b) :
    strtoll s 10 = ⟨clampI (-9223372036854775808) 9223372036854775807 z,
      decide (z < -9223372036854775808 ∨ z > 9223372036854775807), rest⟩ := by
  obtain ⟨p, e1, e2⟩ := numeral_parts (t := cstr s) hn hs
    (fun b r h => by
      cases hd : isDig 10 b with
      | false => rfl
      | true => exact absurd ((isDig_iff (by omega) b).1 hd) (hr b r h))
    (by omega)
  rw [strtoll_parts (by omega) (by omega) p]
  unfold Parts.out
  rw [e1, e2]

/-- **C43.**  Conversion of a string to an integer type: the longest numeral at its start (white space, sign, decimal digits;
C sees the string up to its first NUL), moved to the nearest value of the type when it is out of range. -/
theorem c43_string_to_number (s t rest : Bytes) (z : Int) (hs : cstr s = t ++ rest) (hn : Spec.Numeral 10 t z)
    (hr : ∀ b r, rest = b :: r → ¬ Spec.IsDigit 10 b) :
    Clamp (-128) 127 z (strToByte (some s)) ∧ Clamp (-32768) 32767 z (strToShort (some s)) ∧
      Clamp (-2147483648) 2147483647 z (strToInt (some s)) ∧
      Clamp (-9223372036854775808) 9223372036854775807 z (strToLong (some s)) := by
  unfold strToByte strToShort strToInt strToLong
  simp only [strtoll_clamp hs hn hr]
  unfold Clamp clampTo clampI
  refine ⟨?_, ?_, ?_, ?_⟩ <;> (try split) <;> (try split) <;> omega

/-- **C43.**  A string that does not start with a numeral, and `undef`, become 0. -/
theorem c43_no_number (s : Bytes) (hn : ¬ ∃ t rest z, cstr s = t ++ rest ∧ Spec.Numeral 10 t z) :
    strToByte (some s) = 0 ∧ strToShort (some s) = 0 ∧ strToInt (some s) = 0 ∧ strToLong (some s) = 0 ∧
      strToByte none = 0 ∧ strToShort none = 0 ∧ strToInt none = 0 ∧ strToLong none = 0 := by
  have : (strtoll s 10).num = 0 := by
    rcases strtoll_cases s (show 0 < 10 by omega) with ⟨p, _⟩ | h | ⟨h, _⟩
    · obtain ⟨t, e, hh⟩ := p.numeral (by omega)
      exact absurd ⟨t, p.rest, p.val, e, hh⟩ hn
    · rw [h]
    · omega
  simp [strToByte, strToShort, strToInt, strToLong, this, clampTo]

theorem roundtrip {x : Int} (h : I64 x) : (strtoll (toStr x) 10).num = x := by
  have hc : cstr (toStr x) = Spec.decimal x ++ [] := by
    rw [c43_to_string x h, cstr_of_ne_zero (decimal_ne_zero x), List.append_nil]
  rw [strtoll_clamp hc (decimal_numeral x) (by simp)]
  unfold clampI I64 at *
  simp only
  omega

/-- **C43.**  Number to string to number is the identity for every byte, short, int and long. -/
theorem c43_roundtrip (x : Int) :
    (-128 ≤ x ∧ x ≤ 127 → strToByte (some (toStr x)) = x) ∧ (-32768 ≤ x ∧ x ≤ 32767 → strToShort (some (toStr x)) = x) ∧
      (I32 x → strToInt (some (toStr x)) = x) ∧ (I64 x → strToLong (some (toStr x)) = x) := by
  simp only [strToByte, strToShort, strToInt, strToLong, clampTo]
  refine ⟨fun h => ?_, fun h => ?_, fun h => ?_, fun h => ?_⟩
  · rw [roundtrip (x := x) (by unfold I64; omega), if_neg (by omega), if_neg (by omega)]
  · rw [roundtrip (x := x) (by unfold I64; omega), if_neg (by omega), if_neg (by omega)]
  · unfold I32 at h; rw [roundtrip (x := x) (by unfold I64; omega), if_neg (by omega), if_neg (by omega)]
  · rw [roundtrip h]

/-! ## `Fn->to_int` and `Fn->to_long` -/

/-- The bases the functions take. -/
def IsBase (d : Int) : Prop := d = 2 ∨ d = 8 ∨ d = 10 ∨ d = 16

theorem strtoll_rest {s : Bytes} {base : Nat} (hb : 0 < base) (hb16 : base ≤ 16) :
    (strtoll s base).rest = [] ↔ cstr s = [] ∨ ∃ z, Spec.Numeral base (cstr s) z := by
  constructor
  · intro h
    rcases strtoll_cases s hb with ⟨p, e⟩ | e | ⟨_, b, r, e⟩
    · rw [e] at h
      obtain ⟨t, e1, hh⟩ := p.numeral hb16
      simp only [Parts.out] at h
      rw [h, List.append_nil] at e1
      exact .inr ⟨p.val, e1.symm ▸ hh⟩
    · rw [e] at h; exact .inl h
    · rw [e] at h; simp at h
  · rintro (h | ⟨z, hz⟩)
    · unfold strtoll
      rw [h]
      simp [sign, hasPrefix, digitLoop]
    · obtain ⟨p, _, e2⟩ := numeral_parts (t := cstr s) hz (List.append_nil _).symm (by simp) (fun _ => rfl)
      rw [strtoll_parts hb hb16 p]; exact e2

theorem strtoll_value {s : Bytes} {base : Nat} (hb : 0 < base) (hb16 : base ≤ 16) {z : Int}
    (hz : Spec.Numeral base (cstr s) z) :
    strtoll s base = ⟨clampI (-9223372036854775808) 9223372036854775807 z,
      decide (z < -9223372036854775808 ∨ z > 9223372036854775807), []⟩ := by
  obtain ⟨p, e1, e2⟩ := numeral_parts (t := cstr s) hz (List.append_nil _).symm (by simp) (fun _ => rfl)
  rw [strtoll_parts hb hb16 p]
  unfold Parts.out
  rw [e1, e2]

theorem strtoll_empty {s : Bytes} {base : Nat} (h : cstr s = []) : strtoll s base = ⟨0, false, []⟩ := by
  unfold strtoll
  rw [h]
  simp [sign, hasPrefix, digitLoop]

theorem isBase_nat {d : Int} (h : IsBase d) : 0 < d.toNat ∧ d.toNat ≤ 16 := by unfold IsBase at h; omega

/-- A text has at most one value. -/
theorem numeral_unique {base : Nat} (hb : 0 < base) (hb16 : base ≤ 16) {t : Bytes} {z z' : Int}
    (h : Spec.Numeral base t z) (h' : Spec.Numeral base t z') (hz : ∀ b ∈ t, b ≠ 0)
    (hr : I64 z ∧ I64 z') : z = z' := by
  have e := cstr_of_ne_zero hz
  have a := strtoll_value (s := t) hb hb16 (e.symm ▸ h)
  have b := strtoll_value (s := t) hb hb16 (e.symm ▸ h')
  rw [a] at b
  injection b with b1
  unfold clampI at b1
  unfold I64 at hr
  omega

theorem numeral_ne_nil {base : Nat} {z : Int} (h : Spec.Numeral base [] z) : False := by
  obtain ⟨ws, sg, pre, ds, n, e, _, _, hd, _⟩ := h
  have := (denotes_vb hd).1
  simp at e
  exact this e.2.2.2

/-- **C43.**  `Fn->to_int_with_base` returns `z` exactly when the base is 2, 8, 10 or 16 and the string (up to its first NUL) is a
numeral of that base for `z` and `z` is a 32-bit integer, or the string is empty and `z` is 0. -/
theorem c43_to_int_with_base (s : Option Bytes) (d z : Int) :
    toIntWithBase s d = .ok z ↔ ∃ b, s = some b ∧ IsBase d ∧
      ((cstr b = [] ∧ z = 0) ∨ (Spec.Numeral d.toNat (cstr b) z ∧ I32 z)) := by
  cases s with
  | none => simp [toIntWithBase]
  | some s =>
    by_cases hd : IsBase d
    · obtain ⟨hb, hb16⟩ := isBase_nat hd
      have key : toIntWithBase (some s) d = .ok z ↔ (strtoll s d.toNat).rest = [] ∧ (strtoll s d.toNat).erange = false ∧
          I32 (strtoll s d.toNat).num ∧ (strtoll s d.toNat).num = z := by
        unfold toIntWithBase
        simp only
        rw [if_neg (fun hn => hn hd)]
        unfold I32
        by_cases hr : (strtoll s d.toNat).rest = []
        · rw [if_neg (fun hn => hn hr)]
          split
          · rename_i h; simp; intro _ he; simp [he] at h; omega
          · rename_i h; simp at h; simp [hr, h]
        · rw [if_pos hr]; simp [hr]
      rw [key, strtoll_rest hb hb16]
      constructor
      · rintro ⟨h | ⟨z0, hz0⟩, h1, h2, h3⟩
        · rw [strtoll_empty h] at h3; exact ⟨s, rfl, hd, .inl ⟨h, h3.symm⟩⟩
        · rw [strtoll_value hb hb16 hz0] at h1 h2 h3
          simp at h1
          have : z0 = z := by unfold clampI at h3; simp only at h3; omega
          subst this
          rw [show (clampI (-9223372036854775808) 9223372036854775807 z0) = z0 from h3] at h2
          exact ⟨s, rfl, hd, .inr ⟨hz0, h2⟩⟩
      · rintro ⟨b, hb', _, ⟨h, rfl⟩ | ⟨h, h'⟩⟩
        · cases hb'
          rw [strtoll_empty h]
          exact ⟨.inl h, rfl, by unfold I32; decide, rfl⟩
        · cases hb'
          rw [strtoll_value hb hb16 h]
          unfold I32 at *
          refine ⟨.inr ⟨z, h⟩, ?_, ?_, ?_⟩ <;> simp [clampI] <;> omega
    · have : toIntWithBase (some s) d = .die msgBase := by
        unfold toIntWithBase
        simp only
        rw [if_pos (show ¬ (d = 2 ∨ d = 8 ∨ d = 10 ∨ d = 16) from hd)]
      rw [this]
      simp only [reduceCtorEq, false_iff]
      rintro ⟨_, _, h, _⟩
      exact hd h

/-- **C43.**  `Fn->to_long_with_base`: the same for 64-bit integers. -/
theorem c43_to_long_with_base (s : Option Bytes) (d z : Int) :
    toLongWithBase s d = .ok z ↔ ∃ b, s = some b ∧ IsBase d ∧
      ((cstr b = [] ∧ z = 0) ∨ (Spec.Numeral d.toNat (cstr b) z ∧ I64 z)) := by
  cases s with
  | none => simp [toLongWithBase]
  | some s =>
    by_cases hd : IsBase d
    · obtain ⟨hb, hb16⟩ := isBase_nat hd
      have key : toLongWithBase (some s) d = .ok z ↔ (strtoll s d.toNat).rest = [] ∧ (strtoll s d.toNat).erange = false ∧
          (strtoll s d.toNat).num = z := by
        unfold toLongWithBase
        simp only
        rw [if_neg (fun hn => hn hd)]
        by_cases hr : (strtoll s d.toNat).rest = []
        · rw [if_neg (fun hn => hn hr)]
          split
          · rename_i h; simp [h]
          · rename_i h; simp at h; simp [hr, h]
        · rw [if_pos hr]; simp [hr]
      rw [key, strtoll_rest hb hb16]
      constructor
      · rintro ⟨h | ⟨z0, hz0⟩, h1, h3⟩
        · rw [strtoll_empty h] at h3; exact ⟨s, rfl, hd, .inl ⟨h, h3.symm⟩⟩
        · rw [strtoll_value hb hb16 hz0] at h1 h3
          simp at h1
          have : z0 = z := by unfold clampI at h3; simp only at h3; omega
          subst this
          exact ⟨s, rfl, hd, .inr ⟨hz0, by unfold I64; omega⟩⟩
      · rintro ⟨b, hb', _, ⟨h, rfl⟩ | ⟨h, h'⟩⟩
        · cases hb'
          rw [strtoll_empty h]
          exact ⟨.inl h, rfl, rfl⟩
        · cases hb'
          rw [strtoll_value hb hb16 h]
          unfold I64 at *
          refine ⟨.inr ⟨z, h⟩, ?_, ?_⟩ <;> simp [clampI] <;> omega
    · have : toLongWithBase (some s) d = .die msgBase := by
        unfold toLongWithBase
        simp only
        rw [if_pos (show ¬ (d = 2 ∨ d = 8 ∨ d = 10 ∨ d = 16) from hd)]
      rw [this]
      simp only [reduceCtorEq, false_iff]
      rintro ⟨_, _, h, _⟩
      exact hd h

/-- **C43.**  When they do not return, they throw. -/
theorem c43_to_int_throws (s : Option Bytes) (d : Int) :
    ((∃ z, toIntWithBase s d = .ok z) ∨ ∃ m, toIntWithBase s d = .die m) ∧
    ((∃ z, toLongWithBase s d = .ok z) ∨ ∃ m, toLongWithBase s d = .die m) := by
  constructor
  · unfold toIntWithBase
    cases s with
    | none => simp
    | some s => simp only; repeat' split
                all_goals simp
  · unfold toLongWithBase
    cases s with
    | none => simp
    | some s => simp only; repeat' split
                all_goals simp

/-- **C43.**  `Fn->to_int` and `Fn->to_long` read back what the conversion to a string writes. -/
theorem c43_to_int_roundtrip (x : Int) :
    (I32 x → toInt (some (toStr x)) = .ok x) ∧ (I64 x → toLong (some (toStr x)) = .ok x) := by
  constructor
  · intro h
    have h64 : I64 x := by unfold I32 at h; unfold I64; omega
    refine (c43_to_int_with_base _ _ _).2 ⟨_, rfl, .inr (.inr (.inl rfl)), .inr ⟨?_, h⟩⟩
    rw [c43_to_string x h64, cstr_of_ne_zero (decimal_ne_zero x)]
    exact decimal_numeral x
  · intro h
    refine (c43_to_long_with_base _ _ _).2 ⟨_, rfl, .inr (.inr (.inl rfl)), .inr ⟨?_, h⟩⟩
    rw [c43_to_string x h, cstr_of_ne_zero (decimal_ne_zero x)]
    exact decimal_numeral x

/-- **C43, violated.**  `Fn->to_int` accepts strings that are not numerals: the empty string, and any bytes after a NUL
(`"12\0xyz"` is 12).  The conversions stop at the first NUL too. -/
theorem c43_not_a_numeral_violated :
    toInt (some []) = .ok 0 ∧ (∀ z, ¬ Spec.Numeral 10 [] z) ∧
      toInt (some [49, 50, 0, 120, 121, 122]) = .ok 12 ∧ (∀ z, ¬ Spec.Numeral 10 [49, 50, 0, 120, 121, 122] z) := by
  refine ⟨by decide +kernel, fun z h => numeral_ne_nil h, by decide +kernel, ?_⟩
  rintro z ⟨ws, sg, pre, ds, n, e, hws, _, hd, _⟩
  obtain ⟨hne, hds, _⟩ := denotes_vb hd
  have hl : ds.getLast hne = 122 := by
    have h1 : ([49, 50, 0, 120, 121, 122] : Bytes).getLast? = some 122 := rfl
    rw [e, List.getLast?_append, List.getLast?_eq_some_getLast hne] at h1
    simpa using h1
  have := hds _ (List.getLast_mem hne)
  rw [hl] at this
  revert this; decide

/-! ## Examples -/

/-- `" -0129x"` starts with the numeral for -129: bytes saturate, the others do not. -/
example : strToByte (some [32, 45, 48, 49, 50, 57, 120]) = -128 ∧ strToShort (some [32, 45, 48, 49, 50, 57, 120]) = -129 ∧
    strToLong (some [32, 45, 48, 49, 50, 57, 120]) = -129 := by decide +kernel

/-- The hypotheses of `c43_string_to_number` hold for it. -/
example : ∃ t rest z, cstr [32, 45, 48, 49, 50, 57, 120] = t ++ rest ∧ Spec.Numeral 10 t z ∧ z = -129 ∧
    ∀ b r, rest = b :: r → ¬ Spec.IsDigit 10 b := by
  refine ⟨[32, 45, 48, 49, 50, 57], [120], -129, by decide, ?_, rfl, ?_⟩
  · exact ⟨[32], [45], [], [48, 49, 50, 57], 129, rfl, by simp [Spec.IsWhite], .inl rfl,
      .snoc (.snoc (.snoc (.one (d := 0) (by decide) (by decide)) (d := 1) (by decide) (by decide)) (d := 2) (by decide)
        (by decide)) (d := 9) (by decide) (by decide), .inr (.inr ⟨rfl, rfl⟩)⟩
  · intro b r h hd
    cases h
    have := (isDig_iff (by omega) 120).2 hd
    revert this; decide

/-- A string without a numeral. -/
example : strToInt (some [120, 49]) = 0 := by decide +kernel

/-- The bounds of `long`, and one more. -/
example : strToLong (some (toStr (-9223372036854775808))) = -9223372036854775808 ∧
    strToLong (some (Spec.digits 9223372036854775808)) = 9223372036854775807 ∧
    toLong (some (Spec.digits 9223372036854775808)) = .die msgRange64 ∧
    strToLong (some (Spec.digits 99999999999999999999999)) = 9223372036854775807 := by decide +kernel

/-- Base 16 with prefix; a lone `0x` is not a numeral. -/
example : toIntWithBase (some [43, 48, 120, 70, 102]) 16 = .ok 255 ∧ toIntWithBase (some [48, 120]) 16 = .die msgParse32 ∧
    toIntWithBase (some [50]) 2 = .die msgParse32 := by decide +kernel

end NumStr
end SPVM
