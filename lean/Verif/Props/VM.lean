import Verif.Model.VM
import Verif.Lemmas.Array
/-!
# C29, C30, C31: integer division, element access, string comparison; C47 shifts; C48 multi-numeric arrays
-/
set_option linter.unusedSimpArgs false
namespace SPVM
namespace VM

/-! ## C29 -/

/-- `q` is the quotient of `a` by `b` rounded toward zero. -/
def IsTruncQuot (a b q : Int) : Prop :=
  (a - q * b).natAbs < b.natAbs ∧ (0 ≤ a → 0 ≤ a - q * b) ∧ (a ≤ 0 → a - q * b ≤ 0)

/-- `r` is the remainder of `a` by `b` with the sign of `b`. -/
def IsFloorMod (a b r : Int) : Prop :=
  (∃ k, a = k * b + r) ∧ (0 < b → 0 ≤ r ∧ r < b) ∧ (b < 0 → b < r ∧ r ≤ 0)

theorem trunc_spec (a b : Int) (hb : b ≠ 0) : IsTruncQuot a b (a.tdiv b) := by
  have h := Int.mul_tdiv_add_tmod a b
  have h1 : a - a.tdiv b * b = a.tmod b := by rw [Int.mul_comm]; omega
  refine ⟨?_, ?_, ?_⟩
  · rw [h1, Int.natAbs_tmod]; exact Nat.mod_lt _ (by omega)
  · intro ha; rw [h1]; exact Int.tmod_nonneg b ha
  · intro ha; rw [h1]
    have := Int.tmod_nonneg (a := -a) b (by omega)
    rw [Int.neg_tmod] at this; omega

theorem tmod_bounds (a b : Int) (hb : b ≠ 0) :
    (0 ≤ a → 0 ≤ a.tmod b) ∧ (a ≤ 0 → a.tmod b ≤ 0) ∧ (a.tmod b).natAbs < b.natAbs := by
  have h := trunc_spec a b hb
  have h0 := Int.mul_tdiv_add_tmod a b
  have h1 : a - a.tdiv b * b = a.tmod b := by rw [Int.mul_comm]; omega
  unfold IsTruncQuot at h
  rw [h1] at h
  exact ⟨h.2.1, h.2.2, h.1⟩

theorem tdiv_range {lo a b : Int} (hlo : lo < 0) (ha : lo ≤ a ∧ a ≤ -lo - 1) (hb : b ≠ 0) (hn : ¬ (a = lo ∧ b = -1)) :
    lo ≤ a.tdiv b ∧ a.tdiv b ≤ -lo - 1 := by
  have h1 : (a.tdiv b).natAbs ≤ a.natAbs := by rw [Int.natAbs_tdiv]; exact Nat.div_le_self _ _
  by_cases h2 : a = lo
  · by_cases h3 : b = 1
    · subst h3; simp; omega
    · have : (a.tdiv b).natAbs < a.natAbs := by
        rw [Int.natAbs_tdiv]; exact Nat.div_lt_self (by omega) (by omega)
      omega
  · omega

/-- **C29**, division of signed operands (for `int`: `lo = minInt`; for `long`: `lo = minLong`). -/
theorem c29_divide (lo : Int) (hlo : lo < 0) (a b : Int) (ha : lo ≤ a ∧ a ≤ -lo - 1) :
    (b = 0 → divide lo a b = .die msgDivZero) ∧
    (b ≠ 0 → ¬ (a = lo ∧ b = -1) → ∃ q, divide lo a b = .ok q ∧ lo ≤ q ∧ q ≤ -lo - 1 ∧ IsTruncQuot a b q) ∧
    (a = lo ∧ b = -1 → divide lo a b = .ub) := by
  refine ⟨fun h => by simp [divide, h], fun hb hn => ?_, fun ⟨h1, h2⟩ => by simp [divide, cDiv, h1, h2]⟩
  have := tdiv_range hlo ha hb hn
  exact ⟨a.tdiv b, by simp only [divide, cDiv]; rw [if_neg hb, if_neg hn], this.1, this.2, trunc_spec a b hb⟩

/-- **C29**, remainder of signed operands. -/
theorem c29_modulo (lo : Int) (hlo : lo < 0) (a b : Int) (ha : lo ≤ a ∧ a ≤ -lo - 1) (hb : lo ≤ b ∧ b ≤ -lo - 1) :
    (b = 0 → modulo lo a b = .die msgDivZero) ∧
    (b ≠ 0 → ¬ (a = lo ∧ b = -1) → ∃ r, modulo lo a b = .ok r ∧ lo ≤ r ∧ r ≤ -lo - 1 ∧ IsFloorMod a b r) ∧
    (a = lo ∧ b = -1 → modulo lo a b = .ub) := by
  refine ⟨fun h => by simp [modulo, h], fun hb0 hn => ?_, fun ⟨h1, h2⟩ => by simp [modulo, cRem, h1, h2]⟩
  unfold modulo cRem
  rw [if_neg hb0, if_neg hn]
  simp only [Out.ok_bind]
  obtain ⟨t1, t2, t3⟩ := tmod_bounds a b hb0
  have heq := Int.mul_tdiv_add_tmod a b
  generalize a.tmod b = t at *
  generalize a.tdiv b = q at *
  by_cases hs : ((decide (a < 0)) != (decide (b < 0))) = true ∧ t ≠ 0
  · rw [if_pos hs]
    have hs1 : (a < 0 ∧ 0 ≤ b) ∨ (0 ≤ a ∧ b < 0) := by
      have := hs.1
      simp only [bne_iff_ne, ne_eq, decide_eq_decide] at this
      omega
    have hs2 := hs.2
    rw [if_pos (by omega)]
    refine ⟨t + b, rfl, by omega, by omega, ⟨q - 1, ?_⟩, by omega, by omega⟩
    rw [Int.sub_mul, Int.mul_comm q b]; omega
  · rw [if_neg hs]
    have hs1 : ((a < 0 ↔ b < 0)) ∨ t = 0 := by
      by_cases h0 : t = 0
      · exact .inr h0
      · left
        have : ¬ ((decide (a < 0)) != (decide (b < 0))) = true := fun h => hs ⟨h, h0⟩
        simpa using this
    refine ⟨t, rfl, by omega, by omega, ⟨q, ?_⟩, ?_, ?_⟩
    · rw [Int.mul_comm q b]; omega
    · rcases hs1 with h | h <;> omega
    · rcases hs1 with h | h <;> omega

/-- `int` instances. -/
theorem c29_int (a b : Int) (ha : I32 a) (hb : I32 b) :
    (b = 0 → divInt a b = .die msgDivZero ∧ modInt a b = .die msgDivZero) ∧
    (b ≠ 0 → ¬ (a = -2147483648 ∧ b = -1) →
      (∃ q, divInt a b = .ok q ∧ I32 q ∧ IsTruncQuot a b q) ∧ (∃ r, modInt a b = .ok r ∧ I32 r ∧ IsFloorMod a b r)) ∧
    (a = -2147483648 ∧ b = -1 → divInt a b = .ub ∧ modInt a b = .ub) := by
  unfold I32 at *
  have hd := c29_divide minInt (by decide) a b (by simp only [minInt]; omega)
  have hm := c29_modulo minInt (by decide) a b (by simp only [minInt]; omega) (by simp only [minInt]; omega)
  refine ⟨fun h => ⟨hd.1 h, hm.1 h⟩, fun h1 h2 => ?_, fun h => ⟨hd.2.2 h, hm.2.2 h⟩⟩
  obtain ⟨q, q1, q2, q3, q4⟩ := hd.2.1 h1 h2
  obtain ⟨r, r1, r2, r3, r4⟩ := hm.2.1 h1 h2
  simp only [minInt] at q2 q3 r2 r3
  exact ⟨⟨q, q1, by omega, q4⟩, ⟨r, r1, by omega, r4⟩⟩

/-- `long` instances. -/
theorem c29_long (a b : Int) (ha : I64 a) (hb : I64 b) :
    (b = 0 → divide minLong a b = .die msgDivZero ∧ modulo minLong a b = .die msgDivZero) ∧
    (b ≠ 0 → ¬ (a = -9223372036854775808 ∧ b = -1) →
      (∃ q, divide minLong a b = .ok q ∧ I64 q ∧ IsTruncQuot a b q) ∧
      (∃ r, modulo minLong a b = .ok r ∧ I64 r ∧ IsFloorMod a b r)) ∧
    (a = -9223372036854775808 ∧ b = -1 → divide minLong a b = .ub ∧ modulo minLong a b = .ub) := by
  unfold I64 at *
  have hd := c29_divide minLong (by decide) a b (by simp only [minLong]; omega)
  have hm := c29_modulo minLong (by decide) a b (by simp only [minLong]; omega) (by simp only [minLong]; omega)
  refine ⟨fun h => ⟨hd.1 h, hm.1 h⟩, fun h1 h2 => ?_, fun h => ⟨hd.2.2 h, hm.2.2 h⟩⟩
  obtain ⟨q, q1, q2, q3, q4⟩ := hd.2.1 h1 h2
  obtain ⟨r, r1, r2, r3, r4⟩ := hm.2.1 h1 h2
  simp only [minLong] at q2 q3 r2 r3
  exact ⟨⟨q, q1, by omega, q4⟩, ⟨r, r1, by omega, r4⟩⟩

/-- **C29**, unsigned operators at any width. -/
theorem c29_unsigned {w : Nat} (a b : BitVec w) :
    (b.toNat = 0 → divideUnsigned a b = .die msgDivZero ∧ moduloUnsigned a b = .die msgDivZero) ∧
    (b.toNat ≠ 0 → ∃ q r, divideUnsigned a b = .ok q ∧ moduloUnsigned a b = .ok r ∧
      a.toNat = q.toNat * b.toNat + r.toNat ∧ r.toNat < b.toNat) := by
  constructor
  · intro h
    have : b = 0 := by apply BitVec.eq_of_toNat_eq; simpa using h
    simp [divideUnsigned, moduloUnsigned, this]
  · intro h
    have hb : b ≠ 0 := fun h' => h (by simp [h'])
    refine ⟨_, _, by simp only [divideUnsigned]; rw [if_neg hb], by simp only [moduloUnsigned]; rw [if_neg hb], ?_, ?_⟩
    · have ha := a.isLt
      rw [BitVec.toNat_ofNat, BitVec.toNat_ofNat, Nat.mod_eq_of_lt (Nat.lt_of_le_of_lt (Nat.div_le_self _ _) ha),
        Nat.mod_eq_of_lt (Nat.lt_of_le_of_lt (Nat.mod_le _ _) ha), Nat.mul_comm]
      exact (Nat.div_add_mod _ _).symm
    · rw [BitVec.toNat_ofNat]
      exact Nat.lt_of_le_of_lt (Nat.mod_le _ _) (Nat.mod_lt _ (by omega))

/-- Non-vacuity of C29: operands of different sign. -/
example : divInt (-7) 2 = .ok (-3) ∧ modInt (-7) 2 = .ok 1 ∧ modInt 7 (-2) = .ok (-1) ∧ divInt (-2147483648) 2 = .ok (-1073741824) := by
  decide

/-- Both operands non-negative: the usual remainder (used by the library models). -/
theorem modInt_nonneg {a b : Int} (ha : 0 ≤ a) (ha' : a ≤ 2147483647) (hb : 0 < b) : modInt a b = .ok (a % b) := by
  unfold modInt modulo cRem minInt
  rw [if_neg (by omega), if_neg (by omega)]
  simp only [Out.ok_bind]
  rw [if_neg (by simp; omega)]
  rw [Int.tmod_eq_emod_of_nonneg ha]

/-! ## C47: shifts -/

/-- **C47**: for shift counts `0..w-1` the right shifts are floor division by `2^n` (arithmetic) and unsigned division by
`2^n` (logical), and a left shift of a non-negative operand whose result is representable is multiplication by `2^n`;
every other shift is undefined behaviour of the C expression. -/
theorem c47_shifts (w : Nat) (a n : Int) (u : BitVec w) :
    (0 ≤ n ∧ n < w → rightArithShift w a n = .ok (a.fdiv (2 ^ n.toNat)) ∧
      ∃ v, rightLogicShift u n = .ok v ∧ v.toNat = u.toNat / 2 ^ n.toNat) ∧
    (0 ≤ n ∧ n < w ∧ 0 ≤ a ∧ a * 2 ^ n.toNat < 2 ^ (w - 1) → leftShift w a n = .ok (a * 2 ^ n.toNat)) ∧
    (¬ (0 ≤ n ∧ n < w) → rightArithShift w a n = .ub ∧ rightLogicShift u n = .ub ∧ leftShift w a n = .ub) := by
  refine ⟨fun h => ⟨?_, u >>> n.toNat, ?_, ?_⟩, fun h => ?_, fun h => ⟨?_, ?_, ?_⟩⟩
  · rw [rightArithShift, if_pos (show shiftOk w n from h), Int.fdiv_eq_ediv_of_nonneg _ (by exact Int.le_of_lt (Int.pow_pos (by decide)))]
  · rw [rightLogicShift, if_pos (show shiftOk w n from h)]
  · rw [BitVec.toNat_ushiftRight, Nat.shiftRight_eq_div_pow]
  · rw [leftShift, if_pos ⟨⟨h.1, h.2.1⟩, h.2.2⟩]
  · rw [rightArithShift, if_neg (show ¬ shiftOk w n from h)]
  · rw [rightLogicShift, if_neg (show ¬ shiftOk w n from h)]
  · rw [leftShift, if_neg (fun c => h c.1)]

/-- Left shift of a negative `int` (e.g. `-1 << 1`) is undefined in C. -/
theorem c47_left_shift_negative_violated : leftShift 32 (-1) 1 = .ub := by rfl

example : rightArithShift 32 (-7) 1 = .ok (-4) ∧ rightLogicShift (w := 32) (BitVec.ofInt 32 (-8)) 28 = .ok 15#32 ∧
    leftShift 32 5 3 = .ok 40 := by decide

/-! ## C30 -/

/-- **C30**, reading: throws exactly for `undef` and for an index outside `0..length-1`; otherwise returns that
element.  In particular memory outside the block is never read (`ub` is impossible). -/
theorem c30_get {α : Type} (array : Option (List α)) (i : Int) :
    (∃ a, ∃ h : i.toNat < a.length, array = some a ∧ 0 ≤ i ∧ getElement array i = .ok (a[i.toNat])) ∨
    ((array = none ∨ ∃ a, array = some a ∧ (i < 0 ∨ a.length ≤ i)) ∧ ∃ m, getElement array i = .die m) := by
  cases array with
  | none => exact .inr ⟨.inl rfl, _, rfl⟩
  | some a =>
    by_cases h : 0 ≤ i ∧ i < a.length
    · exact .inl ⟨a, by omega, rfl, h.1, aGet_ok h.1 (by omega)⟩
    · refine .inr ⟨.inr ⟨a, rfl, by omega⟩, msgIndexRange, ?_⟩
      simp only [getElement, aGet]
      rw [if_pos (by simp only [alen]; omega)]

/-- **C30**, writing: as reading, and exactly the addressed element changes. -/
theorem c30_set {α : Type} (array : Option (List α)) (i : Int) (x : α) :
    (∃ a b, array = some a ∧ 0 ≤ i ∧ i < a.length ∧ setElement array i x = .ok b ∧ b.length = a.length ∧
      ∀ j : Nat, b[j]? = if (j : Int) = i then some x else a[j]?) ∨
    ((array = none ∨ ∃ a, array = some a ∧ (i < 0 ∨ a.length ≤ i)) ∧ ∃ m, setElement array i x = .die m) := by
  cases array with
  | none => exact .inr ⟨.inl rfl, _, rfl⟩
  | some a =>
    by_cases h : 0 ≤ i ∧ i < a.length
    · refine .inl ⟨a, a.set i.toNat x, rfl, h.1, h.2, aSet_ok h.1 (by omega), by simp, fun j => ?_⟩
      rw [List.getElem?_set]
      by_cases hj : (j : Int) = i
      · rw [if_pos (by omega), if_pos (by omega), if_pos hj]
      · rw [if_neg (by omega), if_neg hj]
    · refine .inr ⟨.inr ⟨a, rfl, by omega⟩, msgIndexRange, ?_⟩
      simp only [setElement, aSet]
      rw [if_pos (by simp only [alen]; omega)]

/-- **C30**, object elements: a store that does not fit the element type throws and changes nothing; otherwise as above. -/
theorem c30_set_checked {α : Type} (accept : α → Bool) (a : List (Option α)) (i : Int) (x : Option α) :
    (0 ≤ i ∧ i < a.length ∧ (∀ v, x = some v → accept v = true) ∧
      ∃ b, setElementChecked accept a i x = .ok b ∧ b.length = a.length ∧
        ∀ j : Nat, b[j]? = if (j : Int) = i then some x else a[j]?) ∨
    ((i < 0 ∨ a.length ≤ i ∨ ∃ v, x = some v ∧ accept v = false) ∧ ∃ m, setElementChecked accept a i x = .die m) := by
  unfold setElementChecked
  by_cases h : 0 ≤ i ∧ i < a.length
  · rw [if_neg (by simp only [alen]; omega)]
    have hset : ∀ y : Option α, aSet a i y = .ok (a.set i.toNat y) ∧ (a.set i.toNat y).length = a.length ∧
        ∀ j : Nat, (a.set i.toNat y)[j]? = if (j : Int) = i then some y else a[j]? := by
      intro y
      refine ⟨aSet_ok h.1 (by omega), by simp, fun j => ?_⟩
      rw [List.getElem?_set]
      by_cases hj : (j : Int) = i
      · rw [if_pos (by omega), if_pos (by omega), if_pos hj]
      · rw [if_neg (by omega), if_neg hj]
    cases x with
    | none => exact .inl ⟨h.1, h.2, by simp, _, hset none⟩
    | some v =>
      simp only
      cases hv : accept v with
      | true => exact .inl ⟨h.1, h.2, by simpa using hv, a.set i.toNat (some v), by simpa using hset (some v)⟩
      | false => exact .inr ⟨.inr (.inr ⟨v, rfl, hv⟩), msgElemType, by simp⟩
  · exact .inr ⟨by omega, msgIndexRange, by rw [if_pos (by simp only [alen]; omega)]⟩

example : getElement (some [10, 20, 30]) 2 = .ok 30 ∧ getElement (some [10, 20, 30]) 3 = .die msgIndexRange ∧
    setElement (some [10, 20, 30]) 0 5 = .ok [5, 20, 30] := by refine ⟨by rfl, by rfl, by rfl⟩

/-! ## C48: multi-numeric arrays -/

/-- **C48**: in an array of multi-numeric values created by `new T[length]` (`fieldsLength` fields of `unitSize` bytes),
as long as the creation did not overflow, every field access with any index either throws or is inside the block, and a
write to field `f` of element `i` is seen by a read of `(i', f')` exactly when `(i', f') = (i, f)`. -/
theorem c48_mulnum_fields {α : Type} (limit : Nat) (zero : α) (unitSize fieldsLength length : Int) (a : MulArray α)
    (hu : 1 ≤ unitSize) (hf : 1 ≤ fieldsLength) (hnew : newMulArray limit zero unitSize fieldsLength length = .ok a)
    (i f : Int) (hf0 : 0 ≤ f) (hf1 : f < fieldsLength) (x : α) :
    a.length = length ∧
    (¬ (0 ≤ i ∧ i < length) → ∃ m, getMulField (some a) i f fieldsLength = .die m ∧
      setMulField (some a) i f fieldsLength x = .die m) ∧
    (0 ≤ i ∧ i < length → getMulField (some a) i f fieldsLength = .ok zero ∧
      ∃ b, setMulField (some a) i f fieldsLength x = .ok b ∧ b.length = length ∧
        ∀ i' f', 0 ≤ i' → i' < length → 0 ≤ f' → f' < fieldsLength →
          getMulField (some b) i' f' fieldsLength = .ok (if i' = i ∧ f' = f then x else zero)) := by
  unfold newMulArray at hnew
  by_cases hl : length ≥ 0
  · rw [if_pos hl] at hnew
    by_cases c1 : I32 (unitSize * fieldsLength)
    · rw [mul32_ok c1] at hnew
      simp only [Out.ok_bind] at hnew
      by_cases c2 : I32 (length + 1)
      · rw [add32_ok c2] at hnew
        simp only [Out.ok_bind] at hnew
        by_cases c3 : I32 (unitSize * fieldsLength * (length + 1))
        · rw [mul32_ok c3] at hnew
          simp only [Out.ok_bind] at hnew
          by_cases c4 : (unitSize * fieldsLength * (length + 1)).toNat ≤ limit
          · rw [if_pos c4] at hnew
            simp only [Out.ok.injEq] at hnew
            subst hnew
            have hle : fieldsLength * (length + 1) ≤ 2147483647 := by
              have := c3.2
              have h2 : fieldsLength * (length + 1) ≤ unitSize * (fieldsLength * (length + 1)) := by
                have hp : 0 ≤ fieldsLength * (length + 1) := Int.mul_nonneg (by omega) (by omega)
                calc fieldsLength * (length + 1) = 1 * (fieldsLength * (length + 1)) := by rw [Int.one_mul]
                  _ ≤ _ := Int.mul_le_mul_of_nonneg_right hu hp
              rw [Int.mul_assoc] at this
              omega
            have key : ∀ i' f', 0 ≤ i' → i' < length → 0 ≤ f' → f' < fieldsLength →
                0 ≤ fieldsLength * i' ∧ fieldsLength * i' + f' < fieldsLength * length ∧
                fieldsLength * length ≤ fieldsLength * (length + 1) := by
              intro i' f' h1 h2 h3 h4
              refine ⟨Int.mul_nonneg (by omega) h1, ?_, Int.mul_le_mul_of_nonneg_left (by omega) (by omega)⟩
              have : fieldsLength * (i' + 1) ≤ fieldsLength * length := Int.mul_le_mul_of_nonneg_left (by omega) (by omega)
              rw [Int.mul_add] at this
              omega
            refine ⟨rfl, ?_, ?_⟩
            · intro hni
              refine ⟨msgIndexRange, ?_, ?_⟩
              · simp only [getMulField]; rw [if_pos (by omega)]
              · simp only [setMulField]; rw [if_pos (by omega)]
            · intro hi
              obtain ⟨k1, k2, k3⟩ := key i f hi.1 hi.2 hf0 hf1
              have hget : ∀ (cs : List α) i' f', 0 ≤ i' → i' < length → 0 ≤ f' → f' < fieldsLength →
                  ∀ y, cs[(fieldsLength * i' + f').toNat]? = some y →
                  getMulField (some { length := length, cells := cs }) i' f' fieldsLength = .ok y := by
                intro cs i' f' h1 h2 h3 h4 y hy
                obtain ⟨j1, j2, j3⟩ := key i' f' h1 h2 h3 h4
                simp only [getMulField]
                rw [if_neg (by omega), mul32_ok (by unfold I32; omega)]
                simp only [Out.ok_bind]
                rw [add32_ok (by unfold I32; omega)]
                simp only [Out.ok_bind, cell]
                rw [if_pos (by omega), hy]
              refine ⟨hget _ i f hi.1 hi.2 hf0 hf1 zero (by rw [List.getElem?_replicate, if_pos (by omega)]), ?_⟩
              refine ⟨MulArray.mk length (List.set (List.replicate (fieldsLength * (length + 1)).toNat zero)
                  (fieldsLength * i + f).toNat x), ?_, rfl, ?_⟩
              · simp only [setMulField]
                rw [if_neg (by omega), mul32_ok (by unfold I32; omega)]
                simp only [Out.ok_bind]
                rw [add32_ok (by unfold I32; omega)]
                simp only [Out.ok_bind, setCell]
                rw [if_pos (by simp; omega)]
                rfl
              · intro i' f' h1 h2 h3 h4
                obtain ⟨j1, j2, j3⟩ := key i' f' h1 h2 h3 h4
                apply hget _ i' f' h1 h2 h3 h4
                rw [List.getElem?_set]
                by_cases heq : i' = i ∧ f' = f
                · rw [heq.1, heq.2, if_pos rfl, if_pos (by simp; omega)]
                  simp
                · rw [if_neg heq, if_neg ?_, List.getElem?_replicate, if_pos (by omega)]
                  intro hk
                  apply heq
                  have hk' : fieldsLength * i + f = fieldsLength * i' + f' := by omega
                  have e1 : (fieldsLength * i + f) / fieldsLength = i := by
                    rw [Int.add_comm, Int.add_mul_ediv_left _ _ (by omega), Int.ediv_eq_zero_of_lt hf0 hf1]; omega
                  have e2 : (fieldsLength * i' + f') / fieldsLength = i' := by
                    rw [Int.add_comm, Int.add_mul_ediv_left _ _ (by omega), Int.ediv_eq_zero_of_lt h3 h4]; omega
                  have : i' = i := by rw [← e1, ← e2, hk']
                  subst this
                  exact ⟨rfl, by omega⟩
          · rw [if_neg c4] at hnew; cases hnew
        · rw [mul32, chk32, if_neg c3] at hnew; cases hnew
      · rw [add32, chk32, if_neg c2] at hnew; cases hnew
    · rw [mul32, chk32, if_neg c1] at hnew; cases hnew
  · rw [if_neg hl] at hnew; cases hnew

/-- The size of a multi-numeric array is computed in `int`: an array of 2^27 values with two `double` fields overflows. -/
theorem c48_mulnum_size_overflow_violated (limit : Nat) :
    newMulArray limit (0 : Int) 8 2 134217728 = .ub := by
  rfl

example : ∃ a, newMulArray 1000 (0 : Int) 8 2 3 = .ok a ∧ getMulField (some a) 2 1 2 = .ok 0 := ⟨_, by rfl, by rfl⟩

/-! ## C31 -/

/-- Specification: byte strings ordered lexicographically by unsigned byte value, a proper prefix being smaller, and
`undef` below every string. -/
inductive LexLt : Bytes → Bytes → Prop
  | nil {b bs} : LexLt [] (b :: bs)
  | head {a b as bs} : a.toNat < b.toNat → LexLt (a :: as) (b :: bs)
  | tail {a as bs} : LexLt as bs → LexLt (a :: as) (a :: bs)

/-- The order including `undef`. -/
def StrLt : Option Bytes → Option Bytes → Prop
  | none, some _ => True
  | some a, some b => LexLt a b
  | _, none => False

theorem memcmp_spec (a b : Bytes) : ∀ n, n ≤ a.length → n ≤ b.length →
    ∃ r, memcmp a b n = .ok r ∧
      ((r = 0 ∧ a.take n = b.take n) ∨
       (r < 0 ∧ LexLt a b) ∨ (0 < r ∧ LexLt b a)) := by
  induction a generalizing b with
  | nil =>
    intro n h1 h2
    have : n = 0 := by simpa using h1
    subst this
    exact ⟨0, by simp [memcmp], .inl ⟨rfl, by simp⟩⟩
  | cons x xs ih =>
    intro n h1 h2
    cases n with
    | zero => exact ⟨0, by simp [memcmp], .inl ⟨rfl, by simp⟩⟩
    | succ n =>
      cases b with
      | nil => simp at h2
      | cons y ys =>
        simp only [memcmp]
        by_cases hxy : x = y
        · rw [if_pos hxy]
          subst hxy
          simp at h1 h2
          obtain ⟨r, e, h⟩ := ih ys n h1 h2
          refine ⟨r, e, ?_⟩
          rcases h with ⟨h1, h2⟩ | ⟨h1, h2⟩ | ⟨h1, h2⟩
          · exact .inl ⟨h1, by simp [h2]⟩
          · exact .inr (.inl ⟨h1, .tail h2⟩)
          · exact .inr (.inr ⟨h1, .tail h2⟩)
        · rw [if_neg hxy]
          have hne : x.toNat ≠ y.toNat := fun h => hxy (UInt8.toNat_inj.mp h)
          refine ⟨_, rfl, ?_⟩
          by_cases hlt : x.toNat < y.toNat
          · exact .inr (.inl ⟨by omega, .head hlt⟩)
          · exact .inr (.inr ⟨by omega, .head (by omega)⟩)

theorem lexLt_of_prefix : ∀ (a b : Bytes), a.length < b.length → a = b.take a.length → LexLt a b
  | [], [], h, _ => by simp at h
  | [], _ :: _, _, _ => .nil
  | _ :: _, [], h, _ => by simp at h
  | x :: xs, y :: ys, h, e => by
    simp at h e
    obtain ⟨rfl, e⟩ := e
    exact .tail (lexLt_of_prefix xs ys h e)

/-- What `cmp` returns: the sign of the order, never undefined behaviour. -/
theorem stringCmp_spec (s1 s2 : Option Bytes) :
    (stringCmp s1 s2 = .ok (-1) ∧ StrLt s1 s2) ∨ (stringCmp s1 s2 = .ok 0 ∧ s1 = s2) ∨
    (stringCmp s1 s2 = .ok 1 ∧ StrLt s2 s1) := by
  cases s1 with
  | none => cases s2 with
    | none => exact .inr (.inl ⟨rfl, rfl⟩)
    | some b => exact .inl ⟨rfl, trivial⟩
  | some a => cases s2 with
    | none => exact .inr (.inr ⟨rfl, trivial⟩)
    | some b =>
      simp only [stringCmp]
      obtain ⟨r, e, h⟩ := memcmp_spec a b (if a.length < b.length then a.length else b.length)
        (by split <;> omega) (by split <;> omega)
      rw [e]
      simp only [Out.ok_bind, Out.pure_eq]
      rcases h with ⟨h1, h2⟩ | ⟨h1, h2⟩ | ⟨h1, h2⟩
      · rw [if_neg (by omega)]
        by_cases hl : a.length < b.length
        · rw [if_neg (by omega), if_pos hl]
          rw [if_pos hl] at h2
          exact .inl ⟨rfl, lexLt_of_prefix a b hl (by simpa using h2)⟩
        · rw [if_neg hl] at h2
          by_cases he : a.length = b.length
          · rw [if_pos he]
            refine .inr (.inl ⟨rfl, ?_⟩)
            rw [← he] at h2
            simp [he] at h2
            rw [← he] at h2
            simpa using h2
          · rw [if_neg he, if_neg hl]
            exact .inr (.inr ⟨rfl, lexLt_of_prefix b a (by omega) (by simpa using h2.symm)⟩)
      · rw [if_pos (by omega), if_pos h1]
        exact .inl ⟨rfl, h2⟩
      · rw [if_pos (by omega), if_neg (by omega)]
        exact .inr (.inr ⟨rfl, h2⟩)

theorem lexLt_trans {a b c : Bytes} (h1 : LexLt a b) (h2 : LexLt b c) : LexLt a c := by
  induction h1 generalizing c with
  | nil => cases h2 <;> exact .nil
  | head h =>
    cases h2 with
    | head h' => exact .head (by omega)
    | tail h' => exact .head h
  | tail h ih =>
    cases h2 with
    | head h' => exact .head h'
    | tail h' => exact .tail (ih h')

theorem lexLt_irrefl (a : Bytes) : ¬ LexLt a a := by
  induction a with
  | nil => intro h; cases h
  | cons x xs ih => intro h; cases h with
    | head h => omega
    | tail h => exact ih h

theorem strLt_trans {a b c : Option Bytes} (h1 : StrLt a b) (h2 : StrLt b c) : StrLt a c := by
  cases a <;> cases b <;> cases c <;> simp_all [StrLt]
  exact lexLt_trans h1 h2

theorem strLt_irrefl (a : Option Bytes) : ¬ StrLt a a := by
  cases a
  · simp [StrLt]
  · exact lexLt_irrefl _

/-- **C31**: `cmp` is -1/0/1 exactly according to the lexicographic order with `undef` least, and each of the six
relational operators is the corresponding relation. -/
theorem c31_operators (s1 s2 : Option Bytes) :
    ∃ c : Int, stringComparison .cmp s1 s2 = .ok c ∧
      (c = -1 ↔ StrLt s1 s2) ∧ (c = 0 ↔ s1 = s2) ∧ (c = 1 ↔ StrLt s2 s1) ∧ (c = -1 ∨ c = 0 ∨ c = 1) ∧
      stringComparison .eq s1 s2 = .ok (if c = 0 then 1 else 0) ∧
      stringComparison .ne s1 s2 = .ok (if c = 0 then 0 else 1) ∧
      stringComparison .lt s1 s2 = .ok (if c = -1 then 1 else 0) ∧
      stringComparison .gt s1 s2 = .ok (if c = 1 then 1 else 0) ∧
      stringComparison .le s1 s2 = .ok (if c = 1 then 0 else 1) ∧
      stringComparison .ge s1 s2 = .ok (if c = -1 then 0 else 1) := by
  have hasym : ∀ x y, StrLt x y → ¬ StrLt y x := fun x y h h' => strLt_irrefl _ (strLt_trans h h')
  rcases stringCmp_spec s1 s2 with ⟨e, h⟩ | ⟨e, h⟩ | ⟨e, h⟩
  · refine ⟨-1, by simp [stringComparison, e], by simp [h], ?_, ?_, by simp, ?_⟩
    · constructor
      · intro h; omega
      · intro h'; subst h'; exact absurd h (strLt_irrefl _)
    · constructor
      · intro h; omega
      · intro h'; exact absurd h' (hasym _ _ h)
    · simp [stringComparison, e]
  · subst h
    refine ⟨0, by simp [stringComparison, e], ?_, by simp, ?_, by simp, ?_⟩
    · constructor
      · intro h; omega
      · intro h'; exact absurd h' (strLt_irrefl _)
    · constructor
      · intro h; omega
      · intro h'; exact absurd h' (strLt_irrefl _)
    · simp [stringComparison, e]
  · refine ⟨1, by simp [stringComparison, e], ?_, ?_, by simp [h], by simp, ?_⟩
    · constructor
      · intro h; omega
      · intro h'; exact absurd h' (hasym _ _ h)
    · constructor
      · intro h; omega
      · intro h'; subst h'; exact absurd h (strLt_irrefl _)
    · simp [stringComparison, e]

/-- **C31**: the order is a strict total order (so `cmp` can be used as a sort comparator): irreflexive, transitive and
any two different strings are comparable. -/
theorem c31_total_order :
    (∀ a, ¬ StrLt a a) ∧ (∀ a b c, StrLt a b → StrLt b c → StrLt a c) ∧
    (∀ a b, StrLt a b ∨ a = b ∨ StrLt b a) := by
  refine ⟨strLt_irrefl, fun _ _ _ => strLt_trans, fun a b => ?_⟩
  rcases stringCmp_spec a b with ⟨_, h⟩ | ⟨_, h⟩ | ⟨_, h⟩
  · exact .inl h
  · exact .inr (.inl h)
  · exact .inr (.inr h)

/-- Non-vacuity: bytes above 127 compare as unsigned, a prefix is smaller. -/
example : stringComparison .cmp (some [0x7f]) (some [0x80]) = .ok (-1) ∧
    stringComparison .lt (some [97]) (some [97, 0]) = .ok 1 ∧ stringComparison .gt (some []) none = .ok 1 := by decide

/-- Numeric `<=>`. -/
theorem c31_numeric_cmp (a b : Int) :
    (numCmp a b = -1 ↔ a < b) ∧ (numCmp a b = 0 ↔ a = b) ∧ (numCmp a b = 1 ↔ a > b) := by
  unfold numCmp
  split
  · omega
  · split <;> omega

end VM
end SPVM
