import Verif.Model.Expr
import Verif.Props.VM
/-!
# Numeric expressions: the opcodes compute the documented values
-/
namespace SPVM
namespace Expr

/-- The outcome of an operator as an outcome of the code. -/
def Ans.out {α} : Ans α → Out α
  | .val x => .ok x
  | .throws msg => .die msg
  | .undefined => .ub

theorem inRange_iff (t : NT) (n : Int) : InRange t n ↔ t.lo ≤ n ∧ n ≤ -t.lo - 1 := by
  cases t <;> simp only [InRange, NT.bits, NT.lo] <;> omega

theorem isInteger_iff (t : NT) : t.isInteger = true ↔ t.IsInt := by cases t <;> decide
theorem isInteger_false (t : NT) : t.isInteger = false ↔ ¬ t.IsInt := by cases t <;> decide

theorem width_eq (t : NT) : t.width = t.bits := by cases t <;> rfl
theorem bits_pos (t : NT) : 0 < t.bits := by cases t <;> decide
theorem lo_eq (t : NT) : t.lo = -2 ^ (t.bits - 1) := by cases t <;> rfl

theorem signed_eq {φ} (t : NT) (n : Int) : (signed t n : Out (Val φ)) = (fits t n).out := by
  unfold signed fits
  by_cases h : InRange t n
  · rw [if_pos ((inRange_iff t n).1 h), if_pos h]; rfl
  · rw [if_neg (fun h' => h ((inRange_iff t n).2 h')), if_neg h]; rfl

theorem ofInt_toInt (t : NT) (n : Int) : (BitVec.ofInt t.width n).toInt = wrap t n := by
  rw [width_eq, BitVec.toInt_ofInt]; rfl

theorem wrap_range (t : NT) (n : Int) : InRange t (wrap t n) := by
  have := @Int.bmod_lt n (2 ^ t.bits) (Nat.pow_pos (by decide))
  have := @Int.le_bmod n (2 ^ t.bits) (Nat.pow_pos (by decide))
  unfold InRange wrap
  cases t <;> simp only [NT.bits] at * <;> omega

theorem wrap_id {t : NT} {n : Int} (h : InRange t n) : wrap t n = n := by
  unfold InRange at h; unfold wrap
  apply Int.bmod_eq_of_le <;> cases t <;> simp only [NT.bits] at * <;> omega

theorem convVal_eq {φ} (F : Fl φ) {s t : NT} (h : s ≠ t) (v : Val φ) : convVal F s t v = (conv F s t v).out := by
  cases v with
  | i n =>
    simp only [convVal, conv]
    by_cases ht : t.IsInt
    · rw [if_pos ((isInteger_iff t).2 ht), if_pos ht, ofInt_toInt]; rfl
    · rw [if_neg (by simp [(isInteger_false t).2 ht]), if_neg ht]; rfl
  | f x =>
    simp only [convVal, conv]
    by_cases ht : t.IsInt
    · rw [if_pos ((isInteger_iff t).2 ht), if_pos ht]
      cases F.toInt s x with
      | some n => exact signed_eq t n
      | none => rfl
    · rw [if_neg (by simp [(isInteger_false t).2 ht]), if_neg ht, if_neg h]; rfl

theorem conv_same {φ} (F : Fl φ) {t : NT} {v : Val φ} (h : HasTy t v) : conv F t t v = .val v := by
  cases v with
  | i n => simp only [conv, HasTy] at *; rw [if_pos h.1, wrap_id h.2]
  | f x => simp only [conv, HasTy] at *; rw [if_neg h]; simp

theorem conv_ty {φ} (F : Fl φ) {s t : NT} {v y : Val φ} (h : conv F s t v = .val y) : HasTy t y := by
  cases v with
  | i n =>
    simp only [conv] at h
    split at h
    · injection h with h; subst h; exact ⟨by assumption, wrap_range t n⟩
    · injection h with h; subst h; assumption
  | f x =>
    simp only [conv] at h
    split at h
    · split at h
      · unfold fits at h
        split at h
        · injection h with h; subst h; exact ⟨by assumption, by assumption⟩
        · cases h
      · cases h
    · split at h <;> (injection h with h; subst h; assumption)

theorem conv_widen {φ} (F : Fl φ) {s t : NT} {v : Val φ} (h : HasTy s v) (hr : s.rank ≤ t.rank) :
    ∃ y, conv F s t v = .val y ∧ HasTy t y := by
  have key : ∃ y, conv F s t v = .val y := by
    cases v with
    | i n => simp only [conv]; split <;> exact ⟨_, rfl⟩
    | f x =>
      simp only [conv, HasTy] at *
      have : ¬ t.IsInt := by unfold NT.IsInt at *; omega
      rw [if_neg this]; split <;> exact ⟨_, rfl⟩
  obtain ⟨y, hy⟩ := key
  exact ⟨y, hy, conv_ty F hy⟩

theorem conv_not_throws {φ} (F : Fl φ) (s t : NT) (v : Val φ) (msg) : conv F s t v ≠ .throws msg := by
  intro h
  cases v with
  | i n => simp only [conv] at h; split at h <;> cases h
  | f x =>
    simp only [conv] at h
    split at h
    · split at h
      · unfold fits at h; split at h <;> cases h
      · cases h
    · split at h <;> cases h

/-! ## Bits -/

theorem unsigned_toNat (t : NT) (a : Int) : ((BitVec.ofInt t.bits a).toNat : Int) = unsigned t a := by
  rw [BitVec.toNat_ofInt]
  unfold unsigned
  have : (0:Int) ≤ a % ((2 ^ t.bits : Nat) : Int) := Int.emod_nonneg _ (by have := Nat.pow_pos (n := t.bits) (show 0 < 2 by decide); omega)
  rw [Int.toNat_of_nonneg this]
  simp

theorem nat_bits_sum (w : Nat) (x : Nat) (hx : x < 2 ^ w) :
    ((List.range w).map fun k => if x.testBit k then 2 ^ k else 0).sum = x := by
  induction w generalizing x with
  | zero => simp at hx; subst hx; rfl
  | succ w ih =>
    rw [List.range_succ, List.map_append, List.sum_append]
    simp only [List.map_cons, List.map_nil, List.sum_cons, List.sum_nil, Nat.add_zero]
    have h1 := ih (x % 2 ^ w) (Nat.mod_lt _ (Nat.pow_pos (by decide)))
    have h2 : ((List.range w).map fun k => if (x % 2 ^ w).testBit k then 2 ^ k else 0) =
        ((List.range w).map fun k => if x.testBit k then 2 ^ k else 0) := by
      apply List.map_congr_left
      intro k hk
      rw [List.mem_range] at hk
      rw [Nat.testBit_mod_two_pow]
      simp [hk]
    rw [h2] at h1
    rw [h1]
    have h3 : x.testBit w = decide (x / 2 ^ w % 2 = 1) := Nat.testBit_eq_decide_div_mod_eq
    have h4 : x / 2 ^ w < 2 := by
      rw [Nat.div_lt_iff_lt_mul (Nat.pow_pos (by decide))]
      rw [Nat.pow_succ] at hx; omega
    have h5 := Nat.div_add_mod x (2 ^ w)
    rw [h3]
    generalize x / 2 ^ w = q at *
    by_cases hb : q % 2 = 1
    · rw [if_pos (by simpa using hb)]
      have : q = 1 := by omega
      rw [this, Nat.mul_one] at h5; rw [Nat.add_comm]; exact h5
    · rw [if_neg (by simpa using hb)]
      have : q = 0 := by omega
      rw [this, Nat.mul_zero, Nat.zero_add] at h5; exact h5

theorem unsigned_bit (t : NT) (a : Int) (k : Nat) :
    decide (unsigned t a / 2 ^ k % 2 = 1) = (BitVec.ofInt t.bits a).toNat.testBit k := by
  rw [Nat.testBit_eq_decide_div_mod_eq, ← unsigned_toNat]
  congr 1
  apply propext
  have : (((BitVec.ofInt t.bits a).toNat / 2 ^ k % 2 : Nat) : Int) = ((BitVec.ofInt t.bits a).toNat : Int) / 2 ^ k % 2 := by
    simp
  rw [← this]
  omega

theorem toInt_eq_wrap (t : NT) (b : BitVec t.bits) : b.toInt = wrap t (b.toNat : Int) := by
  unfold wrap
  rw [BitVec.toInt_eq_toNat_bmod]

theorem sum_cast (l : List Nat) (f : Nat → Bool) :
    ((l.map fun k => if f k then (2:Int) ^ k else 0).sum) = (((l.map fun k => if f k then 2 ^ k else 0).sum : Nat) : Int) := by
  induction l with
  | nil => rfl
  | cons k l ih =>
    simp only [List.map_cons, List.sum_cons, ih]
    by_cases h : f k <;> simp [h]

theorem bits_eq {φ} (t : NT) (f : Bool → Bool → Bool) (a b : Int) (r : BitVec t.bits)
    (h : ∀ k, k < t.bits → r.toNat.testBit k = f ((BitVec.ofInt t.bits a).toNat.testBit k) ((BitVec.ofInt t.bits b).toNat.testBit k)) :
    (bits t f a b : Ans (Val φ)) = .val (.i r.toInt) := by
  unfold bits
  rw [toInt_eq_wrap]
  have h1 : ((List.range t.bits).map fun k =>
      if f (decide (unsigned t a / 2 ^ k % 2 = 1)) (decide (unsigned t b / 2 ^ k % 2 = 1)) then (2 : Int) ^ k else 0) =
      ((List.range t.bits).map fun k => if r.toNat.testBit k then (2 : Int) ^ k else 0) := by
    apply List.map_congr_left
    intro k hk
    rw [List.mem_range] at hk
    rw [unsigned_bit, unsigned_bit, h k hk]
  rw [h1, sum_cast, nat_bits_sum _ _ r.isLt]

/-! ## Binary operators -/

theorem ofBool_eq {φ} (b : Bool) : (ofBool b : Out (Val φ)) = (bool b).out := rfl

theorem unsigned_zero {t : NT} {b : Int} (h : InRange t b) : BitVec.ofInt t.bits b = 0 ↔ b = 0 := by
  constructor
  · intro h0
    have : (BitVec.ofInt t.bits b).toInt = (0 : BitVec t.bits).toInt := by rw [h0]
    rw [BitVec.toInt_ofInt] at this
    have hw : wrap t b = b := wrap_id h
    unfold wrap at hw
    rw [hw] at this
    simpa using this
  · intro h0; subst h0; rfl

theorem floorMod_eq {a b r : Int} (hb : b ≠ 0) (h : VM.IsFloorMod a b r) : r = a.fmod b := by
  obtain ⟨⟨k, hk⟩, h1, h2⟩ := h
  have pos : ∀ {a b r k : Int}, a = k * b + r → 0 < b → 0 ≤ r → r < b → r = a.fmod b := by
    intro a b r k h hb h1 h2
    rw [h, Int.add_comm, Int.add_mul_fmod_self_right, Int.fmod_eq_emod_of_nonneg _ (by omega), Int.emod_eq_of_lt h1 h2]
  by_cases hp : 0 < b
  · exact pos hk hp (h1 hp).1 (h1 hp).2
  · have hb' : b < 0 := by omega
    have := pos (a := -a) (b := -b) (r := -r) (k := k) (by rw [hk, Int.mul_neg]; omega) (by omega)
      (by have := (h2 hb').2; omega) (by have := (h2 hb').1; omega)
    rw [Int.neg_fmod_neg] at this
    omega

theorem divU_eq {φ} {t : NT} {a b : Int} (hb : InRange t b) :
    (ofBits (VM.divideUnsigned (BitVec.ofInt t.width a) (BitVec.ofInt t.width b)) : Out (Val φ)) =
      Ans.out (if b = 0 then .throws msgZero else .val (.i (wrap t (unsigned t a / unsigned t b)))) := by
  rw [width_eq]
  unfold VM.divideUnsigned
  by_cases h0 : b = 0
  · rw [if_pos ((unsigned_zero hb).2 h0), if_pos h0]; rfl
  · rw [if_neg (fun h => h0 ((unsigned_zero hb).1 h)), if_neg h0]
    simp only [ofBits, Ans.out]
    rw [toInt_eq_wrap, BitVec.toNat_ofNat, Nat.mod_eq_of_lt, ← unsigned_toNat, ← unsigned_toNat]
    · simp
    · exact Nat.lt_of_le_of_lt (Nat.div_le_self _ _) (BitVec.isLt _)

theorem modU_eq {φ} {t : NT} {a b : Int} (hb : InRange t b) :
    (ofBits (VM.moduloUnsigned (BitVec.ofInt t.width a) (BitVec.ofInt t.width b)) : Out (Val φ)) =
      Ans.out (if b = 0 then .throws msgZero else .val (.i (wrap t (unsigned t a % unsigned t b)))) := by
  rw [width_eq]
  unfold VM.moduloUnsigned
  by_cases h0 : b = 0
  · rw [if_pos ((unsigned_zero hb).2 h0), if_pos h0]; rfl
  · rw [if_neg (fun h => h0 ((unsigned_zero hb).1 h)), if_neg h0]
    simp only [ofBits, Ans.out]
    rw [toInt_eq_wrap, BitVec.toNat_ofNat, Nat.mod_eq_of_lt, ← unsigned_toNat, ← unsigned_toNat]
    · simp
    · exact Nat.lt_of_le_of_lt (Nat.mod_le _ _) (BitVec.isLt _)

theorem intOp_eq {φ} (o : BinOp) (t : NT) (ht : t.IsInt) (a b : Int) (ha : InRange t a) (hb : o.IsShift = false → InRange t b) :
    (intOp o t a b : Out (Val φ)) = (arith o t a b).out := by
  have hlo : t.lo < 0 := by cases t <;> decide
  have ha' := (inRange_iff t a).1 ha
  cases o with
  | add => exact signed_eq _ _
  | sub => exact signed_eq _ _
  | mul => exact signed_eq _ _
  | div =>
    have hb' := (inRange_iff t b).1 (hb rfl)
    simp only [intOp, arith]
    unfold VM.divide VM.cDiv fits
    by_cases h0 : b = 0
    · rw [if_pos h0, if_pos h0]; rfl
    · rw [if_neg h0, if_neg h0]
      by_cases hn : a = t.lo ∧ b = -1
      · rw [if_pos hn, if_neg]
        · rfl
        · rw [inRange_iff, hn.1, hn.2]
          cases t <;> decide
      · rw [if_neg hn, if_pos ((inRange_iff t _).2 (VM.tdiv_range hlo ha' h0 hn))]
        rfl
  | mod =>
    have hb' := (inRange_iff t b).1 (hb rfl)
    have h := VM.c29_modulo t.lo hlo a b ha' hb'
    simp only [intOp, arith]
    by_cases h0 : b = 0
    · rw [h.1 h0, if_pos h0]; rfl
    · rw [if_neg h0]
      by_cases hn : a = t.lo ∧ b = -1
      · rw [h.2.2 hn, if_neg]
        · rfl
        · rw [inRange_iff, hn.1, hn.2]
          cases t <;> decide
      · obtain ⟨r, hr, _, _, hf⟩ := h.2.1 h0 hn
        rw [hr, if_pos ((inRange_iff t _).2 (VM.tdiv_range hlo ha' h0 hn)), floorMod_eq h0 hf]
        rfl
  | divUInt => exact divU_eq (hb rfl)
  | divULong => exact divU_eq (hb rfl)
  | modUInt => exact modU_eq (hb rfl)
  | modULong => exact modU_eq (hb rfl)
  | bitAnd =>
    simp only [intOp, arith]
    rw [width_eq, bits_eq t _ a b (BitVec.ofInt t.bits a &&& BitVec.ofInt t.bits b)]
    · rfl
    · intro k _; rw [BitVec.toNat_and, Nat.testBit_and]
  | bitOr =>
    simp only [intOp, arith]
    rw [width_eq, bits_eq t _ a b (BitVec.ofInt t.bits a ||| BitVec.ofInt t.bits b)]
    · rfl
    · intro k _; rw [BitVec.toNat_or, Nat.testBit_or]
  | bitXor =>
    simp only [intOp, arith]
    rw [width_eq, bits_eq t _ a b (BitVec.ofInt t.bits a ^^^ BitVec.ofInt t.bits b)]
    · rfl
    · intro k _; rw [BitVec.toNat_xor, Nat.testBit_xor]
  | shl =>
    simp only [intOp, arith]
    unfold VM.leftShift VM.shiftOk fits
    rw [width_eq]
    by_cases h : 0 ≤ a ∧ 0 ≤ b ∧ b < t.bits
    · rw [if_pos h]
      by_cases h' : InRange t (a * 2 ^ b.toNat)
      · rw [if_pos h', if_pos ⟨h.2, h.1, h'.2⟩]; rfl
      · rw [if_neg h', if_neg]
        · rfl
        · intro hh
          have : (0:Int) ≤ a * 2 ^ b.toNat := Int.mul_nonneg h.1 (Int.le_of_lt (Int.pow_pos (by decide)))
          have : (0:Int) < 2 ^ (t.bits - 1) := Int.pow_pos (by decide)
          exact h' ⟨by omega, hh.2.2⟩
    · rw [if_neg h, if_neg (fun hh => h ⟨hh.2.1, hh.1⟩)]; rfl
  | sar =>
    simp only [intOp, arith]
    unfold VM.rightArithShift
    rw [width_eq]
    by_cases h : 0 ≤ b ∧ b < t.bits
    · rw [if_pos (show VM.shiftOk t.bits b from h), if_pos h]; rfl
    · rw [if_neg (show ¬ VM.shiftOk t.bits b from h), if_neg h]; rfl
  | shr =>
    simp only [intOp, arith]
    unfold VM.rightLogicShift
    rw [width_eq]
    by_cases h : 0 ≤ b ∧ b < t.bits
    · rw [if_pos (show VM.shiftOk t.bits b from h), if_pos h]
      simp only [ofBits, Ans.out]
      rw [toInt_eq_wrap, BitVec.toNat_ushiftRight, Nat.shiftRight_eq_div_pow, ← unsigned_toNat]
      simp
    · rw [if_neg (show ¬ VM.shiftOk t.bits b from h), if_neg h]; rfl
  | eq => simp only [intOp, arith]; rw [ofBool_eq]; congr 1
  | ne => simp only [intOp, arith]; rw [ofBool_eq]; congr 2; by_cases h : a = b <;> simp [h]
  | gt => rfl
  | ge => rfl
  | lt => rfl
  | le => rfl
  | cmp => rfl

theorem floatOp_eq {φ} (F : Fl φ) (o : BinOp) (t : NT) (a b : φ) : floatOp F o t a b = (arithF F o t a b).out := by
  cases o <;> rfl

/-- The type of the value a binary opcode gives. -/
theorem outTy_eq (o : BinOp) (t : NT) : outTy o t = if o.IsCmp then .int else t := by cases o <;> rfl

theorem binVal_eq {φ} (F : Fl φ) (o : BinOp) (t u : NT) (x y : Val φ) (hx : HasTy t x) (hy : HasTy u y) (hu : o.IsShift = false → u = t) :
    binVal F o t x y = (binary F o t x y).out := by
  cases x with
  | i a =>
    cases y with
    | i b =>
      show (if t.isInteger then intOp o t a b else .ub) = _
      rw [if_pos ((isInteger_iff t).2 hx.1)]
      exact intOp_eq o t hx.1 a b hx.2 (fun h => by rw [← hu h]; exact hy.2)
    | f b => rfl
  | f a =>
    cases y with
    | i b => rfl
    | f b => exact floatOp_eq F o t a b

theorem bool_ty {φ} (b : Bool) : HasTy .int (.i (if b then 1 else 0) : Val φ) := by
  have : ∀ n : Int, 0 ≤ n ∧ n ≤ 1 → HasTy .int (.i n : Val φ) := fun n h => ⟨by decide, by simp only [InRange, NT.bits]; omega⟩
  cases b
  · exact this 0 (by decide)
  · exact this 1 (by decide)

theorem cmp_ty {φ} (p q : Prop) [Decidable p] [Decidable q] : HasTy .int (.i (if p then 1 else if q then -1 else 0) : Val φ) := by
  have : ∀ n : Int, -1 ≤ n ∧ n ≤ 1 → HasTy .int (.i n : Val φ) := fun n h => ⟨by decide, by simp only [InRange, NT.bits]; omega⟩
  apply this
  split
  · decide
  · split <;> decide

theorem tmod_range {t : NT} {a b : Int} (hb : InRange t b) (h0 : b ≠ 0) : InRange t (a.fmod b) := by
  have h := Int.fmod_nonneg_of_pos a (b := b)
  have h1 := Int.fmod_lt_of_pos a (b := b)
  have h2 := Int.fmod_nonneg_of_pos (-a) (b := -b)
  have h3 := Int.fmod_lt_of_pos (-a) (b := -b)
  rw [Int.neg_fmod_neg] at h2 h3
  unfold InRange at *
  have : (0:Int) < 2 ^ (t.bits - 1) := Int.pow_pos (by decide)
  by_cases hp : 0 < b
  · have := h hp; have := h1 hp; omega
  · have := h2 (by omega); have := h3 (by omega); omega

theorem sar_range {t : NT} {a : Int} (n : Nat) (ha : InRange t a) : InRange t (a / 2 ^ n) := by
  unfold InRange at *
  have hp : (0:Int) < 2 ^ n := Int.pow_pos (by decide)
  have hq : (0:Int) < 2 ^ (t.bits - 1) := Int.pow_pos (by decide)
  generalize (2:Int) ^ (t.bits - 1) = M at *
  generalize (2:Int) ^ n = d at *
  constructor
  · rw [Int.le_ediv_iff_mul_le hp]
    have : M * 1 ≤ M * d := Int.mul_le_mul_of_nonneg_left (by omega) (by omega)
    rw [Int.neg_mul]; omega
  · rw [Int.ediv_lt_iff_lt_mul hp]
    have : M * 1 ≤ M * d := Int.mul_le_mul_of_nonneg_left (by omega) (by omega)
    omega

theorem binary_ty {φ} (F : Fl φ) (o : BinOp) (t u : NT) (x y r : Val φ) (hx : HasTy t x) (hy : HasTy u y) (hu : o.IsShift = false → u = t)
    (h : binary F o t x y = .val r) : HasTy (outTy o t) r := by
  have fit : ∀ {n : Int}, t.IsInt → (fits t n : Ans (Val φ)) = .val r → HasTy t r := by
    intro n ht h
    unfold fits at h
    split at h
    · injection h with h; subst h; exact ⟨ht, by assumption⟩
    · cases h
  cases x with
  | i a =>
    cases y with
    | f b => cases h
    | i b =>
      have hb : o.IsShift = false → InRange t b := fun h => by rw [← hu h]; exact hy.2
      simp only [binary] at h
      have ht := hx.1
      cases o <;> simp only [arith, bits, bool] at h <;> simp only [outTy]
      case add => exact fit ht h
      case sub => exact fit ht h
      case mul => exact fit ht h
      case div => split at h; cases h; exact fit ht h
      case mod =>
        split at h
        · cases h
        · split at h
          · injection h with h; subst h; exact ⟨ht, tmod_range (hb rfl) (by assumption)⟩
          · cases h
      case shl => split at h; exact fit ht h; cases h
      case sar => split at h; injection h with h; subst h; exact ⟨ht, sar_range _ hx.2⟩; cases h
      case shr => split at h; injection h with h; subst h; exact ⟨ht, wrap_range _ _⟩; cases h
      case divUInt => split at h; cases h; injection h with h; subst h; exact ⟨ht, wrap_range _ _⟩
      case divULong => split at h; cases h; injection h with h; subst h; exact ⟨ht, wrap_range _ _⟩
      case modUInt => split at h; cases h; injection h with h; subst h; exact ⟨ht, wrap_range _ _⟩
      case modULong => split at h; cases h; injection h with h; subst h; exact ⟨ht, wrap_range _ _⟩
      case bitAnd => injection h with h; subst h; exact ⟨ht, wrap_range _ _⟩
      case bitOr => injection h with h; subst h; exact ⟨ht, wrap_range _ _⟩
      case bitXor => injection h with h; subst h; exact ⟨ht, wrap_range _ _⟩
      case cmp => injection h with h; subst h; exact cmp_ty _ _
      all_goals injection h with h; subst h; exact bool_ty _
  | f a =>
    cases y with
    | i b => cases h
    | f b =>
      simp only [binary] at h
      cases o <;> simp only [arithF, bool] at h <;> simp only [outTy] <;> first
        | (cases h; done)
        | (injection h with h; subst h; exact hx)
        | (injection h with h; subst h; exact bool_ty _)
        | (injection h with h; subst h; exact cmp_ty _ _)

/-! ## Unary operators -/

theorem negVal_eq {φ} (F : Fl φ) (t : NT) (x : Val φ) : negVal F t x = (unary F .minus t x).out := by
  cases x with
  | i n => exact signed_eq t (-n)
  | f x => rfl

theorem notVal_eq {φ} (F : Fl φ) (t : NT) (x : Val φ) (hx : HasTy t x) : notVal t x = (unary F .bitNot t x).out := by
  cases x with
  | f x => rfl
  | i n =>
    simp only [notVal, unary, Ans.out]
    rw [width_eq]
    congr 2
    have h1 : (BitVec.ofInt t.bits n).toInt = n := by rw [BitVec.toInt_ofInt]; exact wrap_id hx.2
    have h2 := (BitVec.ofInt t.bits n).isLt
    rw [BitVec.toInt_eq_toNat_cond] at h1
    rw [BitVec.toInt_eq_toNat_cond, BitVec.toNat_not]
    generalize (BitVec.ofInt t.bits n).toNat = m at *
    cases t <;> simp only [NT.bits] at * <;> omega

theorem unary_ty {φ} (F : Fl φ) (o : UnOp) (t : NT) (x r : Val φ) (hx : HasTy t x) (h : unary F o t x = .val r) : HasTy t r := by
  cases x with
  | i n =>
    cases o <;> simp only [unary] at h
    · injection h with h; subst h; exact hx
    · unfold fits at h
      split at h
      · injection h with h; subst h; exact ⟨hx.1, by assumption⟩
      · cases h
    · injection h with h; subst h; refine ⟨hx.1, ?_⟩
      have := hx.2; unfold InRange at *; omega
  | f x =>
    cases o <;> simp only [unary] at h
    · injection h with h; subst h; exact hx
    · injection h with h; subst h; exact hx
    · cases h

end Expr
end SPVM
