import Verif.Spec.CStrBuf
import Verif.Lemmas.Array
/-!
# C40: the runtime's string buffer
-/
set_option linter.unusedSimpArgs false
namespace SPVM
namespace CStrBuf
open VM (Bytes)
open Spec.CStrBuf (piece Valid)

/-- The buffer holds `bs`; the rest of the block, at least one byte, is zero. -/
def Rep (b : Buf) (bs : Bytes) : Prop := ∃ n, b = { buf := bs ++ List.replicate (n + 1) 0, length := bs.length }

theorem extend_ok (newLength : Nat) (bs : Bytes) (n : Nat) (hcap : bs.length + (n + 1) ≤ 2147483647)
    (hnew : newLength < 1073741824) :
    ∃ m, extend newLength { buf := bs ++ List.replicate (n + 1) 0, length := bs.length } =
        .ok { buf := bs ++ List.replicate (m + 1) 0, length := bs.length } ∧ newLength < bs.length + (m + 1) ∧
        bs.length + (m + 1) ≤ 2147483647 := by
  generalize hd : newLength + 1 - (bs.length + (n + 1)) = d
  induction d using Nat.strongRecOn generalizing n with
  | ind d ih =>
    rw [extend]
    have hl : (bs ++ List.replicate (n + 1) (0 : UInt8)).length = bs.length + (n + 1) := by
      rw [List.length_append, List.length_replicate]
    simp only [hl]
    by_cases hc : newLength + 1 > bs.length + (n + 1)
    · rw [if_pos hc, if_neg (by omega), dif_pos (by omega), dif_pos (by omega), List.take_left]
      have hr : 2 * (bs.length + (n + 1)) - bs.length = (2 * (bs.length + (n + 1)) - bs.length - 1) + 1 := by omega
      rw [hr]
      exact ih _ (by omega) _ (by omega) rfl
    · rw [if_neg hc]
      exact ⟨n, rfl, by omega, hcap⟩

theorem blit_zeros (bs ps : Bytes) (m k : Nat) (h : ps.length + k = m) :
    blit (bs ++ List.replicate m 0) bs.length ps 0 ps.length = bs ++ (ps ++ List.replicate k 0) := by
  unfold blit
  rw [List.take_left, List.drop_zero, List.take_length]
  have : (bs ++ List.replicate m (0 : UInt8)).drop (bs.length + ps.length) = List.replicate k 0 := by
    rw [← List.drop_drop, List.drop_left, List.drop_replicate]
    have hm : m - ps.length = k := by omega
    rw [hm]
  rw [this]

theorem addCommon_ok {b : Buf} {bs : Bytes} (h : Rep b bs) (hcap : b.buf.length ≤ 2147483647) (room : Nat) (ps : Bytes) (z : Nat)
    (hroom : ps.length + z ≤ room + 1) (hps : ps.length ≤ room) (hb : bs.length + room < 1073741824) :
    ∃ b', addCommon room (ps ++ List.replicate z 0) ps.length b = .ok (bs.length, b') ∧ Rep b' (bs ++ ps) ∧ b'.buf.length ≤ 2147483647 := by
  obtain ⟨n, rfl⟩ := h
  have hcap' : bs.length + (n + 1) ≤ 2147483647 := by simpa using hcap
  obtain ⟨m, e, h1, h2⟩ := extend_ok (bs.length + room) bs n hcap' hb
  have e1 : add32 (bs.length : Int) (room : Int) = .ok ((bs.length : Int) + room) := add32_ok (by constructor <;> omega)
  have e2 : add32 ((bs.length + room : Nat) : Int) 1 = .ok (((bs.length + room : Nat) : Int) + 1) := add32_ok (by constructor <;> omega)
  have hw : write (bs ++ List.replicate (m + 1) 0) bs.length (ps ++ List.replicate z 0) =
      .ok (bs ++ ps ++ List.replicate (m - ps.length + 1) 0) := by
    unfold write
    rw [if_pos (by simp; omega)]
    rw [blit_zeros _ _ _ (m + 1 - (ps.length + z)) (by simp; omega)]
    have : List.replicate z (0 : UInt8) ++ List.replicate (m + 1 - (ps.length + z)) 0 = List.replicate (m - ps.length + 1) 0 := by
      have hm : z + (m + 1 - (ps.length + z)) = m - ps.length + 1 := by omega
      rw [List.replicate_append_replicate, hm]
    simp only [List.append_assoc, this]
  refine ⟨{ buf := bs ++ ps ++ List.replicate (m - ps.length + 1) 0, length := bs.length + ps.length }, ?_, ⟨m - ps.length, by simp⟩, ?_⟩
  · simp only [addCommon, maybeExtend, e1, e2, e, Out.ok_bind, hw]
  · simp only [List.length_append, List.length_replicate]; omega

theorem decimal_length {v : Int} (k : Nat) (hk : 0 < k) (h : v.natAbs < 10 ^ k) : (Spec.decimal v).length ≤ k + 1 := by
  unfold Spec.decimal
  have := Spec.digits_length v.natAbs k hk h
  split <;> simp <;> omega

theorem step_ok {b : Buf} {bs : Bytes} (h : Rep b bs) (hcap : b.buf.length ≤ 2147483647) (op : Op) (hv : Valid op)
    (hb : bs.length + (piece op).length + 22 < 1073741824) :
    ∃ b', step b op = .ok (bs.length, b') ∧ Rep b' (bs ++ piece op) ∧ b'.buf.length ≤ 2147483647 := by
  cases op with
  | add mem =>
    simp only [Valid] at hv
    simp only [piece] at hb
    have := addCommon_ok h hcap (mem.takeWhile (· ≠ 0)).length (mem.takeWhile (· ≠ 0)) 0 (by omega) (by omega) (by omega)
    simpa [step, add, cstr, hv, piece] using this
  | addLen mem n =>
    simp only [Valid] at hv
    have hl : (mem.take n).length = n := by simp; omega
    simp only [piece, hl] at hb
    have := addCommon_ok h hcap n (mem.take n) 0 (by omega) (by omega) (by omega)
    rw [hl] at this
    simpa [step, addLen, hv, piece] using this
  | addLenNullstr mem n =>
    simp only [Valid] at hv
    have hl : (mem.take n ++ [(0 : UInt8)]).length = n + 1 := by simp; omega
    simp only [piece, hl] at hb
    have := addCommon_ok h hcap (n + 1) (mem.take n ++ [0]) 0 (by omega) (by omega) (by omega)
    rw [hl] at this
    simpa [step, addLenNullstr, hv, piece] using this
  | addHexChar ch =>
    have hl : ([92, 120] ++ Spec.hex2 ch).length = 4 := by simp [Spec.hex2]
    have hp : piece (.addHexChar ch) = [92, 120] ++ Spec.hex2 ch := by
      have : Spec.ascii "\\x" = [92, 120] := by decide +kernel
      simp only [piece, this]
    rw [hp] at hb ⊢
    rw [hl] at hb
    have := addCommon_ok h hcap 4 ([92, 120] ++ Spec.hex2 ch) 1 (by omega) (by omega) (by omega)
    rw [hl] at this
    simpa [step, addHexChar] using this
  | addByte v =>
    simp only [Valid] at hv
    have hl : (Spec.decimal v).length ≤ 19 + 1 := decimal_length 19 (by omega) (by omega)
    have := addCommon_ok h hcap 20 (Spec.decimal v) 1 (by omega) (by omega) (by omega)
    simpa [step, addSmall, piece] using this
  | addShort v =>
    simp only [Valid] at hv
    have hl : (Spec.decimal v).length ≤ 19 + 1 := decimal_length 19 (by omega) (by omega)
    have := addCommon_ok h hcap 20 (Spec.decimal v) 1 (by omega) (by omega) (by omega)
    simpa [step, addSmall, piece] using this
  | addInt v =>
    simp only [Valid] at hv
    have hl : (piece (.addInt v)).length ≤ 20 := by
      simp only [piece]
      split
      · decide +kernel
      · exact decimal_length 19 (by omega) (by omega)
    have := addCommon_ok h hcap 20 (piece (.addInt v)) 1 (by omega) (by omega) (by omega)
    simpa [step, addInt, piece] using this
  | addLong v =>
    simp only [Valid] at hv
    have hl : (piece (.addLong v)).length ≤ 22 := by
      simp only [piece]
      split
      · decide +kernel
      · have h1 := decimal_length (v := v) 19 (by omega) (by omega)
        have h2 : (Spec.ascii "LL").length = 2 := by decide +kernel
        rw [List.length_append]; omega
    have := addCommon_ok h hcap 22 (piece (.addLong v)) 1 (by omega) (by omega) (by omega)
    simpa [step, addLong, piece] using this

/-- The values a history returns: the length of the contents before each call. -/
def starts (n : Nat) : List Op → List Nat
  | [] => []
  | op :: ops => n :: starts (n + (piece op).length) ops

theorem run_ok (ops : List Op) {b : Buf} {bs : Bytes} (h : Rep b bs) (hcap : b.buf.length ≤ 2147483647) (hv : ∀ op ∈ ops, Valid op)
    (hb : bs.length + (ops.map piece).flatten.length + 22 < 1073741824) :
    ∃ b', run b ops = .ok (starts bs.length ops, b') ∧ Rep b' (bs ++ (ops.map piece).flatten) := by
  induction ops generalizing b bs with
  | nil => exact ⟨b, rfl, by simpa using h⟩
  | cons op ops ih =>
    rw [List.map_cons, List.flatten_cons, List.length_append] at hb
    obtain ⟨b1, e1, r1, c1⟩ := step_ok h hcap op (hv op List.mem_cons_self) (by omega)
    obtain ⟨b2, e2, r2⟩ := ih r1 c1 (fun x hx => hv x (List.mem_cons_of_mem _ hx)) (by rw [List.length_append]; omega)
    refine ⟨b2, ?_, by simpa using r2⟩
    simp only [run, e1, e2, Out.ok_bind, starts, List.length_append]

/-- **C40**: after any history of calls that keep their contracts and add less than 2^30 - 22 bytes together, the buffer
holds the concatenation of the pieces followed by a `NUL` inside the block, every call returned the length before it, and
no byte outside the block was touched. -/
theorem c40_history (capacity : Nat) (hc : capacity ≤ 2147483647) (ops : List Op) (hv : ∀ op ∈ ops, Valid op)
    (hb : (ops.map piece).flatten.length + 22 < 1073741824) :
    ∃ b', run (new capacity) ops = .ok (starts 0 ops, b') ∧
      b'.buf.take b'.length = (ops.map piece).flatten ∧ b'.buf[b'.length]? = some 0 := by
  have hr : Rep (new capacity) [] ∧ (new capacity).buf.length ≤ 2147483647 := by
    unfold new
    refine ⟨⟨(if capacity = 0 then 16 else capacity) - 1, ?_⟩, ?_⟩
    · simp only [List.nil_append, List.length_nil]
      have : (if capacity = 0 then 16 else capacity) = (if capacity = 0 then 16 else capacity) - 1 + 1 := by split <;> omega
      rw [← this]
    · rw [List.length_replicate]; split <;> omega
  obtain ⟨b', e, n, rfl⟩ := run_ok ops hr.1 hr.2 hv (by simpa using hb)
  refine ⟨_, e, ?_, ?_⟩
  · simp only [List.nil_append]; exact List.take_left
  · simp only [List.nil_append]
    rw [List.getElem?_append_right (Nat.le_refl _), Nat.sub_self, List.getElem?_replicate]
    simp

theorem strstr_iff (hay needle : Bytes) : strstr hay needle = true ↔ ∃ a b, hay = a ++ needle ++ b := by
  induction hay with
  | nil =>
    unfold strstr
    simp only [Bool.or_false, List.isPrefixOf_iff_prefix]
    constructor
    · rintro ⟨t, ht⟩; exact ⟨[], t, by simpa using ht.symm⟩
    · rintro ⟨a, b, h⟩
      have : needle = [] := by
        have := congrArg List.length h
        simp at this
        exact List.length_eq_zero_iff.mp (by omega)
      subst this; exact List.nil_prefix
  | cons x xs ih =>
    unfold strstr
    simp only [Bool.or_eq_true, List.isPrefixOf_iff_prefix, ih]
    constructor
    · rintro (⟨t, ht⟩ | ⟨a, b, h⟩)
      · exact ⟨[], t, by simpa using ht.symm⟩
      · exact ⟨x :: a, b, by simp [h]⟩
    · rintro ⟨a, b, h⟩
      cases a with
      | nil => exact .inl ⟨b, by simpa using h.symm⟩
      | cons y ys =>
        simp only [List.cons_append, List.cons.injEq] at h
        exact .inr ⟨ys, b, h.2⟩

/-- **C40** for `contains`: 1 exactly if the searched C string occurs in the contents from `offset` up to the first `NUL`. -/
theorem c40_contains {b : Buf} {bs : Bytes} (h : Rep b bs) (offset : Nat) (ho : offset ≤ bs.length) (mem : Bytes) (hm : 0 ∈ mem) :
    (contains offset mem b = .ok 1 ↔ ∃ x y, (bs.drop offset).takeWhile (· ≠ 0) = x ++ mem.takeWhile (· ≠ 0) ++ y) ∧
    (contains offset mem b = .ok 1 ∨ contains offset mem b = .ok 0) := by
  obtain ⟨n, rfl⟩ := h
  have hd : (bs ++ List.replicate (n + 1) (0 : UInt8)).drop offset = bs.drop offset ++ List.replicate (n + 1) 0 := by
    rw [List.drop_append_of_le_length ho]
  have hz : (bs.drop offset ++ List.replicate (n + 1) (0 : UInt8)).takeWhile (· ≠ 0) = (bs.drop offset).takeWhile (· ≠ 0) := by
    rw [List.takeWhile_append]
    split
    · rename_i hl
      rw [List.replicate_succ, List.takeWhile_cons_of_neg (by simp), List.append_nil]
      exact (List.takeWhile_prefix _).eq_of_length hl |>.symm
    · rfl
  have hmem : (0 : UInt8) ∈ bs.drop offset ++ List.replicate (n + 1) 0 := by simp [List.replicate_succ]
  have e : contains offset mem ⟨bs ++ List.replicate (n + 1) 0, bs.length⟩ =
      .ok (if strstr ((bs.drop offset).takeWhile (· ≠ 0)) (mem.takeWhile (· ≠ 0)) then 1 else 0) := by
    unfold contains
    rw [if_pos (by simp; omega)]
    simp only [hd, cstr, hmem, hm, if_true, hz]
  rw [e]
  constructor
  · rw [← strstr_iff]
    cases strstr ((bs.drop offset).takeWhile (· ≠ 0)) (mem.takeWhile (· ≠ 0)) <;> simp
  · cases strstr ((bs.drop offset).takeWhile (· ≠ 0)) (mem.takeWhile (· ≠ 0)) <;> simp

/-- A history that makes the buffer grow several times, with the longest `long`. -/
example : ((run (new 1) [.addLong (-9223372036854775807), .addHexChar 0xAB, .addInt (-2147483648), .addByte (-5), .add [65, 0, 66], .addLenNullstr [67, 68] 2]) >>=
      fun r => .ok (r.1, r.2.buf.take r.2.length)) =
    .ok ([0, 22, 26, 35, 37, 38], Spec.ascii "-9223372036854775807LL\\xABINT32_MIN-5ACD" ++ [0]) := by decide +kernel

end CStrBuf
end SPVM
