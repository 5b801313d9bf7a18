import Verif.Lemmas.Array
import Verif.Model.Str
/-!
# Lemmas on strings
-/
set_option linter.unusedSimpArgs false
namespace SPVM
namespace Str
open VM (Bytes)

theorem copyCommon_str_ok {raw : Bytes → Int → Bytes → Int → Int → Out Bytes}
    {dst src : Bytes} {d s len : Int} (hd : 0 ≤ d) (hs : 0 ≤ s) (hl : 0 ≤ len)
    (h1 : d + len ≤ dst.length) (h2 : s + len ≤ src.length) (h3 : dst.length ≤ 2147483647) (h4 : src.length ≤ 2147483647)
    (hr : raw dst d src s len = .ok (blit dst d.toNat src s.toNat len.toNat)) :
    FnMem.copyCommon raw (some (.str dst)) d (some (.str src)) s len = .ok (blit dst d.toNat src s.toNat len.toNat) := by
  unfold FnMem.copyCommon
  simp only [FnMem.MemObj.str]
  simp only [Bool.true_eq_false, Bool.false_eq_true, if_false]
  rw [if_neg (by omega)]
  by_cases h0 : len = 0
  · simp [h0, blit_zero]
  · rw [if_neg h0, mul32, mul32, Int.one_mul, Int.one_mul, chk32_ok (by unfold I32; omega), chk32_ok (by unfold I32; omega),
      add32_ok (by unfold I32; omega), add32_ok (by unfold I32; omega)]
    simp only [Out.ok_bind]
    rw [if_neg (by omega), if_neg (by omega), hr]

theorem memcpy_ok {dst src : Bytes} {d s len : Int} (hd : 0 ≤ d) (hs : 0 ≤ s) (hl : 0 ≤ len)
    (h1 : d + len ≤ dst.length) (h2 : s + len ≤ src.length) (h3 : dst.length ≤ 2147483647) (h4 : src.length ≤ 2147483647) :
    memcpy dst d src s len = .ok (blit dst d.toNat src s.toNat len.toNat) :=
  copyCommon_str_ok hd hs hl h1 h2 h3 h4 (by simp [rawCopy, rawMove_ok hd hs hl h1 h2])

theorem memmove_ok {b : Bytes} {d s len : Int} (hd : 0 ≤ d) (hs : 0 ≤ s) (hl : 0 ≤ len)
    (h1 : d + len ≤ b.length) (h2 : s + len ≤ b.length) (h3 : b.length ≤ 2147483647) :
    memmove b d s len = .ok (blit b d.toNat b s.toNat len.toNat) :=
  copyCommon_str_ok hd hs hl h1 h2 h3 h3 (rawMove_ok hd hs hl h1 h2)

theorem memcpy_neg {dst src : Bytes} {d s len : Int} (hl : len < 0) : memcpy dst d src s len = .die msgLengthNeg := by
  unfold memcpy FnMem.memcpy FnMem.copyCommon
  simp only [FnMem.MemObj.str]
  simp only [Bool.true_eq_false, Bool.false_eq_true, if_false]
  rw [if_pos (by omega)]

theorem newStringLen_ok {limit : Nat} {n : Int} (h0 : 0 ≤ n) (h1 : n ≤ limit) :
    newStringLen limit n = .ok (List.replicate n.toNat 0) := by
  unfold newStringLen
  rw [if_pos h0, if_pos (by omega)]

theorem newStringLen_neg {limit : Nat} {n : Int} (h0 : n < 0) : newStringLen limit n = .die msgNewStringLen := by
  unfold newStringLen
  rw [if_neg (by omega)]

theorem newStringLen_mem {limit : Nat} {n : Int} (h0 : limit < n) : newStringLen limit n = .die msgNewStringMem := by
  unfold newStringLen
  rw [if_pos (by omega), if_neg (by omega)]

theorem blit_full {dst src : List α} {s n : Nat} (h : dst.length = n) (h2 : s + n ≤ src.length) :
    blit dst 0 src s n = (src.drop s).take n := by
  have : dst.drop (0 + n) = [] := List.drop_eq_nil_of_le (by omega)
  simp [blit, this]
  omega

/-- `substr` in range. -/
theorem substr_ok {limit : Nat} {s : Bytes} {offset length : Int} (h0 : 0 ≤ offset) (h1 : 0 ≤ length)
    (h2 : offset + length ≤ s.length) (h3 : s.length ≤ 2147483647) (h4 : length ≤ limit) :
    substr limit (some s) offset length = .ok ((s.drop offset.toNat).take length.toNat) := by
  unfold substr
  simp only
  rw [if_neg (by omega), if_neg (show ¬ length < 0 by omega)]
  simp only [Out.ok_bind]
  rw [add32_ok (by unfold I32; omega)]
  simp only [Out.ok_bind]
  rw [if_neg (by omega), newStringLen_ok h1 h4]
  simp only [Out.ok_bind]
  rw [memcpy_ok (by omega) h0 h1 (by simp; omega) (by omega) (by simp; omega) h3]
  rw [show Int.toNat 0 = 0 from rfl, blit_full (by simp) (by omega)]

theorem memsetChar_ok {s : Bytes} {c : Int} {offset length : Int} (h0 : 0 ≤ offset) (h1 : 0 ≤ length)
    (h2 : offset + length ≤ s.length) (h3 : I32 (offset + length)) :
    memsetChar s c offset length = .ok (blit s offset.toNat (List.replicate length.toNat (toByte c)) 0 length.toNat) :=
  arrayMemset_ok h0 h1 h2 h3

end Str
end SPVM
