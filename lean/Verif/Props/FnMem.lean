import Verif.Lemmas.Array
import Verif.Props.ArrayCopy
import Verif.Props.VM
import Verif.Model.FnMem
/-!
# C24: range safety of `Fn->memcpy`, `Fn->memmove`, `Fn->memcmp`
-/
namespace SPVM
namespace FnMem
open VM (Bytes LexLt)

/-- An object as the runtime builds it: the data area has `elemSize * length` bytes, and that number is an `int`. -/
structure Valid (o : MemObj) : Prop where
  size : o.elemSize * o.length = o.bytes.length
  small : o.bytes.length ≤ 2147483647

theorem Valid.mul {o : MemObj} (h : Valid o) : mul32 o.elemSize o.length = .ok (o.bytes.length : Int) := by
  obtain ⟨h1, h2⟩ := h
  rw [mul32, h1, chk32_ok (by unfold I32; omega)]

theorem Valid.str (b : Bytes) (h : b.length ≤ 2147483647) (ro : Bool) : Valid (MemObj.str b ro) :=
  ⟨by simp [MemObj.str], h⟩

/-- A copy of `len` bytes is allowed: both objects hold plain data, the destination is writable, the ranges are inside
both objects. -/
def Allowed (dst : MemObj) (d : Int) (src : MemObj) (s len : Int) : Prop :=
  dst.isMem = true ∧ src.isMem = true ∧ dst.readOnly = false ∧ 0 ≤ len ∧
  (len = 0 ∨ (d + len ≤ dst.bytes.length ∧ s + len ≤ src.bytes.length))

theorem copyCommon_cases (raw : Bytes → Int → Bytes → Int → Int → Out Bytes) (dst src : MemObj) (d s len : Int)
    (hd : Valid dst) (hs : Valid src) (h0 : 0 ≤ d) (h1 : 0 ≤ s)
    (hov : d + len ≤ 2147483647) (hov' : s + len ≤ 2147483647) :
    (Allowed dst d src s len ∧ len ≠ 0 ∧ copyCommon raw (some dst) d (some src) s len = raw dst.bytes d src.bytes s len) ∨
    (Allowed dst d src s len ∧ len = 0 ∧ copyCommon raw (some dst) d (some src) s len = .ok dst.bytes) ∨
    (¬ Allowed dst d src s len ∧ ∃ m, copyCommon raw (some dst) d (some src) s len = .die m) := by
  unfold copyCommon Allowed
  simp only
  by_cases a1 : dst.isMem = true
  · rw [if_neg (by simp [a1])]
    by_cases a2 : src.isMem = true
    · rw [if_neg (by simp [a2])]
      by_cases a3 : dst.readOnly = true
      · rw [if_pos a3]
        exact .inr (.inr ⟨by simp [a3], _, rfl⟩)
      · rw [if_neg a3]
        by_cases a4 : 0 ≤ len
        · rw [if_neg (by omega)]
          by_cases a5 : len = 0
          · rw [if_pos a5]
            exact .inr (.inl ⟨⟨a1, a2, by simpa using a3, a4, .inl a5⟩, a5, rfl⟩)
          · rw [if_neg a5, hd.mul, hs.mul, add32_ok (by unfold I32; omega), add32_ok (by unfold I32; omega)]
            simp only [Out.ok_bind]
            by_cases a6 : d + len ≤ dst.bytes.length
            · rw [if_neg (by omega)]
              by_cases a7 : s + len ≤ src.bytes.length
              · rw [if_neg (by omega)]
                exact .inl ⟨⟨a1, a2, by simpa using a3, a4, .inr ⟨a6, a7⟩⟩, a5, rfl⟩
              · rw [if_pos (by omega)]
                exact .inr (.inr ⟨by omega, _, rfl⟩)
            · rw [if_pos (by omega)]
              exact .inr (.inr ⟨by omega, _, rfl⟩)
        · rw [if_pos (by omega)]
          exact .inr (.inr ⟨by omega, _, rfl⟩)
    · rw [if_pos (by simpa using a2)]
      exact .inr (.inr ⟨by simp [a2], _, rfl⟩)
  · rw [if_pos (by simpa using a1)]
    exact .inr (.inr ⟨by simp [a1], _, rfl⟩)

/-- **C24** (`memmove`; partial: offsets not negative and `offset + length` inside `int` — outside of that the claim is
false, see the `_violated` theorems).  The call copies exactly the requested bytes when that is allowed and throws
otherwise.  Both arguments may be the same object. -/
theorem c24_memmove_partial (dst src : MemObj) (d s len : Int) (hd : Valid dst) (hs : Valid src) (h0 : 0 ≤ d) (h1 : 0 ≤ s)
    (hov : d + len ≤ 2147483647) (hov' : s + len ≤ 2147483647) :
    (Allowed dst d src s len ∧ ∃ res, memmove (some dst) d (some src) s len = .ok res ∧
      IsCopy res dst.bytes d src.bytes s len) ∨
    (¬ Allowed dst d src s len ∧ ∃ m, memmove (some dst) d (some src) s len = .die m) := by
  rcases copyCommon_cases rawMove dst src d s len hd hs h0 h1 hov hov' with ⟨h, hl, e⟩ | ⟨h, hl, e⟩ | h
  · have ⟨_, _, _, h4, h5⟩ := h
    refine .inl ⟨h, _, ?_, isCopy_blit ⟨h4, h0, h1, h5⟩⟩
    rw [memmove, e]
    exact rawMove_ok h0 h1 h4 (by omega) (by omega)
  · refine .inl ⟨h, _, e, ?_⟩
    have := isCopy_blit (dst := dst.bytes) (src := src.bytes) (d := d) (s := s) (len := len) ⟨by omega, h0, h1, .inl hl⟩
    subst hl
    rwa [show Int.toNat 0 = 0 from rfl, blit_zero] at this
  · exact .inr h

/-- **C24** (`memcpy`; partial as above, and for one object the ranges must not overlap). -/
theorem c24_memcpy_partial (same : Bool) (dst src : MemObj) (d s len : Int) (hd : Valid dst) (hs : Valid src)
    (h0 : 0 ≤ d) (h1 : 0 ≤ s) (hov : d + len ≤ 2147483647) (hov' : s + len ≤ 2147483647)
    (hsep : same = true → ¬ (d < s + len ∧ s < d + len)) :
    (Allowed dst d src s len ∧ ∃ res, memcpy same (some dst) d (some src) s len = .ok res ∧
      IsCopy res dst.bytes d src.bytes s len) ∨
    (¬ Allowed dst d src s len ∧ ∃ m, memcpy same (some dst) d (some src) s len = .die m) := by
  rcases copyCommon_cases (rawCopy same) dst src d s len hd hs h0 h1 hov hov' with ⟨h, hl, e⟩ | ⟨h, hl, e⟩ | h
  · have ⟨_, _, _, h4, h5⟩ := h
    refine .inl ⟨h, _, ?_, isCopy_blit ⟨h4, h0, h1, h5⟩⟩
    rw [memcpy, e, rawCopy, if_neg (fun c => hsep c.1 c.2)]
    exact rawMove_ok h0 h1 h4 (by omega) (by omega)
  · refine .inl ⟨h, _, e, ?_⟩
    have := isCopy_blit (dst := dst.bytes) (src := src.bytes) (d := d) (s := s) (len := len) ⟨by omega, h0, h1, .inl hl⟩
    subst hl
    rwa [show Int.toNat 0 = 0 from rfl, blit_zero] at this
  · exact .inr h

theorem memcmp_take : ∀ (a b : Bytes) (n : Nat), VM.memcmp a b n = VM.memcmp (a.take n) (b.take n) n
  | _, _, 0 => by simp [VM.memcmp]
  | [], _, n + 1 => by simp [VM.memcmp]
  | _ :: _, [], n + 1 => by simp [VM.memcmp]
  | x :: xs, y :: ys, n + 1 => by simp only [List.take_succ_cons, VM.memcmp]; rw [memcmp_take xs ys n]

/-- **C24** (`memcmp`; partial as above): inside both objects it returns the sign of the byte-wise lexicographic
comparison of the two ranges, otherwise it throws. -/
theorem c24_memcmp_partial (o1 o2 : MemObj) (a b len : Int) (hv1 : Valid o1) (hv2 : Valid o2) (h0 : 0 ≤ a) (h1 : 0 ≤ b)
    (hov : a + len ≤ 2147483647) (hov' : b + len ≤ 2147483647) :
    (o1.isMem = true ∧ o2.isMem = true ∧ 0 ≤ len ∧ a + len ≤ o1.bytes.length ∧ b + len ≤ o2.bytes.length ∧
      ∃ r, memcmp (some o1) a (some o2) b len = .ok r ∧
        (r < 0 ↔ LexLt ((o1.bytes.drop a.toNat).take len.toNat) ((o2.bytes.drop b.toNat).take len.toNat)) ∧
        (r = 0 ↔ (o1.bytes.drop a.toNat).take len.toNat = (o2.bytes.drop b.toNat).take len.toNat)) ∨
    (¬ (o1.isMem = true ∧ o2.isMem = true ∧ 0 ≤ len ∧ a + len ≤ o1.bytes.length ∧ b + len ≤ o2.bytes.length) ∧
      ∃ m, memcmp (some o1) a (some o2) b len = .die m) := by
  unfold memcmp
  simp only
  by_cases a1 : o1.isMem = true
  · rw [if_neg (by simp [a1])]
    by_cases a2 : o2.isMem = true
    · rw [if_neg (by simp [a2])]
      by_cases a4 : 0 ≤ len
      · rw [if_neg (by omega), hv1.mul, hv2.mul, add32_ok (by unfold I32; omega), add32_ok (by unfold I32; omega)]
        simp only [Out.ok_bind]
        by_cases a6 : a + len ≤ o1.bytes.length
        · rw [if_neg (by omega)]
          by_cases a7 : b + len ≤ o2.bytes.length
          · rw [if_neg (by omega)]
            refine .inl ⟨a1, a2, a4, a6, a7, ?_⟩
            unfold pointer
            rw [if_pos (by omega), if_pos (by omega)]
            simp only [Out.ok_bind]
            have e := memcmp_take (o1.bytes.drop a.toNat) (o2.bytes.drop b.toNat) len.toNat
            obtain ⟨r, e', h⟩ := VM.memcmp_spec ((o1.bytes.drop a.toNat).take len.toNat)
              ((o2.bytes.drop b.toNat).take len.toNat) len.toNat (by simp; omega) (by simp; omega)
            refine ⟨r, e.trans e', ?_⟩
            rw [List.take_take, List.take_take, Nat.min_self] at h
            rcases h with ⟨h1, h2⟩ | ⟨h1, h2⟩ | ⟨h1, h2⟩
            · rw [h2]
              exact ⟨⟨fun h => by omega, fun h => absurd h (VM.lexLt_irrefl _)⟩, by simp [h1]⟩
            · exact ⟨by simp [h1, h2], ⟨fun h => by omega, fun h => by rw [h] at h2; exact absurd h2 (VM.lexLt_irrefl _)⟩⟩
            · exact ⟨⟨fun h => by omega, fun h => absurd (VM.lexLt_trans h h2) (VM.lexLt_irrefl _)⟩,
                ⟨fun h => by omega, fun h => by rw [h] at h2; exact absurd h2 (VM.lexLt_irrefl _)⟩⟩
          · rw [if_pos (by omega)]
            exact .inr ⟨by omega, _, rfl⟩
        · rw [if_pos (by omega)]
          exact .inr ⟨by omega, _, rfl⟩
      · rw [if_pos (by omega)]
        exact .inr ⟨by omega, _, rfl⟩
    · rw [if_pos (by simpa using a2)]
      exact .inr ⟨by simp [a2], _, rfl⟩
  · rw [if_pos (by simpa using a1)]
    exact .inr ⟨by simp [a1], _, rfl⟩

/-- **C24**: `undef` arguments throw. -/
theorem c24_undef_throws (same : Bool) (o1 o2 : Option MemObj) (d s len : Int) (h : o1 = none ∨ o2 = none) :
    (∃ m, memcpy same o1 d o2 s len = .die m) ∧ (∃ m, memmove o1 d o2 s len = .die m) ∧
    (∃ m, memcmp o1 d o2 s len = .die m) := by
  rcases o1 with _ | a
  · exact ⟨⟨_, rfl⟩, ⟨_, rfl⟩, ⟨_, rfl⟩⟩
  · rcases o2 with _ | b
    · by_cases hm : a.isMem = false
      · exact ⟨⟨msgDestType, by simp [memcpy, copyCommon, hm]⟩, ⟨msgDestType, by simp [memmove, copyCommon, hm]⟩,
          ⟨msgDestType, by simp [memcmp, hm]⟩⟩
      · exact ⟨⟨msgSourceUndef, by simp [memcpy, copyCommon, hm]⟩, ⟨msgSourceUndef, by simp [memmove, copyCommon, hm]⟩,
          ⟨msgData2Undef, by simp [memcmp, hm]⟩⟩
    · simp at h

/-- **C24**: a read-only string is never written, whatever the other arguments are. -/
theorem c24_read_only_never_written (same : Bool) (dst : MemObj) (src : Option MemObj) (d s len : Int)
    (h : dst.readOnly = true) :
    (∃ m, memcpy same (some dst) d src s len = .die m) ∧ (∃ m, memmove (some dst) d src s len = .die m) := by
  unfold memcpy memmove copyCommon
  by_cases hm : dst.isMem = false
  · simp [hm]
  · rcases src with _ | src
    · simp [hm]
    · by_cases hs : src.isMem = false <;> simp [hm, hs, h]

/-- **C24 is violated by negative offsets**: for every writable string of at least 1 byte and every other string of at
least 1 byte, `Fn->memcpy($dest, -1, $source, 0, 1)` writes before the destination's data, and a negative source offset
reads before the source's data; `memmove` and `memcmp` likewise. -/
theorem c24_negative_offset_violated (dst src : Bytes) (h1 : 1 ≤ dst.length) (h2 : 1 ≤ src.length)
    (h3 : dst.length ≤ 2147483647) (h4 : src.length ≤ 2147483647) :
    memcpy false (some (.str dst)) (-1) (some (.str src)) 0 1 = .ub ∧
    memmove (some (.str dst)) (-1) (some (.str src)) 0 1 = .ub ∧
    memcpy false (some (.str dst)) 0 (some (.str src)) (-1) 1 = .ub ∧
    memcmp (some (.str dst)) (-1) (some (.str src)) 0 1 = .ub := by
  have m1 := (Valid.str dst h3 false).mul
  have m2 := (Valid.str src h4 false).mul
  have e1 : add32 (-1) 1 = .ok 0 := rfl
  have e2 : add32 0 1 = .ok 1 := rfl
  simp only [MemObj.str] at m1 m2
  unfold memcpy memmove memcmp copyCommon
  simp only [MemObj.str]
  rw [m1, m2, e1, e2]
  simp only [Out.ok_bind]
  rw [if_neg (show ¬ ¬ (0 : Int) ≤ dst.length by omega), if_neg (show ¬ ¬ (1 : Int) ≤ src.length by omega),
    if_neg (show ¬ ¬ (1 : Int) ≤ dst.length by omega), if_neg (show ¬ ¬ (0 : Int) ≤ src.length by omega)]
  simp [rawCopy, rawMove, pointer]
  omega

/-- **C24 is violated at the extremes of `int`**: `Fn->memcpy($dest, 2147483647, $source, 0, 1)` overflows in the range
check for every pair of strings. -/
theorem c24_overflow_violated (dst src : Bytes) (h3 : dst.length ≤ 2147483647) :
    memcpy false (some (.str dst)) 2147483647 (some (.str src)) 0 1 = .ub ∧
    memmove (some (.str dst)) 2147483647 (some (.str src)) 0 1 = .ub := by
  have m1 := (Valid.str dst h3 false).mul
  have e1 : add32 2147483647 1 = .ub := rfl
  simp only [MemObj.str] at m1
  unfold memcpy memmove copyCommon
  simp only [MemObj.str]
  rw [m1, e1]
  simp

/-- Non-vacuity: a move inside one string, a refused one, a comparison of two ranges. -/
example : memmove (some (.str [1, 2, 3, 4])) 1 (some (.str [1, 2, 3, 4])) 0 3 = .ok [1, 1, 2, 3] ∧
    Allowed (.str [1, 2, 3, 4]) 1 (.str [1, 2, 3, 4]) 0 3 ∧ Valid (.str [1, 2, 3, 4]) ∧
    memmove (some (.str [1, 2, 3, 4])) 2 (some (.str [1, 2, 3, 4])) 0 3 = .die msgDestRange ∧
    memcmp (some (.str [1, 2, 3])) 1 (some (.str [2, 4])) 0 2 = .ok (-1) := by
  refine ⟨by rfl, ⟨rfl, rfl, rfl, by decide, .inr (by decide)⟩, Valid.str _ (by decide) _, by rfl, by rfl⟩

end FnMem
end SPVM
