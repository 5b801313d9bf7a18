import Verif.Lemmas.Array
/-!
# C23: range safety of `Array->memcpy_*` / `Array->memmove_*`
-/
namespace SPVM
variable {α : Type}

/-- The ranges a copy of `len` elements from `s` to `d` needs lie inside both arrays. -/
def InRange (dst : List α) (d : Int) (src : List α) (s len : Int) : Prop :=
  0 ≤ len ∧ 0 ≤ d ∧ 0 ≤ s ∧ (len = 0 ∨ (d + len ≤ dst.length ∧ s + len ≤ src.length))

/-- `res` is `dst` with the `len` elements at `d` replaced by the (old) `len` elements of `src` at `s`, every other
element untouched. -/
def IsCopy (res dst : List α) (d : Int) (src : List α) (s len : Int) : Prop :=
  res.length = dst.length ∧
  ∀ i : Nat, res[i]? = if d ≤ i ∧ i < d + len then src[(s + (i - d)).toNat]? else dst[i]?

theorem isCopy_blit {dst src : List α} {d s len : Int} (h : InRange dst d src s len) :
    IsCopy (blit dst d.toNat src s.toNat len.toNat) dst d src s len := by
  obtain ⟨h0, h1, h2, h3⟩ := h
  by_cases hl : len = 0
  · subst hl
    rw [show Int.toNat 0 = 0 from rfl, blit_zero]
    exact ⟨rfl, fun i => by rw [if_neg (by omega)]⟩
  · have h3 : d + len ≤ dst.length ∧ s + len ≤ src.length := by omega
    refine ⟨blit_length (by omega) (by omega), fun i => ?_⟩
    rw [blit_getElem? (by omega) (by omega)]
    by_cases c : d ≤ i ∧ i < d + len
    · rw [if_pos c, if_pos (by omega)]; congr 1; omega
    · rw [if_neg c, if_neg (by omega)]

/-- Shared analysis of the two native functions. -/
theorem arrayCopyCommon_cases (raw : List α → Int → List α → Int → Int → Out (List α)) (dst src : List α)
    (d s len : Int) (hov : d + len ≤ 2147483647) (hov' : s + len ≤ 2147483647) (hI : I32 len) :
    (InRange dst d src s len ∧ len ≠ 0 ∧
      arrayCopyCommon raw (some dst) d (some src) s len = raw dst d src s len) ∨
    (InRange dst d src s len ∧ len = 0 ∧ arrayCopyCommon raw (some dst) d (some src) s len = .ok dst) ∨
    (¬ InRange dst d src s len ∧ ∃ m, arrayCopyCommon raw (some dst) d (some src) s len = .die m) := by
  unfold arrayCopyCommon InRange
  simp only
  by_cases h1 : 0 ≤ len
  · by_cases h2 : 0 ≤ d
    · by_cases h3 : 0 ≤ s
      · rw [if_neg (by omega), if_neg (by omega), if_neg (by omega)]
        by_cases h4 : len = 0
        · exact .inr (.inl ⟨by omega, h4, by rw [if_pos h4]⟩)
        · rw [if_neg h4, add32_ok (by unfold I32; omega), add32_ok (by unfold I32; omega)]
          simp only [Out.ok_bind]
          by_cases h5 : d + len ≤ dst.length
          · rw [if_neg (by simp only [alen]; omega)]
            by_cases h6 : s + len ≤ src.length
            · rw [if_neg (by simp only [alen]; omega)]
              exact .inl ⟨by omega, h4, rfl⟩
            · rw [if_pos (by simp only [alen]; omega)]
              exact .inr (.inr ⟨by omega, _, rfl⟩)
          · rw [if_pos (by simp only [alen]; omega)]
            exact .inr (.inr ⟨by omega, _, rfl⟩)
      · rw [if_neg (by omega), if_neg (by omega), if_pos (by omega)]
        exact .inr (.inr ⟨by omega, _, rfl⟩)
    · rw [if_neg (by omega), if_pos (by omega)]
      exact .inr (.inr ⟨by omega, _, rfl⟩)
  · rw [if_pos (by omega)]
    exact .inr (.inr ⟨by omega, _, rfl⟩)

/-- **C23** (partial: the sums `offset + length` must not exceed the `int` range, see
`c23_memmove_overflow_violated`).  `memmove_*` copies the old source elements when the ranges are inside the arrays and
throws otherwise; no other memory is touched. Source and destination may be the same array (`src = dst`). -/
theorem c23_memmove_partial (dst src : List α) (d s len : Int) (hI : I32 len)
    (hov : d + len ≤ 2147483647) (hov' : s + len ≤ 2147483647) :
    (InRange dst d src s len ∧ ∃ res, arrayMemmove (some dst) d (some src) s len = .ok res ∧ IsCopy res dst d src s len) ∨
    (¬ InRange dst d src s len ∧ ∃ m, arrayMemmove (some dst) d (some src) s len = .die m) := by
  rcases arrayCopyCommon_cases rawMove dst src d s len hov hov' hI with ⟨h, h0, e⟩ | ⟨h, h0, e⟩ | h
  · refine .inl ⟨h, _, ?_, isCopy_blit h⟩
    rw [arrayMemmove, e]
    obtain ⟨h1, h2, h3, h4⟩ := h
    exact rawMove_ok h2 h3 h1 (by omega) (by omega)
  · refine .inl ⟨h, dst, e, ?_⟩
    have := isCopy_blit h
    subst h0
    rwa [show Int.toNat 0 = 0 from rfl, blit_zero] at this
  · exact .inr h

/-- **C23** (partial, as above; additionally the ranges must not overlap when source and destination are the same
array, which is what C `memcpy` requires). -/
theorem c23_memcpy_partial (same : Bool) (dst src : List α) (d s len : Int) (hI : I32 len)
    (hov : d + len ≤ 2147483647) (hov' : s + len ≤ 2147483647)
    (hsep : same = true → ¬ (d < s + len ∧ s < d + len)) :
    (InRange dst d src s len ∧ ∃ res, arrayMemcpy same (some dst) d (some src) s len = .ok res ∧ IsCopy res dst d src s len) ∨
    (¬ InRange dst d src s len ∧ ∃ m, arrayMemcpy same (some dst) d (some src) s len = .die m) := by
  rcases arrayCopyCommon_cases (rawCopy same) dst src d s len hov hov' hI with ⟨h, h0, e⟩ | ⟨h, h0, e⟩ | h
  · refine .inl ⟨h, _, ?_, isCopy_blit h⟩
    rw [arrayMemcpy, e]
    obtain ⟨h1, h2, h3, h4⟩ := h
    unfold rawCopy
    rw [if_neg (fun c => hsep c.1 c.2)]
    exact rawMove_ok h2 h3 h1 (by omega) (by omega)
  · refine .inl ⟨h, dst, e, ?_⟩
    have := isCopy_blit h
    subst h0
    rwa [show Int.toNat 0 = 0 from rfl, blit_zero] at this
  · exact .inr h

/-- **C23**: `undef` arguments throw. -/
theorem c23_undef_throws (same : Bool) (dest source : Option (List α)) (d s len : Int)
    (h : dest = none ∨ source = none) :
    (∃ m, arrayMemcpy same dest d source s len = .die m) ∧ (∃ m, arrayMemmove dest d source s len = .die m) := by
  rcases dest with _ | dst
  · exact ⟨⟨_, rfl⟩, ⟨_, rfl⟩⟩
  · rcases source with _ | src
    · exact ⟨⟨_, rfl⟩, ⟨_, rfl⟩⟩
    · simp at h

/-- **C23 is violated at the extremes of `int`**: for every pair of arrays, `memmove_*($dest, 2147483647, $source, 0, 1)`
passes the sign checks and then overflows in the range check. -/
theorem c23_memmove_overflow_violated (dst src : List α) :
    arrayMemmove (some dst) 2147483647 (some src) 0 1 = .ub ∧
    arrayMemcpy false (some dst) 2147483647 (some src) 0 1 = .ub := ⟨rfl, rfl⟩

/-- Non-vacuity: an overlapping move inside one array, and an out-of-range one. -/
example : arrayMemmove (some [1, 2, 3, 4]) 1 (some [1, 2, 3, 4]) 0 3 = .ok [1, 1, 2, 3] ∧
    InRange [1, 2, 3, 4] 1 [1, 2, 3, 4] 0 3 ∧
    arrayMemmove (some [1, 2, 3, 4]) 2 (some [1, 2, 3, 4]) 0 3 = .die msgDestRange := by
  refine ⟨by rfl, ⟨by decide, by decide, by decide, .inr (by decide)⟩, by rfl⟩

end SPVM
