import Verif.Lemmas.FnStr
import Verif.Lemmas.ArrayOps
/-!
# Properties of the string functions of `Fn` (C15, C16, C17, C18, C21, C22, C49, C50, C51)

A string object has an `int` length, so strings of more than 2147483647 bytes do not exist: that is the hypothesis
`s.length ≤ 2147483647`.
-/
set_option linter.unusedSimpArgs false
set_option linter.unusedVariables false
namespace SPVM
namespace FnStr
open VM (Bytes)
open Str
open Spec.FnStr (OccursAt IsFirst IsLast)

/-! ## C16 index, rindex, contains -/

/-- **C16** (`index`): for all strings, substrings and valid ranges, the result is the first occurrence in the range, or
`-1` iff there is none. -/
theorem c16_index (s sub : Bytes) (begin_ end_ : Int) (hs : s.length ≤ 2147483647) (hsub : sub.length ≤ 2147483647)
    (h0 : 0 ≤ begin_) (h1 : begin_ ≤ (if end_ < 0 then (s.length : Int) else end_)) (h2 : end_ ≤ s.length) :
    ∃ r, index (some s) (some sub) begin_ end_ = .ok r ∧
      IsFirst sub s begin_.toNat (Spec.FnStr.searchEnd s end_) r := index_first hs hsub h0 h1 h2

/-- **C16** (`index` with the default range): the first occurrence in the whole string. -/
theorem c16_index_whole (s sub : Bytes) (hs : s.length ≤ 2147483647) (hsub : sub.length ≤ 2147483647) :
    ∃ r, index (some s) (some sub) = .ok r ∧ IsFirst sub s 0 s.length r := by
  have := index_first (begin_ := 0) (end_ := -1) hs hsub (by omega) (by simp) (by omega)
  simpa [Spec.FnStr.searchEnd] using this

/-- **C16** (`rindex`): the last occurrence in the range, or `-1` iff there is none. -/
theorem c16_rindex (s sub : Bytes) (begin_ end_ : Int) (hs : s.length ≤ 2147483647) (hsub : sub.length ≤ 2147483647)
    (hne : sub ≠ [])
    (h0 : 0 ≤ begin_) (h1 : begin_ ≤ (if end_ < 0 then (s.length : Int) else end_)) (h2 : end_ ≤ s.length) :
    ∃ r, rindex (some s) (some sub) end_ begin_ = .ok r ∧
      IsLast sub s begin_.toNat (Spec.FnStr.searchEnd s end_) r :=
  rindex_last hs hsub (List.length_pos_iff.mpr hne) h0 h1 h2

/-- **C16** (`rindex` of the empty string): the end of the range. -/
theorem c16_rindex_empty (s : Bytes) (begin_ end_ : Int) (h0 : 0 ≤ begin_)
    (h1 : begin_ ≤ (if end_ < 0 then (s.length : Int) else end_)) (h2 : end_ ≤ s.length) :
    rindex (some s) (some []) end_ begin_ = .ok (if end_ < 0 then (s.length : Int) else end_) := by
  have hle : (if end_ < 0 then (s.length : Int) else end_) ≤ s.length := by split <;> omega
  unfold rindex searchArgs
  simp only []
  rw [if_neg (by omega), if_neg (by omega), if_neg (by omega)]
  unfold rindexBody
  rw [if_pos (by simp)]

/-- **C16** (`contains`): true exactly when the substring occurs in the range. -/
theorem c16_contains (s sub : Bytes) (begin_ end_ : Int) (hs : s.length ≤ 2147483647) (hsub : sub.length ≤ 2147483647)
    (h0 : 0 ≤ begin_) (h1 : begin_ ≤ (if end_ < 0 then (s.length : Int) else end_)) (h2 : end_ ≤ s.length) :
    ∃ b, contains (some s) (some sub) begin_ end_ = .ok b ∧
      (b = true ↔ ∃ p, begin_.toNat ≤ p ∧ p + sub.length ≤ Spec.FnStr.searchEnd s end_ ∧ OccursAt sub s p) := by
  obtain ⟨r, e, hr⟩ := index_first hs hsub h0 h1 h2
  refine ⟨decide (r ≥ 0), by unfold contains; rw [e]; rfl, ?_⟩
  rcases hr with ⟨rfl, hn⟩ | ⟨p, rfl, h3, h4, h5, _⟩
  · simp
    exact fun p h3 h4 => hn p (by omega) h4
  · simp
    exact ⟨p, by omega, h4, h5⟩

/-- **C16** (invalid ranges and undefined arguments throw). -/
theorem c16_throws (s sub : Option Bytes) (begin_ end_ : Int)
    (h : s = none ∨ sub = none ∨ begin_ < 0 ∨ (∃ t, s = some t ∧
      (t.length < begin_ ∨ t.length < end_ ∨ (0 ≤ end_ ∧ end_ < begin_)))) :
    (∃ m, index s sub begin_ end_ = .die m) ∧ (∃ m, rindex s sub end_ begin_ = .die m) := by
  suffices hk : ∀ k, ∃ m, searchArgs s sub begin_ end_ k = .die m from ⟨hk _, hk _⟩
  intro k
  unfold searchArgs
  cases s with
  | none => exact ⟨_, rfl⟩
  | some s =>
    cases sub with
    | none => exact ⟨_, rfl⟩
    | some sub =>
      simp at h
      simp only []
      by_cases c1 : ¬ (begin_ ≥ 0 ∧ begin_ ≤ s.length)
      · rw [if_pos c1]; exact ⟨_, rfl⟩
      · rw [if_neg c1]
        by_cases c2 : ¬ (if end_ < 0 then (s.length : Int) else end_) ≤ s.length
        · rw [if_pos c2]; exact ⟨_, rfl⟩
        · rw [if_neg c2]
          by_cases c3 : ¬ (if end_ < 0 then (s.length : Int) else end_) ≥ begin_
          · rw [if_pos c3]; exact ⟨_, rfl⟩
          · exfalso
            simp only [Decidable.not_not] at c1 c2 c3
            split at c2 <;> split at c3 <;> omega

/-- Non-vacuity of C16: "abcabc". -/
example : index (some [97, 98, 99, 97, 98, 99]) (some [98, 99]) 2 = .ok 4 := by decide +kernel
example : rindex (some [97, 98, 99, 97, 98, 99]) (some [98, 99]) 4 = .ok 1 := by decide +kernel
example : index (some [97, 98]) (some [99]) = .ok (-1) := by decide +kernel
example : OccursAt [98, 99] [97, 98, 99] 1 := ⟨[97], [], rfl, rfl⟩

/-! ## C17 substr -/

theorem substr_len {limit : Nat} {s : Bytes} {offset length : Int} (h0 : 0 ≤ offset) (hl : length < 0)
    (h2 : offset ≤ s.length) (h3 : s.length ≤ 2147483647) (h4 : s.length - offset ≤ limit) :
    substr limit (some s) offset length = .ok (s.drop offset.toNat) := by
  have := substr_ok (limit := limit) (s := s) (offset := offset) (length := s.length - offset) h0 (by omega) (by omega) h3 h4
  unfold substr at this ⊢
  simp only [] at this ⊢
  rw [if_neg (by omega)] at this ⊢
  rw [if_neg (show ¬ ((s.length : Int) - offset < 0) by omega)] at this
  rw [if_pos hl, sub32_ok (by unfold I32; omega)]
  simp only [Out.ok_bind] at this ⊢
  rw [this, List.take_of_length_le (by simp; omega)]

/-- **C17** (`substr`): for every string and every range inside it, exactly the bytes of the range (the rest of the
string for a negative length), provided the result can be allocated. -/
theorem c17_substr (limit : Nat) (s : Bytes) (offset length : Int) (hs : s.length ≤ 2147483647) (h0 : 0 ≤ offset)
    (h1 : offset + (if length < 0 then 0 else length) ≤ s.length) (hlim : s.length ≤ limit) :
    substr limit (some s) offset length =
      .ok (if length < 0 then s.drop offset.toNat else (s.drop offset.toNat).take length.toNat) := by
  by_cases hl : length < 0
  · rw [if_pos hl] at h1 ⊢
    exact substr_len h0 hl (by omega) hs (by omega)
  · rw [if_neg hl] at h1 ⊢
    exact substr_ok h0 (by omega) h1 hs (by omega)

/-- **C17** (ranges outside the string and undefined strings throw; full statement needs no bound on
`offset + length`, see `c17_substr_overflow_violated`). -/
theorem c17_substr_throws_partial (limit : Nat) (string : Option Bytes) (offset length : Int) (hlen : I32 length)
    (hoff : I32 offset) (hsum : offset + length ≤ 2147483647)
    (h : ∀ s, string = some s → s.length ≤ 2147483647 ∧
      (offset < 0 ∨ (0 ≤ length ∧ (s.length : Int) < offset + length) ∨ (length < 0 ∧ (s.length : Int) < offset))) :
    ∃ m, substr limit string offset length = .die m := by
  cases string with
  | none => exact ⟨_, rfl⟩
  | some s =>
    obtain ⟨hs, h⟩ := h s rfl
    unfold I32 at hlen hoff
    unfold substr
    simp only []
    by_cases ho : offset < 0
    · rw [if_pos (by omega)]; exact ⟨_, rfl⟩
    · rw [if_neg (by omega)]
      by_cases hl : length < 0
      · rw [if_pos hl, sub32_ok (by unfold I32; omega)]
        simp only [Out.ok_bind]
        rw [add32_ok (by unfold I32; omega)]
        simp only [Out.ok_bind]
        rw [if_neg (by omega), newStringLen_neg (by omega)]
        exact ⟨_, rfl⟩
      · rw [if_neg hl]
        simp only [Out.ok_bind]
        rw [add32_ok (by unfold I32; omega)]
        simp only [Out.ok_bind]
        rw [if_pos (by omega)]
        exact ⟨_, rfl⟩

/-- **C17** fails as stated: an offset and a length whose sum exceeds the `int` range are added without a check, which is
undefined behaviour instead of an exception. -/
theorem c17_substr_overflow_violated : ∃ (s : Bytes) (offset length : Int), I32 offset ∧ I32 length ∧
    substr 100 (some s) offset length = .ub :=
  ⟨[65], 1, 2147483647, by decide, by decide, by decide +kernel⟩

/-- **C17** (`substr` with a replacement): the bytes before the range, the replacement, the bytes after. -/
theorem c17_substr_replace (limit : Nat) (s r : Bytes) (offset length : Int) (hs : s.length ≤ 2147483647) (h0 : 0 ≤ offset)
    (hl : 0 ≤ length) (h1 : offset + length ≤ s.length) (hlim : s.length + r.length ≤ limit)
    (hlim2 : limit ≤ 2147483647) :
    substrReplace limit (some s) offset length r =
      .ok (some (s.take offset.toNat ++ r ++ s.drop (offset + length).toNat)) := by
  unfold substrReplace
  simp only []
  rw [if_neg (by omega), if_neg (show ¬ length < 0 by omega)]
  simp only [Out.ok_bind]
  rw [add32_ok (by unfold I32; omega)]
  simp only [Out.ok_bind]
  rw [if_neg (by omega), substr_ok (by omega) h0 (by omega) hs (by omega)]
  simp only [Out.ok_bind, Int.toNat_zero, List.drop_zero]
  unfold concat
  rw [add32_ok (by unfold I32; simp; omega)]
  simp only [Out.ok_bind]
  rw [if_pos (by simp; omega), substr_len (by omega) (by omega) (by omega) hs (by omega)]
  simp only [Out.ok_bind, concatOpt]
  unfold concat
  rw [add32_ok (by unfold I32; simp; omega)]
  simp only [Out.ok_bind]
  rw [if_pos (by simp; omega)]

/-- Non-vacuity of C17. -/
example : substr 100 (some [65, 66, 67, 68]) 1 2 = .ok [66, 67] := by decide +kernel
example : substrReplace 100 (some [65, 66, 67, 68]) 1 2 [88] = .ok (some [65, 88, 68]) := by decide +kernel
example : ∃ m, substr 100 (some [65, 66]) 1 2 = .die m := ⟨_, rfl⟩

/-! ## C18 lc, uc -/

theorem lcChar_eq : ∀ b, lcChar b = Spec.FnStr.lowerByte b := by decide +kernel
theorem ucChar_eq : ∀ b, ucChar b = Spec.FnStr.upperByte b := by decide +kernel

/-- **C18** (`lc`, `uc`): byte by byte ASCII conversion of the whole string. -/
theorem c18_case (limit : Nat) (s : Bytes) (h : s.length ≤ limit) :
    lc limit (some s) = .ok (s.map Spec.FnStr.lowerByte) ∧ uc limit (some s) = .ok (s.map Spec.FnStr.upperByte) := by
  have e1 : lcChar = Spec.FnStr.lowerByte := funext lcChar_eq
  have e2 : ucChar = Spec.FnStr.upperByte := funext ucChar_eq
  unfold lc uc
  rw [mapString_ok h, mapString_ok h, e1, e2]
  exact ⟨rfl, rfl⟩

/-- **C18** (algebra): both conversions keep the length, are idempotent, and `lc(uc(s)) = lc(s)`, `uc(lc(s)) = uc(s)`. -/
theorem c18_idempotent (limit : Nat) (s l u : Bytes) (h : s.length ≤ limit) (hl : lc limit (some s) = .ok l)
    (hu : uc limit (some s) = .ok u) :
    l.length = s.length ∧ u.length = s.length ∧ lc limit (some l) = .ok l ∧ uc limit (some u) = .ok u ∧
      lc limit (some u) = .ok l ∧ uc limit (some l) = .ok u := by
  obtain ⟨e1, e2⟩ := c18_case limit s h
  rw [e1] at hl; rw [e2] at hu
  cases hl; cases hu
  have hl2 : (s.map Spec.FnStr.lowerByte).length ≤ limit := by simpa using h
  have hu2 : (s.map Spec.FnStr.upperByte).length ≤ limit := by simpa using h
  rw [(c18_case limit _ hl2).1, (c18_case limit _ hl2).2, (c18_case limit _ hu2).1, (c18_case limit _ hu2).2]
  have a1 : ∀ b, Spec.FnStr.lowerByte (Spec.FnStr.lowerByte b) = Spec.FnStr.lowerByte b := by decide +kernel
  have a2 : ∀ b, Spec.FnStr.upperByte (Spec.FnStr.upperByte b) = Spec.FnStr.upperByte b := by decide +kernel
  have a3 : ∀ b, Spec.FnStr.lowerByte (Spec.FnStr.upperByte b) = Spec.FnStr.lowerByte b := by decide +kernel
  have a4 : ∀ b, Spec.FnStr.upperByte (Spec.FnStr.lowerByte b) = Spec.FnStr.upperByte b := by decide +kernel
  simp [a1, a2, a3, a4]

/-- **C18** (undefined strings and failed allocations throw). -/
theorem c18_throws (limit : Nat) (s : Option Bytes) (h : ∀ t, s = some t → limit < t.length) :
    (∃ m, lc limit s = .die m) ∧ (∃ m, uc limit s = .die m) := by
  suffices hk : ∀ f, ∃ m, mapString limit f s = .die m from ⟨hk _, hk _⟩
  intro f
  cases s with
  | none => exact ⟨_, rfl⟩
  | some t =>
    unfold mapString
    simp only []
    rw [newStringLen_mem (by have := h t rfl; omega)]
    exact ⟨_, rfl⟩

/-- Non-vacuity of C18. -/
example : lc 10 (some [65, 98, 200, 90]) = .ok [97, 98, 200, 122] := by decide +kernel

/-! ## C49 lcfirst, ucfirst -/

/-- **C49** (`lcfirst`, `ucfirst` on a non-empty string): the first byte is converted, the others are kept.  Partial: the
documented function is defined on every string, the empty string throws (`c49_first_empty_violated`). -/
theorem c49_first_partial (limit : Nat) (b : UInt8) (s : Bytes) (h : s.length + 1 ≤ limit) (hs : s.length + 1 ≤ 2147483647) :
    lcfirst limit (some (b :: s)) = .ok (Spec.FnStr.lowerByte b :: s) ∧
    ucfirst limit (some (b :: s)) = .ok (Spec.FnStr.upperByte b :: s) := by
  suffices hk : ∀ f, mapFirst limit f (some (b :: s)) = .ok (f b :: s) by
    unfold lcfirst ucfirst
    rw [hk, hk, lcChar_eq, ucChar_eq]
    exact ⟨rfl, rfl⟩
  intro f
  unfold mapFirst
  simp only [List.length_cons]
  rw [newStringLen_ok (by omega) (by omega)]
  simp only [Out.ok_bind]
  unfold setFirst
  rw [if_pos (by simp), aGet_ok (by omega) (by simp)]
  simp only [Out.ok_bind]
  rw [aSet_ok (by omega) (by simp)]
  simp only [Out.ok_bind]
  rw [memcpy_ok (by omega) (by omega) (by omega) (by simp; omega) (by simp; omega) (by simp; omega) (by simp; omega)]
  simp [blit, List.replicate_succ, Nat.add_comm 1]

/-- **C49** fails on the empty string: it throws instead of returning the empty string. -/
theorem c49_first_empty_violated (limit : Nat) :
    (∃ m, lcfirst limit (some []) = .die m) ∧ (∃ m, ucfirst limit (some []) = .die m) := by
  suffices hk : ∀ f, ∃ m, mapFirst limit f (some []) = .die m from ⟨hk _, hk _⟩
  intro f
  unfold mapFirst
  simp only [List.length_nil]
  rw [newStringLen_ok (by omega) (by omega)]
  simp only [Out.ok_bind]
  unfold setFirst
  rw [if_neg (by simp)]
  simp only [Out.ok_bind]
  rw [memcpy_neg (by omega)]
  exact ⟨_, rfl⟩

example : lcfirst 10 (some [65, 66]) = .ok [97, 66] := by decide +kernel

/-! ## C15 trim -/

theorem sbyte_space : ∀ b, isSpace (sbyte b) = Spec.FnStr.isSpace b := by decide +kernel

/-- **C15** (`trim`): the result is what remains after removing a prefix and a suffix of white space, and it neither
begins nor ends with white space; so prefix and suffix are the longest possible. -/
theorem c15_trim (limit : Nat) (s : Bytes) (hs : s.length ≤ 2147483647) (hlim : s.length ≤ limit) :
    ∃ t a b, trim limit (some s) = .ok t ∧ s = a ++ t ++ b ∧ (∀ x ∈ a, Spec.FnStr.isSpace x = true) ∧
      (∀ x ∈ b, Spec.FnStr.isSpace x = true) ∧ (∀ x, t.head? = some x → Spec.FnStr.isSpace x = false) ∧
      (∀ x, t.getLast? = some x → Spec.FnStr.isSpace x = false) ∧ (t = [] → b = []) := by
  have hf : ∀ i, i < s.length → (do
      let c ← aGet s (i : Nat)
      (.ok (if isSpace (sbyte c) then none else some (i : Int)) : Out (Option Int))) =
      .ok (match s[i]? with
        | some c => if Spec.FnStr.isSpace c then none else some (i : Int)
        | none => none) := by
    intro i hi
    rw [aGet_ok (by omega) (by omega)]
    simp only [Out.ok_bind, Int.toNat_natCast]
    rw [List.getElem?_eq_getElem hi, sbyte_space]
  unfold trim
  simp only []
  obtain ⟨rb, eb, hb⟩ := searchUp_spec _ (start := 0) (n := s.length) (fun i _ h => hf i (by omega))
  obtain ⟨re, ee, he⟩ := searchDown_spec _ (lo := 0) (n := s.length) (fun i _ h => hf i (by omega))
  rw [eb, Out.ok_bind, ee, Out.ok_bind]
  rcases hb with ⟨rfl, hn⟩ | ⟨i, v, rfl, _, hi, hiv, hlt⟩
  · have hall : ∀ x ∈ s, Spec.FnStr.isSpace x = true := by
      intro x hx
      obtain ⟨i, hi, rfl⟩ := List.mem_iff_getElem.mp hx
      have := hn i (by omega) (by omega)
      rw [List.getElem?_eq_getElem hi] at this
      simp only [] at this
      by_cases hsp : Spec.FnStr.isSpace s[i] = true
      · exact hsp
      · rw [if_neg hsp] at this; simp at this
    have hre : re = none := by
      rcases he with ⟨rfl, _⟩ | ⟨i, v, rfl, _, hi, hiv, _⟩
      · rfl
      · rw [hn i (by omega) hi] at hiv; simp at hiv
    subst hre
    refine ⟨[], s, [], ?_, by simp, hall, by simp, by simp, by simp, by simp⟩
    simp
  · rcases he with ⟨rfl, hn⟩ | ⟨j, w, rfl, _, hj, hjw, hgt⟩
    · rw [hn i (by omega) hi] at hiv; simp at hiv
    · have hi' : i < s.length := by omega
      have hj' : j < s.length := by omega
      rw [List.getElem?_eq_getElem hi'] at hiv
      rw [List.getElem?_eq_getElem hj'] at hjw
      simp only [] at hiv hjw
      have hsi : Spec.FnStr.isSpace s[i] = false ∧ v = i := by
        split at hiv <;> simp_all
      have hsj : Spec.FnStr.isSpace s[j] = false ∧ w = j := by
        split at hjw <;> simp_all
      obtain ⟨hsi, rfl⟩ := hsi
      obtain ⟨hsj, rfl⟩ := hsj
      have hij : i ≤ j := by
        apply Decidable.byContradiction
        intro hc
        have := hlt j (by omega) (by omega)
        rw [List.getElem?_eq_getElem hj'] at this
        simp [hsj] at this
      simp only [Option.getD_some]
      rw [if_neg (by omega), if_neg (by omega), sub32_ok (by unfold I32; omega)]
      simp only [Out.ok_bind]
      rw [add32_ok (by unfold I32; omega)]
      simp only [Out.ok_bind]
      rw [substr_ok (by omega) (by omega) (by omega) hs (by omega)]
      have e1 : ((j : Int) - i + 1).toNat = j + 1 - i := by omega
      rw [e1, Int.toNat_natCast]
      have hlen : ((s.drop i).take (j + 1 - i)).length = j + 1 - i := by simp; omega
      refine ⟨_, s.take i, s.drop (j + 1), rfl, ?_, ?_, ?_, ?_, ?_, ?_⟩
      · rw [List.append_assoc]
        conv => lhs; rw [← List.take_append_drop i s]
        congr 1
        conv => lhs; rw [← List.take_append_drop (j + 1 - i) (s.drop i)]
        congr 1
        rw [List.drop_drop]
        congr 1; omega
      · intro x hx
        obtain ⟨k, hk, rfl⟩ := List.mem_iff_getElem.mp hx
        simp at hk
        have := hlt k (by omega) (by omega)
        rw [List.getElem?_eq_getElem (by omega)] at this
        rw [List.getElem_take]
        simp only [] at this
        by_cases hsp : Spec.FnStr.isSpace s[k] = true
        · exact hsp
        · rw [if_neg hsp] at this; simp at this
      · intro x hx
        obtain ⟨k, hk, rfl⟩ := List.mem_iff_getElem.mp hx
        simp at hk
        have := hgt (j + 1 + k) (by omega) (by omega)
        rw [List.getElem?_eq_getElem (by omega)] at this
        rw [List.getElem_drop]
        simp only [] at this
        by_cases hsp : Spec.FnStr.isSpace s[j + 1 + k] = true
        · exact hsp
        · rw [if_neg hsp] at this; simp at this
      · intro x hx
        rw [List.head?_eq_getElem?, List.getElem?_take_of_lt (by omega), List.getElem?_drop, Nat.add_zero,
          List.getElem?_eq_getElem hi'] at hx
        rw [← Option.some.inj hx]; exact hsi
      · intro x hx
        rw [List.getLast?_eq_getElem?, hlen, List.getElem?_take_of_lt (by omega), List.getElem?_drop,
          show i + (j + 1 - i - 1) = j by omega, List.getElem?_eq_getElem hj'] at hx
        rw [← Option.some.inj hx]; exact hsj
      · intro hnil
        rw [hnil] at hlen
        simp at hlen
        omega

/-- A string that neither begins nor ends with a space has no other decomposition. -/
theorem trim_unique {a t b a' t' b' : Bytes} (h : a ++ t ++ b = a' ++ t' ++ b')
    (ha : ∀ x ∈ a, Spec.FnStr.isSpace x = true) (hb : ∀ x ∈ b, Spec.FnStr.isSpace x = true)
    (ht : ∀ x, t.head? = some x → Spec.FnStr.isSpace x = false)
    (hl : ∀ x, t.getLast? = some x → Spec.FnStr.isSpace x = false)
    (ha' : ∀ x ∈ a', Spec.FnStr.isSpace x = true) (hb' : ∀ x ∈ b', Spec.FnStr.isSpace x = true)
    (ht' : ∀ x, t'.head? = some x → Spec.FnStr.isSpace x = false)
    (hl' : ∀ x, t'.getLast? = some x → Spec.FnStr.isSpace x = false) : t = t' := by
  have key : ∀ (a t b : Bytes), (∀ x ∈ a, Spec.FnStr.isSpace x = true) → (∀ x ∈ b, Spec.FnStr.isSpace x = true) →
      (∀ x, t.head? = some x → Spec.FnStr.isSpace x = false) →
      (∀ x, t.getLast? = some x → Spec.FnStr.isSpace x = false) →
      t = (((a ++ t ++ b).dropWhile Spec.FnStr.isSpace).reverse.dropWhile Spec.FnStr.isSpace).reverse := by
    intro a t b ha hb ht hl
    have dropAll : ∀ (u v : Bytes), (∀ x ∈ u, Spec.FnStr.isSpace x = true) →
        (u ++ v).dropWhile Spec.FnStr.isSpace = v.dropWhile Spec.FnStr.isSpace := by
      intro u v hu
      induction u with
      | nil => rfl
      | cons x u ih =>
        rw [List.cons_append, List.dropWhile_cons, if_pos (hu x (by simp)), ih (fun y hy => hu y (by simp [hy]))]
    rw [List.append_assoc, dropAll a _ ha]
    cases t with
    | nil =>
      have : b.dropWhile Spec.FnStr.isSpace = [] := by simpa using dropAll b [] hb
      simp [this]
    | cons x t =>
      rw [List.cons_append, List.dropWhile_cons, if_neg (by rw [ht x rfl]; simp)]
      rw [show (x :: (t ++ b)) = (x :: t) ++ b from rfl, List.reverse_append,
        dropAll _ _ (by intro y hy; exact hb y (by simpa using hy))]
      cases hr : (x :: t).reverse with
      | nil => simp at hr
      | cons y r =>
        have : (x :: t).getLast? = some y := by
          rw [← List.head?_reverse, hr]; rfl
        rw [List.dropWhile_cons, if_neg (by rw [hl y this]; simp), ← hr, List.reverse_reverse]
  rw [key a t b ha hb ht hl, key a' t' b' ha' hb' ht' hl', h]

/-- **C15** (idempotence): trimming twice is trimming once. -/
theorem c15_trim_idempotent (limit : Nat) (s t : Bytes) (hs : s.length ≤ 2147483647) (hlim : s.length ≤ limit)
    (h : trim limit (some s) = .ok t) : trim limit (some t) = .ok t := by
  obtain ⟨t0, a, b, e, hsplit, ha, hb, ht, hl, _⟩ := c15_trim limit s hs hlim
  rw [h] at e
  cases e
  have hlen : t.length ≤ s.length := by rw [hsplit]; simp; omega
  obtain ⟨t', a', b', e', hsplit', ha', hb', ht', hl', _⟩ := c15_trim limit t (by omega) (by omega)
  rw [e']
  congr 1
  symm
  refine trim_unique (a := []) (b := []) (by simpa using hsplit') (by simp) (by simp) ht hl ha' hb' ht' hl'

/-- **C15** (an undefined string throws). -/
theorem c15_trim_undef (limit : Nat) : trim limit none = .die msgStringUndef := rfl

/-- Non-vacuity of C15. -/
example : trim 10 (some [32, 9, 65, 32, 66, 10]) = .ok [65, 32, 66] := by decide +kernel
example : trim 10 (some [32, 32]) = .ok [] := by decide +kernel

/-! ## C22 powi, powl -/

theorem natAbs_pow (b : Int) (n : Nat) : (b ^ n).natAbs = b.natAbs ^ n := Int.natAbs_pow b n

/-- If the final power fits, every intermediate product does. -/
theorem pow_fits {lo hi : Int} (hlo : lo ≤ -1) (hhi : 1 ≤ hi) (hnear : -lo ≤ hi + 1) (hnear' : hi ≤ -lo) {b : Int} {n k : Nat} (hk : k < n)
    (h : lo ≤ b ^ n ∧ b ^ n ≤ hi) : lo ≤ b ^ k ∧ b ^ k ≤ hi := by
  by_cases hb : b.natAbs ≤ 1
  · have h1 : (b ^ k).natAbs ≤ 1 := by
      rw [natAbs_pow]
      calc b.natAbs ^ k ≤ 1 ^ k := Nat.pow_le_pow_left hb k
        _ = 1 := Nat.one_pow k
    omega
  · have h2 : (b ^ n).natAbs = b.natAbs ^ n := natAbs_pow b n
    have h3 : (b ^ k).natAbs = b.natAbs ^ k := natAbs_pow b k
    have h4 : b.natAbs ^ (k + 1) ≤ b.natAbs ^ n := Nat.pow_le_pow_right (by omega) hk
    have h5 : 2 * b.natAbs ^ k ≤ b.natAbs ^ (k + 1) := by
      rw [Nat.pow_succ, Nat.mul_comm]
      exact Nat.mul_le_mul_left _ (by omega)
    have h6 : 0 < b.natAbs ^ k := Nat.pow_pos (by omega)
    omega

/-- **C22** (`powi`): whenever the power fits `int`, exactly the power. -/
theorem c22_powi (base : Int) (e : Nat) (h : I32 (base ^ e)) (h00 : ¬ (base = 0 ∧ e = 0)) :
    powi base e = .ok (base ^ e) := by
  unfold powi
  rw [if_neg (by omega), if_neg (by omega), Int.toNat_natCast]
  obtain ⟨r, er, hr⟩ := forLoop_inv (start := 0) (n := e) (body := fun _ r => mul32 r base) (s := (1 : Int))
    (fun i r => r = base ^ i) (by simp) (by
      intro i r _ hi hr
      refine ⟨base ^ (i + 1), ?_, rfl⟩
      rw [hr, Int.pow_succ]
      apply mul32_ok
      rw [← Int.pow_succ]
      by_cases hlast : i + 1 = e
      · rw [show i.succ = e from hlast]; exact h
      · have := pow_fits (lo := -2147483648) (hi := 2147483647) (by omega) (by omega) (by omega) (by omega)
          (b := base) (k := i + 1) (n := e) (by omega) h
        exact this)
  rw [er, hr]
  simp

/-- **C22** (`powl`): whenever the power fits `long`, exactly the power – for exponents below 2^31.  Partial: the loop
counter of `powl` is an `int`, see `c22_powl_counter_violated`. -/
theorem c22_powl_partial (base : Int) (e : Nat) (h : I64 (base ^ e)) (h00 : ¬ (base = 0 ∧ e = 0)) (he : e ≤ 2147483647) :
    powl base e = .ok (base ^ e) := by
  unfold powl
  rw [if_neg (by omega), if_neg (by omega), Int.toNat_natCast]
  obtain ⟨r, er, hr⟩ := forLoop_inv (start := 0) (n := e) (body := fun (i : Nat) r => (do
      let r ← chk64 (r * base)
      let _ ← add32 i 1
      .ok r : Out Int)) (s := (1 : Int))
    (fun i r => r = base ^ i) (by simp) (by
      intro i r _ hi hr
      refine ⟨base ^ (i + 1), ?_, rfl⟩
      rw [hr, ← Int.pow_succ, chk64_ok, Out.ok_bind, add32_ok (by unfold I32; omega), Out.ok_bind]
      by_cases hlast : i + 1 = e
      · rw [show i.succ = e from hlast]; exact h
      · have := pow_fits (lo := -9223372036854775808) (hi := 9223372036854775807) (by omega) (by omega) (by omega) (by omega)
          (b := base) (k := i + 1) (n := e) (by omega) h
        exact this)
  rw [er, hr]
  simp

theorem powl_counter : ∀ n i : Nat, i ≤ 2147483647 → 2147483648 ≤ i + n →
    forLoop i n (fun (i : Nat) (r : Int) => (do
      let r ← chk64 (r * 1)
      let _ ← add32 i 1
      .ok r : Out Int)) 1 = .ub := by
  intro n
  induction n with
  | zero => intro i h1 h2; omega
  | succ n ih =>
    intro i h1 h2
    unfold forLoop
    rw [show (1 : Int) * 1 = 1 from rfl, chk64_ok (by decide), Out.ok_bind]
    by_cases hi : i = 2147483647
    · have : add32 (i : Int) 1 = .ub := by
        unfold add32 chk32
        rw [if_neg (by unfold I32; omega)]
      rw [this]
      rfl
    · rw [add32_ok (by unfold I32; omega), Out.ok_bind, Out.ok_bind]
      exact ih (i + 1) (by omega) (by omega)

/-- **C22** fails for `powl` with large exponents: `powl(1, e)` with `e ≥ 2^31` overflows the `int` loop counter, although
the power is 1. -/
theorem c22_powl_counter_violated (e : Nat) (he : 2147483648 ≤ e) : powl 1 e = .ub ∧ I64 ((1 : Int) ^ e) := by
  constructor
  · unfold powl
    rw [if_neg (by omega), if_neg (by omega), Int.toNat_natCast]
    exact powl_counter e 0 (by omega) (by omega)
  · rw [Int.one_pow]; decide

/-- **C22** (negative exponents throw, and `0^0` throws). -/
theorem c22_pow_throws (base e : Int) (h : e < 0 ∨ (base = 0 ∧ e = 0)) :
    (∃ m, powi base e = .die m) ∧ (∃ m, powl base e = .die m) := by
  unfold powi powl
  by_cases he : e < 0
  · rw [if_pos (by omega), if_pos (by omega)]
    exact ⟨⟨_, rfl⟩, ⟨_, rfl⟩⟩
  · have h0 : base = 0 ∧ ¬ e ≠ 0 := by omega
    rw [if_neg (show ¬ ¬ e ≥ 0 by omega), if_neg (show ¬ ¬ e ≥ 0 by omega), if_pos h0, if_pos h0]
    exact ⟨⟨_, rfl⟩, ⟨_, rfl⟩⟩

/-- **C22** (the first overflow is reached): if the power does not fit, the multiplication overflows – no wrong value is
returned. -/
theorem c22_powi_overflow (base : Int) (e : Nat) (h : ¬ I32 (base ^ e)) (h00 : ¬ (base = 0 ∧ e = 0)) : powi base e = .ub := by
  have key : ∀ n i (r : Int), r = base ^ i → ¬ I32 (base ^ (i + n)) → (n = 0 → False) →
      forLoop i n (fun _ r => mul32 r base) r = .ub := by
    intro n
    induction n with
    | zero => intro i r _ _ h; exact absurd rfl (fun h' => h h')
    | succ n ih =>
      intro i r hr hbad _
      unfold forLoop
      by_cases hfit : I32 (r * base)
      · rw [mul32_ok hfit, Out.ok_bind]
        have hr' : r * base = base ^ (i + 1) := by rw [hr, Int.pow_succ]
        have hbad' : ¬ I32 (base ^ (i + 1 + n)) := by rw [show i + 1 + n = i + (n + 1) by omega]; exact hbad
        refine ih (i + 1) _ hr' hbad' (fun hn => ?_)
        subst hn
        rw [Nat.add_zero] at hbad'
        rw [hr'] at hfit
        exact hbad' hfit
      · have : mul32 r base = .ub := by unfold mul32 chk32; rw [if_neg hfit]
        rw [this]; rfl
  unfold powi
  rw [if_neg (by omega), if_neg (by omega), Int.toNat_natCast]
  refine key e 0 1 (by simp) (by rwa [Nat.zero_add]) (fun he => ?_)
  subst he
  simp at h
  exact h (by decide)

/-- Non-vacuity of C22. -/
example : powi (-2) 31 = .ok (-2147483648) := by decide +kernel
example : powl 3 20 = .ok 3486784401 := by decide +kernel
example : powi 2 31 = .ub := by decide +kernel

/-! ## C21 hex -/

theorem hexDigit_spec : ∀ b : UInt8, (Spec.FnStr.hexDigitValue b = none ∧ isHexDigit (sbyte b) = false) ∨
    (∃ d : Nat, d ∈ List.range 16 ∧ Spec.FnStr.hexDigitValue b = some d ∧ isHexDigit (sbyte b) = true ∧
      hexDigit (sbyte b) = (d : Int)) := by
  have h : ∀ b : UInt8, (match Spec.FnStr.hexDigitValue b with
      | none => isHexDigit (sbyte b) == false
      | some d => decide (d < 16) && isHexDigit (sbyte b) && hexDigit (sbyte b) == (d : Int)) = true := by decide +kernel
  intro b
  have := h b
  cases hd : Spec.FnStr.hexDigitValue b with
  | none => rw [hd] at this; exact .inl ⟨rfl, by simpa using this⟩
  | some d =>
    rw [hd] at this
    simp at this
    exact .inr ⟨d, List.mem_range.mpr this.1.1, rfl, this.1.2, this.2⟩

theorem hexValue_cons (b : UInt8) (s : Bytes) :
    Spec.FnStr.hexValue (b :: s) = (do
      let d ← Spec.FnStr.hexDigitValue b
      let v ← Spec.FnStr.hexValue s
      some (d * 16 ^ s.length + v)) := rfl

theorem hexValue_lt (s : Bytes) (v : Nat) (h : Spec.FnStr.hexValue s = some v) : v < 16 ^ s.length := by
  induction s generalizing v with
  | nil => simp [Spec.FnStr.hexValue] at h; subst h; simp
  | cons b s ih =>
    rw [hexValue_cons] at h
    rcases hexDigit_spec b with ⟨hn, _⟩ | ⟨d, hd, hs, _, _⟩
    · rw [hn] at h; simp at h
    · rw [hs] at h
      cases hv : Spec.FnStr.hexValue s with
      | none => rw [hv] at h; simp at h
      | some w =>
        rw [hv] at h
        simp at h
        have := ih w hv
        have hd := List.mem_range.mp hd
        rw [List.length_cons, Nat.pow_succ]
        have : (d + 1) * 16 ^ s.length ≤ 16 * 16 ^ s.length := Nat.mul_le_mul_right _ (by omega)
        rw [Nat.add_mul] at this
        omega

theorem pow16_le {j : Nat} (hj : j ≤ 7) : (16 : Int) ^ j ≤ 268435456 ∧ (0 : Int) < 16 ^ j := by
  have : j = 0 ∨ j = 1 ∨ j = 2 ∨ j = 3 ∨ j = 4 ∨ j = 5 ∨ j = 6 ∨ j = 7 := by omega
  rcases this with h | h | h | h | h | h | h | h <;> subst h <;> decide

/-- The state of the loop of `hex` after `n` steps on a suffix. -/
theorem hexLoop {s : Bytes} (hs8 : s.length ≤ 8) (n : Nat) (hn : n ≤ s.length) :
    (∃ v, Spec.FnStr.hexValue (s.drop (s.length - n)) = some v ∧
      (n ≤ 7 ∨ v ≤ 2147483647) ∧ forLoop 0 n (hexStep s) 0 = .ok (v : Int)) ∨
    (∃ v, Spec.FnStr.hexValue (s.drop (s.length - n)) = some v ∧ 2147483647 < v ∧ n = 8 ∧
      forLoop 0 n (hexStep s) 0 = .ub) ∨
    (Spec.FnStr.hexValue (s.drop (s.length - n)) = none ∧ ∃ m, forLoop 0 n (hexStep s) 0 = .die m) := by
  have snoc : ∀ {σ : Type} (body : Nat → σ → Out σ) (st n : Nat) (x : σ),
      forLoop st (n + 1) body x = (forLoop st n body x >>= fun y => body (st + n) y) := by
    intro σ body st n x
    induction n generalizing st x with
    | zero => simp only [forLoop, Nat.add_zero, Out.ok_bind]; cases body st x <;> rfl
    | succ n ih =>
      rw [forLoop]
      rw [forLoop]
      rw [bind_assoc]
      congr 1
      funext y
      rw [ih, show st + 1 + n = st + (n + 1) by omega]
  induction n with
  | zero => left; exact ⟨0, by simp [Spec.FnStr.hexValue], .inl (by omega), rfl⟩
  | succ n ih =>
    have hdrop : s.drop (s.length - (n + 1)) = s[s.length - (n + 1)] :: s.drop (s.length - n) := by
      rw [List.drop_eq_getElem_cons (by omega)]
      congr 2; omega
    have hlen : (s.drop (s.length - n)).length = n := by simp; omega
    rw [snoc, hdrop, hexValue_cons, hlen, Nat.zero_add]
    have hget : aGet s ((s.length : Int) - 1 - n) = .ok s[s.length - (n + 1)] := by
      rw [aGet_ok (by omega) (by omega)]
      congr 2; omega
    rcases ih (by omega) with ⟨v, hv, hb, e⟩ | ⟨v, hv, hb, hn8, e⟩ | ⟨hv, m, e⟩
    · rw [hv, e, Out.ok_bind]
      unfold hexStep
      rw [hget, Out.ok_bind]
      rcases hexDigit_spec s[s.length - (n + 1)] with ⟨hd, hx⟩ | ⟨d, hd, hds, hx, hdv⟩
      · right; right
        rw [hd, hx]
        exact ⟨rfl, _, rfl⟩
      · have hd := List.mem_range.mp hd
        rw [hds, hx]
        have h16 := pow16_le (j := n) (by omega)
        have hlt := hexValue_lt _ _ hv
        rw [hlen] at hlt
        rw [if_neg (by simp), c22_powi 16 n (by unfold I32; omega) (by omega)]
        simp only [Out.ok_bind, Option.bind_eq_bind, Option.bind_some]
        rw [hdv]
        have hcast : (((d * 16 ^ n + v : Nat)) : Int) = d * 16 ^ n + v := by
          rw [Int.natCast_add, Int.natCast_mul, Int.natCast_pow]; rfl
        by_cases hn7 : n < 7
        · have h16' : (16 : Int) ^ n ≤ 16777216 := by
            have : n = 0 ∨ n = 1 ∨ n = 2 ∨ n = 3 ∨ n = 4 ∨ n = 5 ∨ n = 6 := by omega
            rcases this with h | h | h | h | h | h | h <;> subst h <;> decide
          have hm : (d : Int) * 16 ^ n ≤ 15 * 16777216 :=
            Int.le_trans (Int.mul_le_mul_of_nonneg_right (by omega) (by omega)) (Int.mul_le_mul_of_nonneg_left h16' (by omega))
          have hm0 : 0 ≤ (d : Int) * 16 ^ n := Int.mul_nonneg (by omega) (by omega)
          have hv' : (v : Int) < 16 ^ n := by exact_mod_cast hlt
          rw [mul32_ok (by unfold I32; omega), Out.ok_bind, add32_ok (by unfold I32; omega)]
          left
          exact ⟨_, rfl, .inl (by omega), by rw [hcast, Int.add_comm]⟩
        · have hn7 : n = 7 := by omega
          subst hn7
          have hv' : v < 268435456 := hlt
          have hcast : (((d * 16 ^ 7 + v : Nat)) : Int) = d * 268435456 + v := by omega
          by_cases hd8 : d < 8
          · rw [mul32_ok (by unfold I32; omega), Out.ok_bind, add32_ok (by unfold I32; omega)]
            left
            refine ⟨_, rfl, .inr (by omega), ?_⟩
            rw [hcast, Int.add_comm]
            rfl
          · right; left
            refine ⟨_, rfl, by omega, rfl, ?_⟩
            have : mul32 (d : Int) (16 ^ 7) = .ub := by
              unfold mul32 chk32
              rw [if_neg (by unfold I32; omega)]
            rw [this]; rfl
    · omega
    · right; right
      rw [hv, e]
      refine ⟨?_, m, rfl⟩
      cases Spec.FnStr.hexDigitValue s[s.length - (n + 1)] <;> rfl

/-- **C21** (numerals of 1 to 8 digits that fit `int`): their value.  Partial: the property covers values up to
0xFFFFFFFF, which overflow (`c21_hex_overflow_violated`). -/
theorem c21_hex_partial (s : Bytes) (v : Nat) (h1 : 1 ≤ s.length) (h8 : s.length ≤ 8) (hv : Spec.FnStr.hexValue s = some v)
    (hfit : v ≤ 2147483647) : hex (some s) = .ok (v : Int) := by
  unfold hex
  simp only []
  rw [if_neg (by omega)]
  rcases hexLoop h8 s.length (Nat.le_refl _) with ⟨w, hw, _, e⟩ | ⟨w, hw, hb, _, e⟩ | ⟨hw, _⟩
  all_goals rw [show s.length - s.length = 0 by omega, List.drop_zero, hv] at hw
  · cases hw; exact e
  · cases hw; omega
  · simp at hw

/-- **C21** (everything else throws): strings that are undefined, empty, longer than 8 bytes, or not numerals. -/
theorem c21_hex_throws (s : Option Bytes)
    (h : ∀ t, s = some t → t.length = 0 ∨ 8 < t.length ∨ Spec.FnStr.hexValue t = none) : ∃ m, hex s = .die m := by
  cases s with
  | none => exact ⟨_, rfl⟩
  | some s =>
    unfold hex
    simp only []
    by_cases hl : ¬ ((s.length : Int) ≥ 1 ∧ (s.length : Int) ≤ 8)
    · rw [if_pos hl]; exact ⟨_, rfl⟩
    · rw [if_neg hl]
      have hn : Spec.FnStr.hexValue s = none := by
        rcases h s rfl with h | h | h
        · omega
        · omega
        · exact h
      rcases hexLoop (s := s) (by omega) s.length (Nat.le_refl _) with ⟨w, hw, _⟩ | ⟨w, hw, _⟩ | ⟨_, e⟩
      · rw [show s.length - s.length = 0 by omega, List.drop_zero, hn] at hw; simp at hw
      · rw [show s.length - s.length = 0 by omega, List.drop_zero, hn] at hw; simp at hw
      · exact e

/-- **C21** fails for every numeral of value 0x80000000 or more: the `int` product overflows. -/
theorem c21_hex_overflow_violated (s : Bytes) (v : Nat) (h8 : s.length ≤ 8) (hv : Spec.FnStr.hexValue s = some v)
    (hbig : 2147483647 < v) : hex (some s) = .ub := by
  have h1 : 1 ≤ s.length := by
    cases s with
    | nil => simp [Spec.FnStr.hexValue] at hv; omega
    | cons => simp
  unfold hex
  simp only []
  rw [if_neg (by omega)]
  rcases hexLoop h8 s.length (Nat.le_refl _) with ⟨w, hw, hb, e⟩ | ⟨w, hw, hb, _, e⟩ | ⟨hw, _⟩
  all_goals rw [show s.length - s.length = 0 by omega, List.drop_zero, hv] at hw
  · cases hw
    have := hexValue_lt _ _ hv
    rcases hb with hb | hb
    · have : (16 : Nat) ^ s.length ≤ 16 ^ 7 := Nat.pow_le_pow_right (by omega) hb
      omega
    · omega
  · exact e
  · simp at hw

/-- Non-vacuity of C21. -/
example : hex (some [55, 102, 70, 48]) = .ok 0x7fF0 := by decide +kernel
example : Spec.FnStr.hexValue [55, 102, 70, 48] = some 0x7fF0 := by decide +kernel
example : hex (some [102, 102, 102, 102, 102, 102, 102, 102]) = .ub := by decide +kernel

/-! ## C50 character classes -/

/-- **C50** (character classes, for every `int`): the documented ASCII sets; `is_blank` is excepted, see
`c50_blank_violated`. -/
theorem c50_classes_partial (c : Int) :
    (isDigit c = true ↔ ∃ n : Nat, n < 10 ∧ c = 48 + n) ∧
    (isUpper c = true ↔ ∃ n : Nat, n < 26 ∧ c = 65 + n) ∧
    (isLower c = true ↔ ∃ n : Nat, n < 26 ∧ c = 97 + n) ∧
    (isAlpha c = true ↔ isUpper c = true ∨ isLower c = true) ∧
    (isAlnum c = true ↔ isAlpha c = true ∨ isDigit c = true) ∧
    (isXdigit c = true ↔ isDigit c = true ∨ (65 ≤ c ∧ c ≤ 70) ∨ (97 ≤ c ∧ c ≤ 102)) ∧
    (isHexDigit c = isXdigit c) ∧
    (isPerlWord c = true ↔ isAlnum c = true ∨ c = 95) ∧
    (isSpace c = true ↔ c ∈ [9, 10, 11, 12, 13, 32]) ∧
    (isPerlSpace c = true ↔ c ∈ [9, 10, 12, 13, 32]) ∧
    (isGraph c = true ↔ isAlnum c = true ∨ isPunct c = true) ∧
    ¬ (isAlnum c = true ∧ isPunct c = true) ∧
    (isPrint c = true ↔ isGraph c = true ∨ c = 32) ∧
    (isCntrl c = true ↔ (0 ≤ c ∧ c ≤ 31) ∨ c = 127) ∧
    (0 ≤ c ∧ c ≤ 127 ↔ isPrint c = true ∨ isCntrl c = true) := by
  unfold isDigit isUpper isLower isAlpha isAlnum isXdigit isHexDigit isPerlWord isSpace isPerlSpace isGraph isPunct isPrint isCntrl
  refine ⟨?_, ?_, ?_, ?_, ?_, ?_, ?_, ?_, ?_, ?_, ?_, ?_, ?_, ?_, ?_⟩
  · simp; constructor
    · intro h; exact ⟨(c - 48).toNat, by omega, by omega⟩
    · rintro ⟨n, _, rfl⟩; omega
  · simp; constructor
    · intro h; exact ⟨(c - 65).toNat, by omega, by omega⟩
    · rintro ⟨n, _, rfl⟩; omega
  · simp; constructor
    · intro h; exact ⟨(c - 97).toNat, by omega, by omega⟩
    · rintro ⟨n, _, rfl⟩; omega
  · simp
  · simp; omega
  · simp; omega
  · simp only [decide_eq_decide]; omega
  · split
    · simp; omega
    · split
      · simp; omega
      · split
        · simp; omega
        · split <;> simp <;> omega
  · simp; omega
  · simp; omega
  · simp; omega
  · simp; omega
  · simp; omega
  · simp
  · simp; omega

/-- **C50** (`to_lower`/`to_upper`): inverse on letters, identity elsewhere. -/
theorem c50_to_lower_upper (c : Int) :
    (isUpper c = true → isLower (toLower c) = true ∧ toUpper (toLower c) = c) ∧
    (isLower c = true → isUpper (toUpper c) = true ∧ toLower (toUpper c) = c) ∧
    (isUpper c = false → toLower c = c) ∧ (isLower c = false → toUpper c = c) := by
  unfold isUpper isLower toLower toUpper
  refine ⟨?_, ?_, ?_, ?_⟩ <;> simp only [decide_eq_true_eq, decide_eq_false_iff_not] <;> intro h
  · rw [if_pos h, if_pos (by omega)]; omega
  · rw [if_pos h, if_pos (by omega)]; omega
  · rw [if_neg h]
  · rw [if_neg h]

/-- **C50** fails for `is_blank`: it returns 1 for every `int` outside 10..31, not only for space and tab. -/
theorem c50_blank_violated (c : Int) : isBlank c = true ↔ ¬ (10 ≤ c ∧ c ≤ 31) := by
  unfold isBlank
  simp
  omega

/-- **C50** (`abs`, `labs`): the absolute value of every number but the least one, which overflows. -/
theorem c50_abs_partial (v : Int) (h : I32 v) (hmin : v ≠ -2147483648) : abs v = .ok (v.natAbs : Int) := by
  unfold I32 at h
  unfold abs
  split
  · congr 1; omega
  · rw [chk32_ok (by unfold I32; omega)]
    congr 1; omega

theorem c50_labs_partial (v : Int) (h : I64 v) (hmin : v ≠ -9223372036854775808) : labs v = .ok (v.natAbs : Int) := by
  unfold I64 at h
  unfold labs
  split
  · congr 1; omega
  · rw [chk64_ok (by unfold I64; omega)]
    congr 1; omega

theorem c50_abs_violated : abs (-2147483648) = .ub ∧ labs (-9223372036854775808) = .ub := by decide

example : isAlnum 57 = true ∧ isPunct 95 = true ∧ isSpace 11 = true ∧ isPerlSpace 11 = false := by decide

/-! ## C51 functions changing a mutable string -/

/-- **C51** (`chomp`): removes exactly one trailing line end, `\r\n` or `\n`. -/
theorem c51_chomp (t : Bytes) :
    chomp (some (t ++ [13, 10])) = .ok t ∧
    (t.getLast? ≠ some 13 → chomp (some (t ++ [10])) = .ok t) ∧
    (t.getLast? ≠ some 10 → chomp (some t) = .ok t) := by
  have hshort : ∀ (u : Bytes), u ≠ [] → shorten (t ++ u) (t.length : Int) = .ok t := by
    intro u hu
    have := List.length_pos_iff.mpr hu
    unfold shorten
    rw [if_neg (by omega), if_neg (by simp; omega)]
    simp
  refine ⟨?_, ?_, ?_⟩
  · unfold chomp
    simp only [List.length_append, List.length_cons, List.length_nil]
    rw [if_pos (by omega), aGet_ok (by omega) (by simp), aGet_ok (by omega) (by simp; omega)]
    simp only [Out.ok_bind]
    have e1 : (((t.length + (0 + 1 + 1) : Nat) : Int) - 2).toNat = t.length := by omega
    have e2 : (((t.length + (0 + 1 + 1) : Nat) : Int) - 1).toNat = t.length + 1 := by omega
    have g1 : (t ++ [13, 10])[t.length]? = some 13 := by simp
    have g2 : (t ++ [13, 10])[t.length + 1]? = some 10 := by simp
    have g1' : (t ++ [13, 10])[(((t.length + (0 + 1 + 1) : Nat) : Int) - 2).toNat]'(by simp) = 13 := by
      apply Option.some.inj
      rw [← List.getElem?_eq_getElem, e1, g1]
    have g2' : (t ++ [13, 10])[(((t.length + (0 + 1 + 1) : Nat) : Int) - 1).toNat]'(by simp; omega) = 10 := by
      apply Option.some.inj
      rw [← List.getElem?_eq_getElem, e2, g2]
    rw [g1', g2']
    simp only [BEq.rfl, if_true, Out.ok_bind]
    rw [show (((t.length + (0 + 1 + 1) : Nat) : Int) - 2) = t.length by omega]
    exact hshort _ (by simp)
  · intro hne
    have hlast : (t ++ [10])[t.length]? = some 10 := by simp
    have hget : aGet (t ++ [10]) (t.length : Int) = .ok 10 := by
      rw [aGet_ok (by omega) (by simp)]
      congr 1
      simp
    unfold chomp
    simp only [List.length_append, List.length_cons, List.length_nil]
    rw [show (((t.length + (0 + 1) : Nat) : Int) - 1) = t.length by omega, hget]
    simp only [Out.ok_bind]
    have hfin : (do
        let lf ← if ((t.length + (0 + 1) : Nat) : Int) ≥ 1 then (Out.ok ((10 : UInt8) == 10)) else Out.ok false
        if lf = true then shorten (t ++ [10]) (t.length : Int) else Out.ok (t ++ [10])) = .ok t := by
      rw [if_pos (by omega)]
      simp only [BEq.rfl, Out.ok_bind, if_true]
      exact hshort _ (by simp)
    by_cases h2 : ((t.length + (0 + 1) : Nat) : Int) ≥ 2
    · rw [if_pos h2]
      have hx : ∃ x, aGet (t ++ [10]) (((t.length + (0 + 1) : Nat) : Int) - 2) = .ok x ∧ x ≠ 13 := by
        rw [aGet_ok (by omega) (by simp; omega)]
        refine ⟨_, rfl, fun hx => hne ?_⟩
        rw [List.getLast?_eq_getElem?]
        rw [List.getElem_append_left (by omega)] at hx
        rw [← hx, List.getElem?_eq_getElem (by omega)]
        congr 2; omega
      obtain ⟨x, ex, hx⟩ := hx
      rw [ex]
      simp only [Out.ok_bind]
      rw [show (x == 13) = false by simpa using hx]
      simp only [Bool.false_eq_true, if_false, Out.ok_bind]
      exact hfin
    · rw [if_neg h2]
      simp only [Bool.false_eq_true, if_false, Out.ok_bind]
      exact hfin
  · intro hne
    have hx : 1 ≤ t.length → ∃ x, aGet t ((t.length : Int) - 1) = .ok x ∧ x ≠ 10 := by
      intro h1
      rw [aGet_ok (by omega) (by omega)]
      refine ⟨_, rfl, fun hx => hne ?_⟩
      rw [List.getLast?_eq_getElem?, ← hx, List.getElem?_eq_getElem (by omega)]
      congr 2; omega
    unfold chomp
    simp only []
    by_cases h1 : 1 ≤ t.length
    · obtain ⟨x, ex, hx⟩ := hx h1
      rw [ex]
      simp only [Out.ok_bind]
      rw [show (x == 10) = false by simpa using hx]
      have hfin : (do
          let lf ← if (t.length : Int) ≥ 1 then (Out.ok false) else Out.ok false
          if lf = true then shorten t ((t.length : Int) - 1) else Out.ok t) = .ok t := by
        rw [if_pos (by omega)]
        simp
      by_cases h2 : (t.length : Int) ≥ 2
      · rw [if_pos h2, aGet_ok (by omega) (by omega)]
        simp only [Out.ok_bind]
        split <;> simp only [Out.ok_bind, Bool.false_eq_true, if_false] <;> exact hfin
      · rw [if_neg h2]
        simp only [Out.ok_bind, Bool.false_eq_true, if_false]
        exact hfin
    · rw [if_neg (by omega), if_neg (by omega)]
      simp

/-- **C51** (`shorten`): the first `length` bytes; a length at or beyond the end changes nothing; a negative one throws. -/
theorem c51_shorten (s : Bytes) (n : Int) :
    (0 ≤ n → shorten s n = .ok (s.take n.toNat)) ∧ (n < 0 → ∃ m, shorten s n = .die m) := by
  unfold shorten
  constructor
  · intro h
    rw [if_neg (by omega)]
    split
    · rw [List.take_of_length_le (by omega)]
    · rfl
  · intro h
    rw [if_pos (by omega)]
    exact ⟨_, rfl⟩

/-- **C51** (`shorten_null_char`): the bytes before the first NUL. -/
theorem c51_shorten_null_char (s : Bytes) : shortenNullChar (some s) = .ok (s.takeWhile (· != 0)) := by
  have hz : ∀ b, (sbyte b = 0) = (b = 0) := by
    have : ∀ b, (decide (sbyte b = 0)) = decide (b = 0) := by decide +kernel
    intro b
    simpa using this b
  unfold shortenNullChar
  simp only []
  obtain ⟨r, e, hr⟩ := searchUp_spec (fun i => match s[i]? with | some c => if c = 0 then some (i : Int) else none | none => none)
    (start := 0) (n := s.length) (body := fun i => do
      let c ← aGet s (i : Nat)
      .ok (if sbyte c = 0 then some (i : Int) else none)) (by
      intro i _ hi
      rw [aGet_ok (by omega) (by omega)]
      simp only [Out.ok_bind, Int.toNat_natCast]
      rw [List.getElem?_eq_getElem (by omega)]
      simp only [hz])
  rw [e]
  simp only [Out.ok_bind]
  rcases hr with ⟨rfl, hn⟩ | ⟨i, v, rfl, _, hi, hiv, hlt⟩
  · rw [if_neg (by simp)]
    congr 1
    symm
    have hall : ∀ (u : Bytes), (∀ x ∈ u, (x != 0) = true) → u.takeWhile (· != 0) = u := by
      intro u hu
      induction u with
      | nil => rfl
      | cons x u ih =>
        rw [List.takeWhile_cons, if_pos (hu x (by simp)), ih (fun y hy => hu y (by simp [hy]))]
    apply hall
    intro x hx
    obtain ⟨i, hi, rfl⟩ := List.mem_iff_getElem.mp hx
    have := hn i (by omega) (by omega)
    rw [List.getElem?_eq_getElem hi] at this
    simp only [] at this
    split at this
    · simp at this
    · simpa using by assumption
  · have hi' : i < s.length := by omega
    rw [List.getElem?_eq_getElem hi'] at hiv
    simp only [] at hiv
    have hv : s[i] = 0 ∧ v = i := by split at hiv <;> simp_all
    obtain ⟨h0, rfl⟩ := hv
    rw [if_pos (by simp), (c51_shorten s _).1 (by simp)]
    congr 1
    simp only [Option.getD_some, Int.toNat_natCast]
    conv => rhs; rw [← List.take_append_drop i s]
    rw [List.takeWhile_append_of_pos]
    · rw [List.drop_eq_getElem_cons hi', List.takeWhile_cons, if_neg (by simp [h0])]
      simp
    · intro x hx
      obtain ⟨k, hk, rfl⟩ := List.mem_iff_getElem.mp hx
      simp at hk
      have := hlt k (by omega) (by omega)
      rw [List.getElem?_eq_getElem (by omega)] at this
      rw [List.getElem_take]
      simp only [] at this
      split at this
      · simp at this
      · simpa using by assumption

/-- **C51** (`replace_chars`): every byte of signed value `from` becomes the low byte of `to`; the others are kept. -/
theorem c51_replace_chars (s : Bytes) (fromCh toCh : Int) :
    replaceChars (some s) fromCh toCh = .ok (s.map fun b => if sbyte b = fromCh then toByte toCh else b) := by
  unfold replaceChars
  simp only []
  obtain ⟨t, e, ht⟩ := forLoop_inv (start := 0) (n := s.length)
    (body := fun i t => do
      let c ← aGet t (i : Nat)
      if sbyte c = fromCh then aSet t i (toByte toCh) else .ok t) (s := s)
    (fun i t => t = (s.take i).map (fun b => if sbyte b = fromCh then toByte toCh else b) ++ s.drop i)
    (by simp)
    (by
      intro i t _ hi ht
      have hlen : t.length = s.length := by rw [ht]; simp; omega
      have hget : t[i]'(by omega) = s[i]'(by omega) := by
        have h1 : t[i]? = s[i]? := by
          clear hlen
          rw [ht, List.getElem?_append_right (by simp; omega)]
          simp
          rw [show i + (i - min i s.length) = i by omega]
        rw [List.getElem?_eq_getElem (by omega), List.getElem?_eq_getElem (by omega)] at h1
        exact Option.some.inj h1
      rw [aGet_ok (by omega) (by omega)]
      simp only [Out.ok_bind, Int.toNat_natCast, hget]
      refine ⟨t.set i (if sbyte (s[i]'(by omega)) = fromCh then toByte toCh else s[i]'(by omega)), ?_, ?_⟩
      · split
        · rw [aSet_ok (by omega) (by omega)]; simp
        · rw [← hget, List.set_getElem_self]
      · apply List.ext_getElem?
        intro k
        have hk : t[k]? = (List.map (fun b => if sbyte b = fromCh then toByte toCh else b) (List.take i s) ++ List.drop i s)[k]? := by
          rw [← ht]
        rw [List.getElem?_set, hk, hlen]
        simp only [List.getElem?_append, List.length_map, List.length_take, List.getElem?_map, List.getElem?_take,
          List.getElem?_drop, List.length_append, List.length_drop]
        grind)
  rw [e, ht]
  simp

/-- **C51** (`equals_string_range` when both ranges are inside): equality of the ranges. Partial: the second bound check
uses the first offset. -/
theorem c51_equals_range_partial (s1 s2 : Bytes) (o1 o2 length : Int) (h1 : 0 ≤ o1) (h2 : 0 ≤ o2) (hl : 0 ≤ length)
    (b1 : o1 + length ≤ s1.length) (b2 : o2 + length ≤ s2.length) (b3 : o1 + length ≤ s2.length)
    (hs1 : s1.length ≤ 2147483647) (hs2 : s2.length ≤ 2147483647) :
    ∃ b, equalsStringRange (some s1) o1 (some s2) o2 length = .ok b ∧
      (b = true ↔ (s1.drop o1.toNat).take length.toNat = (s2.drop o2.toNat).take length.toNat) := by
  unfold equalsStringRange
  simp only []
  rw [if_neg (by omega), if_neg (by omega), add32_ok (by unfold I32; omega)]
  simp only [Out.ok_bind]
  rw [if_neg (by omega), if_neg (by omega)]
  obtain ⟨r, e, hr⟩ := searchUp_spec (fun i => if s1[o1.toNat + i]? = s2[o2.toNat + i]? then none else some ())
    (start := 0) (n := length.toNat) (body := fun i => (do
      let p ← add32 o1 (i : Nat)
      let c ← aGet s1 p
      let q ← add32 o2 i
      let d ← aGet s2 q
      .ok (if c = d then none else some ()) : Out (Option Unit))) (by
      intro i _ hi
      rw [add32_ok (by unfold I32; omega), Out.ok_bind, aGet_ok (by omega) (by omega), Out.ok_bind,
        add32_ok (by unfold I32; omega), Out.ok_bind, aGet_ok (by omega) (by omega), Out.ok_bind]
      have e1 : (o1 + (i : Int)).toNat = o1.toNat + i := by omega
      have e2 : (o2 + (i : Int)).toNat = o2.toNat + i := by omega
      simp only [e1, e2]
      rw [List.getElem?_eq_getElem (by omega), List.getElem?_eq_getElem (by omega)]
      simp)
  refine ⟨r.isNone, by rw [e]; rfl, ?_⟩
  have iff2 : (s1.drop o1.toNat).take length.toNat = (s2.drop o2.toNat).take length.toNat ↔
      ∀ i, i < length.toNat → s1[o1.toNat + i]? = s2[o2.toNat + i]? := by
    constructor
    · intro h i hi
      have := congrArg (·[i]?) h
      simpa [List.getElem?_take, hi, List.getElem?_drop] using this
    · intro h
      apply List.ext_getElem?
      intro i
      simp only [List.getElem?_take, List.getElem?_drop]
      split
      · exact h i (by assumption)
      · rfl
  rw [iff2]
  rcases hr with ⟨rfl, hn⟩ | ⟨i, v, rfl, _, hi, hiv, _⟩
  · simp
    intro i hi
    have := hn i (by omega) (by omega)
    split at this
    · assumption
    · simp at this
  · simp
    refine ⟨i, by omega, ?_⟩
    split at hiv
    · simp at hiv
    · assumption

/-- **C51** fails for `equals_string_range`: with a second range inside its string the answer can be wrong, because the
bound of the second string is checked with the first offset. -/
theorem c51_equals_range_violated :
    equalsStringRange (some [88, 65]) 1 (some [65]) 0 1 = .ok false ∧
      ([88, 65] : Bytes).drop 1 = ([65] : Bytes).drop 0 := by decide +kernel

example : chomp (some [65, 13, 10]) = .ok [65] := by decide +kernel
example : replaceChars (some [65, 66, 65]) 65 67 = .ok [67, 66, 67] := by decide +kernel
example : equalsStringRange (some [88, 65, 66]) 1 (some [65, 66, 67]) 0 2 = .ok true := by decide +kernel

end FnStr
end SPVM
