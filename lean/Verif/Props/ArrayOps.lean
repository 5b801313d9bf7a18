import Verif.Lemmas.ArrayOps
import Verif.Props.ArrayCopy
import Verif.Spec.Array
/-!
# C25 array algebra
-/
set_option linter.unusedSimpArgs false
namespace SPVM
namespace ArrayOps
open VM (Bytes)
open Spec.Rand (value next draws fisherYates)

/-! ## C25 -/

/-- **C25** (`copy`): for every array and range, `Array->copy_*` returns the slice when the range lies inside the array,
and throws otherwise (also when memory runs out).  `offset + length` must stay inside `int`. -/
theorem c25_copy_partial (limit : Nat) (zero : α) (a : List α) (offset length : Int) (ha : a.length ≤ 2147483647)
    (ho : I32 offset) (hov : offset + length ≤ 2147483647) :
    (Spec.Array.InRange a offset length ∧ Spec.Array.effLength a offset length ≤ limit ∧
      copyNum limit zero (some a) offset length =
        .ok (Spec.Array.slice a offset.toNat (Spec.Array.effLength a offset length).toNat)) ∨
    (¬ (Spec.Array.InRange a offset length ∧ Spec.Array.effLength a offset length ≤ limit) ∧
      ∃ m, copyNum limit zero (some a) offset length = .die m) := by
  have hI := ho
  unfold I32 at hI
  unfold copyNum Spec.Array.InRange
  simp only []
  by_cases h0 : 0 ≤ offset
  · rw [if_neg (by omega)]
    have hL : effLength (alen a) offset length = .ok (Spec.Array.effLength a offset length) := by
      unfold Spec.Array.effLength effLength
      by_cases hl : length < 0
      · rw [if_pos hl, if_pos hl, alen, sub32_ok (by unfold I32; omega)]
      · rw [if_neg hl, if_neg hl]
    rw [hL]
    simp only [Out.ok_bind]
    have hb : Spec.Array.effLength a offset length + offset ≤ 2147483647 ∧
        -2147483648 ≤ Spec.Array.effLength a offset length := by
      unfold Spec.Array.effLength
      split <;> omega
    generalize Spec.Array.effLength a offset length = n at *
    rw [add32_ok (by unfold I32; omega)]
    simp only [Out.ok_bind]
    by_cases h1 : offset + n ≤ a.length
    · rw [if_neg (by simp only [alen]; omega)]
      unfold newArray
      by_cases h2 : 0 ≤ n
      · rw [if_pos h2]
        by_cases h3 : n.toNat ≤ limit
        · rw [if_pos h3]
          simp only [Out.ok_bind]
          rw [arrayMemcpy_ok (by omega) h0 h2 (by simp; omega) (by omega) (by unfold I32; omega) (by unfold I32; omega)]
          refine .inl ⟨⟨h0, h2, h1⟩, by omega, ?_⟩
          unfold blit Spec.Array.slice
          simp
        · rw [if_neg h3]
          exact .inr ⟨by omega, _, rfl⟩
      · rw [if_neg h2]
        exact .inr ⟨by omega, _, rfl⟩
    · rw [if_pos (by simp only [alen]; omega)]
      exact .inr ⟨by omega, _, rfl⟩
  · rw [if_pos (by omega)]
    exact .inr ⟨by omega, _, rfl⟩

/-- **C25** (`copy`, the missing part): an offset and length whose sum leaves `int` reach undefined behaviour instead of
an exception. -/
theorem c25_copy_overflow_violated (limit : Nat) (zero : α) (a : List α) :
    copyNum limit zero (some a) 2147483647 1 = .ub := by
  rfl

theorem equalsLoop_ok (ne : α → α → Bool) (a b : List α) (i n : Nat) (ha : i + n = a.length) (hb : i + n = b.length) :
    equalsLoop ne a b i n = .ok 1 ∧ (∀ k (h1 : k < a.length) (h2 : k < b.length), i ≤ k → ne a[k] b[k] = false) ∨
    equalsLoop ne a b i n = .ok 0 ∧ ∃ k, ∃ (h1 : k < a.length) (h2 : k < b.length), ne a[k] b[k] = true := by
  induction n generalizing i with
  | zero => exact .inl ⟨rfl, fun k h1 _ h => by omega⟩
  | succ n ih =>
    unfold equalsLoop
    rw [aGet_ok (by omega) (by omega), aGet_ok (by omega) (by omega)]
    simp only [Out.ok_bind, Int.toNat_natCast]
    by_cases hne : ne a[i] b[i] = true
    · rw [if_pos hne]
      exact .inr ⟨rfl, i, by omega, by omega, hne⟩
    · rw [if_neg hne]
      rcases ih (i + 1) (by omega) (by omega) with ⟨e, h⟩ | h
      · refine .inl ⟨e, fun k h1 h2 hk => ?_⟩
        by_cases hik : i = k
        · subst hik; simpa using hne
        · exact h k h1 h2 (by omega)
      · exact .inr h

/-- **C25** (`equals`): `Array->equals_*` returns 1 exactly when both arrays are `undef`, or both are defined, of the
same length, and no pair of elements differs; it returns 0 in every other case and never throws. -/
theorem c25_equals (ne : α → α → Bool) (x y : Option (List α)) :
    (equals ne x y = .ok 1 ∧ ((x = none ∧ y = none) ∨
      ∃ a b, x = some a ∧ y = some b ∧ AllRel (fun p q => ne p q = false) a b)) ∨
    (equals ne x y = .ok 0 ∧ ¬ ((x = none ∧ y = none) ∨
      ∃ a b, x = some a ∧ y = some b ∧ AllRel (fun p q => ne p q = false) a b)) := by
  have key : ∀ (a b : List α), AllRel (fun p q => ne p q = false) a b ↔
      a.length = b.length ∧ ∀ k (h1 : k < a.length) (h2 : k < b.length), ne a[k] b[k] = false := by
    intro a
    induction a with
    | nil =>
      intro b
      constructor
      · intro h; cases h; exact ⟨rfl, fun k h1 => by simp at h1⟩
      · intro ⟨h, _⟩
        have : b = [] := List.length_eq_zero_iff.mp h.symm
        subst this; exact .nil
    | cons p a ih =>
      intro b
      constructor
      · intro h
        cases h with
        | cons hpq hr =>
          obtain ⟨hl, hk⟩ := (ih _).mp hr
          refine ⟨by simp [hl], fun k h1 h2 => ?_⟩
          cases k with
          | zero => exact hpq
          | succ k => exact hk k (by simpa using h1) (by simpa using h2)
      · intro ⟨hl, hk⟩
        match b, hl with
        | q :: b, hl =>
          refine .cons (hk 0 (by simp) (by simp)) ((ih b).mpr ⟨by simpa using hl, fun k h1 h2 => ?_⟩)
          exact hk (k + 1) (by simpa using h1) (by simpa using h2)
  cases x with
  | none =>
    cases y with
    | none => exact .inl ⟨rfl, .inl ⟨rfl, rfl⟩⟩
    | some b => exact .inr ⟨rfl, by simp⟩
  | some a =>
    cases y with
    | none => exact .inr ⟨rfl, by simp⟩
    | some b =>
      unfold equals
      by_cases hl : a.length = b.length
      · simp only []
        rw [if_pos (by unfold alen; omega)]
        rcases equalsLoop_ok ne a b 0 a.length (by omega) (by omega) with ⟨e, h⟩ | ⟨e, k, h1, h2, hk⟩
        · exact .inl ⟨e, .inr ⟨a, b, rfl, rfl, (key a b).mpr ⟨hl, fun k h1 h2 => h k h1 h2 (by omega)⟩⟩⟩
        · refine .inr ⟨e, ?_⟩
          rintro (⟨h, _⟩ | ⟨a', b', ha, hb, hr⟩)
          · cases h
          · cases ha; cases hb
            have := ((key a b).mp hr).2 k h1 h2
            rw [hk] at this
            cases this
      · simp only []
        rw [if_neg (by unfold alen; omega)]
        refine .inr ⟨rfl, ?_⟩
        rintro (⟨h, _⟩ | ⟨a', b', ha, hb, hr⟩)
        · cases h
        · cases ha; cases hb
          exact hl ((key a b).mp hr).1

theorem allRel_eq {ne : α → α → Bool} (hne : ∀ p q, ne p q = false ↔ p = q) {a b : List α} :
    AllRel (fun p q => ne p q = false) a b ↔ a = b := by
  constructor
  · intro h
    induction h with
    | nil => rfl
    | cons h _ ih => rw [(hne _ _).mp h, ih]
  · intro h
    subst h
    induction a with
    | nil => exact .nil
    | cons p a ih => exact .cons ((hne _ _).mpr rfl) ih

/-- **C25** (`equals` is equality): for element types whose `!=` is inequality (integers, strings, addresses) the result
is 1 exactly for equal arrays; hence `equals` is an equivalence relation. -/
theorem c25_equals_eq (ne : α → α → Bool) (hne : ∀ p q, ne p q = false ↔ p = q) (x y : Option (List α)) :
    equals ne x y = .ok 1 ↔ x = y := by
  have hspec : ((x = none ∧ y = none) ∨ ∃ a b, x = some a ∧ y = some b ∧ AllRel (fun p q => ne p q = false) a b) ↔ x = y := by
    constructor
    · rintro (⟨h1, h2⟩ | ⟨a, b, h1, h2, h⟩)
      · rw [h1, h2]
      · rw [h1, h2, (allRel_eq hne).mp h]
    · intro h
      subst h
      cases x with
      | none => exact .inl ⟨rfl, rfl⟩
      | some a => exact .inr ⟨a, a, rfl, rfl, (allRel_eq hne).mpr rfl⟩
  rw [← hspec]
  rcases c25_equals ne x y with ⟨e, h⟩ | ⟨e, h⟩
  · exact ⟨fun _ => h, fun _ => e⟩
  · constructor
    · intro h1; rw [e] at h1; cases h1
    · intro h1; exact absurd h1 h

/-- **C25** (`equals` on floating point): an element that differs from itself (a NaN) makes an array unequal to itself,
so on `float`/`double` arrays `equals` is not reflexive. -/
theorem c25_equals_nan_violated (ne : α → α → Bool) (nan : α) (h : ne nan nan = true) :
    equals ne (some [nan]) (some [nan]) = .ok 0 := by
  rcases c25_equals ne (some [nan]) (some [nan]) with ⟨_, h1⟩ | ⟨e, _⟩
  · rcases h1 with ⟨h1, _⟩ | ⟨a, b, h1, h2, hr⟩
    · cases h1
    · cases h1; cases h2
      cases hr with
      | cons h2 _ => rw [h] at h2; cases h2
  · exact e

theorem fill_left {zero : α} (a : List α) (n : Nat) (i : Nat) (hi : i < a.length) (hn : a.length ≤ n) :
    (a.take i ++ List.replicate (n - i) zero).set i a[i] = a.take (i + 1) ++ List.replicate (n - (i + 1)) zero := by
  apply List.ext_getElem?
  intro k
  rw [List.getElem?_set, List.getElem?_append, List.getElem?_append]
  simp only [List.length_append, List.length_take, List.length_replicate, List.getElem?_take, List.getElem?_replicate]
  grind

theorem fill_right {zero : α} (a b : List α) (i : Nat) (hi : i < b.length) :
    (a ++ b.take i ++ List.replicate (b.length - i) zero).set (a.length + i) b[i] =
      a ++ b.take (i + 1) ++ List.replicate (b.length - (i + 1)) zero := by
  rw [List.append_assoc, List.set_append_right _ _ (by omega), Nat.add_sub_cancel_left, fill_left b b.length i hi (by omega),
    List.append_assoc]

/-- **C25** (`merge`): for all arrays, `Array->merge_*` is the concatenation (or throws when the memory for it cannot be
allocated).  The total length must be an `int`. -/
theorem c25_merge (limit : Nat) (zero : α) (a b : List α) (hI : a.length + b.length ≤ 2147483647) :
    (a.length + b.length ≤ limit → merge limit zero (some a) (some b) = .ok (a ++ b)) ∧
    (limit < a.length + b.length → ∃ m, merge limit zero (some a) (some b) = .die m) := by
  unfold merge
  simp only []
  rw [show alen a = (a.length : Int) from rfl, show alen b = (b.length : Int) from rfl, add32_ok (by unfold I32; omega)]
  simp only [Out.ok_bind]
  unfold newArray
  rw [if_pos (by omega)]
  constructor
  · intro hlim
    rw [if_pos (by omega)]
    simp only [Out.ok_bind]
    obtain ⟨m1, e1, h1⟩ := forLoop_inv (start := 0) (n := a.length)
      (s := List.replicate ((a.length : Int) + b.length).toNat zero)
      (body := fun i m => do
        let x ← aGet a (i : Nat)
        aSet m (i : Nat) x)
      (fun i m => m = a.take i ++ List.replicate (a.length + b.length - i) zero)
      (by simp; omega)
      (by
        intro i m _ hi hm
        have hl : m.length = a.length + b.length := by rw [hm]; simp; omega
        have hia : i < a.length := by omega
        refine ⟨m.set i a[i], ?_, ?_⟩
        · rw [aGet_ok (by omega) (by omega)]
          simp only [Out.ok_bind, Int.toNat_natCast]
          rw [aSet_ok (by omega) (by omega)]
          simp
        · clear hl
          subst hm
          exact fill_left a _ i hia (by omega))
    rw [e1]
    simp only [Out.ok_bind]
    obtain ⟨m2, e2, h2⟩ := forLoop_inv (start := 0) (n := b.length) (s := m1)
      (body := fun i m => do
        let x ← aGet b (i : Nat)
        let j ← add32 (a.length : Int) (i : Nat)
        aSet m j x)
      (fun i m => m = a ++ b.take i ++ List.replicate (b.length - i) zero)
      (by
        rw [h1]
        have : a.length + b.length - (0 + a.length) = b.length := by omega
        rw [this]
        simp)
      (by
        intro i m _ hi hm
        have hl : m.length = a.length + b.length := by rw [hm]; simp; omega
        have hib : i < b.length := by omega
        refine ⟨m.set (a.length + i) b[i], ?_, ?_⟩
        · rw [aGet_ok (by omega) (by omega)]
          simp only [Out.ok_bind, Int.toNat_natCast]
          rw [add32_ok (by unfold I32; omega)]
          simp only [Out.ok_bind]
          rw [aSet_ok (by omega) (by omega)]
          rw [show ((a.length : Int) + i).toNat = a.length + i by omega]
        · clear hl
          subst hm
          exact fill_right a b i hib)
    rw [e2, h2]
    simp
  · intro hlim
    rw [if_neg (by omega)]
    exact ⟨_, rfl⟩

/-- **C25** (`merge`): an undefined argument throws. -/
theorem c25_merge_undef (limit : Nat) (zero : α) (x y : Option (List α)) (h : x = none ∨ y = none) :
    ∃ m, merge limit zero x y = .die m := by
  cases x with
  | none => exact ⟨_, rfl⟩
  | some a =>
    cases y with
    | none => exact ⟨_, rfl⟩
    | some b => simp at h

/-- **C25** (`memset`): when the range lies inside the array, exactly its elements are set, the others keep their value
and the length is unchanged. -/
theorem c25_memset_partial (a : List α) (e : α) (offset length : Int) (ha : a.length ≤ 2147483647)
    (hr : Spec.Array.InRange a offset length) :
    ∃ a', memset (some a) e offset length = .ok a' ∧ a'.length = a.length ∧
      ∀ k, k < a.length → a'[k]? =
        if offset ≤ k ∧ k < offset + Spec.Array.effLength a offset length then some e else a[k]? := by
  obtain ⟨h0, h1, h2⟩ := hr
  have hfix : memset (some a) e offset length = arrayMemset a e offset (Spec.Array.effLength a offset length) := by
    unfold memset
    simp only []
    unfold Spec.Array.effLength at *
    by_cases hl : length < 0
    · rw [if_pos hl] at *
      unfold arrayMemset
      rw [if_neg (by omega), if_pos hl, if_neg (show ¬ offset ≥ 0 → False from fun h => h h0), if_neg (show ¬ ((a.length : Int) - offset < 0) by omega),
        show alen a = (a.length : Int) from rfl, sub32_ok (by unfold I32; omega)]
    · rw [if_neg hl]
  generalize Spec.Array.effLength a offset length = n at *
  rw [hfix, arrayMemset_ok h0 h1 h2 (by unfold I32; omega)]
  refine ⟨_, rfl, blit_length (by omega) (by simp), fun k hk => ?_⟩
  rw [blit_getElem? (by omega) (by simp), List.getElem?_replicate]
  by_cases hk' : offset ≤ k ∧ k < offset + n
  · rw [if_pos (by omega), if_pos hk', if_pos (by omega)]
  · rw [if_neg (by omega), if_neg hk']

/-- **C25** (`memset`): a range that ends behind the array throws, as do a negative offset and an undefined array. -/
theorem c25_memset_throws (a : Option (List α)) (e : α) (offset length : Int)
    (hov : offset + length ≤ 2147483647)
    (h : a = none ∨ offset < 0 ∨ (0 ≤ length ∧ ∀ b, a = some b → b.length < offset + length)) :
    ∃ m, memset a e offset length = .die m := by
  cases a with
  | none => exact ⟨_, rfl⟩
  | some b =>
    unfold memset arrayMemset
    simp only []
    by_cases h0 : 0 ≤ offset
    · rw [if_neg (by omega)]
      rcases h with h | h | ⟨h1, h⟩
      · cases h
      · omega
      · have := h b rfl
        rw [if_neg (by omega)]
        simp only [Out.ok_bind]
        rw [add32_ok (by unfold I32; omega)]
        simp only [Out.ok_bind]
        rw [if_pos (by simp only [alen]; omega)]
        exact ⟨_, rfl⟩
    · rw [if_pos (by omega)]
      exact ⟨_, rfl⟩

/-- **C25** (`memset`, the missing part): with the default length, an offset behind the end of the array is not reported;
the call returns and changes nothing. -/
theorem c25_memset_past_end_violated (a : List α) (e : α) (offset : Int) (ha : a.length ≤ 2147483647) (ho : I32 offset)
    (h : a.length < offset) : memset (some a) e offset = .ok a := by
  unfold I32 at ho
  unfold memset arrayMemset
  simp only []
  rw [if_neg (by omega), if_pos (by omega), show alen a = (a.length : Int) from rfl, sub32_ok (by unfold I32; omega)]
  simp only [Out.ok_bind]
  rw [add32_ok (by unfold I32; omega)]
  simp only [Out.ok_bind]
  rw [if_neg (by omega), show ((a.length : Int) - offset).toNat = 0 by omega]
  rfl

/-- What the reverse loop has done after `i` exchanges. -/
theorem reverse_step {a b : List α} {i : Nat} (hl : b.length = a.length) (hi : i < a.length / 2)
    (h : ∀ k, k < a.length → b[k]? = if k < i ∨ a.length - i ≤ k then a[a.length - 1 - k]? else a[k]?) :
    ∀ k, k < a.length → (Spec.Rand.swap b i (a.length - i - 1))[k]? =
      if k < i + 1 ∨ a.length - (i + 1) ≤ k then a[a.length - 1 - k]? else a[k]? := by
  intro k hk
  rw [swap_getElem? (by omega) (by omega)]
  by_cases h1 : k = a.length - i - 1
  · rw [if_pos h1, h i (by omega), if_neg (by omega), if_pos (by omega)]
    congr 1; omega
  · rw [if_neg h1]
    by_cases h2 : k = i
    · rw [if_pos h2, h _ (by omega), if_neg (by omega), if_pos (by omega)]
      congr 1; omega
    · rw [if_neg h2, h k hk]
      by_cases h3 : k < i ∨ a.length - i ≤ k
      · rw [if_pos h3, if_pos (by omega)]
      · rw [if_neg h3, if_neg (by omega)]

theorem reverse_end {a b : List α} (hl : b.length = a.length)
    (h : ∀ k, k < a.length → b[k]? = if k < a.length / 2 ∨ a.length - a.length / 2 ≤ k then a[a.length - 1 - k]? else a[k]?) :
    b = a.reverse := by
  apply List.ext_getElem?
  intro k
  by_cases hk : k < a.length
  · rw [h k hk, List.getElem?_reverse hk]
    by_cases h1 : k < a.length / 2 ∨ a.length - a.length / 2 ≤ k
    · rw [if_pos h1]
    · rw [if_neg h1]
      congr 1; omega
  · rw [List.getElem?_eq_none (by omega), List.getElem?_eq_none (by simp; omega)]

/-- **C25** (`reverse_inplace` on strings and object arrays): for every array the result is the reversed array. -/
theorem c25_reverse (a : List α) (ha : a.length ≤ 2147483647) : reverseInplace a = .ok a.reverse := by
  unfold reverseInplace VM.divInt VM.divide VM.cDiv
  rw [if_neg (by omega), if_neg (by simp [VM.minInt]), show alen a = (a.length : Int) from rfl]
  simp only [Out.ok_bind]
  have hd : ((a.length : Int).tdiv 2).toNat = a.length / 2 := by
    rw [Int.tdiv_eq_ediv_of_nonneg (by omega)]; omega
  rw [hd]
  obtain ⟨b, e, hl, h⟩ := forLoop_inv (start := 0) (n := a.length / 2) (s := a)
    (body := fun i a' => do
      let l1 ← sub32 (a.length : Int) (i : Nat)
      let j ← sub32 l1 1
      swap a' (i : Nat) j)
    (fun i b => b.length = a.length ∧
      ∀ k, k < a.length → b[k]? = if k < i ∨ a.length - i ≤ k then a[a.length - 1 - k]? else a[k]?)
    ⟨rfl, fun k hk => by rw [if_neg (by omega)]⟩
    (by
      intro i b _ hi ⟨hl, h⟩
      refine ⟨Spec.Rand.swap b i (a.length - i - 1), ?_, by rw [swap_length, hl], reverse_step hl (by omega) h⟩
      rw [sub32_ok (by unfold I32; omega)]
      simp only [Out.ok_bind]
      rw [sub32_ok (by unfold I32; omega)]
      simp only [Out.ok_bind]
      rw [swap_ok (by omega) (by omega) (by omega) (by omega)]
      rw [show ((a.length : Int) - (i : Nat) - 1).toNat = a.length - i - 1 by omega, Int.toNat_natCast])
  rw [e, reverse_end hl (by simpa using h)]

/-- **C25** (`reverse_inplace` on numeric arrays; partial: at most 2^31 - 1 bytes): the bytes of the reversed list of
elements, no `memcpy` overlaps (the two elements are always different). -/
theorem c25_reverse_numeric_partial (lax : Bool) (es : Nat) (a : List Bytes) (hc : ∀ c ∈ a, c.length = es)
    (ha : a.length ≤ 2147483647) (hsz : es * a.length ≤ 2147483647) :
    reverseInplaceNum lax es a.length a.flatten = .ok a.reverse.flatten := by
  unfold reverseInplaceNum VM.divInt VM.divide VM.cDiv
  rw [if_neg (by omega), if_neg (by simp [VM.minInt])]
  simp only [Out.ok_bind]
  have hd : ((a.length : Int).tdiv 2).toNat = a.length / 2 := by
    rw [Int.tdiv_eq_ediv_of_nonneg (by omega)]; omega
  rw [hd]
  obtain ⟨tb, e, ht, b, hb, hcb, hl, h⟩ := forLoop_inv (start := 0) (n := a.length / 2) (s := (List.replicate es 0, a.flatten))
    (body := fun i (tb : Bytes × Bytes) => do
      let l1 ← sub32 (a.length : Int) (i : Nat)
      let j ← sub32 l1 1
      swapNum lax es a.length tb.1 tb.2 (i : Nat) j)
    (fun i tb => tb.1.length = es ∧ ∃ b : List Bytes, tb.2 = b.flatten ∧ Chunks es b ∧ b.length = a.length ∧
      ∀ k, k < a.length → b[k]? = if k < i ∨ a.length - i ≤ k then a[a.length - 1 - k]? else a[k]?)
    ⟨by simp, a, rfl, hc, rfl, fun k hk => by rw [if_neg (by omega)]⟩
    (by
      rintro i ⟨t, x⟩ _ hi ⟨ht, b, hb, hcb, hl, h⟩
      simp only at ht hb
      subst hb
      refine ⟨(b[i]'(by omega), (Spec.Rand.swap b i (a.length - i - 1)).flatten), ?_, hcb _ (List.getElem_mem _), _, rfl,
        swap_chunks hcb _ _, by rw [swap_length, hl], reverse_step hl (by omega) h⟩
      rw [sub32_ok (by unfold I32; omega)]
      simp only [Out.ok_bind]
      rw [sub32_ok (by unfold I32; omega)]
      simp only [Out.ok_bind]
      rw [show (a.length : Int) - (i : Nat) - 1 = ((a.length - i - 1 : Nat) : Int) by omega, ← hl]
      rw [swapNum_ok hcb (by rw [hl]; exact hsz) ht (by omega) (by omega) (.inr (by omega))])
  rw [e]
  simp only [Out.ok_bind, Out.pure_eq]
  rw [hb, reverse_end hl (by simpa using h)]

/-- **C25**: reversing twice restores the array. -/
theorem c25_reverse_involution (a : List α) (ha : a.length ≤ 2147483647) :
    (reverseInplace a >>= reverseInplace) = .ok a := by
  rw [c25_reverse a ha, Out.ok_bind, c25_reverse _ (by simpa using ha), List.reverse_reverse]

/-- **C25** (`Fn->slice` on object arrays): the slice when the range lies inside the array, otherwise an exception. -/
theorem c25_slice_object_partial (limit : Nat) (accept : α → Bool) (a : List (Option α)) (offset length : Int)
    (ha : a.length ≤ 2147483647) (hl : length < 2147483647) (hov : offset + length ≤ 2147483647)
    (hacc : ∀ v, some v ∈ a → accept v = true) :
    (0 ≤ offset ∧ 0 ≤ length ∧ offset + length ≤ a.length ∧ length ≤ limit ∧
      sliceObject limit accept (some a) offset length = .ok (Spec.Array.slice a offset.toNat length.toNat)) ∨
    (¬ (0 ≤ offset ∧ 0 ≤ length ∧ offset + length ≤ a.length ∧ length ≤ limit) ∧
      ∃ m, sliceObject limit accept (some a) offset length = .die m) := by
  unfold sliceObject newProtoAny
  simp only []
  by_cases h1 : 0 ≤ length
  · rw [if_neg (by omega), add32_ok (by unfold I32; omega)]
    simp only [Out.ok_bind, Out.pure_eq]
    by_cases h2 : length.toNat ≤ limit
    · rw [if_pos h2]
      simp only [memcpyObj]
      by_cases h0 : 0 ≤ offset
      · by_cases h3 : offset + length ≤ a.length
        · rw [SPVM.memcpyObj_ok (by omega) h0 h1 (by simp; omega) h3 (by unfold I32; omega) (by unfold I32; omega) hacc]
          refine .inl ⟨h0, h1, h3, by omega, ?_⟩
          unfold blit Spec.Array.slice
          simp
        · unfold SPVM.memcpyObj
          rw [if_neg (by omega), if_neg (by omega), if_neg (by omega), add32_ok (by unfold I32; omega),
            add32_ok (by unfold I32; omega)]
          simp only [Out.ok_bind]
          rw [if_neg (by simp [alen]; omega), if_pos (by simp only [alen]; omega)]
          exact .inr ⟨by omega, _, rfl⟩
      · unfold SPVM.memcpyObj
        rw [if_neg (by omega), if_neg (by omega), if_pos (by omega)]
        exact .inr ⟨by omega, _, rfl⟩
    · rw [if_neg h2]
      exact .inr ⟨by omega, _, rfl⟩
  · rw [if_pos (by omega)]
    exact .inr ⟨by omega, _, rfl⟩

/-- **C25** (`Fn->slice` on numeric arrays; partial: only ranges inside the array of at most 2^31 - 1 bytes; a negative
offset is not rejected, see `c24_negative_offset_violated`). -/
theorem c25_slice_numeric_partial (limit es : Nat) (a : List Bytes) (hc : ∀ c ∈ a, c.length = es) (offset length : Nat)
    (hsz : es * a.length ≤ 2147483647) (hr : offset + length ≤ a.length) (ha : a.length < 2147483647) (hlim : length ≤ limit) :
    sliceNum limit es a.length a.flatten offset length = .ok (Spec.Array.slice a offset length).flatten := by
  have hfl := flatten_length hc
  have b1 : es * offset + es * length ≤ es * a.length := by rw [← Nat.mul_add]; exact Nat.mul_le_mul_left _ hr
  unfold sliceNum newProtoAny
  rw [if_neg (by omega), add32_ok (by unfold I32; omega)]
  simp only [Out.ok_bind, Out.pure_eq]
  rw [if_pos (by omega)]
  have e1 : mul32 es offset = .ok ((es * offset : Nat) : Int) := by
    rw [mul32, show (es : Int) * offset = ((es * offset : Nat) : Int) by simp, chk32_ok (by unfold I32; omega)]
  have e2 : mul32 es length = .ok ((es * length : Nat) : Int) := by
    rw [mul32, show (es : Int) * length = ((es * length : Nat) : Int) by simp, chk32_ok (by unfold I32; omega)]
  rw [e1, e2]
  simp only [Out.ok_bind, Option.map_some]
  rw [memcpy_num_ok (by omega) (by omega) (by omega) (by simp) (by omega) (by simp; omega) (by omega) (by simp)
    (by rw [hfl]; simp)]
  congr 1
  rw [Int.toNat_natCast, Int.toNat_natCast, Int.toNat_natCast]
  unfold blit Spec.Array.slice
  rw [← flatten_drop hc, ← flatten_take (Chunks.drop hc _)]
  simp

/-- Non-vacuity of C25. -/
example : copyNum 100 (0 : Int) (some [1, 2, 3, 4]) 1 2 = .ok [2, 3] := by decide
example : merge 100 (0 : Int) (some [1, 2]) (some [3]) = .ok [1, 2, 3] := by decide
example : equals (fun (x y : Int) => decide (x ≠ y)) (some [1, 2]) (some [1, 3]) = .ok 0 := by decide
example : memset (some [1, 2, 3, 4]) 9 1 2 = .ok [1, 9, 9, 4] := by decide
example : reverseInplace [1, 2, 3, 4, 5] = .ok [5, 4, 3, 2, 1] := by decide
example : reverseInplaceNum false 2 3 [1, 2, 3, 4, 5, 6] = .ok [5, 6, 3, 4, 1, 2] := by decide
example : sliceObject 10 (fun _ => true) (some [some 1, none, some 3]) 1 2 = .ok [none, some 3] := by decide
example : sliceNum 10 2 3 [1, 2, 3, 4, 5, 6] 1 2 = .ok [3, 4, 5, 6] := by decide

end ArrayOps
end SPVM
