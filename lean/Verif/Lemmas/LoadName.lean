import Verif.Spec.Load
/-! Names of classes: the checks of the loader against `NameOk`. -/
namespace SPVM
namespace Load
open VM (Bytes)
open Spec.Load (Occurs Lower Digit NameOk bytes)

theorem strstr_iff (pat : Bytes) (s : Bytes) : strstr pat s = true ↔ Occurs pat s := by
  induction s with
  | nil =>
    constructor
    · intro h
      have : pat = [] := by simpa [strstr] using h
      exact ⟨[], [], by simp [this]⟩
    · rintro ⟨a, b, h⟩
      have := congrArg List.length h
      simp only [List.length_nil, List.length_append] at this
      have : pat.length = 0 := by omega
      simpa [strstr] using List.length_eq_zero_iff.1 this
  | cons x s ih =>
    simp only [strstr, Bool.or_eq_true, ih, List.isPrefixOf_iff_prefix]
    constructor
    · rintro (⟨t, h⟩ | ⟨a, b, h⟩)
      · exact ⟨[], t, by simpa using h.symm⟩
      · exact ⟨x :: a, b, by simp [h]⟩
    · rintro ⟨a, b, h⟩
      cases a with
      | nil => exact .inl ⟨b, by simpa using h.symm⟩
      | cons y a =>
        simp only [List.cons_append, List.cons.injEq] at h
        exact .inr ⟨a, b, h.2⟩

theorem strstr_false (pat : Bytes) (s : Bytes) : strstr pat s = false ↔ ¬ Occurs pat s := by
  rw [← strstr_iff]; cases strstr pat s <;> simp

theorem mark_method : bytes "::anon_method::" = anonMethodMark := by decide +kernel
theorem mark_class : bytes "::anon_class::" = anonClassMark := by decide +kernel
theorem mark_colons : bytes "::" = colons := by decide +kernel
theorem mark_colons4 : bytes "::::" = colons ++ colons := by decide +kernel
theorem mark_under : bytes "__" = underscores := by decide +kernel

theorem islower_iff (c : UInt8) : islower c = true ↔ Lower c := by
  simp only [islower, Lower, Bool.and_eq_true, decide_eq_true_eq, List.mem_range'_1, UInt8.le_iff_toNat_le]
  show (97 ≤ c.toNat ∧ c.toNat ≤ 122) ↔ _
  omega

theorem isdigit_iff (c : UInt8) : isdigit c = true ↔ Digit c := by
  simp only [isdigit, Digit, Bool.and_eq_true, decide_eq_true_eq, List.mem_range'_1, UInt8.le_iff_toNat_le]
  show (48 ≤ c.toNat ∧ c.toNat ≤ 57) ↔ _
  omega

theorem lowerPart_iff (n : Bytes) : lowerPart n = true ↔ ∃ a c b, n = a ++ colons ++ c :: b ∧ islower c = true := by
  induction n using lowerPart.induct with
  | case1 c s ih =>
    simp only [lowerPart, Bool.or_eq_true, ih]
    constructor
    · rintro (h | ⟨a, d, b, e, h⟩)
      · exact ⟨[], c, s, rfl, h⟩
      · exact ⟨58 :: a, d, b, by simp [e], h⟩
    · rintro ⟨a, d, b, e, h⟩
      cases a with
      | nil =>
        simp only [colons, List.nil_append, List.cons_append, List.cons.injEq, true_and] at e
        exact .inl (by rw [e.1]; exact h)
      | cons y a =>
        simp only [List.cons_append, List.cons.injEq] at e
        exact .inr ⟨a, d, b, e.2, h⟩
  | case2 x s hx ih =>
    have hl : lowerPart (x :: s) = lowerPart s := by
      rw [lowerPart]
      exact hx
    rw [hl, ih]
    constructor
    · rintro ⟨a, d, b, e, h⟩
      exact ⟨x :: a, d, b, by simp [e], h⟩
    · rintro ⟨a, d, b, e, h⟩
      cases a with
      | nil =>
        simp only [colons, List.nil_append, List.cons_append, List.cons.injEq] at e
        exact absurd e.2 (hx d b e.1)
      | cons y a =>
        simp only [List.cons_append, List.cons.injEq] at e
        exact ⟨a, d, b, e.2, h⟩
  | case3 =>
    simp only [lowerPart]
    constructor
    · intro h; cases h
    · rintro ⟨a, c, b, e, _⟩
      simp at e

theorem suffix_iff (n : Bytes) : colons.isPrefixOf n.reverse = true ↔ ∃ a, n = a ++ colons := by
  rw [List.isPrefixOf_iff_prefix]
  constructor
  · rintro ⟨t, h⟩
    refine ⟨t.reverse, ?_⟩
    have := congrArg List.reverse h
    simp only [List.reverse_append, List.reverse_reverse] at this
    rw [← this]; rfl
  · rintro ⟨a, h⟩
    exact ⟨a.reverse, by rw [h, List.reverse_append]; rfl⟩

theorem badName_iff (n : Bytes) : badName n = false ↔ NameOk n := by
  unfold badName NameOk
  rw [mark_method, mark_class, mark_colons, mark_colons4, mark_under]
  split
  · rename_i h
    simp only [Bool.or_eq_true, strstr_iff] at h
    simp only [true_iff]
    rcases h with h | h
    · exact .inl h
    · exact .inr (.inl h)
  · rename_i h
    simp only [Bool.or_eq_true, strstr_iff, not_or] at h
    simp only [h.1, h.2, false_or]
    rw [Bool.eq_false_iff]
    simp only [ne_eq, Bool.or_eq_true, not_or, strstr_iff, lowerPart_iff, suffix_iff]
    rw [List.isPrefixOf_iff_prefix]
    constructor
    · rintro ⟨⟨⟨⟨⟨⟨h1, h2⟩, h3⟩, h4⟩, h5⟩, h6⟩, h7⟩
      refine ⟨?_, ?_, h3, h5, ?_, ?_⟩
      · rintro c s rfl
        simp only at h1 h7
        exact ⟨fun h => h1 ((islower_iff c).2 h), fun h => h7 ((isdigit_iff c).2 h)⟩
      · intro a c b e hc
        exact h2 ⟨a, c, b, e, (islower_iff c).2 hc⟩
      · rintro a rfl
        exact h6 ⟨a, rfl⟩
      · rintro a rfl
        exact h4 ⟨a, rfl⟩
    · rintro ⟨h1, h2, h3, h5, h6, h4⟩
      refine ⟨⟨⟨⟨⟨⟨?_, ?_⟩, h3⟩, ?_⟩, h5⟩, ?_⟩, ?_⟩
      · cases n with
        | nil => simp
        | cons c s =>
          simp only
          intro h
          exact (h1 c s rfl).1 ((islower_iff c).1 h)
      · rintro ⟨a, c, b, e, hc⟩
        exact h2 a c b e ((islower_iff c).1 hc)
      · rintro ⟨a, e⟩
        exact h4 a e
      · rintro ⟨a, e⟩
        exact h6 a e.symm
      · cases n with
        | nil => simp
        | cons c s =>
          simp only
          intro h
          exact (h1 c s rfl).2 ((isdigit_iff c).1 h)

/-- The inverse of `relPath`. -/
def unPath : Bytes → Bytes
  | [] => []
  | c :: s => if c = 47 then 58 :: 58 :: unPath s else c :: unPath s

theorem unPath_relPath (n : Bytes) (h : ∀ c ∈ n, c ≠ 47) : unPath (relPath n) = n := by
  induction n using relPath.induct with
  | case1 s ih =>
    simp only [relPath, unPath, if_pos]
    rw [ih (fun c hc => h c (by simp [hc]))]
  | case2 c s hx ih =>
    have : relPath (c :: s) = c :: relPath s := by rw [relPath]; exact hx
    rw [this, unPath, if_neg (h c (by simp)), ih (fun d hd => h d (by simp [hd]))]
  | case3 => rfl

end Load
end SPVM
