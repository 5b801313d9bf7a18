import Verif.Lemmas.StrLit
/-!
# C60: string and character literals denote the bytes that are written

`strLit fuel src` reads a string literal from the text after the opening `"`: it gives the bytes of a constant, the rest of the
source, and - for a variable expansion - the place where the literal goes on.  `singleLit` and `charLit` read a single-quoted
string literal and a character literal.  The specification, `Spec/StrLit`, is the documented grammar: which text spells which
bytes.
-/
namespace SPVM
namespace StrLit
open VM (Bytes)
open Spec (Unquoted VarName Spells SpellsQ SpellsChar Expansion hexText quoteText quoteSingle)

/-! ## String literals -/

/-- C60.  A string literal without variable expansion is accepted exactly when the text up to the closing quote is spelled as
documented, its value is exactly the bytes that are spelled, and the source goes on after the quote. -/
theorem string_literal (fuel : Nat) (src v rest : Bytes) :
    strLit fuel src = .ok ⟨v, rest, none⟩ ↔ ∃ text, src = text ++ 34 :: rest ∧ Spells true text v := strLit_end

/-- Two readings of the same text give the same bytes: a text spells at most one string. -/
theorem string_literal_unique {text v w : Bytes} (h1 : Spells true text v) (h2 : Spells true text w) : v = w := by
  have a := (string_literal 0 (text ++ [34]) v []).2 ⟨text, rfl, h1⟩
  have b := (string_literal 0 (text ++ [34]) w []).2 ⟨text, rfl, h2⟩
  rw [a] at b
  cases b
  rfl

/-- `hello\x{0D}\n\$5 \N{U+3042}\101\d"` -/
example : strLit 0 [104, 105, 92, 120, 123, 48, 68, 125, 92, 110, 92, 36, 53, 32, 92, 78, 123, 85, 43, 51, 48, 52, 50, 125, 92, 49, 48, 49,
    92, 100, 34, 59] = .ok ⟨[104, 105, 13, 10, 36, 53, 32, 227, 129, 130, 65, 92, 100], [59], none⟩ := by decide +kernel

/-- An escape character that is not in the tables is a compilation error: `\q`, `\x`, `\777`, `\N{U+D800}`. -/
example : strLit 0 [92, 113, 34] = .die msgEsc ∧ strLit 0 [92, 120, 34] = .die msgEsc ∧ strLit 0 [92, 55, 55, 55, 34] = .die msgEsc ∧
    strLit 0 [92, 78, 123, 85, 43, 68, 56, 48, 48, 125, 34] = .die msgEsc := by decide +kernel

theorem spells_quote : ∀ s : Bytes, Spells true (quoteText s) s
  | [] => .nil
  | b :: s => by
    show Spells true ((if b = 34 ∨ b = 36 ∨ b = 92 then [92, b] else [b]) ++ quoteText s) ([b] ++ s)
    refine .cons ?_ (spells_quote s)
    by_cases h : b = 34 ∨ b = 36 ∨ b = 92
    · rw [if_pos h]
      rcases h with rfl | rfl | rfl
      · exact .named .quote
      · exact .named .dollar
      · exact .named .backslash
    · rw [if_neg h]
      exact .plain (fun h' => h (.inl h')) (fun h' => h (.inr (.inl h'))) (fun h' => h (.inr (.inr h')))

theorem digitValue_hex : ∀ d : Fin 16, Spec.digitValue (Spec.hexDigit d) = some d.val := by decide +kernel

theorem denotes_hex2 (b : UInt8) : Spec.Denotes 16 (Spec.hex2 b) b.toNat := by
  have hb := b.toNat_lt
  have h1 := digitValue_hex ⟨b.toNat / 16, by omega⟩
  have h2 := digitValue_hex ⟨b.toNat % 16, by omega⟩
  have := Spec.Denotes.snoc (.one (base := 16) h1 (by simp only; omega)) h2 (by simp only; omega)
  simp only at this
  rw [show b.toNat / 16 * 16 + b.toNat % 16 = b.toNat by omega] at this
  exact this

theorem spells_hex : ∀ s : Bytes, Spells true (hexText s) s
  | [] => .nil
  | b :: s => by
    show Spells true (([92, 120] ++ Spec.hex2 b) ++ hexText s) ([b] ++ s)
    refine .cons (.numbered ?_) (spells_hex s)
    have := Spec.Numbered.hex (next := hexText s) (ds := Spec.hex2 b) (by simp [Spec.hex2]) (denotes_hex2 b) (by simp [Spec.hex2])
    rwa [UInt8.ofNat_toNat] at this

/-- Every string of bytes can be written as a string literal, with `\xHH` only or with a backslash before `"`, `$` and `\`; the
literal has exactly these bytes. -/
theorem string_literal_any (fuel : Nat) (s rest : Bytes) :
    strLit fuel (hexText s ++ 34 :: rest) = .ok ⟨s, rest, none⟩ ∧ strLit fuel (quoteText s ++ 34 :: rest) = .ok ⟨s, rest, none⟩ :=
  ⟨strLit_end.2 ⟨_, rfl, spells_hex s⟩, strLit_end.2 ⟨_, rfl, spells_quote s⟩⟩

example : quoteText [36, 120, 34, 0, 255] = [92, 36, 120, 92, 34, 0, 255] ∧
    hexText [0, 255] = [92, 120, 48, 48, 92, 120, 70, 70] := by decide +kernel

/-- The loop that decodes the text writes no more bytes than it reads, also when it meets invalid escape characters, so
it stays within the memory that is allocated for it; it ends, and does not read beyond the text. -/
theorem string_literal_length {fuel : Nat} {src : Bytes} {c : Cut} (h : cut src = .ok c) :
    (∃ out err, decode c.raw.length c.raw = .ok (out, err) ∧ out.length ≤ c.raw.length) ∧
    (∀ t, strLit fuel src = .ok t → t.value.length ≤ c.raw.length) ∧ c.raw.length < src.length := by
  have hr : ∃ last, Unquoted last c.raw := by
    rcases cut_sound _ _ h with ⟨_, _, h⟩ | ⟨_, _, _, h⟩
    · exact ⟨_, h⟩
    · exact ⟨_, h⟩
  obtain ⟨last, hr⟩ := hr
  obtain ⟨o, e, h1, h2⟩ := decode_total c.raw.length (raw_paired hr) (Nat.le_refl _)
  refine ⟨⟨o, e, h1, h2⟩, ?_, ?_⟩
  · intro t ht
    have key : ∀ rest next, strConst c.raw rest next = .ok t → t.value.length ≤ c.raw.length := by
      intro rest next hs
      unfold strConst at hs
      rw [h1] at hs
      simp only at hs
      split at hs
      · cases hs
      · cases hs; exact h2
    unfold strLit at ht
    rw [h] at ht
    simp only at ht
    split at ht
    · split at ht
      · exact key _ _ ht
      · cases ht
      · cases ht
    · exact key _ _ ht
  · rcases cut_sound _ _ h with ⟨_, h, _⟩ | ⟨_, h, _⟩ <;> (rw [h]; simp)

example : cut [92, 113, 97, 34, 59] = .ok ⟨[92, 113, 97], 34, [59]⟩ := by decide +kernel

/-! ## Variable expansions -/

/-- A constant before a variable expansion: it is spelled by the text before `$`, and the tokenizer goes on with the variable. -/
theorem string_expansion (fuel : Nat) (src v rest next : Bytes) :
    strLit fuel src = .ok ⟨v, rest, some next⟩ ↔
      ∃ text r, src = text ++ 36 :: r ∧ rest = 36 :: r ∧ Spells false text v ∧ (∀ t, r ≠ 34 :: t) ∧ varEnd fuel r = .ok next := by
  rw [strLit_var]
  have hb : ∀ r : Bytes, begins 34 r = false ↔ ∀ t, r ≠ 34 :: t := by
    intro r
    cases h : begins 34 r with
    | false => simp only [true_iff]; rintro t rfl; cases h
    | true =>
      simp only [Bool.true_eq_false, false_iff]
      obtain ⟨t, rfl⟩ := begins_iff.1 h
      exact fun h => h t rfl
  constructor
  · rintro ⟨raw, r, h1, h2, h3, h4, h5⟩
    exact ⟨raw, r, h1, h2, h4, (hb r).1 h3, h5⟩
  · rintro ⟨raw, r, h1, h2, h4, h3, h5⟩
    exact ⟨raw, r, h1, h2, (hb r).2 h3, h4, h5⟩

/-- C60.  The documented forms of a variable expansion - a variable, `${name}`, a dereference, the exception variable, fields and
elements - end where they should: the literal goes on with exactly the text after the expansion. -/
theorem string_expansion_forms {text v e next : Bytes} {fuel : Nat} (hs : Spells false text v) (he : Expansion e next)
    (hf : e.length < fuel) :
    strLit fuel (text ++ 36 :: (e ++ next)) = .ok ⟨v, 36 :: (e ++ next), some next⟩ := by
  obtain ⟨h1, h2⟩ := varEnd_expansion he fuel hf
  exact strLit_var.2 ⟨text, _, rfl, rfl, h2, hs, h1⟩

/-- `$foo->{x}[3] BBB` -/
example : Expansion ([102, 111, 111] ++ [45, 62] ++ ([123, 120, 125] ++ [91, 51, 93])) [32, 66, 66, 66] := by
  refine .access ?_ (.more (.field (w := [120]) ?_) (.one (.elem (w := [51]) ?_))) ?_ ?_
  · exact .char (by simp [Spec.NameChar]) (.char (by simp [Spec.NameChar]) (.one (by simp [Spec.NameChar])))
  · intro b hb; simp at hb; subst hb; simp [Spec.NameChar]
  · intro b hb; simp at hb; subst hb; simp [Spec.NameChar]
  · intro b r h; cases h; decide
  · intro r h; cases h

example : strLit 20 [65, 32, 36, 102, 45, 62, 123, 120, 125, 45, 62, 91, 51, 93, 32, 66, 34] =
    .ok ⟨[65, 32], [36, 102, 45, 62, 123, 120, 125, 45, 62, 91, 51, 93, 32, 66, 34], some [32, 66, 34]⟩ := by decide +kernel

/-! ## Safety -/

/-- Undefined behaviour and endless loops, exactly: the source ends with a backslash inside the literal, or a variable without
brace is followed by `}`.  Everything else is accepted or is a compilation error.  Missing from the full claim: those two cases,
where it is false. -/
theorem string_safe_partial {fuel : Nat} {src : Bytes} (hf : src.length < fuel) :
    strLit fuel src = .ub ↔
      (∃ text, src = text ++ [92] ∧ Unquoted false text) ∨
      (∃ text d n r, src = text ++ 36 :: (d ++ n ++ 125 :: r) ∧ Unquoted false text ∧ (d = [] ∨ d = [36]) ∧ (n = [] ∨ VarName n)) := by
  constructor
  · intro h
    unfold strLit at h
    split at h
    · rename_i c hc
      rcases cut_sound _ _ hc with ⟨a1, a2, a3⟩ | ⟨a1, a2, a3, a4⟩
      · rw [if_neg (by rw [a1]; decide)] at h
        exact absurd h (strConst_safe a3)
      · rw [if_pos a1] at h
        split at h
        · exact absurd h (strConst_safe a4)
        · cases h
        · rename_i hv
          have hl := congrArg List.length a2
          simp only [List.length_append, List.length_cons] at hl
          obtain ⟨d, n, r, h1, h2, h3⟩ := (varEnd_ub (by omega)).1 hv
          exact .inr ⟨c.raw, d, n, r, by rw [← h1]; exact a2, a4, h2, h3⟩
    · cases h
    · rename_i hc
      exact .inl (cut_ub.1 hc)
  · rintro (h | ⟨text, d, n, r, rfl, h1, h2, h3⟩)
    · unfold strLit
      rw [cut_ub.2 h]
    · have hl : (d ++ n ++ 125 :: r).length < fuel := by
        simp only [List.length_append, List.length_cons] at hf ⊢
        omega
      have hv := (varEnd_ub hl).2 ⟨d, n, r, rfl, h2, h3⟩
      have hb : begins 34 (d ++ n ++ 125 :: r) = false := by
        rcases h2 with rfl | rfl
        · rcases h3 with rfl | h3
          · rfl
          · exact (varName_head h3).2.2.2
        · rfl
      unfold strLit
      rw [cut_var h1 hb]
      simp only [if_true, hv]

example : strLit 6 [97, 36, 98, 32, 34] = .ok ⟨[97], [36, 98, 32, 34], some [32, 34]⟩ ∧ strLit 4 [97, 98, 99] = .die msgEnd ∧
    Unquoted false [97] ∧ VarName [98] := by
  refine ⟨by decide +kernel, by decide +kernel, .plain (by decide) (by decide) (by decide) .nil, .one (by simp [Spec.NameChar])⟩

/-- A string literal without any variable is read without undefined behaviour, whatever the text, up to the closing quote. -/
theorem string_closed_safe {fuel : Nat} {text rest : Bytes} (h : ∀ b ∈ text, b ≠ 34 ∧ b ≠ 36 ∧ b ≠ 92) :
    strLit fuel (text ++ 34 :: rest) = .ok ⟨text, rest, none⟩ := by
  refine strLit_end.2 ⟨text, rfl, ?_⟩
  induction text with
  | nil => exact .nil
  | cons b t ih =>
    obtain ⟨h1, h2, h3⟩ := h b (by simp)
    exact .cons (s := [b]) (out := [b]) (.plain h1 h2 h3) (ih (fun b hb => h b (by simp [hb])))

/-- The full claim fails: after a backslash at the end of the source - `"abc\` - the terminating NUL is stepped over, and the
tokenizer reads on behind the source. -/
theorem string_backslash_violated (fuel : Nat) : strLit fuel [97, 98, 99, 92] = .ub := by
  unfold strLit
  rw [show cut [97, 98, 99, 92] = .ub from by decide +kernel]

/-- The full claim fails: `"$foo}"` - a variable with a `}` after it - is read in an endless loop, whatever the bound. -/
theorem string_brace_violated (fuel : Nat) : strLit fuel [36, 102, 111, 111, 125, 34] = .ub := by
  unfold strLit
  rw [show cut [36, 102, 111, 111, 125, 34] = .ok ⟨[], 36, [102, 111, 111, 125, 34]⟩ from by decide +kernel]
  simp only [if_true]
  have : varEnd fuel [102, 111, 111, 125, 34] = .ub := by
    unfold varEnd
    simp only [begins]
    have hk : skipName false fuel [102, 111, 111, 125, 34] = .ub := by
      match fuel with
      | 0 => rfl
      | 1 => rfl
      | 2 => rfl
      | n + 3 =>
        rw [skipName_char (by simp [Spec.NameChar]), skipName_char (by simp [Spec.NameChar]), skipName_char (by simp [Spec.NameChar])]
        exact skipName_hang n [34]
    simp [hk]
  rw [this]

/-- The documented forms do not say what follows an element: in `"$x->[0]->"` the arrow after the element disappears, the literal goes
on behind it; and `"$foo-> bar"`, where an arrow is not followed by an index, is a compilation error. -/
theorem string_arrow_violated :
    strLit 20 [36, 120, 45, 62, 91, 48, 93, 45, 62, 34] = .ok ⟨[], [36, 120, 45, 62, 91, 48, 93, 45, 62, 34], some [34]⟩ ∧
    strLit 20 [36, 102, 45, 62, 32, 98, 34] = .die msgArrow := by decide +kernel

/-! ## Single-quoted string literals -/

/-- C60.  A single-quoted string literal is accepted exactly when `\'` and `\\` are its only escape characters; its value is the
bytes that are spelled. -/
theorem single_literal (src v rest : Bytes) :
    singleLit src = .ok (v, rest) ↔ ∃ text, src = text ++ 39 :: rest ∧ SpellsQ text v := singleLit_iff

theorem spellsQ_quote : ∀ s : Bytes, SpellsQ (quoteSingle s) s
  | [] => .nil
  | b :: s => by
    show SpellsQ ((if b = 39 ∨ b = 92 then [92, b] else [b]) ++ quoteSingle s) (b :: s)
    by_cases h : b = 39 ∨ b = 92
    · rw [if_pos h]; exact .escaped h (spellsQ_quote s)
    · rw [if_neg h]; exact .plain (fun h' => h (.inl h')) (fun h' => h (.inr h')) (spellsQ_quote s)

/-- Every string of bytes can be written as a single-quoted string literal. -/
theorem single_literal_any (s rest : Bytes) : singleLit (quoteSingle s ++ 39 :: rest) = .ok (s, rest) :=
  singleLit_iff.2 ⟨_, rfl, spellsQ_quote s⟩

/-- `q'a\'$b\\'` -/
example : singleLit [97, 92, 39, 36, 98, 92, 92, 39, 59] = .ok ([97, 39, 36, 98, 92], [59]) ∧ singleLit [92, 110, 39] = .die msgEsc := by
  decide +kernel

/-- Undefined behaviour is met only when the source ends with a backslash inside the literal. -/
theorem single_safe_partial (src : Bytes) (h : ∀ t, src ≠ t ++ [92]) : singleLit src ≠ .ub := by
  intro h'
  obtain ⟨raw, hr, _⟩ := singleLit_ub.1 h'
  exact h raw hr

theorem single_backslash_violated : singleLit [97, 98, 99, 92] = .ub := by decide +kernel

/-! ## Character literals -/

/-- C60.  A character literal is accepted exactly when it is one character or one of the documented escape characters; its value
is that byte. -/
theorem char_literal (src rest : Bytes) (v : UInt8) :
    charLit src = .ok (v, rest) ↔ ∃ text, src = text ++ 39 :: rest ∧ SpellsChar text v := charLit_iff

/-- `'\x0D'`, `'a'`, `'"'`, `'\o{101}'`; no literal is `''`, `'ab'`, `'\$'`. -/
example : charLit [92, 120, 48, 68, 39, 59] = .ok (13, [59]) ∧ charLit [97, 39] = .ok (97, []) ∧ charLit [34, 39] = .ok (34, []) ∧
    charLit [92, 111, 123, 49, 48, 49, 125, 39] = .ok (65, []) ∧ charLit [39] = .die msgCharEmpty ∧ charLit [97, 98, 39] = .die msgChar ∧
    charLit [92, 36, 39] = .die msgEsc := by decide +kernel

/-- Undefined behaviour is met only when the source ends after the quote or after a backslash. -/
theorem char_safe_partial (src : Bytes) (h1 : src ≠ []) (h2 : src ≠ [92]) : charLit src ≠ .ub := by
  intro h
  rcases charLit_ub.1 h with h | h
  · exact h1 h
  · exact h2 h

/-- The full claim fails: a source that ends with `'` or `'\` is read beyond its end. -/
theorem char_end_violated : charLit [] = .ub ∧ charLit [92] = .ub := by decide +kernel

/-- `\8` and `\9` are accepted, as raw escape characters, although the documented table does not have them. -/
theorem string_raw_violated : strLit 0 [92, 56, 92, 57, 34] = .ok ⟨[92, 56, 92, 57], [], none⟩ := by decide +kernel

end StrLit
end SPVM
