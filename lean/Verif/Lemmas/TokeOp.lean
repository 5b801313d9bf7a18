import Verif.Lemmas.Toke
/-!
# Operators of the tokenizer
-/
namespace SPVM
namespace Toke
open VM (Bytes)
open StrLit (begins)
open Spec.Toke

theorem withAssign_cases (p q : Op) (r : Bytes) :
    (∃ t, r = 61 :: t ∧ withAssign p q r = (q, t)) ∨ ((∀ t, r ≠ 61 :: t) ∧ withAssign p q r = (p, r)) := by
  unfold withAssign
  split
  · exact .inl ⟨_, rfl, rfl⟩
  · rename_i h
    exact .inr ⟨fun t e => h t e, rfl⟩

theorem less_cases (r : Bytes) :
    (∃ t, r = 60 :: 61 :: t ∧ less r = (.shlAssign, t)) ∨ (∃ t, r = 60 :: t ∧ (∀ u, t ≠ 61 :: u) ∧ less r = (.shl, t)) ∨
    (∃ t, r = 61 :: 62 :: t ∧ less r = (.cmp, t)) ∨ (∃ t, r = 61 :: t ∧ (∀ u, t ≠ 62 :: u) ∧ less r = (.le, t)) ∨
    ((∀ u, r ≠ 60 :: u) ∧ (∀ u, r ≠ 61 :: u) ∧ less r = (.lt, r.drop 1)) := by
  unfold less
  split
  · rename_i t
    rcases withAssign_cases .shl .shlAssign t with ⟨u, rfl, h⟩ | ⟨h1, h⟩
    · exact .inl ⟨u, rfl, h⟩
    · exact .inr (.inl ⟨t, rfl, h1, h⟩)
  · exact .inr (.inr (.inl ⟨_, rfl, rfl⟩))
  · rename_i t h
    exact .inr (.inr (.inr (.inl ⟨_, rfl, fun u e => h u (by rw [e]), rfl⟩)))
  · rename_i h1 h2 h3
    exact .inr (.inr (.inr (.inr ⟨fun u e => h1 u e, fun u e => h3 u e, rfl⟩)))

theorem greater_cases (r : Bytes) :
    (∃ t, r = 62 :: 62 :: 61 :: t ∧ greater r = (.ushrAssign, t)) ∨
    (∃ t, r = 62 :: 62 :: t ∧ (∀ u, t ≠ 61 :: u) ∧ greater r = (.ushr, t)) ∨
    (∃ t, r = 62 :: 61 :: t ∧ greater r = (.shrAssign, t)) ∨
    (∃ t, r = 62 :: t ∧ (∀ u, t ≠ 61 :: u) ∧ (∀ u, t ≠ 62 :: u) ∧ greater r = (.shr, t)) ∨
    (∃ t, r = 61 :: t ∧ greater r = (.ge, t)) ∨
    ((∀ u, r ≠ 62 :: u) ∧ (∀ u, r ≠ 61 :: u) ∧ greater r = (.gt, r.drop 1)) := by
  unfold greater
  split
  · rename_i t
    rcases withAssign_cases .ushr .ushrAssign t with ⟨u, rfl, h⟩ | ⟨h1, h⟩
    · exact .inl ⟨u, rfl, h⟩
    · exact .inr (.inl ⟨t, rfl, h1, h⟩)
  · rename_i t h2
    rcases withAssign_cases .shr .shrAssign t with ⟨u, rfl, h⟩ | ⟨h1, h⟩
    · exact .inr (.inr (.inl ⟨u, rfl, h⟩))
    · exact .inr (.inr (.inr (.inl ⟨t, rfl, h1, fun u e => h2 u (by rw [e]), h⟩)))
  · exact .inr (.inr (.inr (.inr (.inl ⟨_, rfl, rfl⟩))))
  · rename_i h1 h2 h3
    exact .inr (.inr (.inr (.inr (.inr ⟨fun u e => h2 u e, fun u e => h3 u e, rfl⟩))))

theorem not_begins {b : UInt8} {r : Bytes} (h : ¬ begins b r = true) : ∀ t, r ≠ b :: t :=
  fun t e => h (begins_iff.2 ⟨t, e⟩)

theorem prefix_cons_iff {a : UInt8} {l r : Bytes} : (a :: l <+: r) ↔ ∃ t, r = a :: t ∧ l <+: t := by
  constructor
  · rintro ⟨u, rfl⟩
    exact ⟨l ++ u, rfl, u, rfl⟩
  · rintro ⟨t, rfl, u, rfl⟩
    exact ⟨u, rfl⟩

/-- The table, as bytes. -/
def code : Op → Bytes
  | .concat => [46] | .concatAssign => [46, 61]
  | .add => [43] | .inc => [43, 43] | .addAssign => [43, 61]
  | .sub => [45] | .dec => [45, 45] | .subAssign => [45, 61] | .arrow => [45, 62]
  | .mul => [42] | .mulAssign => [42, 61]
  | .div => [47] | .divAssign => [47, 61]
  | .mod => [37] | .modAssign => [37, 61]
  | .xor => [94] | .xorAssign => [94, 61]
  | .bitOr => [124] | .or => [124, 124] | .orAssign => [124, 61]
  | .bitAnd => [38] | .and => [38, 38] | .andAssign => [38, 61]
  | .assign => [61] | .eq => [61, 61] | .fatComma => [61, 62]
  | .lt => [60] | .le => [60, 61] | .cmp => [60, 61, 62] | .shl => [60, 60] | .shlAssign => [60, 60, 61]
  | .gt => [62] | .ge => [62, 61] | .shr => [62, 62] | .shrAssign => [62, 62, 61] | .ushr => [62, 62, 62] | .ushrAssign => [62, 62, 62, 61]
  | .not => [33] | .ne => [33, 61] | .bitNot => [126] | .ref => [92]
  | .lparen => [40] | .rparen => [41] | .lbracket => [91] | .rbracket => [93] | .lbrace => [123] | .rbrace => [125]
  | .comma => [44] | .colon => [58] | .semicolon => [59] | .at => [64]

theorem code_eq (o : Op) : bytes (spelling o) = code o := by cases o <;> rfl

theorem longest_of {o : Op} {text : Bytes} (h : code o <+: text) (h' : ∀ o', code o' <+: text → (code o').length ≤ (code o).length) :
    Longest o text := by
  refine ⟨by rw [code_eq]; exact h, fun o' ho => ?_⟩
  rw [code_eq] at ho ⊢
  rw [code_eq]
  exact h' o' ho

/-- What an operator leaves. -/
def After (o : Op) (r' rest : Bytes) : Prop := rest = if o = .lt ∨ o = .gt then r'.drop 1 else r'

theorem op_case {o o' : Op} {r rest : Bytes} (b : UInt8) (r' : Bytes) (h : some (o', rest) = some (o, r))
    (hs : ∃ q, (code o' ++ q = b :: r' ∧ (After o' q rest)))
    (hl : ∀ o1, code o1 <+: b :: r' → (code o1).length ≤ (code o').length) :
    ∃ q, b :: r' = bytes (spelling o) ++ q ∧ After o q r ∧ Longest o (b :: r') := by
  cases h
  obtain ⟨q, h1, h2⟩ := hs
  exact ⟨q, by rw [code_eq, h1], h2, longest_of ⟨q, h1⟩ hl⟩

local macro "leaf" h:ident : tactic => `(tactic| (
  refine op_case _ _ $h ⟨_, rfl, rfl⟩ ?_
  intro o1 ho
  cases o1 <;> first
    | exact (by decide)
    | (exfalso; simp_all [code, prefix_cons_iff])))

set_option maxHeartbeats 2000000 in
theorem operator_spells {b : UInt8} {r : Bytes} {o : Op} {rest : Bytes} (h : operator b r = some (o, rest)) :
    ∃ q, b :: r = bytes (spelling o) ++ q ∧ After o q rest ∧ Longest o (b :: r) := by
  unfold operator at h
  by_cases hb : b = 46
  · subst hb
    rw [if_pos rfl] at h
    rcases withAssign_cases .concat .concatAssign r with ⟨t, rfl, e⟩ | ⟨hr, e⟩ <;> rw [e] at h <;> leaf h
  rw [if_neg hb] at h; clear hb
  by_cases hb : b = 43
  · subst hb
    rw [if_pos rfl] at h
    by_cases h0 : begins 43 r = true
    · obtain ⟨t, rfl⟩ := begins_iff.1 h0
      rw [if_pos h0] at h
      leaf h
    rw [if_neg h0] at h
    have h0 := not_begins h0
    rcases withAssign_cases .add .addAssign r with ⟨t, rfl, e⟩ | ⟨hr, e⟩ <;> rw [e] at h <;> leaf h
  rw [if_neg hb] at h; clear hb
  by_cases hb : b = 45
  · subst hb
    rw [if_pos rfl] at h
    by_cases h0 : begins 62 r = true
    · obtain ⟨t, rfl⟩ := begins_iff.1 h0
      rw [if_pos h0] at h
      leaf h
    rw [if_neg h0] at h
    have h0 := not_begins h0
    by_cases h1 : begins 45 r = true
    · obtain ⟨t, rfl⟩ := begins_iff.1 h1
      rw [if_pos h1] at h
      leaf h
    rw [if_neg h1] at h
    have h1 := not_begins h1
    rcases withAssign_cases .sub .subAssign r with ⟨t, rfl, e⟩ | ⟨hr, e⟩ <;> rw [e] at h <;> leaf h
  rw [if_neg hb] at h; clear hb
  by_cases hb : b = 42
  · subst hb
    rw [if_pos rfl] at h
    rcases withAssign_cases .mul .mulAssign r with ⟨t, rfl, e⟩ | ⟨hr, e⟩ <;> rw [e] at h <;> leaf h
  rw [if_neg hb] at h; clear hb
  by_cases hb : b = 47
  · subst hb
    rw [if_pos rfl] at h
    rcases withAssign_cases .div .divAssign r with ⟨t, rfl, e⟩ | ⟨hr, e⟩ <;> rw [e] at h <;> leaf h
  rw [if_neg hb] at h; clear hb
  by_cases hb : b = 37
  · subst hb
    rw [if_pos rfl] at h
    rcases withAssign_cases .mod .modAssign r with ⟨t, rfl, e⟩ | ⟨hr, e⟩ <;> rw [e] at h <;> leaf h
  rw [if_neg hb] at h; clear hb
  by_cases hb : b = 94
  · subst hb
    rw [if_pos rfl] at h
    rcases withAssign_cases .xor .xorAssign r with ⟨t, rfl, e⟩ | ⟨hr, e⟩ <;> rw [e] at h <;> leaf h
  rw [if_neg hb] at h; clear hb
  by_cases hb : b = 124
  · subst hb
    rw [if_pos rfl] at h
    by_cases h0 : begins 124 r = true
    · obtain ⟨t, rfl⟩ := begins_iff.1 h0
      rw [if_pos h0] at h
      leaf h
    rw [if_neg h0] at h
    have h0 := not_begins h0
    rcases withAssign_cases .bitOr .orAssign r with ⟨t, rfl, e⟩ | ⟨hr, e⟩ <;> rw [e] at h <;> leaf h
  rw [if_neg hb] at h; clear hb
  by_cases hb : b = 38
  · subst hb
    rw [if_pos rfl] at h
    by_cases h0 : begins 38 r = true
    · obtain ⟨t, rfl⟩ := begins_iff.1 h0
      rw [if_pos h0] at h
      leaf h
    rw [if_neg h0] at h
    have h0 := not_begins h0
    rcases withAssign_cases .bitAnd .andAssign r with ⟨t, rfl, e⟩ | ⟨hr, e⟩ <;> rw [e] at h <;> leaf h
  rw [if_neg hb] at h; clear hb
  by_cases hb : b = 61
  · subst hb
    rw [if_pos rfl] at h
    by_cases h0 : begins 61 r = true
    · obtain ⟨t, rfl⟩ := begins_iff.1 h0
      rw [if_pos h0] at h
      leaf h
    rw [if_neg h0] at h
    have h0 := not_begins h0
    by_cases h1 : begins 62 r = true
    · obtain ⟨t, rfl⟩ := begins_iff.1 h1
      rw [if_pos h1] at h
      leaf h
    rw [if_neg h1] at h
    have h1 := not_begins h1
    leaf h
  rw [if_neg hb] at h; clear hb
  by_cases hb : b = 60
  · subst hb
    rw [if_pos rfl] at h
    rcases less_cases r with ⟨t, rfl, e⟩ | ⟨t, rfl, h1, e⟩ | ⟨t, rfl, e⟩ | ⟨t, rfl, h1, e⟩ | ⟨h1, h2, e⟩ <;> rw [e] at h <;> leaf h
  rw [if_neg hb] at h; clear hb
  by_cases hb : b = 62
  · subst hb
    rw [if_pos rfl] at h
    rcases greater_cases r with ⟨t, rfl, e⟩ | ⟨t, rfl, h1, e⟩ | ⟨t, rfl, e⟩ | ⟨t, rfl, h1, h2, e⟩ | ⟨t, rfl, e⟩ | ⟨h1, h2, e⟩ <;> rw [e] at h <;> leaf h
  rw [if_neg hb] at h; clear hb
  by_cases hb : b = 33
  · subst hb
    rw [if_pos rfl] at h
    by_cases h0 : begins 61 r = true
    · obtain ⟨t, rfl⟩ := begins_iff.1 h0
      rw [if_pos h0] at h
      leaf h
    rw [if_neg h0] at h
    have h0 := not_begins h0
    leaf h
  rw [if_neg hb] at h; clear hb
  by_cases hb : b = 126
  · subst hb
    rw [if_pos rfl] at h
    leaf h
  rw [if_neg hb] at h; clear hb
  by_cases hb : b = 92
  · subst hb
    rw [if_pos rfl] at h
    leaf h
  rw [if_neg hb] at h; clear hb
  by_cases hb : b = 40
  · subst hb
    rw [if_pos rfl] at h
    leaf h
  rw [if_neg hb] at h; clear hb
  by_cases hb : b = 41
  · subst hb
    rw [if_pos rfl] at h
    leaf h
  rw [if_neg hb] at h; clear hb
  by_cases hb : b = 91
  · subst hb
    rw [if_pos rfl] at h
    leaf h
  rw [if_neg hb] at h; clear hb
  by_cases hb : b = 93
  · subst hb
    rw [if_pos rfl] at h
    leaf h
  rw [if_neg hb] at h; clear hb
  by_cases hb : b = 123
  · subst hb
    rw [if_pos rfl] at h
    leaf h
  rw [if_neg hb] at h; clear hb
  by_cases hb : b = 125
  · subst hb
    rw [if_pos rfl] at h
    leaf h
  rw [if_neg hb] at h; clear hb
  by_cases hb : b = 44
  · subst hb
    rw [if_pos rfl] at h
    leaf h
  rw [if_neg hb] at h; clear hb
  by_cases hb : b = 58
  · subst hb
    rw [if_pos rfl] at h
    leaf h
  rw [if_neg hb] at h; clear hb
  by_cases hb : b = 59
  · subst hb
    rw [if_pos rfl] at h
    leaf h
  rw [if_neg hb] at h; clear hb
  by_cases hb : b = 64
  · subst hb
    rw [if_pos rfl] at h
    leaf h
  rw [if_neg hb] at h; clear hb
  cases h

theorem code_inj {o o' : Op} (h : code o = code o') : o = o' := by
  cases o <;> cases o' <;> first | rfl | (exfalso; revert h; decide)

theorem code_cons (o : Op) : ∃ c t, code o = c :: t ∧ 10 ∉ c :: t := by
  cases o <;> exact ⟨_, _, rfl, by decide⟩

theorem longest_unique {o o' : Op} {text : Bytes} (h : Longest o text) (h' : Longest o' text) : o = o' := by
  obtain ⟨⟨a, ha⟩, h2⟩ := h
  obtain ⟨⟨b, hb⟩, h3⟩ := h'
  have hl := Nat.le_antisymm (h3 o ⟨a, ha⟩) (h2 o' ⟨b, hb⟩)
  rw [← hb] at ha
  have := (List.append_inj ha hl).1
  rw [code_eq, code_eq] at this
  exact code_inj this

theorem operator_some (o : Op) {b : UInt8} {r : Bytes} (h : code o <+: b :: r) : ∃ k, operator b r = some k := by
  obtain ⟨q, hq⟩ := h
  cases o <;> (cases hq; exact ⟨_, rfl⟩)

theorem operator_iff {o : Op} {b : UInt8} {r rest : Bytes} : operator b r = some (o, rest) ↔
    Longest o (b :: r) ∧ ∃ q, b :: r = bytes (spelling o) ++ q ∧ After o q rest := by
  constructor
  · intro h
    obtain ⟨q, h1, h2, h3⟩ := operator_spells h
    exact ⟨h3, q, h1, h2⟩
  · rintro ⟨h1, q, h2, h3⟩
    obtain ⟨⟨o', rest'⟩, hk⟩ := operator_some o (by rw [← code_eq]; exact h1.1)
    obtain ⟨q', a1, a2, a3⟩ := operator_spells hk
    obtain rfl := longest_unique h1 a3
    have : q' = q := by
      rw [h2] at a1
      exact (List.append_cancel_left a1).symm
    subst this
    unfold After at a2 h3
    rw [hk, a2, h3]

end Toke
end SPVM
