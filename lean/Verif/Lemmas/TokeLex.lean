import Verif.Lemmas.TokeRun
import Verif.Props.NumStr
/-!
# What one call of the tokenizer gives
-/
namespace SPVM
namespace Toke
open VM (Bytes)
open Literal (isDec isHex Const Libc lexNum)
open StrLit (isAlnumU begins cut strLit singleLit charLit)
open Spec.Toke
open Spec (NameChar Spells SpellsQ SpellsChar VarName NameEnd)

/-- The tokenizer is not inside a string literal with variables and not after a here document. -/
def Outside (st : St) : Prop := st.next = none ∧ st.expand = .no ∧ st.heredoc = false

/-! ## Rounds of the loop -/

theorem skip_len {src : Bytes} {st st' : St} (h : skip src st = .ok (some st')) : st'.rest.length < st.rest.length := by
  obtain ⟨t, h1, h2, _⟩ := skip_took h
  have := congrArg List.length h1
  rw [List.length_append] at this
  have := List.length_pos_iff.2 h2
  omega

theorem lexLoop_fuel (lc : Libc) (src : Bytes) : ∀ (n m : Nat) (st : St), st.rest.length < n → st.rest.length < m →
    lexLoop lc src n st = lexLoop lc src m st
  | 0, _, _, h, _ => absurd h (by omega)
  | _, 0, _, _, h => absurd h (by omega)
  | n + 1, m + 1, st, hn, hm => by
    have key : ∀ st', skip src (resume st) = .ok (some st') → lexLoop lc src n st' = lexLoop lc src m st' := by
      intro st' h
      have := skip_len h
      rw [(resume_rest st).1] at this
      exact lexLoop_fuel lc src n m st' (by omega) (by omega)
    rw [lexLoop, lexLoop]
    cases hs : skip src (resume st) with
    | die m => rfl
    | ub => rfl
    | ok o =>
      cases o with
      | none => rfl
      | some st' => simp only [key st' hs]

theorem resume_outside {st : St} (h : st.next = none) : resume st = st := by
  unfold resume
  rw [h, if_neg (by simp)]

theorem lexLoop_step (lc : Libc) {src : Bytes} {n : Nat} {st : St} {b : UInt8} {r : Bytes} (hr : st.rest = b :: r)
    (hl : st.line ≤ 2147483647) (hn : st.next ≠ some st.rest.length) (he : st.expand = .no ∧ st.heredoc = false ∨ st.expand = .var) :
    lexLoop lc src (n + 1) st =
      match skip src st with
      | .ok (some st') => lexLoop lc src n st'
      | .ok none => token lc st b r
      | .die m => .die m
      | .ub => .ub := by
  have hres : resume st = st := by
    unfold resume
    rw [if_neg hn]
  rw [lexLoop, if_neg (by omega), hres]
  simp only [hr]
  rcases he with ⟨h1, h2⟩ | h1
  · simp only [h1, h2]
    rw [if_neg (by simp)]
    cases skip src st with
    | ok o => cases o <;> rfl
    | die m => rfl
    | ub => rfl
  · simp only [h1]
    rw [if_neg (by simp)]
    cases skip src st with
    | ok o => cases o <;> rfl
    | die m => rfl
    | ub => rfl

theorem lex_skip (lc : Libc) {src : Bytes} {st st' : St} (ho : Outside st) (hl : st.line ≤ 2147483647)
    (h : skip src st = .ok (some st')) : lex lc src st = lex lc src st' := by
  have hlen := skip_len h
  unfold lex
  match hr : st.rest with
  | [] => rw [hr] at hlen; simp at hlen
  | b :: r =>
    rw [lexLoop_step lc hr hl (by rw [ho.1]; simp) (.inl ho.2), h]
    simp only
    rw [hr] at hlen
    rw [lexLoop_fuel lc src _ (st'.rest.length + 1) st' (by omega) (by omega)]

/-- The line number is checked. -/
def checked : Out (Tok × St) → Out (Tok × St)
  | .ok (t, st') => if st'.line > 2147483647 then .ub else .ok (t, st')
  | .die m => .die m
  | .ub => .ub

theorem lex_eq (lc : Libc) (src : Bytes) (st : St) : lex lc src st = checked (lexLoop lc src (st.rest.length + 1) st) := rfl

theorem lex_token (lc : Libc) {src : Bytes} {st : St} {b : UInt8} {r : Bytes} (hr : st.rest = b :: r) (hl : st.line ≤ 2147483647)
    (hn : st.next ≠ some st.rest.length) (he : st.expand = .no ∧ st.heredoc = false ∨ st.expand = .var)
    (h : skip src st = .ok none) : lex lc src st = checked (token lc st b r) := by
  rw [lex_eq, lexLoop_step lc hr hl hn he, h]

theorem checked_ok {t : Tok} {st' : St} (h : st'.line ≤ 2147483647) : checked (.ok (t, st')) = .ok (t, st') := by
  unfold checked
  simp only
  rw [if_neg (by omega)]

/-! ## Where a token begins -/

theorem skip_token {src : Bytes} {st : St} {b : UInt8} {r : Bytes} (hr : st.rest = b :: r)
    (hb : b ≠ 32 ∧ b ≠ 9 ∧ b ≠ 12 ∧ b ≠ 10 ∧ b ≠ 35) (hp : b = 61 → podBegins src st.rest r = false) : skip src st = .ok none := by
  obtain ⟨h1, h2, h3, h4, h5⟩ := hb
  unfold skip
  rw [hr]
  simp only
  rw [if_neg (by simp [h1, h2, h3]), if_neg h4, if_neg h5, if_neg]
  rintro ⟨a, b⟩
  rw [← hr, hp a] at b
  cases b

theorem afterLf_iff {src rest : Bytes} (h : rest <:+ src) : afterLf src rest = true ↔ LineBegin src rest := by
  obtain ⟨pre, rfl⟩ := h
  unfold afterLf LineBegin
  simp only [List.length_append, Bool.or_eq_true, beq_iff_eq]
  rw [show pre.length + rest.length - rest.length - 1 = pre.length - 1 by omega]
  constructor
  · rintro (h | h)
    · refine ⟨pre, rfl, .inl ?_⟩
      apply List.eq_nil_of_length_eq_zero
      omega
    · refine ⟨pre, rfl, ?_⟩
      cases hp : pre with
      | nil => exact .inl rfl
      | cons x y =>
        refine .inr ⟨pre.dropLast, ?_⟩
        have hne : pre ≠ [] := by rw [hp]; simp
        have hlt : pre.length - 1 < pre.length := by
          have := List.length_pos_iff.2 hne
          omega
        rw [List.getElem?_append_left hlt, List.getElem?_eq_getElem hlt, Option.some.injEq] at h
        rw [← hp]
        conv => lhs; rw [← List.dropLast_concat_getLast hne]
        rw [List.getLast_eq_getElem, h]
  · rintro ⟨pre', h1, h2⟩
    obtain rfl := List.append_cancel_right h1
    rcases h2 with rfl | ⟨p, rfl⟩
    · exact .inl (by simp)
    · right
      simp

theorem isAlpha_iff {b : UInt8} : isAlpha b = true ↔ Letter b := by
  unfold isAlpha Letter
  simp only [Bool.or_eq_true, Bool.and_eq_true, decide_eq_true_eq]
  exact ⟨Or.symm, Or.symm⟩

theorem isDec_iff {b : UInt8} : isDec b = true ↔ Digit b := by
  unfold isDec Digit
  simp

theorem isWhite_iff {b : UInt8} : isWhite b = true ↔ White b := by
  unfold isWhite White
  simp only [Bool.or_eq_true, beq_iff_eq]
  constructor
  · rintro ((((h | h) | h) | h) | h) <;> simp [h]
  · rintro (h | h | h | h | h) <;> simp [h]

theorem headIs_iff {p : UInt8 → Bool} {r : Bytes} : headIs p r = true ↔ ∃ b t, r = b :: t ∧ p b = true := by
  cases r with
  | nil => simp [headIs]
  | cons b t => simp [headIs]

theorem podBegins_false {src rest r : Bytes} (hs : rest <:+ src) (h : (∃ c t, r = c :: t ∧ Letter c) → ¬ LineBegin src rest) :
    podBegins src rest r = false := by
  cases hp : podBegins src rest r with
  | false => rfl
  | true =>
    unfold podBegins at hp
    rw [Bool.and_eq_true] at hp
    cases r with
    | nil => cases hp.2
    | cons c t => exact absurd ((afterLf_iff hs).1 hp.1) (h ⟨c, t, rfl, isAlpha_iff.1 hp.2⟩)

theorem hasSub_iff {p : Bytes} : ∀ {s : Bytes}, hasSub p s = true ↔ Contains s p
  | [] => by
    rw [hasSub, List.isPrefixOf_iff_prefix, List.prefix_nil]
    constructor
    · rintro rfl; exact ⟨[], [], rfl⟩
    · rintro ⟨x, y, h⟩
      have := congrArg List.length h
      simp only [List.length_nil, List.length_append] at this
      exact List.eq_nil_of_length_eq_zero (by omega)
  | b :: r => by
    rw [hasSub, Bool.or_eq_true, List.isPrefixOf_iff_prefix, hasSub_iff]
    constructor
    · rintro (⟨t, ht⟩ | h)
      · exact ⟨[], t, ht.symm⟩
      · exact contains_cons h
    · rintro ⟨x, y, h⟩
      cases x with
      | nil => exact .inl ⟨y, h.symm⟩
      | cons c x =>
        simp only [List.cons_append, List.cons.injEq] at h
        exact .inr ⟨x, y, h.2⟩

/-! ## Operators -/

theorem token_operator (lc : Libc) {st : St} {b : UInt8} {r rest : Bytes} {o : Op} (h : operator b r = some (o, rest))
    (h1 : b = 45 → ∀ d t, r = d :: t → ¬ Digit d) (h2 : b = 60 → ∀ t, r ≠ 60 :: 39 :: t)
    (h3 : b = 38 → ∀ c t, r = c :: t → ¬ Letter c ∧ c ≠ 95) (h4 : o = .lt ∨ o = .gt → r ≠ []) :
    token lc st b r = .ok (operatorTok st o rest) := by
  obtain ⟨q, a1, _, _⟩ := operator_spells h
  rw [code_eq] at a1
  have hb : isDec b = false ∧ b ≠ 39 ∧ b ≠ 34 ∧ b ≠ 36 ∧ b ≠ 113 ∧ isAlpha b = false ∧ b ≠ 95 := by
    have : b = (code o).headD 0 := by
      obtain ⟨c, t, hc, _⟩ := code_cons o
      rw [hc] at a1 ⊢
      cases a1
      rfl
    rw [this]
    cases o <;> decide
  obtain ⟨b1, b2, b3, b4, b5, b6, b7⟩ := hb
  unfold token
  rw [if_neg, if_neg b2, if_neg b3, if_neg b4, if_neg (by simp [b5]), if_neg (by simp [b6, b7]), if_neg, if_neg, h]
  · simp only
    rw [if_neg]
    rintro ⟨x, y⟩
    exact h4 x y
  · rintro ⟨x, y⟩
    obtain ⟨c, t, e, hc⟩ := headIs_iff.1 y
    have := h3 x c t e
    simp only [Bool.or_eq_true, beq_iff_eq] at hc
    rcases hc with hc | hc
    · exact this.1 (isAlpha_iff.1 hc)
    · exact this.2 hc
  · rintro ⟨x, y⟩
    obtain ⟨t, ht⟩ := List.isPrefixOf_iff_prefix.1 y
    exact h2 x t ht.symm
  · rintro (x | ⟨x, y⟩)
    · rw [b1] at x; cases x
    · obtain ⟨d, t, e, hd⟩ := headIs_iff.1 y
      exact h1 x d t e (isDec_iff.1 hd)

theorem code_head {o : Op} {b : UInt8} {r q : Bytes} (h : b :: r = code o ++ q) : b ≠ 32 ∧ b ≠ 9 ∧ b ≠ 12 ∧ b ≠ 10 ∧ b ≠ 35 := by
  have : b = (code o).headD 0 := by
    obtain ⟨c, t, hc, _⟩ := code_cons o
    rw [hc] at h ⊢
    cases h
    rfl
  rw [this]
  cases o <;> decide

/-! ## Names -/

theorem symbol_complete {n rest : Bytes} (h : NameText n) (hr : NoName rest) : symbol (n ++ rest) = (n, rest) := by
  induction h with
  | nil =>
    rw [List.nil_append, symbol.eq_def]
    split
    · rfl
    · rename_i b r
      rw [if_neg (fun h => hr.1 b r rfl ((StrLit.isAlnumU_iff b).1 h))]
      by_cases hb : b = 58
      · rw [if_pos hb]
        split
        · rename_i c r'
          rw [if_neg]
          rintro rfl
          exact hr.2 r' (by rw [hb])
        · rfl
      · rw [if_neg hb]
  | @char b n hb _ ih =>
    rw [List.cons_append, symbol.eq_def]
    simp only
    rw [if_pos ((StrLit.isAlnumU_iff b).2 hb), ih]
  | @colons n _ ih =>
    rw [List.cons_append, List.cons_append, symbol.eq_def]
    simp only
    rw [if_neg (by decide)]
    simp only [if_true, ih]

theorem fatComma_iff {rest : Bytes} : fatCommaNext rest = true ↔ FatComma rest := by
  unfold fatCommaNext
  rw [List.isPrefixOf_iff_prefix]
  constructor
  · rintro ⟨t, ht⟩
    refine ⟨rest.takeWhile isWhite, t, ?_, fun b hb => isWhite_iff.1 (takeWhile_all b hb)⟩
    conv => lhs; rw [takeDrop isWhite rest, ← ht]
    simp [bytes]
  · rintro ⟨w, r, rfl, hw⟩
    have : (w ++ bytes "=>" ++ r).dropWhile isWhite = bytes "=>" ++ r := by
      induction w with
      | nil => rfl
      | cons b w ih =>
        rw [List.cons_append, List.cons_append, List.dropWhile_cons_of_pos (isWhite_iff.2 (hw b (by simp)))]
        exact ih (fun c hc => hw c (List.mem_cons_of_mem _ hc))
    rw [this]
    exact ⟨r, rfl⟩

theorem nameStart_facts {b : UInt8} (h : Letter b ∨ b = 95) :
    (b ≠ 32 ∧ b ≠ 9 ∧ b ≠ 12 ∧ b ≠ 10 ∧ b ≠ 35) ∧ b ≠ 61 ∧ isDec b = false ∧ b ≠ 45 ∧ b ≠ 39 ∧ b ≠ 34 ∧ b ≠ 36 := by
  have hb : (65 ≤ b.toNat ∧ b.toNat ≤ 90) ∨ (97 ≤ b.toNat ∧ b.toNat ≤ 122) ∨ b.toNat = 95 := by
    rcases h with h | rfl
    · rcases h with h | h
      · exact .inl h
      · exact .inr (.inl h)
    · exact .inr (.inr rfl)
  refine ⟨⟨?_, ?_, ?_, ?_, ?_⟩, ?_, ?_, ?_, ?_, ?_, ?_⟩
  case refine_7 =>
    unfold isDec
    simp only [Bool.and_eq_false_iff, decide_eq_false_iff_not]
    omega
  all_goals
    rintro rfl
    revert hb
    decide

theorem token_word (lc : Libc) {st : St} {b : UInt8} {r : Bytes} (hb : Letter b ∨ b = 95) (hq : b = 113 → ∀ t, r ≠ 39 :: t) :
    token lc st b r = word st := by
  obtain ⟨_, _, h1, h2, h3, h4, h5⟩ := nameStart_facts hb
  unfold token
  rw [if_neg (by simp [h1, h2]), if_neg h3, if_neg h4, if_neg h5, if_neg, if_pos]
  · rcases hb with hb | hb
    · exact .inl (isAlpha_iff.2 hb)
    · exact .inr hb
  · rintro ⟨x, y⟩
    obtain ⟨t, ht⟩ := begins_iff.1 y
    exact hq x t ht

theorem keywords_eq (n : Bytes) : n ∈ keywords.map ascii ↔ ∃ k ∈ documentedKeywords, n = bytes k := by
  have h1 : ∀ k ∈ keywords, k ∈ documentedKeywords := by decide +kernel
  have h2 : ∀ k ∈ documentedKeywords, k ∈ keywords := by decide +kernel
  rw [List.mem_map]
  constructor
  · rintro ⟨k, hk, rfl⟩
    exact ⟨k, h1 k hk, rfl⟩
  · rintro ⟨k, hk, rfl⟩
    exact ⟨k, h2 k hk, rfl⟩

/-! ## Variables -/

theorem varCheck_none {n : Bytes} : varCheck n = none ↔ VarNameRules n := by
  unfold varCheck VarNameRules
  have e1 : ∀ p, hasSub p n = true ↔ Contains n p := fun p => hasSub_iff
  have e2 : List.isPrefixOf [58, 58] n = true ↔ bytes "::" <+: n := List.isPrefixOf_iff_prefix
  have e3 : List.isPrefixOf [58, 58] n.reverse = true ↔ bytes "::" <:+ n := by
    rw [List.isPrefixOf_iff_prefix, show ([58, 58] : Bytes) = (bytes "::").reverse from rfl, List.reverse_prefix]
  have e4 : headIs isDec n = true ↔ ∃ b r, n = b :: r ∧ Digit b := by
    rw [headIs_iff]
    constructor
    · rintro ⟨b, t, h, hd⟩; exact ⟨b, t, h, isDec_iff.1 hd⟩
    · rintro ⟨b, t, h, hd⟩; exact ⟨b, t, h, isDec_iff.2 hd⟩
  constructor
  · intro h
    split at h
    · cases h
    split at h
    · cases h
    split at h
    · cases h
    split at h
    · cases h
    split at h
    · cases h
    · rename_i a1 a2 a3 a4 a5
      exact ⟨fun h => a1 ((e1 _).2 h), fun h => a2 (e2.2 h), fun h => a3 (e3.2 h), fun h => a4 ((e1 _).2 h),
        fun b r e hd => a5 (e4.2 ⟨b, r, e, hd⟩)⟩
  · rintro ⟨a1, a2, a3, a4, a5⟩
    rw [if_neg (fun h => a1 ((e1 [95, 95]).1 h)), if_neg (fun h => a2 (e2.1 h)), if_neg (fun h => a3 (e3.1 h)),
      if_neg (fun h => a4 ((e1 [58, 58, 58, 58]).1 h)), if_neg]
    intro h
    obtain ⟨b, r, e, hd⟩ := e4.1 h
    exact a5 b r e hd

/-! ## Here documents -/

theorem takeWhile_stop {p : UInt8 → Bool} {n rest : Bytes} (h : ∀ b ∈ n, p b = true) (hr : ∀ b r, rest = b :: r → p b = false) :
    (n ++ rest).takeWhile p = n ∧ (n ++ rest).dropWhile p = rest := by
  induction n with
  | nil =>
    cases rest with
    | nil => exact ⟨rfl, rfl⟩
    | cons b r => simp [hr b r rfl]
  | cons b n ih =>
    obtain ⟨h1, h2⟩ := ih (fun c hc => h c (List.mem_cons_of_mem _ hc))
    simp [h b (by simp), h1, h2]

theorem hereBody_line {nm l t : Bytes} (h10 : 10 ∉ l) (bol : Bool) (hl : bol = true → ¬ nm ++ [10] <+: l ++ 10 :: t) :
    hereBody nm bol (l ++ 10 :: t) = match hereBody nm true t with
      | some (v, u) => some (l ++ 10 :: v, u)
      | none => none := by
  have hno : ∀ {b : Bool} {s : Bytes}, (b = true → ¬ nm ++ [10] <+: s) → ¬ (b && (nm ++ [10]).isPrefixOf s) = true := by
    intro b s h h'
    rw [Bool.and_eq_true] at h'
    exact h h'.1 (List.isPrefixOf_iff_prefix.1 h'.2)
  induction l generalizing bol with
  | nil =>
    rw [List.nil_append] at hl ⊢
    rw [hereBody, if_neg (hno hl)]
    simp only [show ((10 : UInt8) == 10) = true from rfl]
    cases hereBody nm true t <;> rfl
  | cons c l ih =>
    simp only [List.mem_cons, not_or] at h10
    have hc : (c == 10) = false := by simp [Ne.symm h10.1]
    rw [List.cons_append] at hl ⊢
    rw [hereBody, if_neg (hno hl), hc, ih h10.2 false (by simp)]
    cases hereBody nm true t <;> rfl

theorem prefix_line {n l t : Bytes} (hn : 10 ∉ n) (hl : 10 ∉ l) (h : n ++ [10] <+: l ++ 10 :: t) : n = l := by
  induction n generalizing l with
  | nil =>
    cases l with
    | nil => rfl
    | cons c l =>
      obtain ⟨u, hu⟩ := h
      simp only [List.nil_append, List.cons_append, List.cons.injEq] at hu
      simp [← hu.1] at hl
  | cons b n ih =>
    obtain ⟨u, hu⟩ := h
    cases l with
    | nil =>
      simp only [List.cons_append, List.nil_append, List.cons.injEq] at hu
      simp [hu.1] at hn
    | cons c l =>
      simp only [List.cons_append, List.cons.injEq] at hu
      simp only [List.mem_cons, not_or] at hn hl
      rw [hu.1, ih hn.2 hl.2 ⟨u, hu.2⟩]

theorem hereBody_complete {nm text u : Bytes} (hn : 10 ∉ nm) (h : HereText nm text) :
    hereBody nm true (text ++ (nm ++ 10 :: u)) = some (text, u) := by
  induction h with
  | nil =>
    rw [List.nil_append]
    have hp : (nm ++ [10]).isPrefixOf (nm ++ 10 :: u) = true := List.isPrefixOf_iff_prefix.2 ⟨u, by simp⟩
    cases hnm : nm ++ 10 :: u with
    | nil => simp at hnm
    | cons b r =>
      rw [hereBody, ← hnm, hp]
      simp [List.drop_append]
  | @line l t h1 h2 _ ih =>
    rw [List.append_assoc, List.cons_append, hereBody_line h1 true (fun _ hp => h2 (prefix_line hn h1 hp).symm), ih]

/-! ## White space, comments, POD -/

theorem comment_text (src : Bytes) (st : St) {c u : Bytes} (hc : 10 ∉ c) :
    ∃ sb, comment src st (c ++ 10 :: u) = { st with rest := u, line := st.line + 1, lineBegin := u.length, shebang := sb } := by
  have : (c ++ 10 :: u).dropWhile (· != 10) = 10 :: u := by
    refine (takeWhile_stop (fun b hb => ?_) (fun b r e => ?_)).2
    · simp only [bne_iff_ne, ne_eq]
      rintro rfl
      exact hc hb
    · cases e; rfl
  unfold comment
  simp only [this]
  split
  · exact ⟨_, rfl⟩
  · exact ⟨_, rfl⟩

theorem prefix_before_lf {p c u : Bytes} (hp : 10 ∉ p) (h : p <+: c ++ 10 :: u) : p <+: c := by
  induction p generalizing c with
  | nil => exact List.nil_prefix
  | cons b p ih =>
    simp only [List.mem_cons, not_or] at hp
    obtain ⟨q, hq⟩ := h
    cases c with
    | nil =>
      simp only [List.cons_append, List.nil_append, List.cons.injEq] at hq
      exact absurd hq.1.symm hp.1
    | cons d c =>
      simp only [List.cons_append, List.cons.injEq] at hq
      rw [hq.1]
      exact (List.prefix_cons_inj d).2 (ih hp.2 ⟨q, hq.2⟩)

theorem hash_comment (src : Bytes) (st : St) {c u : Bytes} (hc : 10 ∉ c) (hd : NoDirective c) :
    hash src st (c ++ 10 :: u) = .ok (comment src st (c ++ 10 :: u)) := by
  have key : ∀ p : Bytes, 10 ∉ p → ¬ p <+: c → ¬ p.isPrefixOf (c ++ 10 :: u) = true :=
    fun p h1 h2 h => h2 (prefix_before_lf h1 (List.isPrefixOf_iff_prefix.1 h))
  unfold hash
  rw [if_neg (key [108, 105, 110, 101, 32] (by decide) hd.1), if_neg (key [102, 105, 108, 101, 32] (by decide) hd.2.1),
    if_neg (key [108, 105, 98, 32] (by decide) hd.2.2)]

theorem isCut_inv {r : Bytes} (h : isCut r = true) : ∃ t, r = 99 :: 117 :: 116 :: t ∧ ∀ w q, t = w :: q → White w := by
  unfold isCut at h
  split at h
  · rename_i t
    refine ⟨t, rfl, ?_⟩
    rintro w q rfl
    exact isWhite_iff.1 h
  · cases h

theorem pod_text {tail u : Bytes} (ht : 10 ∉ tail) (hw : ∀ w q, tail = w :: q → White w) : ∀ {x : Bytes}, (x = [] ∨ ∃ y, x = y ++ [10]) → NoCut x →
    pod (x ++ 61 :: 99 :: 117 :: 116 :: (tail ++ 10 :: u)) = (10 :: u, x.count 10)
  | [], _, _ => by
    have hc : isCut (99 :: 117 :: 116 :: (tail ++ 10 :: u)) = true := by
      unfold isCut
      cases tail with
      | nil => rfl
      | cons w q => exact isWhite_iff.2 (hw w q rfl)
    have hd : (tail ++ 10 :: u).dropWhile (· != 10) = 10 :: u := by
      refine (takeWhile_stop (fun b hb => ?_) (fun b r e => ?_)).2
      · simp only [bne_iff_ne, ne_eq]
        rintro rfl
        exact ht hb
      · cases e; rfl
    rw [List.nil_append, pod, if_pos ⟨rfl, hc⟩]
    simp only [List.drop_succ_cons, List.drop_zero, hd]
    rfl
  | b :: x, hx, hno => by
    have hx' : x = [] ∨ ∃ y, x = y ++ [10] := by
      rcases hx with hx | ⟨y, hy⟩
      · cases hx
      · cases y with
        | nil =>
          simp only [List.nil_append, List.cons.injEq] at hy
          exact .inl hy.2
        | cons c y =>
          simp only [List.cons_append, List.cons.injEq] at hy
          exact .inr ⟨y, hy.2⟩
    have hno' : NoCut x := fun p w q e => hno (b :: p) w q (by rw [e]; rfl)
    rw [List.cons_append, pod, if_neg, pod_text ht hw hx' hno']
    · simp only [List.count_cons]
      by_cases hb : b = 10 <;> simp [hb]
    · rintro ⟨rfl, hc⟩
      obtain ⟨t, h1, h2⟩ := isCut_inv hc
      rcases hx with hx | ⟨y, hy⟩
      · cases hx
      · cases y with
        | nil =>
          simp only [List.nil_append, List.cons.injEq] at hy
          exact absurd hy.1 (by decide)
        | cons c y =>
          simp only [List.cons_append, List.cons.injEq] at hy
          obtain ⟨rfl, rfl⟩ := hy
          match y, h1, hno with
          | [], h1, _ => simp at h1
          | [_], h1, _ => simp at h1
          | [_, _], h1, _ => simp at h1
          | [x1, x2, x3], h1, hno =>
            simp only [List.cons_append, List.nil_append, List.cons.injEq] at h1
            obtain ⟨rfl, rfl, rfl, _⟩ := h1
            exact hno [] 10 [] rfl (.inr (.inr (.inr (.inl rfl))))
          | x1 :: x2 :: x3 :: x4 :: y', h1, hno =>
            simp only [List.cons_append, List.cons.injEq] at h1
            obtain ⟨rfl, rfl, rfl, h1⟩ := h1
            exact hno [] x4 (y' ++ [10]) rfl (h2 x4 _ h1.symm)

end Toke
end SPVM
