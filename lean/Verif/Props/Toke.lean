import Verif.Lemmas.TokeLex
import Verif.Props.StrLit
/-!
# The tokenizer: the properties
-/
namespace SPVM
namespace Toke
open VM (Bytes)
open Literal (isDec isHex Const Libc lexNum)
open StrLit (isAlnumU begins cut strLit singleLit charLit)
open Spec.Toke
open Spec (NameChar Spells SpellsQ SpellsChar VarName NameEnd)

/-- A C library for the examples, and the state before a source. -/
def libc0 : Libc := ⟨fun _ => true, fun _ => true⟩
def at0 (s : String) : St := start (bytes "a.spvm") (bytes s)

theorem at0_outside (s : String) : Outside (at0 s) := ⟨rfl, rfl, rfl⟩
theorem at0_line (s : String) : (at0 s).line ≤ 2147483647 := by show 1 ≤ 2147483647; omega
theorem at0_rest (s : String) : (at0 s).rest <:+ bytes s := List.suffix_refl _

theorem nameChars_dec {n : Bytes} (h : n.all isAlnumU = true) : ∀ c ∈ n, NameChar c := fun c hc =>
  (StrLit.isAlnumU_iff c).1 (List.all_eq_true.1 h c hc)

/-- The tokens of a source, and their lines. -/
def tokens0 (s : String) : Out (List (Tok × Nat)) := tokens libc0 (bytes s) (5 * (bytes s).length + 1) (at0 s)

/-! ## Line numbers, the number of tokens -/

theorem counted_fair {p s t r : Bytes} {tok : Tok} (h : Counted (p ++ (s ++ t ++ r)) tok (p ++ (s ++ t)).length) (ht : t ≠ []) : Fair tok t := by
  have hl := List.length_pos_iff.2 ht
  refine ⟨fun e => ?_, fun e => ?_⟩
  · rintro ⟨u, rfl⟩
    refine h.1 e ?_
    rw [show p ++ (s ++ (u ++ [10, 39]) ++ r) = (p ++ s ++ u) ++ 10 :: 39 :: r by simp [List.append_assoc]]
    have e2 : List.length (p ++ (s ++ (u ++ [10, 39]))) - 2 = List.length (p ++ s ++ u) := by simp only [List.length_append, List.length_cons, List.length_nil]; omega
    rw [e2]
    simp
  · rintro ⟨u, rfl⟩
    refine h.2 e ?_
    rw [show p ++ (s ++ (u ++ [10]) ++ r) = (p ++ s ++ u) ++ 10 :: r by simp [List.append_assoc]]
    have e2 : List.length (p ++ (s ++ (u ++ [10]))) - 1 = List.length (p ++ s ++ u) := by simp only [List.length_append, List.length_cons, List.length_nil]; omega
    rw [e2]
    simp

theorem fair_nil {tok : Tok} : Fair tok [] := by
  refine ⟨fun _ h => ?_, fun _ h => ?_⟩ <;> simp at h

theorem run_lines {lc : Libc} {src : Bytes} {st st' : St} {ts : List (Tok × Nat × Nat)} (h : Run lc src st ts st') :
    ∀ {pre : Bytes}, src = pre ++ st.rest → Undirected st.rest → st.line = 1 + pre.count 10 → (∀ x ∈ ts, Counted src x.1 x.2.2) →
    ∀ x ∈ ts, x.2.2 ≤ src.length ∧ x.2.1 = 1 + (src.take x.2.2).count 10 := by
  induction h with
  | nil => intro pre _ _ _ _ x hx; cases hx
  | cons hl hne hr ih =>
    rename_i st st1 st2 t ts
    intro pre hs hu hline hc x hx
    obtain ⟨s, u, h1, _, h3⟩ := lex_took hl hne
    have hs' : src = (pre ++ (s ++ u)) ++ st1.rest := by rw [hs, h1]; simp only [List.append_assoc]
    have hpos : src.length - st1.rest.length = (pre ++ (s ++ u)).length := by
      have := congrArg List.length hs'
      rw [List.length_append (as := pre ++ (s ++ u))] at this
      omega
    have hl1 : st1.line = 1 + (pre ++ (s ++ u)).count 10 := by
      have hf : Fair t u := by
        by_cases hu0 : u = []
        · rw [hu0]; exact fair_nil
        · have := hc _ (List.mem_cons_self ..)
          simp only at this
          rw [hpos, hs, h1] at this
          exact counted_fair this hu0
      rw [h3 hu hf, hline, List.count_append (l₁ := pre)]
      omega
    rcases List.mem_cons.1 hx with rfl | hx
    · simp only
      refine ⟨by omega, ?_⟩
      rw [hpos, hl1, hs', List.take_left' rfl]
    · have hu1 : Undirected st1.rest := by rw [h1] at hu; exact undirected_append hu
      exact ih hs' hu1 hl1 (fun x hx => hc x (List.mem_cons_of_mem _ hx)) x hx

/-- **C66**, line numbers.  Without directives, the line number of every token is one more than the number of line feeds of the source up to its end.  A
character literal with a raw line feed, and `<`, `>` or `scalar` right before a line feed are the exceptions. -/
theorem line_numbers_partial {lc : Libc} {file src : Bytes} {ts : List (Tok × Nat × Nat)} {st' : St} (h : Run lc src (start file src) ts st')
    (hu : Undirected src) (hc : ∀ x ∈ ts, Counted src x.1 x.2.2) :
    ∀ tok line pos, (tok, line, pos) ∈ ts → pos ≤ src.length ∧ line = 1 + (src.take pos).count 10 :=
  fun tok line pos hx => run_lines h (pre := []) rfl hu rfl hc (tok, line, pos) hx

theorem undirected_dec {src : Bytes} (h : (hasSub (bytes "#line ") src || hasSub (bytes "#file ") src || hasSub (bytes "#lib ") src ||
    hasSub [48, 120, 10] src || hasSub [48, 88, 10] src) = false) : Undirected src := by
  simp only [Bool.or_eq_false_iff] at h
  obtain ⟨⟨⟨⟨h1, h2⟩, h3⟩, h4⟩, h5⟩ := h
  have key : ∀ p, hasSub p src = false → ¬ Contains src p := fun p hp hc => by
    rw [hasSub_iff.2 hc] at hp; cases hp
  exact ⟨key _ h1, key _ h2, key _ h3, key _ h4, key _ h5⟩

example : ∀ tok line pos, (tok, line, pos) ∈ [(Tok.name (bytes "ab"), 2, 4), (.op .semicolon, 3, 6)] →
    pos ≤ 6 ∧ line = 1 + ((bytes "#\nab\n;").take pos).count 10 := by
  have h : Run libc0 (bytes "#\nab\n;") (start [] (bytes "#\nab\n;")) [(Tok.name (bytes "ab"), 2, 4), (.op .semicolon, 3, 6)]
      { start [] (bytes "#\nab\n;") with rest := [], line := 3, lineBegin := 1 } :=
    .cons (st1 := { start [] (bytes "#\nab\n;") with rest := bytes "\n;", line := 2, lineBegin := 4 }) (by decide +kernel) (by decide)
      (.cons (t := .op .semicolon) (st1 := { start [] (bytes "#\nab\n;") with rest := [], line := 3, lineBegin := 1 }) (by decide +kernel) (by decide) .nil)
  refine line_numbers_partial h (undirected_dec (by decide +kernel)) (fun x hx => ?_)
  unfold Counted
  rcases List.mem_cons.1 hx with rfl | hx
  · decide
  · rcases List.mem_cons.1 hx with rfl | hx
    · decide
    · cases hx

theorem run_measure {lc : Libc} {src : Bytes} {st st' : St} {ts : List (Tok × Nat × Nat)} (h : Run lc src st ts st') :
    ts.length + measure st' ≤ measure st := by
  induction h with
  | nil => simp
  | cons hl hne _ ih =>
    obtain ⟨_, _, _, h2, _⟩ := lex_took hl hne
    rw [List.length_cons]
    omega

/-- **C66**, every source is read to its end: there are at most five tokens for every byte of the source, so the tokenizer does not give tokens forever. -/
theorem token_count {lc : Libc} {file src : Bytes} {ts : List (Tok × Nat × Nat)} {st' : St} (h : Run lc src (start file src) ts st') :
    ts.length ≤ 5 * src.length := by
  have := run_measure h
  have h0 : measure (start file src) = 5 * src.length := rfl
  omega

theorem tokens_step {lc : Libc} {src : Bytes} {n : Nat} {st st1 : St} {t : Tok} (hl : lex lc src st = .ok (t, st1)) (ht : t ≠ .eof) :
    tokens lc src (n + 1) st = match tokens lc src n st1 with
      | .ok ts => .ok ((t, st1.line) :: ts)
      | .die m => .die m
      | .ub => .ub := by
  rw [tokens, hl]
  cases t <;> first | rfl | exact absurd rfl ht

theorem tokens_run {lc : Libc} {src : Bytes} : ∀ {n : Nat} {st : St}, measure st < n →
    (∃ ts st' st'', Run lc src st ts st' ∧ lex lc src st' = .ok (.eof, st'') ∧ tokens lc src n st = .ok (ts.map fun x => (x.1, x.2.1))) ∨
    (∃ ts st', Run lc src st ts st' ∧ ((∃ m, lex lc src st' = .die m ∧ tokens lc src n st = .die m) ∨ lex lc src st' = .ub ∧ tokens lc src n st = .ub))
  | 0, st, h => absurd h (by omega)
  | n + 1, st, h => by
    cases hl : lex lc src st with
    | die m => exact .inr ⟨[], st, .nil, .inl ⟨m, hl, by rw [tokens, hl]⟩⟩
    | ub => exact .inr ⟨[], st, .nil, .inr ⟨hl, by rw [tokens, hl]⟩⟩
    | ok p =>
      obtain ⟨t, st1⟩ := p
      by_cases ht : t = .eof
      · subst ht
        exact .inl ⟨[], st, st1, .nil, hl, by rw [tokens, hl]; rfl⟩
      · obtain ⟨_, _, _, h2, _⟩ := lex_took hl ht
        rw [tokens_step hl ht]
        rcases tokens_run (n := n) (st := st1) (by omega) with ⟨ts, st', st'', h3, h4, h5⟩ | ⟨ts, st', h3, h4⟩
        · refine .inl ⟨_, st', st'', .cons hl ht h3, h4, ?_⟩
          rw [h5]; rfl
        · refine .inr ⟨_, st', .cons hl ht h3, ?_⟩
          rcases h4 with ⟨m, h4, h5⟩ | ⟨h4, h5⟩
          · exact .inl ⟨m, h4, by rw [h5]⟩
          · exact .inr ⟨h4, by rw [h5]⟩

/-- **C66**, reading a source gives all its tokens, or the message of the first error. -/
theorem tokens_complete (lc : Libc) (file src : Bytes) :
    (∃ ts st' st'', Run lc src (start file src) ts st' ∧ lex lc src st' = .ok (.eof, st'') ∧
      tokens lc src (5 * src.length + 1) (start file src) = .ok (ts.map fun x => (x.1, x.2.1))) ∨
    (∃ ts st', Run lc src (start file src) ts st' ∧ ((∃ m, lex lc src st' = .die m ∧ tokens lc src (5 * src.length + 1) (start file src) = .die m) ∨
      lex lc src st' = .ub ∧ tokens lc src (5 * src.length + 1) (start file src) = .ub)) := by
  refine tokens_run ?_
  have h0 : measure (start file src) = 5 * src.length := rfl
  omega

/-! ## Operators -/

/-- **C66**, operators.  The longest operator that the text begins with is the token, the text after it follows, and the line does not change.  Not covered:
`<` and `>`; `-` before a digit is the sign of a literal, `<<'` a here document, `&` before a name the outmost class, and `=` before a letter at the
beginning of a line POD. -/
theorem operators_partial (lc : Libc) {src : Bytes} {st : St} {o : Op} {rest : Bytes} (ho : Outside st) (hl : st.line ≤ 2147483647)
    (hs : st.rest <:+ src) (hr : st.rest = bytes (spelling o) ++ rest) (h : Longest o st.rest) (hlt : o ≠ .lt ∧ o ≠ .gt)
    (hsub : o = .sub → ∀ d t, rest = d :: t → ¬ Digit d) (hshl : o = .shl → ∀ t, rest ≠ 39 :: t)
    (hand : o = .bitAnd → ∀ c t, rest = c :: t → ¬ Letter c ∧ c ≠ 95)
    (hpod : o = .assign → (∃ c t, rest = c :: t ∧ Letter c) → ¬ LineBegin src st.rest) :
    lex lc src st = .ok (.op o, { st with
      rest := rest, heredoc := false, arrow := o = .arrow, method := o = .arrow, field := st.arrow ∧ o = .lbrace, expand := .no }) := by
  obtain ⟨h1, h2, h3⟩ := ho
  obtain ⟨b, r, hb, _⟩ := code_cons o
  rw [code_eq] at hr
  have hbr : st.rest = b :: (r ++ rest) := by rw [hr, hb]; rfl
  have hop : operator b (r ++ rest) = some (o, rest) := by
    refine operator_iff.2 ⟨by rw [← hbr]; exact h, rest, by rw [code_eq, ← hbr, hr], ?_⟩
    unfold After
    rw [if_neg (fun e => e.elim hlt.1 hlt.2)]
  have hL : ∀ o', code o' <+: st.rest → (code o').length ≤ (code o).length := by
    intro o' ho'
    have := h.2 o' (by rw [code_eq]; exact ho')
    rwa [code_eq, code_eq] at this
  have hne := code_head (o := o) (b := b) (r := r ++ rest) (q := rest) (by rw [← hbr, hr])
  have hskip : skip src st = .ok none := by
    refine skip_token hbr hne (fun e => ?_)
    refine podBegins_false hs (fun hc => ?_)
    subst e
    by_cases ha : o = .assign
    · subst ha
      cases hb
      exact hpod rfl hc
    · exfalso
      obtain ⟨c, t, hc1, hc2⟩ := hc
      cases o <;> cases hb <;> first | exact absurd rfl ha | (cases hc1; revert hc2; unfold Letter; decide)
  rw [lex_token lc hbr hl (by rw [h1]; simp) (.inl ⟨h2, h3⟩) hskip, token_operator lc hop]
  · rw [checked_ok (by simp only [operatorTok, St.clear]; exact hl)]
    simp only [operatorTok, St.clear, Bool.decide_and, Bool.decide_eq_true]
    rfl
  · rintro rfl d t e
    by_cases ha : o = .sub
    · subst ha
      cases hb
      exact hsub rfl d t e
    · cases o <;> cases hb <;> first | exact absurd rfl ha | (cases e; unfold Digit; decide)
  · rintro rfl t e
    by_cases ha : o = .shl
    · subst ha
      cases hb
      cases e
      exact hshl rfl _ rfl
    · cases o <;> cases hb <;> first | exact absurd rfl ha | exact absurd rfl hlt.1 | exact absurd rfl hlt.2 | (revert e; simp)
  · rintro rfl c t e
    by_cases ha : o = .bitAnd
    · subst ha
      cases hb
      exact hand rfl _ _ e
    · cases o <;> cases hb <;> first | exact absurd rfl ha | (cases e; unfold Letter; decide)
  · rintro (e | e)
    · exact absurd e hlt.1
    · exact absurd e hlt.2

example : lex libc0 (bytes ">>>=1") (at0 ">>>=1") = .ok (.op .ushrAssign, { at0 ">>>=1" with rest := [49] }) :=
  operators_partial libc0 (at0_outside _) (at0_line _) (at0_rest _) (by decide +kernel) ⟨by decide +kernel, fun o' _ => by cases o' <;> decide +kernel⟩ (by decide)
    (fun h => nomatch h) (fun h => nomatch h) (fun h => nomatch h) (fun h => nomatch h)

/-- `<` and `>` are tokens too, but the character after them is taken away, whatever it is.  This does no harm when it is a space. -/
theorem angles_partial (lc : Libc) {src : Bytes} {st : St} {o : Op} {c : UInt8} {rest : Bytes} (ho : Outside st) (hl : st.line ≤ 2147483647)
    (hr : st.rest = bytes (spelling o) ++ c :: rest) (h : Longest o st.rest) (hlt : o = .lt ∨ o = .gt) :
    lex lc src st = .ok (.op o, { st with
      rest := rest, heredoc := false, arrow := false, method := false, field := false, expand := .no }) := by
  obtain ⟨h1, h2, h3⟩ := ho
  obtain ⟨b, hb, hb'⟩ : ∃ b, code o = [b] ∧ (b = 60 ∨ b = 62) := by rcases hlt with rfl | rfl <;> exact ⟨_, rfl, by decide⟩
  rw [code_eq] at hr
  have hbr : st.rest = b :: c :: rest := by rw [hr, hb]; rfl
  have hop : operator b (c :: rest) = some (o, rest) := by
    refine operator_iff.2 ⟨by rw [← hbr]; exact h, c :: rest, by rw [code_eq, ← hbr, hr], ?_⟩
    unfold After
    rw [if_pos hlt]
    rfl
  have hskip : skip src st = .ok none := by
    refine skip_token hbr (code_head (o := o) (q := c :: rest) (by rw [← hbr, hr])) (fun e => ?_)
    rcases hb' with rfl | rfl <;> cases e
  rw [lex_token lc hbr hl (by rw [h1]; simp) (.inl ⟨h2, h3⟩) hskip, token_operator lc hop]
  · rw [checked_ok (by simp only [operatorTok, St.clear]; exact hl)]
    rcases hlt with rfl | rfl <;> simp [operatorTok, St.clear]
  · rintro rfl; rcases hb' with e | e <;> cases e
  · rintro rfl t e
    have := h.2 .shl ⟨39 :: t, by rw [hbr, e]; rfl⟩
    rcases hlt with rfl | rfl
    · exact absurd this (by decide)
    · cases hb
  · rintro rfl; rcases hb' with e | e <;> cases e
  · simp

example : lex libc0 (bytes "< 1") (at0 "< 1") = .ok (.op .lt, { at0 "< 1" with rest := [49] }) :=
  angles_partial libc0 (o := .lt) (c := 32) (at0_outside _) (at0_line _) (by decide +kernel)
    ⟨by decide +kernel, fun o' h => by cases o' <;> revert h <;> decide +kernel⟩ (by decide)

/-! ## White space, comments and POD -/

theorem lineBegin_snoc {src pre r : Bytes} (h : src = pre ++ 10 :: r) : LineBegin src r :=
  ⟨pre ++ [10], by rw [h]; simp, .inr ⟨pre, rfl⟩⟩

/-- **C66**, blanks.  White space, comments and POD yield no token; the line feeds in them are counted. -/
theorem blanks_skipped (lc : Libc) {src : Bytes} {b b' : Bool} {t : Bytes} (h : Blank b t b') : ∀ {st : St} {r : Bytes}, Outside st → st.rest <:+ src →
    st.rest = t ++ r → (b = true → LineBegin src st.rest) → st.line + t.count 10 ≤ 2147483647 →
    ∃ lb sb, lex lc src st = lex lc src { st with rest := r, line := st.line + t.count 10, lineBegin := lb, shebang := sb } := by
  induction h with
  | nil =>
    intro st r ho hs hr _ _
    refine ⟨st.lineBegin, st.shebang, ?_⟩
    rw [← show st.rest = r from hr]
    rfl
  | @space b c t b' hc _ ih =>
    intro st r ho hs hr _ hl
    have h10 : c ≠ 10 := by rcases hc with rfl | rfl | rfl <;> decide
    have hcount : (c :: t).count 10 = t.count 10 := by rw [List.count_cons]; simp [h10]
    rw [hcount] at hl
    have hsk : skip src st = .ok (some { st with rest := t ++ r }) := by
      unfold skip
      rw [hr, List.cons_append]
      simp only
      rw [if_pos hc]
    obtain ⟨lb, sb, e⟩ := ih (st := { st with rest := t ++ r }) (r := r) ho (List.IsSuffix.trans ⟨[c], by rw [hr]; rfl⟩ hs) rfl (by simp) hl
    exact ⟨lb, sb, by rw [lex_skip lc ho (by omega) hsk, e, hcount]⟩
  | @line b t b' _ ih =>
    intro st r ho hs hr _ hl
    have hcount : (10 :: t).count 10 = t.count 10 + 1 := by simp
    rw [hcount] at hl
    have hsk : skip src st = .ok (some { st with rest := t ++ r, line := st.line + 1, lineBegin := (t ++ r).length }) := by
      unfold skip
      rw [hr, List.cons_append]
      simp only
      rw [if_neg (by decide)]
      rfl
    obtain ⟨pre, hp⟩ := hs
    obtain ⟨lb, sb, e⟩ := ih (st := { st with rest := t ++ r, line := st.line + 1, lineBegin := (t ++ r).length }) (r := r) ho
      (List.IsSuffix.trans ⟨[10], by rw [hr]; rfl⟩ ⟨pre, hp⟩) rfl (fun _ => lineBegin_snoc (pre := pre) (by rw [← hp, hr]; rfl))
      (by simp only; omega)
    refine ⟨lb, sb, ?_⟩
    rw [lex_skip lc ho (by omega) hsk, e, hcount]
    simp only [show st.line + 1 + t.count 10 = st.line + (t.count 10 + 1) by omega]
  | @comment b c t b' hc hd _ ih =>
    intro st r ho hs hr _ hl
    have hcount : (35 :: (c ++ 10 :: t)).count 10 = t.count 10 + 1 := by
      simp [count_zero hc]
    rw [hcount] at hl
    obtain ⟨sb1, h1⟩ := comment_text src st (u := t ++ r) hc
    have hsk : skip src st = .ok (some { st with rest := t ++ r, line := st.line + 1, lineBegin := (t ++ r).length, shebang := sb1 }) := by
      unfold skip
      rw [hr, List.cons_append]
      simp only
      rw [if_neg (by decide), if_neg (by decide), if_pos trivial, List.append_assoc, List.cons_append, hash_comment src st hc hd, h1]
    obtain ⟨pre, hp⟩ := hs
    have hp' : src = (pre ++ 35 :: c) ++ 10 :: (t ++ r) := by rw [← hp, hr]; simp
    obtain ⟨lb, sb, e⟩ := ih (st := { st with rest := t ++ r, line := st.line + 1, lineBegin := (t ++ r).length, shebang := sb1 }) (r := r) ho
      ⟨pre ++ 35 :: c ++ [10], by rw [hp']; simp⟩ rfl (fun _ => lineBegin_snoc hp') (by simp only; omega)
    refine ⟨lb, sb, ?_⟩
    rw [lex_skip lc ho (by omega) hsk, e, hcount]
    simp only [show st.line + 1 + t.count 10 = st.line + (t.count 10 + 1) by omega]
  | @pod c body tail t b' hc hno ht hw _ ih =>
    intro st r ho hs hr hlb hl
    have hL : LineBegin src st.rest := hlb rfl
    have hc10 : c ≠ 10 := by rintro rfl; revert hc; unfold Letter; decide
    have hcount : (61 :: c :: (body ++ [10] ++ bytes "=cut" ++ tail ++ 10 :: t)).count 10 = (body ++ [10]).count 10 + 1 + t.count 10 := by
      rw [List.count_cons, List.count_cons, List.count_append, List.count_append, List.count_append (l₁ := body ++ [10]), count_zero ht]
      simp [hc10, show List.count 10 (bytes "=cut") = 0 from rfl]
      omega
    rw [hcount] at hl
    have hrest : st.rest = 61 :: c :: ((body ++ [10]) ++ 61 :: 99 :: 117 :: 116 :: (tail ++ 10 :: (t ++ r))) := by
      rw [hr, show bytes "=cut" = [61, 99, 117, 116] from rfl]
      simp
    have hpod := pod_text (tail := tail) (u := t ++ r) ht hw (x := body ++ [10]) (.inr ⟨body, rfl⟩) hno
    have hsk : skip src st = .ok (some { st with rest := 10 :: (t ++ r), line := st.line + (body ++ [10]).count 10 }) := by
      have hpb : podBegins src st.rest (c :: ((body ++ [10]) ++ 61 :: 99 :: 117 :: 116 :: (tail ++ 10 :: (t ++ r)))) = true := by
        unfold podBegins
        rw [(afterLf_iff hs).2 hL]
        exact isAlpha_iff.2 hc
      rw [hrest] at hpb
      unfold skip
      rw [hrest]
      simp only
      rw [if_neg (by decide), if_neg (by decide), if_neg (by decide), if_pos ⟨trivial, hpb⟩]
      simp only [List.drop_succ_cons, List.drop_zero, hpod]
    obtain ⟨pre, hp⟩ := hs
    have hp' : src = (pre ++ 61 :: c :: (body ++ [10]) ++ 61 :: 99 :: 117 :: 116 :: tail) ++ 10 :: (t ++ r) := by rw [← hp, hrest]; simp
    have hsk2 : skip src { st with rest := 10 :: (t ++ r), line := st.line + (body ++ [10]).count 10 } =
        .ok (some { st with rest := t ++ r, line := st.line + (body ++ [10]).count 10 + 1, lineBegin := (t ++ r).length }) := by
      unfold skip
      simp only
      rw [if_neg (by decide)]
      rfl
    obtain ⟨lb, sb, e⟩ := ih (st := { st with rest := t ++ r, line := st.line + (body ++ [10]).count 10 + 1, lineBegin := (t ++ r).length }) (r := r) ho
      ⟨(pre ++ 61 :: c :: (body ++ [10]) ++ 61 :: 99 :: 117 :: 116 :: tail) ++ [10], by rw [hp']; simp⟩ rfl (fun _ => lineBegin_snoc hp') (by simp only; omega)
    refine ⟨lb, sb, ?_⟩
    have ho2 : Outside { st with rest := 10 :: (t ++ r), line := st.line + (body ++ [10]).count 10 } := ho
    have e2 := lex_skip lc ho2 (by simp only; omega) hsk2
    rw [lex_skip lc ho (by omega) hsk, e2, e, hcount]
    simp only [show st.line + (body ++ [10]).count 10 + 1 + t.count 10 = st.line + ((body ++ [10]).count 10 + 1 + t.count 10) by omega]

example : ∃ lb sb, lex libc0 (bytes "=x\n\n=cut\n #\n;") (at0 "=x\n\n=cut\n #\n;") =
    lex libc0 (bytes "=x\n\n=cut\n #\n;") { at0 "=x\n\n=cut\n #\n;" with rest := [59], line := 5, lineBegin := lb, shebang := sb } :=
  blanks_skipped libc0 (b := true) (b' := true) (t := bytes "=x\n\n=cut\n #\n") (r := [59])
    (.pod (c := 120) (body := [10]) (tail := []) (t := [32, 35, 10]) (by unfold Letter; decide)
      (fun p w q h => absurd (congrArg List.length h) (by simp [bytes]; omega)) (by decide) (by simp)
      (.space (.inl rfl) (.comment (c := []) (by decide) (by unfold NoDirective; decide) .nil)))
    (at0_outside _) (at0_rest _) (by decide +kernel) (fun _ => ⟨[], rfl, .inl rfl⟩) (by decide +kernel)

/-! ## Line directives -/

theorem denotes_dec {ds : Bytes} {n : Nat} (h : Spec.Denotes 10 ds n) : ds ≠ [] ∧ ∀ b ∈ ds, isDec b = true ∧ b ≠ 0 ∧ b ≠ 32 := by
  have key : ∀ {b : UInt8} {d : Nat}, Spec.digitValue b = some d → d < 10 → isDec b = true ∧ b ≠ 0 ∧ b ≠ 32 := by
    intro b d hb hd
    have : 48 ≤ b.toNat ∧ b.toNat ≤ 57 := by
      unfold Spec.digitValue at hb
      split at hb
      · assumption
      · split at hb
        · cases hb; omega
        · split at hb
          · cases hb; omega
          · cases hb
    refine ⟨isDec_iff.2 this, ?_, ?_⟩ <;> (rintro rfl; revert this; decide)
  induction h with
  | one h1 h2 => exact ⟨by simp, by simpa using key h1 h2⟩
  | snoc _ h1 h2 ih =>
    refine ⟨by simp, fun b hb => ?_⟩
    rcases List.mem_append.1 hb with hb | hb
    · exact ih.2 b hb
    · rw [List.mem_singleton] at hb
      subst hb
      exact key h1 h2

theorem line_text {src : Bytes} {st : St} {a b n : Nat} {ds u : Bytes} (hb : st.lineBegin = st.rest.length) (hd : Spec.Denotes 10 ds n) :
    hash src st (108 :: 105 :: 110 :: 101 :: 32 :: (List.replicate a 32 ++ (ds ++ (List.replicate b 32 ++ 10 :: u)))) =
      if 1 ≤ n ∧ n ≤ 2147483647 then .ok { st with rest := u, line := n, lineBegin := u.length } else .die msgLineRange := by
  obtain ⟨hd0, hd1⟩ := denotes_dec hd
  have stop32 : ∀ (k : Nat) (t : Bytes), (∀ c t', t = c :: t' → c ≠ 32) → spaces (List.replicate k 32 ++ t) = t := by
    intro k t ht
    refine (takeWhile_stop (fun b hb => ?_) (fun b r e => ?_)).2
    · rw [List.eq_of_mem_replicate hb]; rfl
    · have := ht b r e
      simpa using this
  have hs1 : spaces (32 :: (List.replicate a 32 ++ (ds ++ (List.replicate b 32 ++ 10 :: u)))) = ds ++ (List.replicate b 32 ++ 10 :: u) := by
    have := stop32 (a + 1) (ds ++ (List.replicate b 32 ++ 10 :: u)) ?_
    · rwa [List.replicate_succ, List.cons_append] at this
    · intro c t' e
      cases ds with
      | nil => exact absurd rfl hd0
      | cons d ds => cases e; exact (hd1 _ (List.mem_cons_self ..)).2.2
  have hs2 : (ds ++ (List.replicate b 32 ++ 10 :: u)).dropWhile (fun b => isDec b || b == 45) = List.replicate b 32 ++ 10 :: u := by
    refine (takeWhile_stop (fun b hb => ?_) (fun c r e => ?_)).2
    · rw [(hd1 b hb).1]; rfl
    · cases b with
      | zero => cases e; rfl
      | succ b => cases e; rfl
  have hs3 : spaces (List.replicate b 32 ++ 10 :: u) = 10 :: u := stop32 b _ (by rintro c t' e; cases e; decide)
  have hc : NumStr.cstr (ds ++ (List.replicate b 32 ++ 10 :: u)) = ds ++ (List.replicate b 32 ++ 10 :: NumStr.cstr u) := by
    have hall : ∀ (x t : Bytes), (∀ c ∈ x, c ≠ 0) → NumStr.cstr (x ++ t) = x ++ NumStr.cstr t := by
      intro x t hx
      induction x with
      | nil => rfl
      | cons c x ih =>
        have h0 := hx c (List.mem_cons_self ..)
        have ih' := ih (fun c hc => hx c (List.mem_cons_of_mem _ hc))
        unfold NumStr.cstr at ih' ⊢
        rw [List.cons_append, List.takeWhile_cons, if_pos (by simpa using h0), ih']
        rfl
    rw [hall _ _ (fun c hc => (hd1 c hc).2.1), hall _ _ (fun c hc => by rw [List.eq_of_mem_replicate hc]; decide)]
    rw [show (10 :: u : Bytes) = [10] ++ u from rfl, hall [10] u (by simp)]
    rfl
  have hn : NumStr.strtoll (ds ++ (List.replicate b 32 ++ 10 :: u)) 10 =
      ⟨NumStr.clampI (-9223372036854775808) 9223372036854775807 n,
        decide ((n : Int) < -9223372036854775808 ∨ (n : Int) > 9223372036854775807), List.replicate b 32 ++ 10 :: NumStr.cstr u⟩ := by
    refine NumStr.strtoll_clamp (z := n) hc ⟨[], [], [], ds, n, rfl, by simp, .inl rfl, hd, .inl ⟨rfl, rfl⟩⟩ ?_
    intro c t e
    have : c = 32 ∨ c = 10 := by
      cases b with
      | zero => cases e; exact .inr rfl
      | succ b => cases e; exact .inl rfl
    rcases this with rfl | rfl <;> (rintro ⟨d, h, _⟩; cases h)
  unfold hash
  rw [if_pos (by simp)]
  simp only [List.drop_succ_cons, List.drop_zero]
  unfold lineDirective
  rw [if_neg (by simpa using hb)]
  simp only [hs1, hs2, hs3, hn]
  rw [if_neg]
  · unfold NumStr.clampI
    by_cases h : 1 ≤ n ∧ n ≤ 2147483647
    · rw [if_pos h, if_pos ⟨by omega, by omega, by simp only [decide_eq_false_iff_not]; omega⟩]
      have : (max (-9223372036854775808) (min 9223372036854775807 (n : Int))).toNat = n := by omega
      rw [this]
    · rw [if_neg h, if_neg]
      intro hh
      have := hh.1
      have := hh.2.1
      omega
  · have := List.length_pos_iff.2 hd0
    simp only [List.length_append, List.length_replicate, List.length_cons]
    omega

/-- **C66**, line directives.  `#line` and a number at the beginning of a line sets the number of the next line. -/
theorem line_directive (lc : Libc) {src : Bytes} {st : St} {a b n : Nat} {ds u : Bytes} (ho : Outside st) (hl : st.line ≤ 2147483647)
    (hb : st.lineBegin = st.rest.length) (hr : st.rest = bytes "#line " ++ List.replicate a 32 ++ ds ++ List.replicate b 32 ++ 10 :: u)
    (hd : Spec.Denotes 10 ds n) (h1 : 1 ≤ n) (h2 : n ≤ 2147483647) :
    lex lc src st = lex lc src { st with rest := u, line := n, lineBegin := u.length } := by
  refine lex_skip lc ho hl ?_
  have hr' : st.rest = 35 :: 108 :: 105 :: 110 :: 101 :: 32 :: (List.replicate a 32 ++ (ds ++ (List.replicate b 32 ++ 10 :: u))) := by
    rw [hr]; simp only [List.append_assoc]; rfl
  unfold skip
  rw [hr']
  simp only
  rw [if_neg (by decide), if_neg (by decide), if_pos trivial, line_text hb hd, if_pos ⟨h1, h2⟩]

example : lex libc0 (bytes "#line  39 \n;") (at0 "#line  39 \n;") = lex libc0 (bytes "#line  39 \n;") { at0 "#line  39 \n;" with rest := [59], line := 39, lineBegin := 1 } :=
  line_directive libc0 (a := 1) (b := 1) (ds := [51, 57]) (at0_outside _) (at0_line _) (by decide +kernel) (by decide +kernel)
    (Spec.Denotes.snoc (base := 10) (ds := [51]) (n := 3) (b := 57) (d := 9) (.one rfl (by decide)) rfl (by decide)) (by decide) (by decide)

/-! ## Names and keywords -/

theorem lex_word (lc : Libc) {src : Bytes} {st : St} {b : UInt8} {n rest : Bytes} (ho : Outside st) (hl : st.line ≤ 2147483647)
    (hr : st.rest = b :: n ++ rest) (hb : Letter b ∨ b = 95) (hq : b :: n = bytes "q" → ∀ t, rest ≠ 39 :: t) (hn : NameText (b :: n)) :
    lex lc src st = checked (word st) := by
  have hbr : st.rest = b :: (n ++ rest) := hr
  obtain ⟨f1, f2, _⟩ := nameStart_facts hb
  rw [lex_token lc hbr hl (by rw [ho.1]; simp) (.inl ho.2) (skip_token hbr f1 (fun e => absurd e f2)), token_word lc hb]
  rintro rfl t e
  cases n with
  | nil => exact hq rfl t e
  | cons c n =>
    cases e
    cases hn with
    | char _ h =>
      cases h with
      | char h _ => revert h; unfold NameChar; decide

theorem keyword_facts : ∀ k ∈ documentedKeywords, ∃ b n, bytes k = b :: n ∧ (Letter b ∨ b = 95) ∧ (∀ c ∈ b :: n, NameChar c) ∧ bytes k ≠ bytes "q" ∧
    ∀ k' ∈ documentedKeywords, bytes k = bytes k' → k = k' := by
  have h1 : ∀ k ∈ documentedKeywords, (match bytes k with
      | b :: n => (isAlpha b || b == 95) && (b :: n).all isAlnumU
      | [] => false) = true ∧ bytes k ≠ bytes "q" := by decide +kernel
  have h2 : documentedKeywords.all (fun k => documentedKeywords.all (fun k' => decide (bytes k = bytes k' → k = k'))) = true := by decide +kernel
  intro k hk
  obtain ⟨h3, h4⟩ := h1 k hk
  split at h3
  · rename_i b n e
    simp only [Bool.and_eq_true, Bool.or_eq_true, beq_iff_eq] at h3
    refine ⟨b, n, e, ?_, fun c hc => ?_, h4, fun k' hk' => ?_⟩
    · exact h3.1.imp isAlpha_iff.1 id
    · exact (StrLit.isAlnumU_iff c).1 (List.all_eq_true.1 h3.2 c hc)
    · have := List.all_eq_true.1 (List.all_eq_true.1 h2 k hk) k' hk'
      exact of_decide_eq_true this
  · cases h3

theorem nameText_of {n : Bytes} (h : ∀ c ∈ n, NameChar c) : NameText n := by
  induction n with
  | nil => exact .nil
  | cons b n ih => exact .char (h b (List.mem_cons_self ..)) (ih (fun c hc => h c (List.mem_cons_of_mem _ hc)))

/-- **C66**, keywords.  A whole name that is one of the documented keywords is a keyword, unless `=>` follows, or the name of a method or of a field is expected -
after `->`, `method` and `&`, or after `has` and `->{`.  `__FILE__` and `__LINE__` are literals, `__END__` is the end of the source. -/
theorem keywords_found (lc : Libc) {src : Bytes} {st : St} {k : String} {rest : Bytes} (ho : Outside st) (hl : st.line ≤ 2147483647)
    (hk : k ∈ documentedKeywords) (hr : st.rest = bytes k ++ rest) (hend : NoName rest) (hfat : ¬ FatComma rest) (hm : st.method = false)
    (hf : st.field = false) :
    (k ∉ ["scalar", "__END__", "__FILE__", "__LINE__"] → lex lc src st = .ok (.kw (bytes k), { st with
      rest := rest, arrow := false, method := k = "method", field := k = "has" })) ∧
    (k = "__FILE__" → lex lc src st = .ok (.str st.file, { st with rest := rest, arrow := false })) ∧
    (k = "__LINE__" → lex lc src st = .ok (.const (.int st.line), { st with rest := rest, arrow := false })) ∧
    (k = "__END__" → lex lc src st = .ok (.eof, { st with rest := [], arrow := false })) ∧
    (k = "scalar" → ∀ c t, rest = c :: t → lex lc src st = .ok (.kw (bytes k), { st with rest := t, arrow := false })) := by
  obtain ⟨b, n, e1, e2, e3, e4, e5⟩ := keyword_facts k hk
  have hsym : symbol st.rest = (bytes k, rest) := by rw [hr]; exact symbol_complete (by rw [e1]; exact nameText_of e3) hend
  have hw := lex_word lc ho hl (src := src) (b := b) (n := n) (rest := rest) (by rw [← e1]; exact hr) e2 (by rw [← e1]; exact fun h => absurd h e4)
    (nameText_of e3)
  have hmem : bytes k ∈ keywords.map ascii := (keywords_eq _).2 ⟨k, hk, rfl⟩
  have hword : word st = if bytes k = ascii "scalar" ∧ rest = [] then .ub else .ok (keyword st (bytes k) rest) := by
    unfold word
    simp only [hsym]
    rw [if_pos]
    refine ⟨?_, by simp [hm], by simp [hf], hmem⟩
    rw [fatComma_iff]; exact hfat
  have hne : ∀ k' ∈ documentedKeywords, (bytes k = ascii k' ↔ k = k') := fun k' hk' => ⟨fun h => e5 k' hk' h, fun h => by rw [h]; rfl⟩
  have a1 := hne "scalar" (by decide)
  have a2 := hne "__END__" (by decide)
  have a3 := hne "__FILE__" (by decide)
  have a4 := hne "__LINE__" (by decide)
  have a5 := hne "has" (by decide)
  have a6 := hne "method" (by decide)
  obtain ⟨h1, h2, h3⟩ := ho
  have key : ∀ t s, s.line = st.line → (k = "scalar" → rest ≠ []) → keyword st (bytes k) rest = (t, s) → lex lc src st = .ok (t, s) := by
    intro t s hs hsc hkw
    rw [hw, hword, if_neg (by rw [a1]; exact fun h => hsc h.1 h.2), hkw, checked_ok (by rw [hs]; exact hl)]
  refine ⟨fun hn => ?_, ?_, ?_, ?_, ?_⟩
  · simp only [List.mem_cons, List.not_mem_nil, or_false, not_or] at hn
    refine key _ _ ?_ (fun h => absurd h hn.1) ?_
    · rfl
    · unfold keyword
      rw [if_neg (fun h => hn.1 (a1.1 h)), if_neg (fun h => hn.2.1 (a2.1 h)), if_neg (fun h => hn.2.2.1 (a3.1 h)), if_neg (fun h => hn.2.2.2 (a4.1 h))]
      by_cases hh : k = "has"
      · subst hh
        rw [if_pos (a5.2 rfl)]
        simp [St.clear, h2, h3]
      · rw [if_neg (fun h => hh (a5.1 h))]
        by_cases hmm : k = "method"
        · subst hmm
          rw [if_pos (a6.2 rfl)]
          simp [St.clear, h2, h3]
        · rw [if_neg (fun h => hmm (a6.1 h))]
          simp [St.clear, h2, h3, hh, hmm]
  all_goals rintro rfl
  · exact key _ _ rfl (fun h => absurd h (by decide)) (by simp [keyword, St.clear, h2, h3, hm, hf, show bytes "__FILE__" = ascii "__FILE__" from rfl, show ascii "__FILE__" ≠ ascii "scalar" by decide, show ascii "__FILE__" ≠ ascii "__END__" by decide])
  · exact key _ _ rfl (fun h => absurd h (by decide)) (by simp [keyword, St.clear, h2, h3, hm, hf, show bytes "__LINE__" = ascii "__LINE__" from rfl, show ascii "__LINE__" ≠ ascii "scalar" by decide, show ascii "__LINE__" ≠ ascii "__END__" by decide, show ascii "__LINE__" ≠ ascii "__FILE__" by decide])
  · exact key _ _ rfl (fun h => absurd h (by decide)) (by simp [keyword, St.clear, h2, h3, hm, hf, show bytes "__END__" = ascii "__END__" from rfl, show ascii "__END__" ≠ ascii "scalar" by decide])
  · intro c t e
    subst e
    exact key _ _ rfl (by simp) (by simp [keyword, St.clear, h2, h3, hm, hf, show bytes "scalar" = ascii "scalar" from rfl])

example : lex libc0 (bytes "method x") (at0 "method x") = .ok (.kw (bytes "method"), { at0 "method x" with rest := [32, 120], method := true }) :=
  (keywords_found libc0 (k := "method") (rest := [32, 120]) (at0_outside _) (at0_line _) (by decide +kernel) (by decide +kernel)
    ⟨fun b r h => by cases h; unfold Spec.NameChar; decide, fun r h => by cases h⟩
    (fun h => absurd (fatComma_iff.2 h) (by decide +kernel)) rfl rfl).1 (by decide +kernel)

/-- **C66**, names.  A name that is no keyword, or that stands where the name of a method or a field is expected, is a symbol name: the longest text of letters, digits, `_` and `::`.
It must not contain `__` and `::::`. -/
theorem names_found (lc : Libc) {src : Bytes} {st : St} {b : UInt8} {n rest : Bytes} (ho : Outside st) (hl : st.line ≤ 2147483647)
    (hr : st.rest = b :: n ++ rest) (hb : Letter b ∨ b = 95) (hn : NameText (b :: n)) (hend : NoName rest) (hq : b :: n = bytes "q" → ∀ t, rest ≠ 39 :: t)
    (hfat : ¬ FatComma rest) (hk : (∀ k ∈ documentedKeywords, b :: n ≠ bytes k) ∨ st.method = true ∨ st.field = true) :
    (¬ Contains (b :: n) (bytes "__") → ¬ Contains (b :: n) (bytes "::::") →
      lex lc src st = .ok (.name (b :: n), { st with rest := rest, arrow := false, method := false, field := false })) ∧
    (Contains (b :: n) (bytes "__") ∨ Contains (b :: n) (bytes "::::") → ∃ m, lex lc src st = .die m) := by
  have hsym : symbol st.rest = (b :: n, rest) := by rw [hr]; exact symbol_complete hn hend
  have hw := lex_word lc ho hl (src := src) hr hb hq hn
  have hnk : ¬ (¬ fatCommaNext rest = true ∧ ¬ st.method = true ∧ ¬ st.field = true ∧ b :: n ∈ keywords.map ascii) := by
    rintro ⟨_, k2, k3, k4⟩
    obtain ⟨k, k5, k6⟩ := (keywords_eq _).1 k4
    rcases hk with hk | hk | hk
    · exact hk k k5 k6
    · exact k2 hk
    · exact k3 hk
  have hf : ¬ fatCommaNext rest = true := by rw [fatComma_iff]; exact hfat
  have hword : word st = if hasSub [95, 95] (b :: n) then .die msgSymbolUnder else if hasSub [58, 58, 58, 58] (b :: n) then .die msgSymbolColons
      else .ok (.name (b :: n), { st.clear with rest := rest }) := by
    unfold word
    simp only [hsym]
    rw [if_neg hnk, if_neg hf]
  obtain ⟨_, h2, h3⟩ := ho
  have e1 : hasSub [95, 95] (b :: n) = true ↔ Contains (b :: n) (bytes "__") := hasSub_iff
  have e2 : hasSub [58, 58, 58, 58] (b :: n) = true ↔ Contains (b :: n) (bytes "::::") := hasSub_iff
  rw [hw, hword]
  refine ⟨fun k1 k2 => ?_, fun h => ?_⟩
  · rw [if_neg (fun h => k1 (e1.1 h)), if_neg (fun h => k2 (e2.1 h)), checked_ok (by exact hl)]
    simp [St.clear, h2, h3]
  · by_cases k1 : hasSub [95, 95] (b :: n) = true
    · exact ⟨_, by rw [if_pos k1]; rfl⟩
    · rw [if_neg k1]
      rcases h with h | h
      · exact absurd (e1.2 h) k1
      · exact ⟨_, by rw [if_pos (e2.2 h)]; rfl⟩

example : lex libc0 (bytes "A::b_1(") (at0 "A::b_1(") = .ok (.name (bytes "A::b_1"), { at0 "A::b_1(" with rest := [40] }) :=
  (names_found libc0 (b := 65) (n := bytes "::b_1") (rest := [40]) (at0_outside _) (at0_line _) (by decide +kernel) (by unfold Letter; decide)
    (.char (by unfold Spec.NameChar; decide) (.colons (nameText_of (nameChars_dec (by decide +kernel)))))
    ⟨fun b r h => by cases h; unfold Spec.NameChar; decide, fun r h => by cases h⟩ (fun h => absurd h (by decide +kernel))
    (fun h => absurd (fatComma_iff.2 h) (by decide +kernel)) (.inl (by decide +kernel))).1
    (fun h => absurd (hasSub_iff.2 h) (by decide +kernel)) (fun h => absurd (hasSub_iff.2 h) (by decide +kernel))

/-- **C66**, names before `=>`.  Every name before `=>`, also a keyword, is a string. -/
theorem fat_comma_names (lc : Libc) {src : Bytes} {st : St} {b : UInt8} {n rest : Bytes} (ho : Outside st) (hl : st.line ≤ 2147483647)
    (hr : st.rest = b :: n ++ rest) (hb : Letter b ∨ b = 95) (hn : NameText (b :: n)) (hend : NoName rest) (hq : b :: n = bytes "q" → ∀ t, rest ≠ 39 :: t)
    (hfat : FatComma rest) :
    (¬ Contains (b :: n) (bytes "__") → ¬ Contains (b :: n) (bytes "::") →
      lex lc src st = .ok (.str (b :: n), { st with rest := rest, arrow := false, method := false, field := false })) ∧
    (Contains (b :: n) (bytes "__") ∨ Contains (b :: n) (bytes "::") → ∃ m, lex lc src st = .die m) := by
  have hsym : symbol st.rest = (b :: n, rest) := by rw [hr]; exact symbol_complete hn hend
  have hw := lex_word lc ho hl (src := src) hr hb hq hn
  have hf : fatCommaNext rest = true := fatComma_iff.2 hfat
  have hword : word st = if hasSub [95, 95] (b :: n) then .die msgSymbolUnder else if hasSub [58, 58, 58, 58] (b :: n) then .die msgSymbolColons
      else if hasSub [58, 58] (b :: n) then .die msgSymbolFat else .ok (.str (b :: n), { st.clear with rest := rest }) := by
    unfold word
    simp only [hsym]
    rw [if_neg (by rw [hf]; simp), if_pos hf]
  obtain ⟨_, h2, h3⟩ := ho
  have e1 : hasSub [95, 95] (b :: n) = true ↔ Contains (b :: n) (bytes "__") := hasSub_iff
  have e2 : hasSub [58, 58, 58, 58] (b :: n) = true ↔ Contains (b :: n) (bytes "::::") := hasSub_iff
  have e3 : hasSub [58, 58] (b :: n) = true ↔ Contains (b :: n) (bytes "::") := hasSub_iff
  have e4 : Contains (b :: n) (bytes "::::") → Contains (b :: n) (bytes "::") := by
    rintro ⟨p, q, h⟩
    exact ⟨p, bytes "::" ++ q, by rw [h]; simp only [List.append_assoc]; rfl⟩
  rw [hw, hword]
  refine ⟨fun k1 k2 => ?_, fun h => ?_⟩
  · rw [if_neg (fun h => k1 (e1.1 h)), if_neg (fun h => k2 (e4 (e2.1 h))), if_neg (fun h => k2 (e3.1 h)), checked_ok (by exact hl)]
    simp [St.clear, h2, h3]
  · by_cases k1 : hasSub [95, 95] (b :: n) = true
    · exact ⟨_, by rw [if_pos k1]; rfl⟩
    · rw [if_neg k1]
      by_cases k2 : hasSub [58, 58, 58, 58] (b :: n) = true
      · exact ⟨_, by rw [if_pos k2]; rfl⟩
      · rw [if_neg k2]
        rcases h with h | h
        · exact absurd (e1.2 h) k1
        · exact ⟨_, by rw [if_pos (e3.2 h)]; rfl⟩

example : lex libc0 (bytes "if => 1") (at0 "if => 1") = .ok (.str (bytes "if"), { at0 "if => 1" with rest := bytes " => 1" }) :=
  (fat_comma_names libc0 (b := 105) (n := [102]) (rest := bytes " => 1") (at0_outside _) (at0_line _) (by decide +kernel) (by unfold Letter; decide)
    (nameText_of (nameChars_dec (by decide +kernel))) ⟨fun b r h => by cases h; unfold Spec.NameChar; decide, fun r h => by cases h⟩
    (fun h => absurd h (by decide +kernel)) ⟨[32], bytes " 1", by decide +kernel, fun b h => .inl (List.mem_singleton.1 h)⟩).1
    (fun h => absurd (hasSub_iff.2 h) (by decide +kernel)) (fun h => absurd (hasSub_iff.2 h) (by decide +kernel))

/-- **C66**, `&` before a name is the outmost class; the name that follows is the name of a method. -/
theorem outmost_found (lc : Libc) {src : Bytes} {st : St} {c : UInt8} {rest : Bytes} (ho : Outside st) (hl : st.line ≤ 2147483647)
    (hr : st.rest = 38 :: c :: rest) (hc : Letter c ∨ c = 95) :
    lex lc src st = .ok (.outmost, { st with rest := c :: rest, arrow := false, method := true, field := false }) := by
  obtain ⟨h1, h2, h3⟩ := ho
  rw [lex_token lc hr hl (by rw [h1]; simp) (.inl ⟨h2, h3⟩) (skip_token hr (by decide) (fun e => absurd e (by decide)))]
  have : token lc st 38 (c :: rest) = .ok (.outmost, { st.clear with rest := c :: rest, method := true }) := by
    unfold token
    rw [if_neg (by simp [isDec]), if_neg (by decide), if_neg (by decide), if_neg (by decide), if_neg (by simp), if_neg (by simp [isAlpha]),
      if_neg (by simp), if_pos]
    refine ⟨rfl, ?_⟩
    simp only [headIs, Bool.or_eq_true, beq_iff_eq]
    exact hc.imp isAlpha_iff.2 id
  rw [this, checked_ok (by exact hl)]
  simp [St.clear, h2, h3]

example : lex libc0 (bytes "&f") (at0 "&f") = .ok (.outmost, { at0 "&f" with rest := [102], method := true }) :=
  outmost_found libc0 (at0_outside _) (at0_line _) (by decide +kernel) (by unfold Letter; decide)

/-! ## Variables -/

theorem lex_dollar (lc : Libc) {src : Bytes} {st : St} {r : Bytes} (hn : st.next ≠ some st.rest.length)
    (he : st.expand = .no ∧ st.heredoc = false ∨ st.expand = .var) (hl : st.line ≤ 2147483647)
    (hr : st.rest = 36 :: r) : lex lc src st = checked (dollar st r) := by
  rw [lex_token lc hr hl hn he (skip_token hr (by decide) (fun e => absurd e (by decide)))]
  unfold token
  rw [if_neg (by simp [isDec]), if_neg (by decide), if_neg (by decide), if_pos rfl]

theorem nameText_head {n rest : Bytes} (h : NameText n) (hne : n ≠ []) : ∃ b t, n ++ rest = b :: t ∧ b ≠ 36 ∧ b ≠ 64 ∧ b ≠ 123 := by
  cases h with
  | nil => exact absurd rfl hne
  | char hb _ => exact ⟨_, _, rfl, by rintro rfl; revert hb; unfold NameChar; decide, by rintro rfl; revert hb; unfold NameChar; decide,
      by rintro rfl; revert hb; unfold NameChar; decide⟩
  | colons _ => exact ⟨_, _, rfl, by decide, by decide, by decide⟩

theorem dollar_plain {st : St} {n rest : Bytes} (hn : NameText n) (hne : n ≠ []) (hend : NoName rest) :
    dollar st (n ++ rest) = match varCheck n with
      | some m => .die m
      | none => .ok (.var n, { st.clear with rest := rest }) := by
  obtain ⟨b, t, e, e1, e2, e3⟩ := nameText_head (rest := rest) hn hne
  have hb : ∀ x : UInt8, b ≠ x → begins x (n ++ rest) = false := by
    intro x hx
    rw [e]
    unfold begins
    simpa using hx
  unfold dollar
  rw [if_neg (by rw [hb _ e1]; decide), if_neg (by rw [hb _ e2]; decide), if_neg]
  · unfold varTok
    simp only [hb _ e3, symbol_complete hn hend, Bool.false_eq_true, if_false, false_and]
    cases varCheck n <;> rfl
  · rw [e]
    simp only [List.isPrefixOf, Bool.and_eq_true, beq_iff_eq]
    exact fun h => e3 h.1.symm

theorem dollar_braced {st : St} {n rest : Bytes} (hn : NameText n) :
    dollar st (123 :: (n ++ 125 :: rest)) = match varCheck n with
      | some m => .die m
      | none => .ok (.var n, { st.clear with rest := rest }) := by
  have hend : NoName (125 :: rest) := by
    refine ⟨?_, ?_⟩
    · intro b r e; cases e; unfold NameChar; decide
    · intro r e; cases e
  unfold dollar
  rw [if_neg (by simp [begins]), if_neg (by simp [begins]), if_neg]
  · unfold varTok
    simp only [show begins 123 (123 :: (n ++ 125 :: rest)) = true from rfl, if_true, List.drop_succ_cons, List.drop_zero, symbol_complete hn hend]
    rw [if_neg (by simp [begins])]
    cases varCheck n <;> rfl
  · cases hn with
    | nil => simp [List.isPrefixOf]
    | char hb _ =>
      simp only [List.cons_append, List.isPrefixOf, Bool.and_eq_true, beq_iff_eq]
      rintro ⟨_, h, _⟩
      subst h
      revert hb; unfold NameChar; decide
    | colons _ => simp [List.isPrefixOf]

theorem var_out {st : St} {n rest : Bytes} (ho : Outside st) (hl : st.line ≤ 2147483647) :
    (VarNameRules n → checked (match varCheck n with
      | some m => .die m
      | none => .ok (.var n, { st.clear with rest := rest })) = .ok (.var n, { st with rest := rest, arrow := false, method := false, field := false })) ∧
    (¬ VarNameRules n → ∃ m, checked (match varCheck n with
      | some m => .die m
      | none => .ok (.var n, { st.clear with rest := rest })) = .die m) := by
  obtain ⟨_, h2, h3⟩ := ho
  refine ⟨fun h => ?_, fun h => ?_⟩
  · rw [varCheck_none.2 h]
    simp only
    rw [checked_ok (by exact hl)]
    simp [St.clear, h2, h3]
  · cases hc : varCheck n with
    | none => exact absurd (varCheck_none.1 hc) h
    | some m => exact ⟨m, rfl⟩

/-- **C66**, variables.  `$` and the longest text of letters, digits, `_` and `::` after it is a variable, also with braces around the name; the name must not contain
`__` and `::::`, not begin with `::` or a digit and not end with `::`. -/
theorem variables_found (lc : Libc) {src : Bytes} {st : St} {n rest : Bytes} (ho : Outside st) (hl : st.line ≤ 2147483647) (hn : NameText n)
    (hr : (st.rest = 36 :: (n ++ rest) ∧ n ≠ [] ∧ NoName rest) ∨ st.rest = 36 :: 123 :: (n ++ 125 :: rest)) :
    (VarNameRules n → lex lc src st = .ok (.var n, { st with rest := rest, arrow := false, method := false, field := false })) ∧
    (¬ VarNameRules n → ∃ m, lex lc src st = .die m) := by
  have hx : st.next ≠ some st.rest.length := by rw [ho.1]; simp
  rcases hr with ⟨hr, hne, hend⟩ | hr
  · rw [lex_dollar lc hx (.inl ho.2) hl hr, dollar_plain hn hne hend]
    exact var_out ho hl
  · rw [lex_dollar lc hx (.inl ho.2) hl hr, dollar_braced hn]
    exact var_out ho hl

example : lex libc0 (bytes "${A::x};") (at0 "${A::x};") = .ok (.var (bytes "A::x"), { at0 "${A::x};" with rest := [59] }) :=
  (variables_found libc0 (n := bytes "A::x") (rest := [59]) (at0_outside _) (at0_line _)
    (.char (by unfold Spec.NameChar; decide) (.colons (nameText_of (nameChars_dec (by decide +kernel))))) (.inr (by decide +kernel))).1
    (varCheck_none.1 (by decide +kernel))

/-- **C66**, `${` must be closed by `}` right after the name. -/
theorem variable_unclosed (lc : Libc) {src : Bytes} {st : St} {n rest : Bytes} (ho : Outside st) (hl : st.line ≤ 2147483647) (hn : NameText n)
    (hend : NoName rest) (hr : st.rest = 36 :: 123 :: (n ++ rest)) (h : ∀ t, rest ≠ 125 :: t) (hat : n = [] → ∀ t, rest ≠ 64 :: 125 :: t) :
    ∃ m, lex lc src st = .die m := by
  have hx : st.next ≠ some st.rest.length := by rw [ho.1]; simp
  refine ⟨msgVarClose, ?_⟩
  rw [lex_dollar lc hx (.inl ho.2) hl hr]
  have : dollar st (123 :: (n ++ rest)) = .die msgVarClose := by
    unfold dollar
    rw [if_neg (by simp [begins]), if_neg (by simp [begins]), if_neg]
    · unfold varTok
      simp only [show begins 123 (123 :: (n ++ rest)) = true from rfl, if_true, List.drop_succ_cons, List.drop_zero, symbol_complete hn hend]
      rw [if_pos]
      refine ⟨trivial, fun hb => ?_⟩
      obtain ⟨t, e⟩ := begins_iff.1 hb
      exact h t e
    · rw [List.isPrefixOf_iff_prefix]
      rintro ⟨t, e⟩
      cases hn with
      | nil => cases e; exact hat rfl _ rfl
      | char hb _ =>
        simp only [List.cons_append, List.cons.injEq] at e
        rw [← e.2.1] at hb
        revert hb; unfold NameChar; decide
      | colons _ => cases e
  rw [this]
  rfl

example : ∃ m, lex libc0 (bytes "${a ") (at0 "${a ") = .die m :=
  variable_unclosed libc0 (n := [97]) (rest := [32]) (at0_outside _) (at0_line _) (nameText_of (nameChars_dec (by decide +kernel)))
    ⟨fun b r h => by cases h; unfold Spec.NameChar; decide, fun r h => by cases h⟩ (by decide +kernel) (fun t h => by cases h) (fun h => nomatch h)

/-- **C66**, `$@` and `${@}` are the exception variable, and the first `$` of `$$` is a dereference. -/
theorem dollars_found (lc : Libc) {src : Bytes} {st : St} {rest : Bytes} (ho : Outside st) (hl : st.line ≤ 2147483647) :
    (st.rest = bytes "$@" ++ rest ∨ st.rest = bytes "${@}" ++ rest →
      lex lc src st = .ok (.exception, { st with rest := rest, arrow := false, method := false, field := false })) ∧
    (st.rest = 36 :: 36 :: rest →
      lex lc src st = .ok (.deref, { st with rest := 36 :: rest, arrow := false, method := false, field := false })) := by
  have hx : st.next ≠ some st.rest.length := by rw [ho.1]; simp
  have ho' := ho
  obtain ⟨_, h2, h3⟩ := ho'
  refine ⟨?_, fun hr => ?_⟩
  · rintro (hr | hr)
    · rw [lex_dollar lc hx (.inl ho.2) hl (r := 64 :: rest) hr]
      have : dollar st (64 :: rest) = .ok (.exception, { st.clear with rest := rest }) := by
        unfold dollar
        rw [if_neg (by simp [begins]), if_pos (by simp [begins])]
        rfl
      rw [this, checked_ok (by exact hl)]
      simp [St.clear, h2, h3]
    · rw [lex_dollar lc hx (.inl ho.2) hl (r := 123 :: 64 :: 125 :: rest) hr]
      have : dollar st (123 :: 64 :: 125 :: rest) = .ok (.exception, { st.clear with rest := rest }) := by
        unfold dollar
        rw [if_neg (by simp [begins]), if_neg (by simp [begins]), if_pos (by simp [List.isPrefixOf])]
        rfl
      rw [this, checked_ok (by exact hl)]
      simp [St.clear, h2, h3]
  · rw [lex_dollar lc hx (.inl ho.2) hl hr]
    have : dollar st (36 :: rest) = .ok (.deref, { st.clear with rest := 36 :: rest }) := by
      unfold dollar
      rw [if_pos (by simp [begins])]
    rw [this, checked_ok (by exact hl)]
    simp [St.clear, h2, h3]

example : lex libc0 (bytes "$$a") (at0 "$$a") = .ok (.deref, { at0 "$$a" with rest := [36, 97] }) :=
  (dollars_found libc0 (at0_outside _) (at0_line _)).2 (by decide +kernel)

/-! ## Here documents -/

theorem here_semicolon (lc : Libc) {src : Bytes} {st : St} {b : UInt8} {r : Bytes} (hn : st.next = none) (he : st.expand = .no) (hh : st.heredoc = true)
    (hl : st.line ≤ 2147483647) (hr : st.rest = b :: r) : lex lc src st = .ok (.op .semicolon, st.clear) := by
  rw [lex_eq, lexLoop, if_neg (by omega), resume_outside hn]
  simp only [hr, he, hh]
  rw [if_pos (by simp)]
  exact checked_ok (by exact hl)

/-- **C66**, here documents.  `<<'NAME';`, a line feed, lines, and a line with the name only is a string literal of the lines, with their line feeds, and a `;`; the line
number after it is the right one. -/
theorem here_documents (lc : Libc) {src : Bytes} {st : St} {n text rest : Bytes} (ho : Outside st) (hn : HereName n) (ht : HereText n text)
    (hr : st.rest = bytes "<<'" ++ n ++ bytes "';\n" ++ text ++ n ++ 10 :: rest) (hl : st.line + text.count 10 + 2 ≤ 2147483647) :
    ∃ st1, lex lc src st = .ok (.str text, st1) ∧
      (rest = [] → lex lc src st1 = .ok (.eof, { st with rest := [], line := st.line + text.count 10 + 2, lineBegin := 0, arrow := false, method := false, field := false })) ∧
      (rest ≠ [] → lex lc src st1 = .ok (.op .semicolon, { st with
        rest := rest, line := st.line + text.count 10 + 2, lineBegin := rest.length, arrow := false, method := false, field := false })) := by
  obtain ⟨h1, h2, h3⟩ := ho
  obtain ⟨⟨b, n', hb, hbd⟩, hc, hu⟩ := hn
  have hn10 : 10 ∉ n := fun h => by have := hc _ h; revert this; unfold NameChar; decide
  have hr' : st.rest = 60 :: 60 :: 39 :: (n ++ 39 :: 59 :: 10 :: (text ++ (n ++ 10 :: rest))) := by
    rw [hr, show bytes "<<'" = [60, 60, 39] from rfl, show bytes "';\n" = [39, 59, 10] from rfl]
    simp
  have htw := takeWhile_stop (p := isAlnumU) (n := n) (rest := 39 :: 59 :: 10 :: (text ++ (n ++ 10 :: rest)))
    (fun b hb => (StrLit.isAlnumU_iff b).2 (hc b hb)) (by intro b r e; cases e; rfl)
  have hH : heredoc st (n ++ 39 :: 59 :: 10 :: (text ++ (n ++ 10 :: rest))) =
      .ok (.str text, { st.clear with rest := rest, line := st.line + 1 + text.count 10 + 1, lineBegin := rest.length, heredoc := true }) := by
    unfold heredoc
    simp only [htw.1, htw.2]
    rw [if_neg (by rw [hb]; simp), if_neg, if_neg (show ¬ hasSub [95, 95] n = true from fun h => hu (hasSub_iff.1 h)), hereBody_complete hn10 ht]
    rw [hb]
    intro h
    exact hbd (isDec_iff.1 h)
  have htok : token lc st 60 (60 :: 39 :: (n ++ 39 :: 59 :: 10 :: (text ++ (n ++ 10 :: rest)))) =
      .ok (.str text, { st.clear with rest := rest, line := st.line + 1 + text.count 10 + 1, lineBegin := rest.length, heredoc := true }) := by
    unfold token
    rw [if_neg (by simp [isDec]), if_neg (by decide), if_neg (by decide), if_neg (by decide), if_neg (by simp), if_neg (by simp [isAlpha]),
      if_pos ⟨rfl, by simp [List.isPrefixOf]⟩]
    exact hH
  refine ⟨{ st.clear with rest := rest, line := st.line + 1 + text.count 10 + 1, lineBegin := rest.length, heredoc := true }, ?_, fun hnil => ?_, fun hne => ?_⟩
  · rw [lex_token lc hr' (by omega) (by rw [h1]; simp) (.inl ⟨h2, h3⟩) (skip_token hr' (by decide) (fun e => absurd e (by decide))), htok]
    exact checked_ok (by simp only; omega)
  · subst hnil
    rw [lex_eq, lexLoop]
    simp only
    rw [if_neg (by omega), checked_ok (by simp only [St.clear]; omega)]
    simp [St.clear, h2, h3, h1]
    omega
  · match rest, hne with
    | b :: r, _ =>
      rw [here_semicolon lc (b := b) (r := r) (by simp only [St.clear]; exact h1) rfl rfl (by simp only; omega) rfl]
      simp [St.clear, h2, h3, h1]
      omega

example : ∃ st1, lex libc0 (bytes "<<'E';\nab\n\nE\n1") (at0 "<<'E';\nab\n\nE\n1") = .ok (.str (bytes "ab\n\n"), st1) ∧
    lex libc0 (bytes "<<'E';\nab\n\nE\n1") st1 = .ok (.op .semicolon, { at0 "<<'E';\nab\n\nE\n1" with rest := [49], line := 5, lineBegin := 1 }) := by
  obtain ⟨st1, h1, _, h2⟩ := here_documents libc0 (src := bytes "<<'E';\nab\n\nE\n1") (st := at0 "<<'E';\nab\n\nE\n1") (n := [69]) (text := bytes "ab\n\n") (rest := [49])
    (at0_outside _) ⟨⟨69, [], rfl, by unfold Digit; decide⟩, nameChars_dec (by decide +kernel), fun h => absurd (hasSub_iff.2 h) (by decide +kernel)⟩
    (.line (l := [97, 98]) (by decide) (by decide) (.line (l := []) (by decide) (by decide) .nil)) (by decide +kernel) (by decide +kernel)
  exact ⟨st1, h1, h2 (by decide)⟩

/-! ## Variables in string literals -/

theorem run_append {lc : Libc} {src : Bytes} {st st1 st2 : St} {ts us : List (Tok × Nat × Nat)} (h : Run lc src st ts st1) (h' : Run lc src st1 us st2) :
    Run lc src st (ts ++ us) st2 := by
  induction h with
  | nil => exact h'
  | cons h1 h2 _ ih => exact .cons h1 h2 (ih h')

theorem stringTok_end {st : St} {text v rest : Bytes} (h : Spells true text v) : stringTok st (text ++ 34 :: rest) =
    .ok (.str v, { st.clear with
      rest := rest, line := st.line + text.count 10, lineBegin := if text.count 10 = 0 then st.lineBegin else rest.length, expand := .no, next := st.next }) := by
  unfold stringTok
  rw [StrLit.cut_quote (StrLit.spells_raw h), (StrLit.strLit_end).2 ⟨text, rfl, h⟩]
  simp only [countLf_spells h _ (Nat.le_refl _)]
  rfl

theorem stringTok_var {st : St} {text v e next : Bytes} (h : Spells false text v) (he : Spec.Expansion e next) : stringTok st (text ++ 36 :: (e ++ next)) =
    .ok (.str v, { st.clear with
      rest := 36 :: (e ++ next), line := st.line + text.count 10, lineBegin := if text.count 10 = 0 then st.lineBegin else (e ++ next).length
      expand := .first, next := some next.length }) := by
  have hfuel : e.length < (text ++ 36 :: (e ++ next)).length + 1 := by simp only [List.length_append, List.length_cons]; omega
  obtain ⟨h1, h2⟩ := StrLit.varEnd_expansion he _ hfuel
  unfold stringTok
  rw [StrLit.cut_var (StrLit.spells_raw h) h2, (StrLit.strLit_var).2 ⟨text, _, rfl, rfl, h2, h, h1⟩]
  simp only [countLf_spells h _ (Nat.le_refl _)]
  rfl

theorem simple_expansion {e next : Bytes} {toks : List Tok} (h : Simple e next toks) : Spec.Expansion e next := by
  cases h with
  | var h1 _ h3 h4 => exact .var h1 h3 h4
  | braced h1 _ => exact .braced h1
  | deref h1 _ h3 => exact .deref h1 h3
  | derefBraced h1 _ => exact .derefBraced h1
  | exception => exact .exception
  | exceptionBraced => exact .exceptionBraced

theorem varName_text {n : Bytes} (h : VarName n) : NameText n ∧ n ≠ [] ∧ n.count 10 = 0 := by
  have hc : ∀ {b : UInt8}, NameChar b → b ≠ 10 := by
    rintro b hb rfl; revert hb; unfold NameChar; decide
  induction h with
  | one hb => exact ⟨.char hb .nil, by simp, by simp [hc hb]⟩
  | sep => exact ⟨.colons .nil, by simp, by decide⟩
  | char hb _ ih => exact ⟨.char hb ih.1, by simp, by rw [List.count_cons, ih.2.2]; simp [hc hb]⟩
  | colons _ ih => exact ⟨.colons ih.1, by simp, by rw [List.count_cons, List.count_cons, ih.2.2]; decide⟩

theorem nameEnd_noName {next : Bytes} (h : NameEnd next) : NoName next := ⟨fun b r e => (h.1 b r e).1, h.2⟩

theorem simple_run (lc : Libc) {src : Bytes} {e next : Bytes} {toks : List Tok} (h : Simple e next toks) {st : St} (hr : st.rest = 36 :: (e ++ next))
    (he : st.expand = .var) (hn : st.next = some next.length) (hl : st.line ≤ 2147483647) :
    e.count 10 = 0 ∧ ∃ ts, Run lc src st ts { st.clear with rest := next } ∧ ts.map (·.1) = toks := by
  have hne : st.next ≠ some st.rest.length := by
    rw [hn, hr]
    simp only [ne_eq, Option.some.injEq, List.length_cons, List.length_append]
    omega
  have one : ∀ {tok : Tok} {st' : St}, dollar st (e ++ next) = .ok (tok, st') → st'.line = st.line → tok ≠ .eof →
      Run lc src st [(tok, st'.line, src.length - st'.rest.length)] st' := by
    intro tok st' h1 h2 h3
    refine .cons ?_ h3 .nil
    rw [lex_dollar lc hne (.inr he) hl hr, h1, checked_ok (by rw [h2]; exact hl)]
  have two : ∀ {tok : Tok} {st' : St} {e' : Bytes}, e = 36 :: e' → dollar { st.clear with rest := e ++ next } (e' ++ next) = .ok (tok, st') → st'.line = st.line →
      tok ≠ .eof → ∃ ts, Run lc src st ts st' ∧ ts.map (·.1) = [.deref, tok] := by
    intro tok st' e' h0 h1 h2 h3
    refine ⟨[(.deref, st.line, _), (tok, st'.line, _)], .cons (st1 := { st.clear with rest := e ++ next }) ?_ (by simp) (.cons ?_ h3 .nil), rfl⟩
    · rw [lex_dollar lc hne (.inr he) hl hr]
      have : dollar st (e ++ next) = .ok (.deref, { st.clear with rest := e ++ next }) := by
        unfold dollar
        rw [if_pos (by rw [h0]; simp [begins])]
      rw [this, checked_ok (by exact hl)]
    · rw [lex_dollar lc (st := { st.clear with rest := e ++ next }) (r := e' ++ next) ?_ (.inl ⟨rfl, rfl⟩) hl (by simp only; rw [h0]; rfl), h1,
        checked_ok (by rw [h2]; exact hl)]
      simp only [St.clear]
      rw [hn, h0]
      simp only [ne_eq, Option.some.injEq, List.length_cons, List.length_append, List.cons_append]
      omega
  cases h with
  | @var n _ h1 h2 h3 h4 =>
    obtain ⟨a1, a2, a3⟩ := varName_text h1
    refine ⟨a3, _, one (tok := .var e) (st' := { st.clear with rest := next }) ?_ rfl (by simp), rfl⟩
    rw [dollar_plain a1 a2 (nameEnd_noName h3), varCheck_none.2 h2]
  | @braced n _ h1 h2 =>
    obtain ⟨a1, a2, a3⟩ := varName_text h1
    refine ⟨by rw [List.count_cons, List.count_append, a3]; decide, _, one (tok := .var n) (st' := { st.clear with rest := next }) ?_ rfl (by simp), rfl⟩
    rw [show 123 :: (n ++ [125]) ++ next = 123 :: (n ++ 125 :: next) by simp, dollar_braced a1, varCheck_none.2 h2]
  | @deref n _ h1 h2 h3 =>
    obtain ⟨a1, a2, a3⟩ := varName_text h1
    obtain ⟨ts, b1, b2⟩ := two (tok := .var n) (st' := { st.clear with rest := next }) rfl (by
      rw [dollar_plain a1 a2 (nameEnd_noName h3), varCheck_none.2 h2]; rfl) rfl (by simp)
    exact ⟨by rw [List.count_cons, a3]; decide, ts, b1, b2⟩
  | @derefBraced n _ h1 h2 =>
    obtain ⟨a1, a2, a3⟩ := varName_text h1
    obtain ⟨ts, b1, b2⟩ := two (tok := .var n) (st' := { st.clear with rest := next }) rfl (by
      rw [show 123 :: (n ++ [125]) ++ next = 123 :: (n ++ 125 :: next) by simp, dollar_braced a1, varCheck_none.2 h2]; rfl) rfl (by simp)
    exact ⟨by rw [List.count_cons, List.count_cons, List.count_append, a3]; decide, ts, b1, b2⟩
  | exception =>
    refine ⟨by decide, _, one (tok := .exception) (st' := { st.clear with rest := next }) ?_ rfl (by simp), rfl⟩
    unfold dollar
    rw [if_neg (by simp [begins]), if_pos (by simp [begins])]
    rfl
  | exceptionBraced =>
    refine ⟨by decide, _, one (tok := .exception) (st' := { st.clear with rest := next }) ?_ rfl (by simp), rfl⟩
    unfold dollar
    rw [if_neg (by simp [begins]), if_neg (by simp [begins]), if_pos (by simp [List.isPrefixOf])]
    rfl

theorem pieces_ne {text : Bytes} {toks : List Tok} {rest : Bytes} (h : Pieces text toks rest) : text ≠ [] := by
  cases h <;> simp

theorem pieces_run (lc : Libc) {src : Bytes} {text : Bytes} {toks : List Tok} {rest : Bytes} (h : Pieces text toks rest) : ∀ {st : St}, st.next = none →
    lex lc src st = checked (stringTok st text) → st.line + text.count 10 ≤ 2147483647 →
    ∃ ts st', Run lc src st ts st' ∧ ts.map (·.1) = toks ∧ Outside st' ∧ st'.rest = rest ∧ st'.line + rest.count 10 = st.line + text.count 10 := by
  induction h with
  | @last text v rest h =>
    intro st hn hlex hl
    rw [List.count_append, List.count_cons] at hl
    rw [stringTok_end h, checked_ok (by simp only; omega)] at hlex
    refine ⟨_, _, .cons hlex (by simp) .nil, rfl, ⟨hn, rfl, rfl⟩, rfl, ?_⟩
    rw [List.count_append, List.count_cons]
    simp only [St.clear]
    simp
    omega
  | @more text v e next toks ts rest h hs hp ih =>
    intro st hn hlex hl
    rw [List.count_append, List.count_cons, List.count_append] at hl
    rw [stringTok_var h (simple_expansion hs), checked_ok (by simp only; omega)] at hlex
    generalize hst1 : ({ st.clear with
      rest := 36 :: (e ++ next), line := st.line + text.count 10, lineBegin := if text.count 10 = 0 then st.lineBegin else (e ++ next).length
      expand := .first, next := some next.length } : St) = st1 at hlex
    have r1 : st1.rest = 36 :: (e ++ next) := by rw [← hst1]
    have r2 : st1.next = some next.length := by rw [← hst1]
    have r3 : st1.expand = .first := by rw [← hst1]
    have r4 : st1.line = st.line + text.count 10 := by rw [← hst1]
    have hlex1 : lex lc src st1 = .ok (.op .concat, { st1.clear with expand := .var }) := by
      have hres : resume st1 = st1 := by
        unfold resume
        rw [if_neg]
        rw [r1, r2]
        simp only [Option.some.injEq, List.length_cons, List.length_append]
        omega
      rw [lex_eq, lexLoop, if_neg (by omega), hres]
      simp only [r1, r3]
      exact checked_ok (by simp only [St.clear]; omega)
    obtain ⟨he10, us, hrun, hus⟩ := simple_run lc (src := src) hs (st := { st1.clear with expand := .var }) (by exact r1) rfl (by exact r2)
      (by simp only [St.clear]; omega)
    have hlex2 : ∀ s : St, s.rest = next → s.next = some next.length → s.line = st1.line →
        lex lc src s = .ok (.op .concat, { s with next := none, arrow := false, heredoc := false, method := false, field := false, expand := .begin }) := by
      intro s s1 s2 s3
      obtain ⟨c, t, ht⟩ : ∃ c t, next = c :: t := by
        cases hnx : next with
        | nil => exact absurd hnx (pieces_ne hp)
        | cons c t => exact ⟨c, t, rfl⟩
      have hres : resume s = { s with next := none, expand := .second } := by
        unfold resume
        rw [if_pos (by rw [s1, s2])]
      rw [lex_eq, lexLoop, if_neg (by omega), hres]
      simp only [s1, ht]
      rw [checked_ok (by simp only [St.clear]; omega)]
      rfl
    have hlast := hlex2 { { st1.clear with expand := Expand.var }.clear with rest := next } rfl (by exact r2) rfl
    obtain ⟨ws, st', k1, k2, k3, k4, k5⟩ := ih (st := { { { st1.clear with expand := Expand.var }.clear with rest := next } with
        next := none, arrow := false, heredoc := false, method := false, field := false, expand := .begin }) rfl (by
        obtain ⟨c, t, ht⟩ : ∃ c t, next = c :: t := by
          cases hnx : next with
          | nil => exact absurd hnx (pieces_ne hp)
          | cons c t => exact ⟨c, t, rfl⟩
        rw [lex_eq, lexLoop, if_neg (by simp only [St.clear]; omega), resume_outside rfl]
        simp only [ht]) (by simp only [St.clear]; omega)
    refine ⟨_, st', .cons hlex (by simp) (.cons hlex1 (by simp) (run_append hrun (.cons hlast (by simp) k1))), ?_, k3, k4, ?_⟩
    · simp only [List.map_cons, List.map_append, hus, k2]
    · rw [k5]
      simp only [St.clear, r4, List.count_append, List.count_cons, he10]
      simp
      omega

/-- **C66**, variables in string literals.  A string literal with variables in it gives the tokens of the strings and the variables, joined with `.`; the text after the literal
follows, and the line feeds in the literal are counted. -/
theorem string_expansion_tokens (lc : Libc) {src : Bytes} {st : St} {text rest : Bytes} {toks : List Tok} (ho : Outside st) (hr : st.rest = 34 :: text)
    (h : Pieces text toks rest) (hl : st.line + text.count 10 ≤ 2147483647) :
    ∃ ts st', Run lc src st ts st' ∧ ts.map (·.1) = toks ∧ Outside st' ∧ st'.rest = rest ∧ st'.line + rest.count 10 = st.line + text.count 10 := by
  refine pieces_run lc h ho.1 ?_ hl
  rw [lex_token lc hr (by omega) (by rw [ho.1]; simp) (.inl ho.2) (skip_token hr (by decide) (fun e => absurd e (by decide)))]
  unfold token
  rw [if_neg (by simp [isDec]), if_neg (by decide), if_pos rfl]

example : ∃ ts st', Run libc0 (bytes "\"a$b.\n\";") (at0 "\"a$b.\n\";") ts st' ∧
    ts.map (·.1) = [.str [97], .op .concat, .var [98], .op .concat, .str [46, 10]] ∧ Outside st' ∧ st'.rest = [59] ∧ st'.line + [59].count 10 = 2 :=
  string_expansion_tokens libc0 (text := bytes "a$b.\n\";") (rest := [59]) (at0_outside _) (by decide +kernel)
    (.more (text := [97]) (v := [97]) (e := [98]) (next := bytes ".\n\";")
      (.cons (s := [97]) (out := [97]) (.plain (by decide) (by decide) (by decide)) .nil)
      (.var (.one (by unfold Spec.NameChar; decide)) (varCheck_none.1 (by decide +kernel))
        ⟨fun b r h => by cases h; unfold Spec.NameChar; decide, fun r h => by cases h⟩ (fun r h => by cases h))
      (.last (text := [46, 10]) (v := [46, 10]) (rest := [59]) (.cons (s := [46]) (out := [46]) (.plain (by decide) (by decide) (by decide))
        (.cons (s := [10]) (out := [10]) (.plain (by decide) (by decide) (by decide)) .nil))))
    (by decide +kernel)

theorem cutQ_spells {text v rest : Bytes} (h : SpellsQ text v) : StrLit.cutQ (text ++ 39 :: rest) = .ok (text, rest) := by
  induction h with
  | nil => exact StrLit.cutQ_q
  | plain h1 h2 _ ih => rw [List.cons_append, StrLit.cutQ_plain h1 h2, ih]
  | escaped _ _ ih => rw [List.cons_append, List.cons_append, StrLit.cutQ_esc, ih]

/-- **C66**, string literals and single-quoted string literals are tokens with the bytes they spell (C60); the line feeds in them are counted. -/
theorem quoted_tokens (lc : Libc) {src : Bytes} {st : St} {text v rest : Bytes} (ho : Outside st) (hl : st.line + text.count 10 ≤ 2147483647)
    (h : (Spells true text v ∧ st.rest = 34 :: (text ++ 34 :: rest)) ∨ (SpellsQ text v ∧ st.rest = bytes "q'" ++ text ++ 39 :: rest)) :
    ∃ lb, lex lc src st = .ok (.str v, { st with
      rest := rest, line := st.line + text.count 10, lineBegin := lb, arrow := false, method := false, field := false }) := by
  obtain ⟨h1, h2, h3⟩ := ho
  rcases h with ⟨h, hr⟩ | ⟨h, hr⟩
  · rw [lex_token lc hr (by omega) (by rw [h1]; simp) (.inl ⟨h2, h3⟩) (skip_token hr (by decide) (fun e => absurd e (by decide)))]
    unfold token
    rw [if_neg (by simp [isDec]), if_neg (by decide), if_pos rfl, stringTok_end h, checked_ok (by simp only; omega)]
    exact ⟨_, by simp [St.clear, h2, h3]; rfl⟩
  · have hr' : st.rest = 113 :: 39 :: (text ++ 39 :: rest) := by rw [hr]; simp only [List.append_assoc]; rfl
    rw [lex_token lc hr' (by omega) (by rw [h1]; simp) (.inl ⟨h2, h3⟩) (skip_token hr' (by decide) (fun e => absurd e (by decide)))]
    unfold token
    rw [if_neg (by simp [isDec]), if_neg (by decide), if_neg (by decide), if_neg (by decide), if_pos ⟨rfl, by simp [begins]⟩]
    have hS := (StrLit.single_literal (text ++ 39 :: rest) v rest).2 ⟨text, rfl, h⟩
    unfold singleTok
    simp only [List.drop_succ_cons, List.drop_zero, cutQ_spells h, hS, countLfQ_spells h _ (Nat.le_refl _)]
    rw [checked_ok (by simp only; omega)]
    exact ⟨_, by simp [St.clear, h2, h3]; rfl⟩

example : ∃ lb, lex libc0 (bytes "q'\n' ") (at0 "q'\n' ") = .ok (.str [10], { at0 "q'\n' " with rest := [32], line := 2, lineBegin := lb }) :=
  quoted_tokens libc0 (text := [10]) (at0_outside _) (by decide +kernel) (.inr ⟨.plain (by decide) (by decide) .nil, by decide +kernel⟩)

/-- **C66**, character literals and numeric literals are tokens with the values of C60 and C59. -/
theorem constant_tokens (lc : Libc) {src : Bytes} {st : St} (ho : Outside st) (hl : st.line ≤ 2147483647) :
    (∀ text v rest, SpellsChar text v → st.rest = 39 :: (text ++ 39 :: rest) →
      lex lc src st = .ok (.byte v, { st with rest := rest, arrow := false, method := false, field := false })) ∧
    (∀ b r c rest, Digit b → st.rest = b :: r ∨ st.rest = 45 :: b :: r → lexNum lc st.rest = .ok (some (c, rest)) →
      lex lc src st = .ok (.const c, { st with rest := rest, arrow := false, method := false, field := false })) := by
  obtain ⟨h1, h2, h3⟩ := ho
  refine ⟨fun text v rest h hr => ?_, fun b r c rest hb hr h => ?_⟩
  · rw [lex_token lc hr hl (by rw [h1]; simp) (.inl ⟨h2, h3⟩) (skip_token hr (by decide) (fun e => absurd e (by decide)))]
    unfold token
    rw [if_neg (by simp [isDec]), if_pos rfl]
    unfold charTok
    rw [(StrLit.char_literal _ _ _).2 ⟨text, rfl, h⟩]
    simp only
    rw [checked_ok (by exact hl)]
    simp [St.clear, h2, h3]
  · have hnum : numTok lc st = .ok (.const c, { st.clear with rest := rest }) := by
      unfold numTok
      rw [h]
    have hfin : checked (numTok lc st) = .ok (.const c, { st with rest := rest, arrow := false, method := false, field := false }) := by
      rw [hnum, checked_ok (by exact hl)]
      simp [St.clear, h2, h3]
    have hd := isDec_iff.2 hb
    rcases hr with hr | hr
    · have hne : ∀ x : UInt8, isDec x = false → b ≠ x := by
        rintro x hx rfl; rw [hd] at hx; cases hx
      rw [lex_token lc hr hl (by rw [h1]; simp) (.inl ⟨h2, h3⟩) (skip_token hr ⟨hne _ rfl, hne _ rfl, hne _ rfl, hne _ rfl, hne _ rfl⟩
        (fun e => absurd e (hne _ rfl)))]
      unfold token
      rw [if_pos (.inl hd)]
      exact hfin
    · rw [lex_token lc hr hl (by rw [h1]; simp) (.inl ⟨h2, h3⟩) (skip_token hr (by decide) (fun e => absurd e (by decide)))]
      unfold token
      rw [if_pos (.inr ⟨rfl, by exact hd⟩)]
      exact hfin

example : lex libc0 (bytes "-12;") (at0 "-12;") = .ok (.const (.int (-12)), { at0 "-12;" with rest := [59] }) :=
  (constant_tokens libc0 (at0_outside _) (at0_line _)).2 49 [50, 59] _ _ (by unfold Digit; decide) (.inr (by decide +kernel)) (by decide +kernel)

/-! ## File and lib directives -/

theorem spaces_stop (k : Nat) {t : Bytes} (ht : ∀ c t', t = c :: t' → c ≠ 32) : spaces (List.replicate k 32 ++ t) = t := by
  refine (takeWhile_stop (fun b hb => ?_) (fun b r e => ?_)).2
  · rw [List.eq_of_mem_replicate hb]; rfl
  · have := ht b r e
    simpa using this

theorem quoted_text {m : String} {v t : Bytes} (h : 34 ∉ v ∧ 10 ∉ v) : quoted m (v ++ 34 :: t) = .ok (v, t) := by
  induction v with
  | nil => rfl
  | cons b v ih =>
    have h1 : b ≠ 34 := fun e => h.1 (e ▸ List.mem_cons_self ..)
    have h2 : b ≠ 10 := fun e => h.2 (e ▸ List.mem_cons_self ..)
    rw [List.cons_append, quoted, if_neg h1, if_neg h2,
      ih ⟨fun e => h.1 (List.mem_cons_of_mem _ e), fun e => h.2 (List.mem_cons_of_mem _ e)⟩]

theorem skip_hash {src : Bytes} {st st' : St} {r : Bytes} (hr : st.rest = 35 :: r) (h : hash src st r = .ok st') : skip src st = .ok (some st') := by
  unfold skip
  rw [hr]
  simp only
  rw [if_neg (by decide), if_neg (by decide), if_pos trivial, h]

theorem lex_hash_die (lc : Libc) {src : Bytes} {st : St} {r : Bytes} {m : String} (ho : Outside st) (hl : st.line ≤ 2147483647) (hr : st.rest = 35 :: r)
    (h : hash src st r = .die m) : lex lc src st = .die m := by
  obtain ⟨h1, h2, h3⟩ := ho
  have hs : skip src st = .die m := by
    unfold skip
    rw [hr]
    simp only
    rw [if_neg (by decide), if_neg (by decide), if_pos trivial, h]
  rw [lex_eq, lexLoop_step lc hr hl (by rw [h1]; simp) (.inl ⟨h2, h3⟩), hs]
  rfl

/-- **C66**, file directives.  `#file` and a path in quotes at the beginning of the source, or after its first line if that begins with `#!`, sets the file name. -/
theorem file_directive (lc : Libc) {src file pre v u : Bytes} {a b : Nat} (hp : pre = [] ∨ ∃ c, 10 ∉ c ∧ pre = bytes "#!" ++ c ++ [10])
    (hs : src = pre ++ bytes "#file " ++ List.replicate a 32 ++ 34 :: v ++ 34 :: List.replicate b 32 ++ 10 :: u) (hv : 34 ∉ v ∧ 10 ∉ v) (hne : v ≠ []) :
    ∃ sb, lex lc src (start file src) = lex lc src { start file src with
      rest := u, line := 1 + pre.count 10, lineBegin := u.length, file := v, shebang := sb } := by
  have key : ∀ st : St, Outside st → st.line ≤ 2147483647 → (st.rest.length = src.length ∨ st.shebang = some st.rest.length) →
      st.rest = bytes "#file " ++ List.replicate a 32 ++ 34 :: v ++ 34 :: List.replicate b 32 ++ 10 :: u →
      lex lc src st = lex lc src { st with rest := u, file := v, lineBegin := u.length } := by
    intro st ho hl hb hr
    have hr' : st.rest = 35 :: 102 :: 105 :: 108 :: 101 :: 32 :: (List.replicate a 32 ++ (34 :: (v ++ 34 :: (List.replicate b 32 ++ 10 :: u)))) := by
      rw [hr]; simp only [List.append_assoc, List.cons_append]; rfl
    refine lex_skip lc ho hl (skip_hash hr' ?_)
    unfold hash
    rw [if_neg (by simp [List.isPrefixOf]), if_pos (by simp)]
    simp only [List.drop_succ_cons, List.drop_zero]
    unfold fileDirective
    rw [if_neg (fun h => h hb)]
    have hs1 := spaces_stop (a + 1) (t := 34 :: (v ++ 34 :: (List.replicate b 32 ++ 10 :: u))) (by intro c t' e; cases e; decide)
    rw [List.replicate_succ, List.cons_append] at hs1
    rw [hs1]
    simp only [quoted_text hv, spaces_stop b (t := 10 :: u) (by intro c t' e; cases e; decide)]
    rw [if_neg hne]
  rcases hp with rfl | ⟨c, hc, rfl⟩
  · exact ⟨none, key (start file src) ⟨rfl, rfl, rfl⟩ (by show 1 ≤ 2147483647; omega) (.inl rfl) hs⟩
  · have e1 : src = 35 :: (33 :: c ++ 10 :: (bytes "#file " ++ List.replicate a 32 ++ 34 :: v ++ 34 :: List.replicate b 32 ++ 10 :: u)) := by
      rw [hs]; simp [bytes]
    have hsk : hash src (start file src) (33 :: c ++ 10 :: (bytes "#file " ++ List.replicate a 32 ++ 34 :: v ++ 34 :: List.replicate b 32 ++ 10 :: u)) = _ :=
      hash_comment src (start file src) (c := 33 :: c) (by simp [hc]) ⟨by simp [bytes], by simp [bytes], by simp [bytes]⟩
    have hpre : (bytes "#!" ++ c ++ [10]).count 10 = 1 := by
      rw [List.count_append, List.count_append, List.count_eq_zero.2 hc]; rfl
    rw [hpre]
    have hcom : comment src (start file src) (33 :: c ++ 10 :: (bytes "#file " ++ List.replicate a 32 ++ 34 :: v ++ 34 :: List.replicate b 32 ++ 10 :: u)) =
        { start file src with
          rest := bytes "#file " ++ List.replicate a 32 ++ 34 :: v ++ 34 :: List.replicate b 32 ++ 10 :: u, line := 2,
          lineBegin := (bytes "#file " ++ List.replicate a 32 ++ 34 :: v ++ 34 :: List.replicate b 32 ++ 10 :: u).length,
          shebang := some (bytes "#file " ++ List.replicate a 32 ++ 34 :: v ++ 34 :: List.replicate b 32 ++ 10 :: u).length } := by
      have hd : (33 :: c ++ 10 :: (bytes "#file " ++ List.replicate a 32 ++ 34 :: v ++ 34 :: List.replicate b 32 ++ 10 :: u)).dropWhile (· != 10) =
          10 :: (bytes "#file " ++ List.replicate a 32 ++ 34 :: v ++ 34 :: List.replicate b 32 ++ 10 :: u) := by
        refine (takeWhile_stop (fun b hb => ?_) (fun b r e => ?_)).2
        · simp only [bne_iff_ne, ne_eq]
          rintro rfl
          rcases List.mem_cons.1 hb with h | h
          · cases h
          · exact hc h
        · cases e; rfl
      unfold comment
      simp only [hd]
      rw [if_pos ⟨rfl, by simp [begins]⟩]
      rfl
    rw [lex_skip lc ⟨rfl, rfl, rfl⟩ (by show 1 ≤ 2147483647; omega) (skip_hash e1 (hsk.trans (by rw [hcom])))]
    refine ⟨some (bytes "#file " ++ List.replicate a 32 ++ 34 :: v ++ 34 :: List.replicate b 32 ++ 10 :: u).length, ?_⟩
    exact key _ ⟨rfl, rfl, rfl⟩ (by show 2 ≤ 2147483647; omega) (.inr rfl) rfl

example : ∃ sb, lex libc0 (bytes "#!/x\n#file \"a\"\n;") (start [] (bytes "#!/x\n#file \"a\"\n;")) = lex libc0 (bytes "#!/x\n#file \"a\"\n;")
    { start [] (bytes "#!/x\n#file \"a\"\n;") with rest := [59], line := 2, lineBegin := 1, file := [97], shebang := sb } :=
  file_directive libc0 (pre := bytes "#!/x\n") (v := [97]) (u := [59]) (a := 0) (b := 0) (.inr ⟨bytes "/x", by decide +kernel, by decide +kernel⟩) (by decide +kernel)
    (by decide) (by decide)

/-- **C66**, lib directives.  `#lib` and a directory in quotes at the beginning of a line yields no token. -/
theorem lib_directive (lc : Libc) {src : Bytes} {st : St} {a b : Nat} {v u : Bytes} (ho : Outside st) (hl : st.line ≤ 2147483647)
    (hb : st.lineBegin = st.rest.length) (hr : st.rest = bytes "#lib " ++ List.replicate a 32 ++ 34 :: v ++ 34 :: List.replicate b 32 ++ 10 :: u)
    (hv : 34 ∉ v ∧ 10 ∉ v) (hne : v ≠ []) : lex lc src st = lex lc src { st with rest := u, lineBegin := u.length } := by
  have hr' : st.rest = 35 :: 108 :: 105 :: 98 :: 32 :: (List.replicate a 32 ++ (34 :: (v ++ 34 :: (List.replicate b 32 ++ 10 :: u)))) := by
    rw [hr]; simp only [List.append_assoc, List.cons_append]; rfl
  refine lex_skip lc ho hl (skip_hash hr' ?_)
  unfold hash
  rw [if_neg (by simp [List.isPrefixOf]), if_neg (by simp [List.isPrefixOf]), if_pos (by simp)]
  simp only [List.drop_succ_cons, List.drop_zero]
  unfold libDirective
  rw [if_neg (by simpa using hb)]
  have hs1 := spaces_stop (a + 1) (t := 34 :: (v ++ 34 :: (List.replicate b 32 ++ 10 :: u))) (by intro c t' e; cases e; decide)
  rw [List.replicate_succ, List.cons_append] at hs1
  rw [hs1]
  simp only [quoted_text hv, spaces_stop b (t := 10 :: u) (by intro c t' e; cases e; decide)]
  rw [if_neg hne]

example : lex libc0 (bytes "#lib \"a\"\n;") (at0 "#lib \"a\"\n;") = lex libc0 (bytes "#lib \"a\"\n;") { at0 "#lib \"a\"\n;" with rest := [59], lineBegin := 1 } :=
  lib_directive libc0 (v := [97]) (u := [59]) (a := 0) (b := 0) (at0_outside _) (at0_line _) (by decide +kernel) (by decide +kernel) (by decide) (by decide)

/-- **C66**, a line directive whose number is 0 or greater than 2147483647 is refused. -/
theorem line_directive_range (lc : Libc) {src : Bytes} {st : St} {a b n : Nat} {ds u : Bytes} (ho : Outside st) (hl : st.line ≤ 2147483647)
    (hb : st.lineBegin = st.rest.length) (hr : st.rest = bytes "#line " ++ List.replicate a 32 ++ ds ++ List.replicate b 32 ++ 10 :: u)
    (hd : Spec.Denotes 10 ds n) (h : n = 0 ∨ 2147483647 < n) : ∃ m, lex lc src st = .die m := by
  have hr' : st.rest = 35 :: 108 :: 105 :: 110 :: 101 :: 32 :: (List.replicate a 32 ++ (ds ++ (List.replicate b 32 ++ 10 :: u))) := by
    rw [hr]; simp only [List.append_assoc]; rfl
  refine ⟨msgLineRange, lex_hash_die lc ho hl hr' ?_⟩
  rw [line_text hb hd, if_neg (by omega)]

example : ∃ m, lex libc0 (bytes "#line 0\n;") (at0 "#line 0\n;") = .die m :=
  line_directive_range libc0 (a := 0) (b := 0) (ds := [48]) (u := [59]) (at0_outside _) (at0_line _) (by decide +kernel) (by decide +kernel)
    (.one rfl (by decide)) (.inl rfl)

/-- **C66**, a line or lib directive that is not at the beginning of a line, and a file directive that is not at the beginning of the source or after the `#!` line, is refused. -/
theorem directives_placed (lc : Libc) {src : Bytes} {st : St} {r : Bytes} (ho : Outside st) (hl : st.line ≤ 2147483647) :
    (st.lineBegin ≠ st.rest.length → st.rest = bytes "#line " ++ r ∨ st.rest = bytes "#lib " ++ r → ∃ m, lex lc src st = .die m) ∧
    (st.rest.length ≠ src.length → st.shebang ≠ some st.rest.length → st.rest = bytes "#file " ++ r → ∃ m, lex lc src st = .die m) := by
  refine ⟨fun hb hr => ?_, fun hb hb' hr => ?_⟩
  · rcases hr with hr | hr
    · refine ⟨msgLineBegin, lex_hash_die lc ho hl (r := 108 :: 105 :: 110 :: 101 :: 32 :: r) hr ?_⟩
      unfold hash lineDirective
      rw [if_pos (by simp), if_pos hb]
    · refine ⟨msgLibBegin, lex_hash_die lc ho hl (r := 108 :: 105 :: 98 :: 32 :: r) hr ?_⟩
      unfold hash libDirective
      rw [if_neg (by simp [List.isPrefixOf]), if_neg (by simp [List.isPrefixOf]), if_pos (by simp), if_pos hb]
  · refine ⟨msgFileBegin, lex_hash_die lc ho hl (r := 102 :: 105 :: 108 :: 101 :: 32 :: r) hr ?_⟩
    unfold hash fileDirective
    rw [if_neg (by simp [List.isPrefixOf]), if_pos (by simp), if_pos (by rintro (h | h); exact hb h; exact hb' h)]

example : ∃ m, lex libc0 (bytes " #line 5\n") { at0 " #line 5\n" with rest := bytes "#line 5\n" } = .die m :=
  (directives_placed libc0 (r := bytes "5\n") (st := { at0 " #line 5\n" with rest := bytes "#line 5\n" }) ⟨rfl, rfl, rfl⟩ (by show 1 ≤ 2147483647; omega)).1 (by decide +kernel) (.inl (by decide +kernel))

/-! ## What is refused -/

theorem hereBody_sound {nm : Bytes} (hne : nm ≠ []) (hn : 10 ∉ nm) : ∀ {s : Bytes} {bol : Bool} {v u : Bytes}, hereBody nm bol s = some (v, u) →
    s = v ++ nm ++ 10 :: u ∧ (bol = true → HereText nm v) ∧ (bol = false → ∃ l t, v = l ++ 10 :: t ∧ 10 ∉ l ∧ HereText nm t)
  | [], bol, v, u, h => by cases bol <;> cases h
  | b :: r, bol, v, u, h => by
    rw [hereBody] at h
    by_cases hp : (bol && (nm ++ [10]).isPrefixOf (b :: r)) = true
    · rw [if_pos hp] at h
      cases h
      rw [Bool.and_eq_true, List.isPrefixOf_iff_prefix] at hp
      obtain ⟨hb, t, ht⟩ := hp
      subst hb
      refine ⟨?_, fun _ => .nil, fun h => by cases h⟩
      rw [← ht, show nm.length + 1 = (nm ++ [10]).length by simp, List.drop_left]
      simp
    · rw [if_neg hp] at h
      split at h
      · rename_i v' t' hv
        cases h
        obtain ⟨e1, e2, e3⟩ := hereBody_sound hne hn hv
        refine ⟨by rw [e1]; simp, fun hb => ?_, fun hb => ?_⟩
        · by_cases hb10 : b = 10
          · subst hb10
            exact .line (l := []) (by simp) (fun h => hne h.symm) (e2 rfl)
          · obtain ⟨l, t, rfl, hl, ht⟩ := e3 (by simpa using hb10)
            refine .line (l := b :: l) (by simp [hl, Ne.symm hb10]) ?_ ht
            intro hl'
            refine hp ?_
            rw [hb, e1, ← hl', Bool.true_and, List.isPrefixOf_iff_prefix]
            exact ⟨t ++ (b :: l) ++ 10 :: u, by simp⟩
        · by_cases hb10 : b = 10
          · subst hb10
            exact ⟨[], v', rfl, by simp, e2 rfl⟩
          · obtain ⟨l, t, rfl, hl, ht⟩ := e3 (by simpa using hb10)
            exact ⟨b :: l, t, rfl, by simp [hl, Ne.symm hb10], ht⟩
      · cases h

/-- **C66**, a here document that is not of the form of `here_documents` is refused. -/
theorem here_refused (lc : Libc) {src : Bytes} {st : St} {r : Bytes} (ho : Outside st) (hl : st.line ≤ 2147483647) (hr : st.rest = bytes "<<'" ++ r)
    (h : ∀ n text rest, HereName n → HereText n text → r ≠ n ++ bytes "';\n" ++ text ++ n ++ 10 :: rest) : ∃ m, lex lc src st = .die m := by
  obtain ⟨h1, h2, h3⟩ := ho
  have hr' : st.rest = 60 :: 60 :: 39 :: r := hr
  have htok : token lc st 60 (60 :: 39 :: r) = heredoc st r := by
    unfold token
    rw [if_neg (by simp [isDec]), if_neg (by decide), if_neg (by decide), if_neg (by decide), if_neg (by simp), if_neg (by simp [isAlpha]),
      if_pos ⟨rfl, by simp [List.isPrefixOf]⟩]
    rfl
  rw [lex_token lc hr' (by omega) (by rw [h1]; simp) (.inl ⟨h2, h3⟩) (skip_token hr' (by decide) (fun e => absurd e (by decide))), htok]
  suffices hd : ∃ m, heredoc st r = .die m by
    obtain ⟨m, hm⟩ := hd
    exact ⟨m, by rw [hm]; rfl⟩
  unfold heredoc
  simp only
  have hall : ∀ b ∈ r.takeWhile isAlnumU, NameChar b := fun b hb => (StrLit.isAlnumU_iff b).1 (List.all_eq_true.1 (List.all_takeWhile) b hb)
  have hsplit : r = r.takeWhile isAlnumU ++ r.dropWhile isAlnumU := (List.takeWhile_append_dropWhile).symm
  by_cases c1 : r.takeWhile isAlnumU = []
  · rw [if_pos c1]; exact ⟨_, rfl⟩
  rw [if_neg c1]
  by_cases c2 : headIs isDec (r.takeWhile isAlnumU) = true
  · rw [if_pos c2]; exact ⟨_, rfl⟩
  rw [if_neg c2]
  by_cases c3 : hasSub [95, 95] (r.takeWhile isAlnumU) = true
  · rw [if_pos c3]; exact ⟨_, rfl⟩
  rw [if_neg c3]
  split
  · rename_i t ht
    split
    · rename_i v u hv
      exfalso
      have hN : HereName (r.takeWhile isAlnumU) := by
        refine ⟨?_, hall, fun h => c3 (hasSub_iff.2 h)⟩
        cases hn : r.takeWhile isAlnumU with
        | nil => exact absurd hn c1
        | cons b n =>
          refine ⟨b, n, rfl, fun hd => c2 ?_⟩
          rw [hn]
          exact isDec_iff.2 hd
      obtain ⟨e1, e2, _⟩ := hereBody_sound c1 (fun h => by have := hall _ h; revert this; unfold NameChar; decide) hv
      refine h _ v u hN (e2 rfl) ?_
      conv => lhs; rw [hsplit, ht, e1]
      simp [bytes]
    · exact ⟨_, rfl⟩
  · exact ⟨_, rfl⟩

/-- There is no line feed in the text. -/
example : ∃ m, lex libc0 (bytes "<<'E'") (at0 "<<'E'") = .die m :=
  here_refused libc0 (r := bytes "E'") (at0_outside _) (at0_line _) (by decide +kernel) (fun n text rest _ _ h => by
    have : (10 : UInt8) ∈ bytes "E'" := by rw [h]; simp
    revert this; decide +kernel)

/-- **C66**, a character that begins no token is refused. -/
theorem characters_refused (lc : Libc) {src : Bytes} {st : St} {b : UInt8} {r : Bytes} (ho : Outside st) (hl : st.line ≤ 2147483647) (hr : st.rest = b :: r)
    (hn : ¬ NameChar b) (hq : b ≠ 34 ∧ b ≠ 39 ∧ b ≠ 36 ∧ b ≠ 35) (hw : b ≠ 32 ∧ b ≠ 9 ∧ b ≠ 12 ∧ b ≠ 10) (ho' : ∀ o, ¬ [b] <+: bytes (spelling o)) :
    ∃ m, lex lc src st = .die m := by
  obtain ⟨h1, h2, h3⟩ := ho
  have hop : ∀ o : Op, ∀ c t, bytes (spelling o) = c :: t → b ≠ c := by
    rintro o c t e rfl
    exact ho' o ⟨t, by rw [e]; rfl⟩
  have ne : ∀ (o : Op) (c : UInt8), (bytes (spelling o)).head? = some c → b ≠ c := by
    intro o c h
    cases e : bytes (spelling o) with
    | nil => rw [e] at h; cases h
    | cons x t => rw [e] at h; cases h; exact hop o _ t e
  rw [lex_token lc hr hl (by rw [h1]; simp) (.inl ⟨h2, h3⟩) (skip_token hr ⟨hw.1, hw.2.1, hw.2.2.1, hw.2.2.2, hq.2.2.2⟩
    (fun e => absurd e (ne .assign _ rfl)))]
  refine ⟨msgChar, ?_⟩
  have hna : isAlnumU b = false := by
    cases hb : isAlnumU b with
    | true => exact absurd ((StrLit.isAlnumU_iff b).1 hb) hn
    | false => rfl
  have hnd : isDec b = false := by
    cases hb : isDec b with
    | true => exact absurd (.inl (isDec_iff.1 hb)) hn
    | false => rfl
  have hnl : isAlpha b = false := by
    cases hb : isAlpha b with
    | true => exact absurd (by rcases isAlpha_iff.1 hb with h | h; exact .inr (.inl h); exact .inr (.inr (.inl h))) hn
    | false => rfl
  have h95 : b ≠ 95 := by rintro rfl; cases hna
  have h113 : b ≠ 113 := by rintro rfl; cases hna
  unfold token
  rw [if_neg (by rintro (h | h); rw [hnd] at h; cases h; exact ne .sub _ rfl h.1), if_neg hq.2.1, if_neg hq.1, if_neg hq.2.2.1,
    if_neg (fun h => h113 h.1), if_neg (by rintro (h | h); rw [hnl] at h; cases h; exact h95 h), if_neg (fun h => ne .lt _ rfl h.1),
    if_neg (fun h => ne .bitAnd _ rfl h.1)]
  have : operator b r = none := by
    unfold operator
    rw [if_neg (ne .concat 46 rfl), if_neg (ne .add 43 rfl), if_neg (ne .sub 45 rfl), if_neg (ne .mul 42 rfl), if_neg (ne .div 47 rfl), if_neg (ne .mod 37 rfl),
      if_neg (ne .xor 94 rfl), if_neg (ne .bitOr 124 rfl), if_neg (ne .bitAnd 38 rfl), if_neg (ne .assign 61 rfl), if_neg (ne .lt 60 rfl), if_neg (ne .gt 62 rfl),
      if_neg (ne .not 33 rfl), if_neg (ne .bitNot 126 rfl), if_neg (ne .ref 92 rfl), if_neg (ne .lparen 40 rfl), if_neg (ne .rparen 41 rfl),
      if_neg (ne .lbracket 91 rfl), if_neg (ne .rbracket 93 rfl), if_neg (ne .lbrace 123 rfl), if_neg (ne .rbrace 125 rfl), if_neg (ne .comma 44 rfl),
      if_neg (ne .colon 58 rfl), if_neg (ne .semicolon 59 rfl), if_neg (ne .at 64 rfl)]
  rw [this]
  rfl

example : ∃ m, lex libc0 (bytes "?") (at0 "?") = .die m :=
  characters_refused libc0 (b := 63) (r := []) (at0_outside _) (at0_line _) (by decide +kernel) (by unfold Spec.NameChar; decide) (by decide) (by decide)
    (fun o => by cases o <;> decide +kernel)

/-! ## The characters of a source -/

theorem source_cons {cp : Nat} (hc : Spec.Utf8.IsScalar cp) {u : Bytes} : Source (Spec.Utf8.encode cp ++ u) ↔
    (cp < 128 → 32 ≤ cp ∧ cp ≤ 126 ∨ cp = 9 ∨ cp = 10 ∨ cp = 11 ∨ cp = 12) ∧ Source u := by
  constructor
  · rintro ⟨cs, h1, h2⟩
    cases cs with
    | nil =>
      have := (Utf8.encode_length cp).1
      have := congrArg List.length h2
      rw [List.length_append, List.flatMap_nil, List.length_nil] at this
      omega
    | cons c cs =>
      have hc' := h1 c (List.mem_cons_self ..)
      rw [List.flatMap_cons] at h2
      have e1 := Utf8.dec_encode cp hc u
      rw [h2, Utf8.dec_encode c hc'.1] at e1
      cases e1
      have := List.append_cancel_left h2
      exact ⟨hc'.2, cs, fun x hx => h1 x (List.mem_cons_of_mem _ hx), this⟩
  · rintro ⟨h1, cs, h2, rfl⟩
    refine ⟨cp :: cs, fun x hx => ?_, by rw [List.flatMap_cons]⟩
    rcases List.mem_cons.1 hx with rfl | hx
    · exact ⟨hc, h1⟩
    · exact h2 x hx

theorem checkChars_iff {src : Bytes} : ∀ (n : Nat) (pre t : Bytes), src = pre ++ t → t.length < n →
    (checkChars src n pre.length = .ok () ↔ Source t) ∧ checkChars src n pre.length ≠ .ub
  | 0, _, _, _, h => absurd h (by omega)
  | n + 1, pre, [], hs, _ => by
    rw [checkChars, if_neg (by rw [hs]; simp)]
    exact ⟨⟨fun _ => ⟨[], by simp, rfl⟩, fun _ => rfl⟩, by simp⟩
  | n + 1, pre, b :: t, hs, hn => by
    have hit : Utf8.iterate (src ++ [0]) pre.length src.length = .ok (Utf8.ans (Utf8.dec (b :: t))) := by
      rw [hs]
      exact Utf8.iterate_eq pre b t _ (by rw [List.length_append, List.length_cons]; omega)
    rw [checkChars, if_pos (by rw [hs, List.length_append, List.length_cons]; omega)]
    cases hd : Utf8.dec (b :: t) with
    | none =>
      rw [hd] at hit
      change _ = Out.ok ((-3 : Int), (-1 : Int)) at hit
      rw [hit]
      simp only
      rw [if_pos (show ¬ ((-3 : Int) > 0) by decide)]
      refine ⟨⟨fun h => by (cases h), ?_⟩, by simp⟩
      rintro ⟨cs, h1, h2⟩
      cases cs with
      | nil => cases h2
      | cons c cs =>
        rw [List.flatMap_cons] at h2
        exact absurd ⟨_, h2.symm⟩ (Utf8.dec_none hd c (h1 c (List.mem_cons_self ..)).1)
    | some p =>
      obtain ⟨cp, k⟩ := p
      obtain ⟨hc, hk, u, hu⟩ := Utf8.dec_sound hd
      have hk1 := (Utf8.encode_length cp).1
      rw [hu, source_cons hc]
      have hul : u.length < n := by
        have := congrArg List.length hu
        rw [List.length_append, List.length_cons] at this
        rw [List.length_cons] at hn
        omega
      have ih := checkChars_iff (src := src) n (pre ++ Spec.Utf8.encode cp) u (by rw [hs, hu, List.append_assoc]) hul
      rw [List.length_append, hk] at ih
      rw [hd] at hit
      change _ = Out.ok ((k : Int), (cp : Int)) at hit
      rw [hit]
      simp only
      rw [if_neg (show ¬ ¬ ((k : Int) > 0) by omega)]
      by_cases h1 : k = 1
      · subst h1
        rw [if_pos (show ((1 : Nat) : Int) = 1 from rfl)]
        have hcp : cp < 128 ∧ b.toNat = cp := by
          unfold Spec.Utf8.encode at hk hu
          by_cases c1 : cp < 128
          · rw [if_pos c1] at hu
            cases hu
            refine ⟨c1, ?_⟩
            rw [UInt8.toNat_ofNat']
            omega
          · rw [if_neg c1] at hk
            split at hk
            · cases hk
            · split at hk <;> cases hk
        have hget : src.getD pre.length 0 = b := by rw [hs]; simp [List.getD]
        simp only [hget]
        by_cases hp : printOrSpace b = true
        · rw [if_neg (by simp [hp])]
          by_cases h13 : b = 13
          · rw [if_pos h13]
            refine ⟨⟨fun h => (by cases h), fun h => ?_⟩, by simp⟩
            have := h.1 hcp.1
            rw [← hcp.2, h13] at this
            revert this
            decide
          · rw [if_neg h13]
            refine ⟨?_, ih.2⟩
            rw [ih.1]
            constructor
            · intro h
              refine ⟨fun _ => ?_, h⟩
              unfold printOrSpace at hp
              simp only [Bool.or_eq_true, Bool.and_eq_true, decide_eq_true_eq] at hp
              have : b.toNat ≠ 13 := fun h => h13 (UInt8.toNat_inj.1 h)
              omega
            · exact fun h => h.2
        · rw [if_pos (by simpa using hp)]
          refine ⟨⟨fun h => (by cases h), fun h => ?_⟩, by simp⟩
          exfalso
          refine hp ?_
          have := h.1 hcp.1
          unfold printOrSpace
          simp only [Bool.or_eq_true, Bool.and_eq_true, decide_eq_true_eq]
          omega
      · rw [if_neg (show ¬ (k : Int) = 1 by omega)]
        have hcp : ¬ cp < 128 := by
          intro c1
          unfold Spec.Utf8.encode at hk
          rw [if_pos c1] at hk
          exact h1 hk.symm
        rw [show ((k : Int)).toNat = k by omega]
        refine ⟨?_, ih.2⟩
        rw [ih.1]
        exact ⟨fun h => ⟨fun h' => absurd h' hcp, h⟩, fun h => h.2⟩

/-- **C66**, a source is accepted if and only if it is UTF-8 and its ASCII characters are printable or white space but not a carriage return. -/
theorem source_characters (src : Bytes) : (source src = .ok () ↔ Source src) ∧ source src ≠ .ub :=
  checkChars_iff (src.length + 1) [] src rfl (by omega)

/-! ## Where the code does not do what is documented -/

/-- **C66** is violated by `<`, `>` and `scalar`: they swallow the next character, whatever it is, and at the end of the source the terminating NUL. -/
theorem swallowed_violated :
    tokens0 "1<2;" = .ok [(.const (.int 1), 1), (.op .lt, 1), (.op .semicolon, 1)] ∧
    tokens0 "1 >$x" = .ok [(.const (.int 1), 1), (.op .gt, 1), (.name (bytes "x"), 1)] ∧
    tokens0 "scalar(@$x)" = .ok [(.kw (bytes "scalar"), 1), (.op .at, 1), (.var (bytes "x"), 1), (.op .rparen, 1)] ∧
    tokens0 "1 <" = .ub := by decide +kernel

/-- **C66** is violated by `-` before a digit: it is a part of the literal, also after an operand. -/
theorem minus_violated :
    tokens0 "$x-1" = .ok [(.var (bytes "x"), 1), (.const (.int (-1)), 1)] ∧
    tokens0 "$x - 1" = .ok [(.var (bytes "x"), 1), (.op .sub, 1), (.const (.int 1), 1)] := by decide +kernel

/-- **C66**, lines that are not counted: those of file and lib directives, and of line feeds swallowed by `<`, `>` and `scalar`, in character literals and in
hexadecimal literals. -/
theorem lines_violated :
    tokens0 "#lib \"x\"\na" = .ok [(.name (bytes "a"), 1)] ∧
    tokens0 "#file \"x\"\na" = .ok [(.name (bytes "a"), 1)] ∧
    tokens0 "1 <\na" = .ok [(.const (.int 1), 1), (.op .lt, 1), (.name (bytes "a"), 1)] ∧
    tokens0 "'\n' a" = .ok [(.byte 10, 1), (.name (bytes "a"), 1)] ∧
    tokens0 "0x\n1F a" = .ok [(.const (.int 31), 1), (.name (bytes "a"), 1)] := by decide +kernel

/-- **C66**, a line directive is taken in the middle of a line after a string literal of several lines, `7-3` is taken
for 7, and the greatest line number overflows at the next line feed. -/
theorem line_directive_violated :
    tokens0 "\"\n\"#line 5\na" = .ok [(.str [10], 2), (.name (bytes "a"), 5)] ∧
    tokens0 "#line 7-3\na" = .ok [(.name (bytes "a"), 7)] ∧
    tokens0 "#line 2147483647\n\na" = .ub := by decide +kernel

/-- **C66**, texts that are not to be accepted: POD that ends in the middle of a line, a symbol name that ends with `::`, a variable without a name. -/
theorem accepted_violated :
    tokens0 "=pod =cut\na" = .ok [(.name (bytes "a"), 2)] ∧
    tokens0 "A:: " = .ok [(.name (bytes "A::"), 1)] ∧
    tokens0 "$;" = .ok [(.var [], 1), (.op .semicolon, 1)] ∧
    tokens0 "${}" = .ok [(.var [], 1)] := by decide +kernel

/-- **C66**, directives that are not closed are read beyond the end of the source. -/
theorem unclosed_violated : tokens0 "#lib \"x" = .ub ∧ tokens0 "#file \"x" = .ub := by decide +kernel

end Toke
end SPVM
