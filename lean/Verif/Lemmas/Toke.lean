import Verif.Spec.Toke
import Verif.Props.StrLit
import Verif.Props.Literal
import Verif.Props.Utf8
/-!
# Lemmas on the tokenizer
-/
namespace SPVM
namespace Toke
open VM (Bytes)
open Literal (isDec isHex Const Libc scan scan16 scan8 scan10 scanHex scanOct scanDec Scanned baseOf suffix numLit lexNum)
open StrLit (isAlnumU begins cut strLit singleLit charLit)
open Spec.Toke
open Spec (NameChar Spells SpellsQ SpellsChar)

theorem contains_cons {b : UInt8} {s p : Bytes} (h : Contains s p) : Contains (b :: s) p := by
  obtain ⟨x, y, rfl⟩ := h
  exact ⟨b :: x, y, rfl⟩

theorem contains_append {a s p : Bytes} (h : Contains s p) : Contains (a ++ s) p := by
  obtain ⟨x, y, rfl⟩ := h
  exact ⟨a ++ x, y, by simp⟩

theorem contains_prefix (p s : Bytes) : Contains (p ++ s) p := ⟨[], s, rfl⟩

theorem undirected_append {a s : Bytes} (h : Undirected (a ++ s)) : Undirected s := by
  obtain ⟨h1, h2, h3, h4, h5⟩ := h
  exact ⟨fun h => h1 (contains_append h), fun h => h2 (contains_append h), fun h => h3 (contains_append h),
    fun h => h4 (contains_append h), fun h => h5 (contains_append h)⟩

/-! ## Numbers contain no line feed -/

theorem isDec_lf {b : UInt8} (h : isDec b = true) : b ≠ 10 := by
  rintro rfl
  revert h; decide

theorem scanHex_text (e : Bool) (s : Bytes) : s = (scanHex e s).1 ++ (scanHex e s).2 ∧ 10 ∉ (scanHex e s).1 := by
  induction s generalizing e with
  | nil => simp [scanHex]
  | cons b s ih =>
    rw [scanHex]
    split
    · rename_i hb
      split
      · simp
      · obtain ⟨h1, h2⟩ := ih (e || b == 112 || b == 80)
        refine ⟨by simp only [List.cons_append, ← h1], ?_⟩
        simp only [List.mem_cons, not_or]
        refine ⟨fun h => ?_, h2⟩
        rw [← h] at hb
        revert hb; decide
    · simp

theorem scanOct_text (s : Bytes) : s = (scanOct s).1 ++ (scanOct s).2 ∧ 10 ∉ (scanOct s).1 := by
  induction s with
  | nil => simp [scanOct]
  | cons b s ih =>
    rw [scanOct]
    split
    · rename_i hb
      refine ⟨by simp only [List.cons_append, ← ih.1], ?_⟩
      simp only [List.mem_cons, not_or]
      refine ⟨fun h => ?_, ih.2⟩
      rw [← h] at hb
      revert hb; decide
    · simp

theorem scanDec_text (e : Bool) (s : Bytes) : s = (scanDec e s).1 ++ (scanDec e s).2 ∧ 10 ∉ (scanDec e s).1 := by
  induction s generalizing e with
  | nil => simp [scanDec]
  | cons b s ih =>
    rw [scanDec]
    split
    · rename_i hb
      split
      · simp
      · obtain ⟨h1, h2⟩ := ih (e || b == 46 || b == 101 || b == 69)
        refine ⟨by simp only [List.cons_append, ← h1], ?_⟩
        simp only [List.mem_cons, not_or]
        refine ⟨fun h => ?_, h2⟩
        rw [← h] at hb
        revert hb; decide
    · simp

theorem baseOf16 {s : Bytes} (h : baseOf s = 16) : ∃ b1 r, s = 48 :: b1 :: r ∧ (b1 = 120 ∨ b1 = 88) := by
  unfold baseOf at h
  split at h
  · rename_i b0 b1 r
    split at h
    · rename_i h0
      split at h
      · rename_i h1
        exact ⟨b1, r, by rw [h0], h1⟩
      · split at h
        · cases h
        · split at h <;> cases h
    · cases h
  · cases h

theorem baseOf8 {s : Bytes} (h : baseOf s = 8 ∨ baseOf s = 2) : ∃ b1 r, s = 48 :: b1 :: r ∧ b1 ≠ 10 := by
  unfold baseOf at h
  split at h
  · rename_i b0 b1 r
    split at h
    · rename_i h0
      refine ⟨b1, r, by rw [h0], ?_⟩
      rintro rfl
      revert h; decide
    · simp at h
  · simp at h

theorem scan_text {s : Bytes} {sc : Scanned} (h : scan s = .ok sc) (hd : headIs isDec s = true) (hx : ∀ q, s ≠ 48 :: 120 :: 10 :: q)
    (hX : ∀ q, s ≠ 48 :: 88 :: 10 :: q) : ∃ b tk, s = b :: tk ++ sc.rest ∧ 10 ∉ b :: tk := by
  unfold scan at h
  split at h
  · rename_i hb
    obtain ⟨b1, r, rfl, h1⟩ := baseOf16 hb
    match r, h, hx, hX with
    | [], h, _, _ => simp [scan16] at h
    | b2 :: r, h, hx, hX =>
      have h2 : b2 ≠ 10 := by
        rintro rfl
        rcases h1 with rfl | rfl
        · exact hx _ rfl
        · exact hX _ rfl
      obtain ⟨e1, e2⟩ := scanHex_text false r
      have hn : 10 ∉ (48 : UInt8) :: b1 :: b2 :: (scanHex false r).1 := by
        simp only [List.mem_cons, not_or]
        exact ⟨by decide, by rcases h1 with rfl | rfl <;> decide, Ne.symm h2, e2⟩
      unfold scan16 at h
      simp only at h
      split at h
      · cases h
        simp only
        refine ⟨48, (b1 :: b2 :: (scanHex false r).1).dropLast, ?_, ?_⟩
        · have ha := e1
          generalize (scanHex false r).1 = l at *
          generalize (scanHex false r).2 = t at *
          have hne : (b1 :: b2 :: l) ≠ [] := by simp
          have hl : ((48 : UInt8) :: b1 :: b2 :: l).getLastD 0 = (b1 :: b2 :: l).getLast hne := by
            rw [List.getLastD_eq_getLast?, List.getLast?_eq_some_getLast (by simp), Option.getD_some, List.getLast_cons hne]
          rw [hl]
          have hc := List.dropLast_concat_getLast hne
          generalize (b1 :: b2 :: l).getLast hne = x at *
          generalize (b1 :: b2 :: l).dropLast = y at *
          have e : (48 : UInt8) :: y ++ x :: t = 48 :: ((y ++ [x]) ++ t) := by simp
          rw [e, hc, ha]; rfl
        · intro hm
          apply hn
          rcases List.mem_cons.1 hm with h | h
          · rw [h]; simp
          · exact List.mem_cons_of_mem _ (List.dropLast_subset _ h)
      · cases h
        exact ⟨48, b1 :: b2 :: (scanHex false r).1, by simp only [List.cons_append, ← e1], hn⟩
  · split at h
    · rename_i hb
      obtain ⟨b1, r, rfl, h1⟩ := baseOf8 hb
      cases h
      obtain ⟨e1, e2⟩ := scanOct_text r
      refine ⟨48, b1 :: (scanOct r).1, by simp only [List.cons_append, ← e1], ?_⟩
      simp only [List.mem_cons, not_or]
      exact ⟨by decide, Ne.symm h1, e2⟩
    · cases s with
      | nil => cases h
      | cons b r =>
        cases h
        obtain ⟨e1, e2⟩ := scanDec_text false r
        refine ⟨b, (scanDec false r).1, by simp only [List.cons_append, ← e1], ?_⟩
        simp only [List.mem_cons, not_or]
        exact ⟨Ne.symm (isDec_lf hd), e2⟩

theorem suffix_text (f : Bool) (r : Bytes) : ∃ t, r = t ++ (suffix f r).2 ∧ 10 ∉ t := by
  cases r with
  | nil => exact ⟨[], rfl, by simp⟩
  | cons b bs =>
    simp only [suffix]
    split
    · rename_i h
      exact ⟨[b], rfl, by intro hm; rw [List.mem_singleton] at hm; subst hm; revert h; decide⟩
    · split
      · rename_i h
        exact ⟨[b], rfl, by intro hm; rw [List.mem_singleton] at hm; subst hm; revert h; decide⟩
      · split
        · rename_i h
          exact ⟨[b], rfl, by intro hm; rw [List.mem_singleton] at hm; subst hm; revert h; decide⟩
        · exact ⟨[], rfl, by simp⟩

theorem lexNum_text (lc : Libc) {src rest : Bytes} {c : Const} (h : lexNum lc src = .ok (some (c, rest)))
    (hx : ¬ Contains src [48, 120, 10]) (hX : ¬ Contains src [48, 88, 10]) : ∃ b tk, src = b :: tk ++ rest ∧ 10 ∉ b :: tk := by
  have key : ∀ {neg s}, Literal.mapOut some (numLit lc neg s) = .ok (some (c, rest)) → headIs isDec s = true →
      (¬ Contains s [48, 120, 10]) → (¬ Contains s [48, 88, 10]) → ∃ b tk, s = b :: tk ++ rest ∧ 10 ∉ b :: tk := by
    intro neg s h hd hx hX
    unfold numLit at h
    cases hs : scan s with
    | ub => rw [hs] at h; cases h
    | die m => rw [hs] at h; cases h
    | ok sc =>
      rw [hs] at h
      simp only at h
      obtain ⟨b, tk, hb, hn⟩ := scan_text hs hd (fun q e => hx ⟨[], q, e⟩) (fun q e => hX ⟨[], q, e⟩)
      obtain ⟨t, ht, hn'⟩ := suffix_text sc.floating sc.rest
      cases hc : Literal.const lc (baseOf s) neg sc.text (suffix sc.floating sc.rest).1 with
      | ub => rw [hc] at h; cases h
      | die m => rw [hc] at h; cases h
      | ok k =>
        rw [hc] at h
        simp only [Literal.mapOut, Out.ok.injEq, Option.some.injEq, Prod.mk.injEq] at h
        refine ⟨b, tk ++ t, ?_, ?_⟩
        · rw [← h.2, hb]
          conv => lhs; rw [ht]
          simp
        · rw [← List.cons_append]
          intro hm
          rcases List.mem_append.1 hm with hm | hm
          · exact hn hm
          · exact hn' hm
  unfold lexNum at h
  cases src with
  | nil => cases h
  | cons b bs =>
    simp only at h
    split at h
    · rename_i hb
      exact key h (by simpa [headIs] using hb) hx hX
    · split at h
      · rename_i hb
        cases bs with
        | nil => cases h
        | cons c' bs' =>
          simp only at h
          split at h
          · rename_i hc
            obtain ⟨b', tk, hb', hn⟩ := key h (by simpa [headIs] using hc) (fun h => hx (contains_cons h)) (fun h => hX (contains_cons h))
            refine ⟨b, b' :: tk, by rw [hb']; rfl, ?_⟩
            simp only [List.mem_cons, not_or] at hn ⊢
            exact ⟨by rw [hb]; decide, hn.1, hn.2⟩
          · cases h
      · cases h

/-! ## Line feeds in string literals -/

theorem denotes_lf {base : Nat} {ds : Bytes} {n : Nat} (h : Spec.Denotes base ds n) : 10 ∉ ds := by
  have hd : ∀ {d : UInt8} {v : Nat}, Spec.digitValue d = some v → d ≠ 10 := by
    rintro d v h rfl
    revert h
    rw [show Spec.digitValue 10 = none by decide]
    simp
  induction h with
  | one h _ => simpa using Ne.symm (hd h)
  | snoc _ h _ ih =>
    simp only [List.mem_append, List.mem_singleton, not_or]
    exact ⟨ih, Ne.symm (hd h)⟩

theorem named_lf {c v : UInt8} (h : Spec.Named c v) : c ≠ 10 := by cases h <;> decide

theorem numbered_lf {s next : Bytes} {v : UInt8} (h : Spec.Numbered s v next) : 10 ∉ s := by
  cases h with
  | octal _ h _ _ => simpa using denotes_lf h
  | octalBrace _ h _ => simpa using denotes_lf h
  | hex _ h _ => simpa using denotes_lf h
  | hexBrace _ h => simpa using denotes_lf h

theorem item_lf {c : UInt8} {t out next : Bytes} (h : Spec.Item (92 :: c :: t) out next) : 10 ∉ (92 : UInt8) :: c :: t := by
  generalize hs : (92 : UInt8) :: c :: t = s at h
  cases h with
  | plain => simp at hs
  | named h => have := named_lf h; simp only [List.mem_cons, List.not_mem_nil, or_false, not_or]; exact ⟨by decide, Ne.symm this⟩
  | numbered h => exact numbered_lf h
  | unicode _ h _ => simpa using denotes_lf h
  | raw h _ =>
    simp only [List.mem_cons, List.not_mem_nil, or_false, not_or]
    refine ⟨by decide, ?_⟩
    intro e
    rw [← e] at h
    revert h; decide

theorem count_zero {t : Bytes} (h : 10 ∉ t) : t.count 10 = 0 := List.count_eq_zero.2 h

theorem countLf_plain {n : Nat} {b : UInt8} {r : Bytes} (h : b ≠ 92) : countLf (n + 1) (b :: r) = (if b = 10 then 1 else 0) + countLf n r := by
  rw [countLf.eq_def]; simp [h]

theorem countLf_esc {n : Nat} {c : UInt8} {r : Bytes} : countLf (n + 1) (92 :: c :: r) = countLf n (StrLit.escape c r).rest := by
  rw [countLf.eq_def]; simp

theorem countLfQ_plain {n : Nat} {b : UInt8} {r : Bytes} (h : b ≠ 92) : countLfQ (n + 1) (b :: r) = (if b = 10 then 1 else 0) + countLfQ n r := by
  rw [countLfQ.eq_def]; simp [h]

theorem countLfQ_esc {n : Nat} {c : UInt8} {r : Bytes} (h : c = 92 ∨ c = 39) : countLfQ (n + 1) (92 :: c :: r) = countLfQ n r := by
  rw [countLfQ.eq_def]; simp [h]

theorem countLf_spells {last : Bool} {raw v : Bytes} (h : Spells last raw v) : ∀ n, raw.length ≤ n → countLf n raw = raw.count 10 := by
  induction h with
  | nil => intro n _; cases n <;> rfl
  | dollar =>
    intro n hn
    match n, hn with
    | n + 1, _ => cases n <;> rfl
  | @cons s out next v hi _ ih =>
    intro n hn
    rcases StrLit.item_cases hi with ⟨b, rfl, rfl, hb⟩ | ⟨c, t, rfl⟩
    · match n, hn with
      | n + 1, hn =>
        rw [List.cons_append, List.nil_append, countLf_plain hb, ih n (by simpa using hn), List.count_cons, Nat.add_comm]
        simp
    · match n, hn with
      | n + 1, hn =>
        have he : StrLit.escape c (t ++ next) = ⟨out, next, false⟩ := StrLit.escape_iff.2 ⟨_, rfl, hi⟩
        rw [List.cons_append, List.cons_append, countLf_esc]
        simp only [he]
        rw [ih n (by simp at hn; omega), ← List.cons_append, ← List.cons_append, List.count_append, count_zero (item_lf hi)]
        omega

theorem countLfQ_spells {raw v : Bytes} (h : SpellsQ raw v) : ∀ n, raw.length ≤ n → countLfQ n raw = raw.count 10 := by
  induction h with
  | nil => intro n _; cases n <;> rfl
  | @plain b t v h1 h2 _ ih =>
    intro n hn
    match n, hn with
    | n + 1, hn =>
      rw [countLfQ_plain h2, ih n (by simpa using hn), List.count_cons, Nat.add_comm]
      simp
  | @escaped b t v hb _ ih =>
    intro n hn
    match n, hn with
    | n + 1, hn =>
      rw [countLfQ_esc hb.symm, ih n (by simp at hn; omega)]
      rcases hb with rfl | rfl <;> simp

/-! ## Text of the tokens -/

theorem varEnd_len {fuel : Nat} {s n : Bytes} (h : StrLit.varEnd fuel s = .ok n) : n.length ≤ s.length := by
  unfold StrLit.varEnd at h
  simp only at h
  have h1 : (if begins 36 s = true then s.drop 1 else s).length ≤ s.length := by split <;> simp
  generalize (if begins 36 s = true then s.drop 1 else s) = s1 at *
  have h2 : (if begins 123 s1 = true then s1.drop 1 else s1).length ≤ s1.length := by split <;> simp
  generalize (if begins 123 s1 = true then s1.drop 1 else s1) = s2 at *
  split at h
  · cases h
    split <;> simp <;> omega
  · split at h
    · rename_i s3 h3
      have h3 := StrLit.skipName_len h3
      suffices n.length ≤ s3.length by omega
      have hi : ∀ (k : Nat) (a b : Bytes), StrLit.skipIndexes k a = .ok b → b.length ≤ a.length := by
        intro k
        induction k with
        | zero => intro a b h; cases h
        | succ k ih =>
          intro a b h
          rw [StrLit.skipIndexes] at h
          split at h
          · rename_i v hv
            have := StrLit.skipIndex_len hv
            have := StrLit.skipArrow_len v
            split at h
            · have := ih _ _ h; omega
            · cases h; omega
          · cases h
          · cases h
      unfold StrLit.varTail at h
      split at h
      · split at h
        · have := hi _ _ _ h
          have := StrLit.skipArrow_len s3
          omega
        · cases h; omega
      · cases h; omega
    · cases h
    · cases h

theorem stringTok_took {st st' : St} {r : Bytes} {tok : Tok} (h : stringTok st r = .ok (tok, st')) :
    ∃ t, r = t ++ st'.rest ∧ st'.line = st.line + t.count 10 ∧ (∃ v, tok = .str v) ∧ st'.heredoc = false ∧
      (t ≠ [] ∨ (st'.expand = .first ∧ ∃ n, st'.next = some n ∧ n < st'.rest.length)) := by
  unfold stringTok at h
  cases hc : cut r with
  | die m => rw [hc] at h; cases h
  | ub => rw [hc] at h; cases h
  | ok c =>
    rw [hc] at h
    simp only at h
    cases hs : strLit (r.length + 1) r with
    | die m => rw [hs] at h; cases h
    | ub => rw [hs] at h; cases h
    | ok k =>
      rw [hs] at h
      simp only [Out.ok.injEq, Prod.mk.injEq] at h
      obtain ⟨rfl, rfl⟩ := h
      obtain ⟨v, rest, next⟩ := k
      simp only
      cases next with
      | none =>
        obtain ⟨raw, h1, h2⟩ := StrLit.strLit_end.1 hs
        have hcut := StrLit.cut_quote (rest := rest) (StrLit.spells_raw h2)
        rw [← h1, hc] at hcut
        cases hcut
        simp only
        refine ⟨raw ++ [34], by rw [h1]; simp, ?_, ⟨_, rfl⟩, rfl, .inl (by simp)⟩
        rw [countLf_spells h2 _ (Nat.le_refl _), List.count_append]
        rfl
      | some n =>
        obtain ⟨raw, q, h1, h2, h3, h4, h5⟩ := StrLit.strLit_var.1 hs
        have hcut := StrLit.cut_var (StrLit.spells_raw h4) h3
        rw [← h1, hc] at hcut
        cases hcut
        simp only
        refine ⟨raw, by rw [h1, h2], ?_, ⟨_, rfl⟩, rfl, .inr ⟨rfl, _, rfl, ?_⟩⟩
        · rw [countLf_spells h4 _ (Nat.le_refl _)]
        · have := varEnd_len h5
          rw [h2]
          simp only [List.length_cons]
          omega

theorem singleTok_took {st st' : St} {r : Bytes} {tok : Tok} (h : singleTok st r = .ok (tok, st')) :
    ∃ t, r = t ++ st'.rest ∧ st'.line = st.line + t.count 10 ∧ ∃ v, tok = .str v := by
  unfold singleTok at h
  cases hc : StrLit.cutQ r with
  | die m => rw [hc] at h; cases h
  | ub => rw [hc] at h; cases h
  | ok c =>
    obtain ⟨raw, rest⟩ := c
    rw [hc] at h
    simp only at h
    cases hs : singleLit r with
    | die m => rw [hs] at h; cases h
    | ub => rw [hs] at h; cases h
    | ok k =>
      obtain ⟨v, rest'⟩ := k
      rw [hs] at h
      simp only [Out.ok.injEq, Prod.mk.injEq] at h
      obtain ⟨rfl, rfl⟩ := h
      obtain ⟨raw', h1, h2⟩ := StrLit.singleLit_iff.1 hs
      have hcut := StrLit.cutQ_complete (rest := rest') (StrLit.spellsQ_raw h2)
      rw [← h1, hc] at hcut
      cases hcut
      refine ⟨raw ++ [39], by rw [h1]; simp, ?_, _, rfl⟩
      simp only
      rw [countLfQ_spells h2 _ (Nat.le_refl _), List.count_append]
      rfl

theorem spellsChar_lf {t : Bytes} {v : UInt8} (h : SpellsChar t v) (h10 : 10 ∈ t) : t = [10] ∧ v = 10 := by
  cases h with
  | plain =>
    rw [List.mem_singleton] at h10
    rw [← h10]
    exact ⟨rfl, rfl⟩
  | named h _ =>
    have := named_lf h
    simp only [List.mem_cons, List.not_mem_nil, or_false] at h10
    rcases h10 with h10 | h10
    · cases h10
    · exact absurd h10.symm this
  | numbered h => exact absurd h10 (numbered_lf h)

/-- The line feeds of a token are counted, but for a raw line feed in a character literal and the character swallowed after `<`, `>`
and `scalar`. -/
def Fair (tok : Tok) (t : Bytes) : Prop :=
  (tok = .byte 10 → ¬ [10, 39] <:+ t) ∧ (tok = .op .lt ∨ tok = .op .gt ∨ tok = .kw (bytes "scalar") → ¬ [10] <:+ t)

theorem charTok_took {st st' : St} {r : Bytes} {tok : Tok} (h : charTok st r = .ok (tok, st')) :
    ∃ t, r = t ++ st'.rest ∧ (Fair tok (39 :: t) → st'.line = st.line + t.count 10) ∧ tok ≠ .eof := by
  unfold charTok at h
  cases hc : charLit r with
  | die m => rw [hc] at h; cases h
  | ub => rw [hc] at h; cases h
  | ok k =>
    obtain ⟨v, rest⟩ := k
    rw [hc] at h
    simp only [Out.ok.injEq, Prod.mk.injEq] at h
    obtain ⟨rfl, rfl⟩ := h
    obtain ⟨t, h1, h2⟩ := StrLit.charLit_iff.1 hc
    refine ⟨t ++ [39], by rw [h1]; simp, ?_, by simp⟩
    intro hf
    have h10 : 10 ∉ t := by
      intro h10
      obtain ⟨rfl, rfl⟩ := spellsChar_lf h2 h10
      exact hf.1 rfl ⟨[39], rfl⟩
    show st.line = _
    rw [List.count_append, count_zero h10]
    rfl

theorem numTok_took {lc : Libc} {st st' : St} {tok : Tok} (h : numTok lc st = .ok (tok, st')) :
    ∃ t, st.rest = t ++ st'.rest ∧ t ≠ [] ∧ (Undirected st.rest → st'.line = st.line + t.count 10) ∧ tok ≠ .eof := by
  unfold numTok at h
  cases hc : lexNum lc st.rest with
  | die m => rw [hc] at h; cases h
  | ub => rw [hc] at h; cases h
  | ok k =>
    cases k with
    | none => rw [hc] at h; cases h
    | some k =>
      obtain ⟨c, rest⟩ := k
      rw [hc] at h
      simp only [Out.ok.injEq, Prod.mk.injEq] at h
      obtain ⟨rfl, rfl⟩ := h
      obtain ⟨b, tk, h1⟩ := Literal.literal_consumes lc hc
      refine ⟨b :: tk, h1, by simp, ?_, by simp⟩
      intro hu
      obtain ⟨b', tk', h2, h3⟩ := lexNum_text lc hc hu.2.2.2.1 hu.2.2.2.2
      rw [h1] at h2
      have := List.append_cancel_right h2
      rw [this, count_zero h3]
      rfl

theorem nameText_lf {n : Bytes} (h : NameText n) : 10 ∉ n := by
  induction h with
  | nil => simp
  | char hb _ ih =>
    simp only [List.mem_cons, not_or]
    refine ⟨?_, ih⟩
    intro e
    rw [← e] at hb
    revert hb
    simp [NameChar]
  | colons _ ih => simpa using ih

theorem symbol_text : ∀ (s : Bytes), s = (symbol s).1 ++ (symbol s).2 ∧ NameText (symbol s).1 ∧ NoName (symbol s).2 := by
  intro s
  generalize hn : s.length = n
  induction n using Nat.strongRecOn generalizing s with
  | ind n ih =>
    match s, hn with
    | [], _ => exact ⟨rfl, .nil, by simp [symbol, NoName]⟩
    | b :: r, hn =>
      rw [symbol.eq_def]
      simp only
      by_cases hb : isAlnumU b = true
      · rw [if_pos hb]
        obtain ⟨h1, h2, h3⟩ := ih r.length (by simp at hn; omega) r rfl
        exact ⟨by simp only [List.cons_append, ← h1], .char ((StrLit.isAlnumU_iff b).1 hb) h2, h3⟩
      · rw [if_neg hb]
        have hnb : ¬ NameChar b := fun h => hb ((StrLit.isAlnumU_iff b).2 h)
        have hno : (∀ q, b :: r ≠ 58 :: 58 :: q) → b :: r = ([] : Bytes) ++ (b :: r) ∧ NameText [] ∧ NoName (b :: r) :=
          fun h => ⟨rfl, .nil, fun c q e => by cases e; exact hnb, h⟩
        by_cases hc : b = 58
        · rw [if_pos hc]
          match r, hn, hno with
          | [], _, hno => exact hno (by simp)
          | c :: r', hn, hno =>
            simp only
            by_cases hc' : c = 58
            · rw [if_pos hc']
              obtain ⟨h1, h2, h3⟩ := ih r'.length (by simp at hn; omega) r' rfl
              exact ⟨by simp only [List.cons_append, ← h1, hc, hc'], .colons h2, h3⟩
            · rw [if_neg hc']
              exact hno (by intro q e; cases e; exact hc' rfl)
        · rw [if_neg hc]
          exact hno (by intro q e; cases e; exact hc rfl)

theorem drop1_took (r : Bytes) : ∃ x, r = x ++ r.drop 1 ∧ x.length ≤ 1 := by
  cases r with
  | nil => exact ⟨[], rfl, by simp⟩
  | cons b r => exact ⟨[b], rfl, by simp⟩

theorem suffix_singleton {x y : Bytes} (hx : x.length ≤ 1) (h : ¬ [10] <:+ y ++ x) : 10 ∉ x := by
  match x, hx with
  | [], _ => simp
  | [b], _ =>
    intro hm
    rw [List.mem_singleton] at hm
    exact h ⟨y, by rw [hm]⟩
  | _ :: _ :: _, hx => simp at hx

theorem keyword_took {st : St} {nm rest : Bytes} (hnm : 10 ∉ nm) (hne : (keyword st nm rest).1 ≠ .eof) :
    ∃ x, rest = x ++ (keyword st nm rest).2.rest ∧
      (Fair (keyword st nm rest).1 (nm ++ x) → (keyword st nm rest).2.line = st.line + (nm ++ x).count 10) := by
  have hz : st.line = st.line + (nm ++ []).count 10 := by rw [List.append_nil, count_zero hnm]; rfl
  unfold keyword at *
  split
  · rename_i hs
    obtain ⟨x, h1, h2⟩ := drop1_took rest
    refine ⟨x, h1, fun hf => ?_⟩
    have := suffix_singleton h2 (hf.2 (.inr (.inr (by rw [hs]; rfl))))
    show st.line = _
    rw [List.count_append, count_zero hnm, count_zero this]
    rfl
  · split
    · rename_i h1 h2
      rw [if_neg h1, if_pos h2] at hne
      exact absurd rfl hne
    · split
      · exact ⟨[], rfl, fun _ => hz⟩
      · split
        · exact ⟨[], rfl, fun _ => hz⟩
        · split
          · exact ⟨[], rfl, fun _ => hz⟩
          · split
            · exact ⟨[], rfl, fun _ => hz⟩
            · exact ⟨[], rfl, fun _ => hz⟩

theorem word_took {st st' : St} {tok : Tok} (h : word st = .ok (tok, st')) (hne : tok ≠ .eof) :
    ∃ t, st.rest = t ++ st'.rest ∧ (symbol st.rest).1 <+: t ∧ (Fair tok t → st'.line = st.line + t.count 10) := by
  obtain ⟨h1, h2, _⟩ := symbol_text st.rest
  have h3 := nameText_lf h2
  unfold word at h
  simp only at h
  split at h
  · split at h
    · cases h
    simp only [Out.ok.injEq] at h
    have e1 : (keyword st (symbol st.rest).1 (symbol st.rest).2).1 = tok := by rw [h]
    have e2 : (keyword st (symbol st.rest).1 (symbol st.rest).2).2 = st' := by rw [h]
    obtain ⟨x, a1, a2⟩ := keyword_took (st := st) (rest := (symbol st.rest).2) h3 (by rw [e1]; exact hne)
    rw [e1, e2] at a2
    rw [e2] at a1
    exact ⟨(symbol st.rest).1 ++ x, by rw [List.append_assoc, ← a1, ← h1], ⟨x, rfl⟩, a2⟩
  · split at h
    · cases h
    · split at h
      · cases h
      · split at h
        · split at h
          · cases h
          · cases h
            exact ⟨_, h1, List.prefix_refl _, fun _ => by rw [count_zero h3]; rfl⟩
        · cases h
          exact ⟨_, h1, List.prefix_refl _, fun _ => by rw [count_zero h3]; rfl⟩

theorem begins_iff {b : UInt8} {r : Bytes} : begins b r = true ↔ ∃ t, r = b :: t := by
  cases r with
  | nil => simp [begins]
  | cons c t => simp [begins]

theorem varTok_took {st st' : St} {r : Bytes} {tok : Tok} (h : varTok st r = .ok (tok, st')) :
    ∃ t, r = t ++ st'.rest ∧ st'.line = st.line + t.count 10 ∧ tok ≠ .eof := by
  unfold varTok at h
  simp only at h
  by_cases hbr : begins 123 r = true
  · obtain ⟨t, rfl⟩ := begins_iff.1 hbr
    simp only [hbr, if_true, List.drop_succ_cons, List.drop_zero, true_and] at h
    split at h
    · cases h
    · rename_i hc
      simp only [Bool.not_eq_true, Bool.not_eq_false] at hc
      obtain ⟨u, hu⟩ := begins_iff.1 hc
      split at h
      · cases h
      · cases h
        obtain ⟨h1, h2, _⟩ := symbol_text t
        refine ⟨123 :: ((symbol t).1 ++ [125]), ?_, ?_, by simp⟩
        · conv => lhs; rw [h1, hu]
          simp only [hu]
          simp
        · show st.line = _
          rw [count_zero]
          · rfl
          · simpa using nameText_lf h2
  · simp only [hbr, if_false, false_and, Bool.false_eq_true] at h
    split at h
    · cases h
    · cases h
      obtain ⟨h1, h2, _⟩ := symbol_text r
      refine ⟨_, h1, ?_, by simp⟩
      show st.line = _
      rw [count_zero (nameText_lf h2)]
      rfl

theorem dollar_took {st st' : St} {r : Bytes} {tok : Tok} (h : dollar st r = .ok (tok, st')) :
    ∃ t, r = t ++ st'.rest ∧ st'.line = st.line + t.count 10 ∧ tok ≠ .eof := by
  unfold dollar at h
  split at h
  · cases h
    exact ⟨[], rfl, rfl, by simp⟩
  · split at h
    · rename_i hb
      obtain ⟨t, rfl⟩ := begins_iff.1 hb
      cases h
      exact ⟨[64], rfl, rfl, by simp⟩
    · split at h
      · rename_i hb
        obtain ⟨t, rfl⟩ := List.isPrefixOf_iff_prefix.1 hb
        cases h
        exact ⟨[123, 64, 125], rfl, rfl, by simp⟩
      · exact varTok_took h

theorem takeDrop (p : UInt8 → Bool) (s : Bytes) : s = s.takeWhile p ++ s.dropWhile p := (List.takeWhile_append_dropWhile).symm

theorem takeWhile_all {p : UInt8 → Bool} {s : Bytes} : ∀ b ∈ s.takeWhile p, p b = true := by
  induction s with
  | nil => simp
  | cons c s ih =>
    rw [List.takeWhile_cons]
    split
    · rename_i hc
      intro b hb
      rcases List.mem_cons.1 hb with rfl | hb
      · exact hc
      · exact ih b hb
    · simp

theorem alnum_lf {n : Bytes} (h : ∀ b ∈ n, isAlnumU b = true) : 10 ∉ n := by
  intro hm
  have := h 10 hm
  revert this; decide

theorem hereBody_text {nm : Bytes} : ∀ {bol : Bool} {s v u : Bytes}, hereBody nm bol s = some (v, u) → s = v ++ nm ++ 10 :: u
  | bol, [], v, u, h => by rw [hereBody] at h; cases h
  | bol, b :: r, v, u, h => by
    rw [hereBody] at h
    split at h
    · rename_i hp
      rw [Bool.and_eq_true] at hp
      obtain ⟨t, ht⟩ := List.isPrefixOf_iff_prefix.1 hp.2
      cases h
      rw [← ht]
      simp [List.drop_append]
    · split at h
      · rename_i v' t' hr
        cases h
        rw [hereBody_text hr]
        simp
      · cases h

theorem heredoc_took {st st' : St} {r : Bytes} {tok : Tok} (h : heredoc st r = .ok (tok, st')) :
    ∃ t, r = t ++ st'.rest ∧ st'.line = st.line + t.count 10 ∧ tok ≠ .eof := by
  unfold heredoc at h
  simp only at h
  split at h
  · cases h
  · split at h
    · cases h
    · split at h
      · cases h
      · split at h
        · rename_i t hs
          cases hb : hereBody (r.takeWhile isAlnumU) true t with
          | none => rw [hb] at h; cases h
          | some k =>
            obtain ⟨v, u⟩ := k
            rw [hb] at h
            cases h
            have ht := hereBody_text hb
            have hl : 10 ∉ r.takeWhile isAlnumU := alnum_lf takeWhile_all
            refine ⟨r.takeWhile isAlnumU ++ [39, 59, 10] ++ v ++ r.takeWhile isAlnumU ++ [10], ?_, ?_, by simp⟩
            · conv => lhs; rw [takeDrop isAlnumU r, hs, ht]
              simp
            · show st.line + 1 + v.count 10 + 1 = _
              simp only [List.count_append, count_zero hl]
              simp
              omega
        · cases h

end Toke
end SPVM
