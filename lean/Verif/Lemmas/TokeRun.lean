import Verif.Lemmas.TokeOp
/-!
# Text and lines of a run of the tokenizer
-/
namespace SPVM
namespace Toke
open VM (Bytes)
open Literal (isDec isHex Const Libc lexNum)
open StrLit (isAlnumU begins cut strLit singleLit charLit)
open Spec.Toke
open Spec (NameChar Spells SpellsQ SpellsChar)

/-! ## One token -/

theorem fair_cons {tok : Tok} {b c : UInt8} {t : Bytes} (hb : b ≠ 10) (h : Fair tok (b :: c :: t)) : Fair tok (c :: t) := by
  refine ⟨fun e hs => h.1 e ?_, fun e hs => h.2 e ?_⟩
  · exact hs.trans (List.suffix_cons _ _)
  · exact hs.trans (List.suffix_cons _ _)

theorem token_took {lc : Libc} {st st' : St} {b : UInt8} {r : Bytes} {tok : Tok} (hr : st.rest = b :: r) (hb10 : b ≠ 10)
    (h : token lc st b r = .ok (tok, st')) (hne : tok ≠ .eof) :
    ∃ t, st.rest = t ++ st'.rest ∧ (t ≠ [] ∨ (st'.expand = .first ∧ ∃ n, st'.next = some n ∧ n < st'.rest.length)) ∧ t ≠ [] ∧
      (Undirected st.rest → Fair tok t → st'.line = st.line + t.count 10) := by
  have cons : ∀ {u : Bytes} {x : UInt8}, x ≠ 10 → (x :: u).count 10 = u.count 10 := by
    intro u x hx
    rw [List.count_cons]
    simp [hx]
  unfold token at h
  split at h
  · obtain ⟨t, h1, h2, h3, _⟩ := numTok_took h
    exact ⟨t, h1, .inl h2, h2, fun hu _ => h3 hu⟩
  split at h
  · rename_i hb
    obtain ⟨t, h1, h2, _⟩ := charTok_took h
    refine ⟨39 :: t, by rw [hr, hb, h1]; rfl, .inl (by simp), by simp, fun _ hf => ?_⟩
    rw [h2 hf, cons (by decide)]
  split at h
  · obtain ⟨t, h1, h2, _⟩ := stringTok_took h
    refine ⟨b :: t, by rw [hr, h1]; rfl, .inl (by simp), by simp, fun _ _ => ?_⟩
    rw [h2, cons hb10]
  split at h
  · obtain ⟨t, h1, h2, _⟩ := dollar_took h
    refine ⟨b :: t, by rw [hr, h1]; rfl, .inl (by simp), by simp, fun _ _ => ?_⟩
    rw [h2, cons hb10]
  split at h
  · rename_i hb
    obtain ⟨u, rfl⟩ := begins_iff.1 hb.2
    obtain ⟨t, h1, h2, _⟩ := singleTok_took h
    simp only [List.drop_succ_cons, List.drop_zero] at h1
    refine ⟨b :: 39 :: t, by rw [hr, h1]; rfl, .inl (by simp), by simp, fun _ _ => ?_⟩
    rw [h2, cons hb10, cons (by decide)]
  split at h
  · rename_i hb
    obtain ⟨t, h1, h2, h3⟩ := word_took h hne
    have hsym : (symbol st.rest).1 ≠ [] := by
      have : isAlnumU b = true := by
        rcases hb with hb | hb
        · unfold isAlpha at hb
          unfold isAlnumU
          revert hb
          simp only [Bool.or_eq_true, Bool.and_eq_true, decide_eq_true_eq]
          rintro (⟨a, b⟩ | ⟨a, b⟩)
          · exact .inl (.inl (.inr ⟨a, b⟩))
          · exact .inl (.inr ⟨a, b⟩)
        · rw [hb]; decide
      rw [hr, symbol.eq_def]
      simp [this]
    have ht : t ≠ [] := by
      rintro rfl
      exact hsym (List.prefix_nil.1 h2)
    exact ⟨t, h1, .inl ht, ht, fun _ => h3⟩
  split at h
  · rename_i hb
    obtain ⟨u, rfl⟩ := List.isPrefixOf_iff_prefix.1 hb.2
    obtain ⟨t, h1, h2, _⟩ := heredoc_took h
    simp only [List.cons_append, List.nil_append, List.drop_succ_cons, List.drop_zero] at h1
    refine ⟨b :: 60 :: 39 :: t, by rw [hr, h1]; rfl, .inl (by simp), by simp, fun _ _ => ?_⟩
    rw [h2, cons hb10, cons (by decide), cons (by decide)]
  split at h
  · cases h
    refine ⟨[b], hr, .inl (by simp), by simp, fun _ _ => ?_⟩
    rw [cons hb10]
    rfl
  · split at h
    · rename_i o rest ho
      split at h
      · cases h
      cases h
      obtain ⟨q, h1, h2, _⟩ := operator_spells ho
      obtain ⟨c, t, hc, h10⟩ := code_cons o
      rw [code_eq, hc] at h1
      unfold After at h2
      split at h2
      · rename_i hlg
        obtain ⟨x, hx1, hx2⟩ := drop1_took q
        refine ⟨c :: t ++ x, ?_, .inl (by simp), by simp, fun _ hf => ?_⟩
        · rw [hr, h1]
          show _ = _ ++ rest
          rw [h2, List.append_assoc, ← hx1]
        · have := suffix_singleton hx2 (hf.2 (by rcases hlg with rfl | rfl <;> simp))
          show st.line = _
          rw [List.count_append, count_zero h10, count_zero this]
          rfl
      · refine ⟨c :: t, ?_, .inl (by simp), by simp, fun _ _ => ?_⟩
        · rw [hr, h1, h2]
        · show st.line = _
          rw [count_zero h10]
          rfl
    · cases h

/-! ## Text without tokens -/

theorem pod_took : ∀ (s : Bytes), ∃ t, s = t ++ (pod s).1 ∧ (pod s).2 = t.count 10
  | [] => ⟨[], rfl, rfl⟩
  | b :: r => by
    rw [pod]
    split
    · rename_i hb
      refine ⟨b :: (r.take 3 ++ (r.drop 3).takeWhile (· != 10)), ?_, ?_⟩
      · simp only [List.cons_append, List.append_assoc]
        rw [List.takeWhile_append_dropWhile, List.take_append_drop]
      · rw [count_zero]
        simp only [List.mem_cons, List.mem_append, not_or]
        refine ⟨by rw [hb.1]; decide, ?_, ?_⟩
        · have hc := hb.2
          unfold isCut at hc
          split at hc
          · simp
          · cases hc
        · intro hm
          have := takeWhile_all _ hm
          simp at this
    · obtain ⟨t, h1, h2⟩ := pod_took r
      refine ⟨b :: t, by rw [List.cons_append, ← h1], ?_⟩
      simp only [h2, List.count_cons]
      by_cases hb : b = 10
      · simp [hb]
      · simp [hb]

theorem spaces_took (s : Bytes) : ∃ t, s = t ++ spaces s := ⟨_, takeDrop _ _⟩

theorem quoted_took {msg : String} : ∀ {s v t : Bytes}, quoted msg s = .ok (v, t) → s = v ++ 34 :: t
  | [], v, t, h => by cases h
  | b :: r, v, t, h => by
    rw [quoted] at h
    split at h
    · rename_i hb
      cases h
      rw [hb]; rfl
    · split at h
      · cases h
      · split at h
        · rename_i v' t' hq
          cases h
          rw [quoted_took hq]
          rfl
        · cases h
        · cases h

theorem lineDirective_took {st st' : St} {r : Bytes} (h : lineDirective st r = .ok st') : ∃ t, r = t ++ st'.rest := by
  unfold lineDirective at h
  split at h
  · cases h
  · simp only at h
    split at h
    · rename_i u hu
      split at h
      · cases h
      · split at h
        · cases h
          obtain ⟨a, ha⟩ := spaces_took r
          obtain ⟨c, hc⟩ := spaces_took ((spaces r).dropWhile (fun b => isDec b || b == 45))
          refine ⟨a ++ ((spaces r).takeWhile (fun b => isDec b || b == 45) ++ (c ++ [10])), ?_⟩
          simp only [List.append_assoc, List.singleton_append]
          rw [← hu, ← hc, List.takeWhile_append_dropWhile, ← ha]
        · cases h
    · cases h

theorem fileDirective_took {src : Bytes} {st st' : St} {r : Bytes} (h : fileDirective src st r = .ok st') : ∃ t, r = t ++ st'.rest := by
  unfold fileDirective at h
  split at h
  · cases h
  · split at h
    · rename_i q hq
      split at h
      · rename_i v t hv
        split at h
        · rename_i u hu
          split at h
          · cases h
          · cases h
            obtain ⟨a, ha⟩ := spaces_took r
            obtain ⟨c, hc⟩ := spaces_took t
            refine ⟨a ++ 34 :: (v ++ 34 :: (c ++ [10])), ?_⟩
            rw [ha, hq, quoted_took hv, hc, hu]
            simp
        · cases h
      · cases h
      · cases h
    · cases h

theorem libDirective_took {st st' : St} {r : Bytes} (h : libDirective st r = .ok st') : ∃ t, r = t ++ st'.rest := by
  unfold libDirective at h
  split at h
  · cases h
  · split at h
    · rename_i q hq
      split at h
      · rename_i v t hv
        split at h
        · rename_i u hu
          split at h
          · cases h
          · cases h
            obtain ⟨a, ha⟩ := spaces_took r
            obtain ⟨c, hc⟩ := spaces_took t
            refine ⟨a ++ 34 :: (v ++ 34 :: (c ++ [10])), ?_⟩
            rw [ha, hq, quoted_took hv, hc, hu]
            simp
        · cases h
      · cases h
      · cases h
    · cases h

theorem comment_took (src : Bytes) (st : St) (r : Bytes) :
    ∃ t, r = t ++ (comment src st r).rest ∧ (comment src st r).line = st.line + t.count 10 := by
  have hl : 10 ∉ r.takeWhile (· != 10) := by
    intro hm
    have := takeWhile_all _ hm
    simp at this
  have ht := takeDrop (· != 10) r
  unfold comment
  cases hd : r.dropWhile (· != 10) with
  | nil =>
    refine ⟨r, ?_, ?_⟩
    · simp only; split <;> simp
    · rw [hd, List.append_nil] at ht
      rw [← ht] at hl
      rw [count_zero hl]
      simp only
      split <;> rfl
  | cons b u =>
    have hb : b = 10 := by
      have := List.head_dropWhile_not (p := (· != 10)) (l := r) (by rw [hd]; simp)
      simpa [hd] using this
    refine ⟨r.takeWhile (· != 10) ++ [10], ?_, ?_⟩
    · rw [hd, hb] at ht
      simp only
      split
      · simp only [List.append_assoc, List.singleton_append]
        exact ht
      · simp only [List.append_assoc, List.singleton_append]
        exact ht
    · simp only [List.count_append, count_zero hl]
      split <;> simp

theorem hash_took {src : Bytes} {st st' : St} {r : Bytes} (h : hash src st r = .ok st') :
    ∃ t, r = t ++ st'.rest ∧ (Undirected (35 :: r) → st'.line = st.line + t.count 10) := by
  unfold hash at h
  split at h
  · rename_i hp
    obtain ⟨t, ht⟩ := lineDirective_took h
    refine ⟨r.take 4 ++ t, by rw [List.append_assoc, ← ht, List.take_append_drop], fun hu => ?_⟩
    obtain ⟨u, hu'⟩ := List.isPrefixOf_iff_prefix.1 hp
    exact absurd ⟨[], u, by rw [← hu']; rfl⟩ hu.1
  split at h
  · rename_i hp
    obtain ⟨t, ht⟩ := fileDirective_took h
    refine ⟨r.take 4 ++ t, by rw [List.append_assoc, ← ht, List.take_append_drop], fun hu => ?_⟩
    obtain ⟨u, hu'⟩ := List.isPrefixOf_iff_prefix.1 hp
    exact absurd ⟨[], u, by rw [← hu']; rfl⟩ hu.2.1
  split at h
  · rename_i hp
    obtain ⟨t, ht⟩ := libDirective_took h
    refine ⟨r.take 3 ++ t, by rw [List.append_assoc, ← ht, List.take_append_drop], fun hu => ?_⟩
    obtain ⟨u, hu'⟩ := List.isPrefixOf_iff_prefix.1 hp
    exact absurd ⟨[], u, by rw [← hu']; rfl⟩ hu.2.2.1
  · cases h
    obtain ⟨t, h1, h2⟩ := comment_took src st r
    exact ⟨t, h1, fun _ => h2⟩

theorem skip_took {src : Bytes} {st st' : St} (h : skip src st = .ok (some st')) :
    ∃ t, st.rest = t ++ st'.rest ∧ t ≠ [] ∧ (Undirected st.rest → st'.line = st.line + t.count 10) := by
  unfold skip at h
  split at h
  · cases h
  · rename_i b r hr
    split at h
    · rename_i hb
      cases h
      refine ⟨[b], hr, by simp, fun _ => ?_⟩
      rcases hb with rfl | rfl | rfl <;> rfl
    split at h
    · rename_i hb
      cases h
      exact ⟨[b], hr, by simp, fun _ => by rw [hb]; rfl⟩
    split at h
    · rename_i hb
      split at h
      · rename_i st1 hh
        cases h
        obtain ⟨t, h1, h2⟩ := hash_took hh
        refine ⟨35 :: t, by rw [hr, hb, h1]; rfl, by simp, fun hu => ?_⟩
        rw [h2 (by rw [← hb, ← hr]; exact hu)]
        simp
      · cases h
      · cases h
    split at h
    · rename_i hb
      cases h
      have hp := hb.2
      match r, hr, hp with
      | [], _, hp => simp [podBegins] at hp
      | c :: r', hr, hp =>
        obtain ⟨t, h1, h2⟩ := pod_took r'
        have hc : c ≠ 10 := by
          rintro rfl
          unfold podBegins at hp
          simp only [Bool.and_eq_true] at hp
          revert hp
          rintro ⟨_, hp⟩
          revert hp; decide
        refine ⟨61 :: c :: t, ?_, by simp, fun _ => ?_⟩
        · rw [hr, hb.1]
          simp only [List.drop_succ_cons, List.drop_zero, List.cons_append]
          rw [← h1]
        · simp only [List.drop_succ_cons, List.drop_zero, h2]
          simp [hc]
    · cases h

theorem skip_none {src : Bytes} {st : St} {b : UInt8} {r : Bytes} (hr : st.rest = b :: r) (h : skip src st = .ok none) : b ≠ 10 := by
  rintro rfl
  unfold skip at h
  rw [hr] at h
  simp at h

/-! ## `lex` -/

/-- The number of tokens that may come before the next character is read, by the state of a variable expansion. -/
def rankE : Expand → Bool → Nat
  | .second, _ => 4
  | .begin, _ => 3
  | .first, _ => 2
  | .no, true => 1
  | .no, false => 0
  | .var, _ => 0

/-- The number of tokens that may come before the next character is read. -/
def rank (st : St) : Nat := if st.next = some st.rest.length then 4 else rankE st.expand st.heredoc

theorem rank_eq {st : St} (h : st.next ≠ some st.rest.length) : rank st = rankE st.expand st.heredoc := if_neg h

/-- It decreases with every token. -/
def measure (st : St) : Nat := 5 * st.rest.length + rank st

theorem rank_le (st : St) : rank st ≤ 4 := by
  unfold rank
  split
  · exact Nat.le_refl _
  · generalize st.expand = e
    generalize st.heredoc = h
    cases e <;> cases h <;> simp [rankE]

theorem resume_rest (st : St) : (resume st).rest = st.rest ∧ (resume st).line = st.line ∧ (resume st).heredoc = st.heredoc ∧
    (resume st).next ≠ some st.rest.length := by
  unfold resume
  split
  · simp
  · rename_i h; exact ⟨rfl, rfl, rfl, h⟩

theorem measure_lt {st st' : St} {t : Bytes} (h : st.rest = t ++ st'.rest) (ht : t ≠ []) : measure st' < measure st := by
  have := rank_le st'
  have hl := congrArg List.length h
  rw [List.length_append] at hl
  have : 0 < t.length := List.length_pos_iff.2 ht
  unfold measure
  omega

theorem lexLoop_took {lc : Libc} {src : Bytes} : ∀ {n : Nat} {st st' : St} {tok : Tok}, lexLoop lc src n st = .ok (tok, st') → tok ≠ .eof →
    ∃ s t, st.rest = s ++ t ++ st'.rest ∧ measure st' < measure st ∧
      (Undirected st.rest → Fair tok t → st'.line = st.line + (s ++ t).count 10)
  | 0, st, st', tok, h, _ => by cases h
  | n + 1, st, st', tok, h, hne => by
    obtain ⟨e1, e2, e3, e4⟩ := resume_rest st
    rw [lexLoop] at h
    split at h
    · cases h
    split at h
    · cases h
      exact absurd rfl hne
    · rename_i b r hr
      split at h
      · rename_i hx
        cases h
        refine ⟨[], [], by simp [St.clear, e1], ?_, fun _ _ => by simp [St.clear, e2]⟩
        have hno : st.next ≠ some st.rest.length := by
          intro h
          unfold resume at hx
          rw [if_pos h] at hx
          cases hx
        have hres : resume st = st := by unfold resume; rw [if_neg hno]
        rw [hres] at hx ⊢
        have r1 : rank st = 2 := by rw [rank_eq hno, hx]; rfl
        have r2 : rank { st.clear with expand := .var } = 0 := rank_eq (st := { st.clear with expand := .var }) hno
        unfold measure
        rw [r1, r2]
        exact Nat.lt_add_of_pos_right (by decide)
      · rename_i hx
        cases h
        refine ⟨[], [], by simp [St.clear, e1], ?_, fun _ _ => by simp [St.clear, e2]⟩
        have r1 : rank st = 4 := by
          unfold rank
          split
          · rfl
          · rename_i hno
            unfold resume at hx
            rw [if_neg hno] at hx
            rw [hx]; rfl
        have r2 : rank { (resume st).clear with expand := .begin } = 3 :=
          rank_eq (st := { (resume st).clear with expand := .begin }) (by show (resume st).next ≠ some (resume st).rest.length; rw [e1]; exact e4)
        unfold measure
        rw [r1, r2]
        show 5 * (resume st).rest.length + 3 < _
        rw [e1]
        omega
      · rename_i hx
        obtain ⟨t, h1, h2, h3, h4, h5⟩ := stringTok_took h
        refine ⟨[], t, h1, ?_, fun _ _ => by rw [h2, e2]; rfl⟩
        rcases h5 with h5 | ⟨h5, m, h6, h7⟩
        · exact measure_lt h1 h5
        · have hl := congrArg List.length h1
          rw [List.length_append] at hl
          have hno : st.next ≠ some st.rest.length := by
            intro h
            unfold resume at hx
            rw [if_pos h] at hx
            cases hx
          have hres : resume st = st := by unfold resume; rw [if_neg hno]
          rw [hres] at hx
          have r1 : rank st = 3 := by rw [rank_eq hno, hx]; rfl
          have r2 : rank st' = 2 := by rw [rank_eq (by rw [h6, Ne, Option.some.injEq]; omega), h5]; rfl
          unfold measure
          rw [r1, r2]
          omega
      · split at h
        · rename_i hx hh
          cases h
          refine ⟨[], [], by simp [St.clear, e1], ?_, fun _ _ => by simp [St.clear, e2]⟩
          have hno : st.next ≠ some st.rest.length := by
            intro h
            unfold resume at hx
            rw [if_pos h] at hx
            cases hx
          have hres : resume st = st := by unfold resume; rw [if_neg hno]
          rw [hres] at hx ⊢
          have r1 : rank st = 1 := by rw [rank_eq hno, hx, hh.2]; rfl
          have r2 : rank st.clear = 0 := rank_eq (st := st.clear) hno
          unfold measure
          rw [r1, r2]
          exact Nat.lt_add_of_pos_right (by decide)
        · split at h
          · rename_i st1 hs
            obtain ⟨s, a1, a2, a3⟩ := skip_took hs
            obtain ⟨s', t, b1, b2, b3⟩ := lexLoop_took h hne
            rw [e1] at a1 a3
            refine ⟨s ++ s', t, by rw [a1, b1]; simp, ?_, fun hu hf => ?_⟩
            · exact Nat.lt_trans b2 (measure_lt a1 a2)
            · have hu1 : Undirected st1.rest := undirected_append (a := s) (by rw [← a1]; exact hu)
              rw [b3 hu1 hf, a3 hu, e2]
              simp only [List.count_append]
              omega
          · rename_i hs
            have hb := skip_none (by rw [e1]; exact hr) hs
            obtain ⟨t, h1, _, h2, h3⟩ := token_took (by rw [e1]; exact hr) hb h hne
            rw [e1] at h1 h3
            refine ⟨[], t, h1, measure_lt h1 h2, fun hu hf => ?_⟩
            rw [h3 hu hf, e2]
            rfl
          · cases h
          · cases h
      · split at h
        · rename_i hx hh
          cases h
          exact absurd hh.1 (by rw [hx]; decide)
        · split at h
          · rename_i st1 hs
            obtain ⟨s, a1, a2, a3⟩ := skip_took hs
            obtain ⟨s', t, b1, b2, b3⟩ := lexLoop_took h hne
            rw [e1] at a1 a3
            refine ⟨s ++ s', t, by rw [a1, b1]; simp, ?_, fun hu hf => ?_⟩
            · exact Nat.lt_trans b2 (measure_lt a1 a2)
            · have hu1 : Undirected st1.rest := undirected_append (a := s) (by rw [← a1]; exact hu)
              rw [b3 hu1 hf, a3 hu, e2]
              simp only [List.count_append]
              omega
          · rename_i hs
            have hb := skip_none (by rw [e1]; exact hr) hs
            obtain ⟨t, h1, _, h2, h3⟩ := token_took (by rw [e1]; exact hr) hb h hne
            rw [e1] at h1 h3
            refine ⟨[], t, h1, measure_lt h1 h2, fun hu hf => ?_⟩
            rw [h3 hu hf, e2]
            rfl
          · cases h
          · cases h

theorem lex_took {lc : Libc} {src : Bytes} {st st' : St} {tok : Tok} (h : lex lc src st = .ok (tok, st')) (hne : tok ≠ .eof) :
    ∃ s t, st.rest = s ++ t ++ st'.rest ∧ measure st' < measure st ∧
      (Undirected st.rest → Fair tok t → st'.line = st.line + (s ++ t).count 10) := by
  unfold lex at h
  split at h
  · rename_i t1 st1 hl
    split at h
    · cases h
    · cases h
      exact lexLoop_took hl hne
  · cases h
  · cases h

end Toke
end SPVM
