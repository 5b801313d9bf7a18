import Verif.Lemmas.ParseInv

/-
The parser keeps its invariant, ends, and what it accepts is the documented tree.
-/

namespace SPVM.Parse

open Tree

/-- Every entry was put on the stack within the limit. -/
def Fits {α} (lim : Nat) : List (Nat × Tree α) → Prop
  | [] => True
  | e :: σ => σ.length + depth e.2 + 1 < lim ∧ Fits lim σ

theorem fits_pop {α} (lim : Nat) : ∀ (n : Nat) (σ : List (Nat × Tree α)) (cs : List (Tree α)) (_ : n ≤ σ.length)
    (_ : Fits lim σ) (_ : σ.length + depthL cs + 1 < lim),
    (σ.drop n).length + depthL (((σ.take n).map Prod.snd).reverse ++ cs) + 1 < lim ∧ Fits lim (σ.drop n)
  | 0, σ, cs, _, hf, hd => by simpa using ⟨hd, hf⟩
  | n + 1, [], cs, h, _, _ => by simp at h
  | n + 1, e :: σ, cs, h, hf, hd => by
    have := fits_pop lim n σ (e.2 :: cs) (by simpa using h) hf.2 (by
      have := hf.1
      simp only [List.length_cons] at hd
      simp only [depthL]
      omega)
    simpa using this

theorem phi_checked : (allBelow 558 fun s => Nat.ble (phi s) 8) = true := by decide +kernel

theorem phi_le {s : Nat} (h : s < 558) : phi s ≤ 8 := Nat.le_of_ble_eq_true (allBelow_spec 558 _ phi_checked s h)

/-- A bound on the number of steps that remain. -/
def measure {α} (σ : List (Nat × Tree α)) (n : Nat) : Nat := 3 * σ.length + phi (top σ) + 12 * (n + 1)

theorem measure_cons {α} (s : Nat) (t : Tree α) (σ : List (Nat × Tree α)) (n : Nat) :
    measure ((s, t) :: σ) n = 3 * (σ.length + 1) + phi s + 12 * (n + 1) := rfl

theorem symbols_cons {α} (t : Nat × α) (rest : List (Nat × α)) :
    symbols (t :: rest) = (symOf t.1, t.2) :: symbols rest := rfl

theorem symbols_length {α} (inp : List (Nat × α)) : (symbols inp).length = inp.length := by simp [symbols]

/-- What a step from a stack with the invariant does. -/
inductive StepSpec {α} (lim : Nat) (σ : List (Nat × Tree α)) (inp : List (Nat × α)) : Step α → Prop
  | error : StepSpec lim σ inp (.done .syntaxError)
  | exhausted (h : lim ≤ σ.length + 2) : StepSpec lim σ inp (.done .exhausted)
  | accept (t : Tree α) (s : Nat) (hσ : σ = [(s, t)]) (hi : inp = []) (hr : t.root = N.grammar) (hl : 3 < lim) :
      StepSpec lim σ inp (.done (.accept t))
  | next (σ' : List (Nat × Tree α)) (inp' : List (Nat × α)) (hi : Inv σ' (symbols inp'))
      (ht : textOf σ' (symbols inp') = textOf σ (symbols inp))
      (hm : measure σ' inp'.length < measure σ inp.length)
      (hs : ∃ pre, inp = pre ++ inp')
      (hf : Fits lim σ → Fits lim σ') : StepSpec lim σ inp (.next ⟨σ', inp'⟩)

theorem final_past : pastSym 17 1 = N.grammar + 1 ∧ (allBelow 558 fun p => Nat.beq p 0 || !bit (pastMask 17 1) p) = true := by
  decide +kernel

theorem accept_stack {α} {σ : List (Nat × Tree α)} (hp : Path σ) (h : edgeOk (top σ) 0 17 = true) :
    ∃ e, σ = [e] ∧ e.2.root = N.grammar := by
  unfold edgeOk at h
  simp only [Bool.and_eq_true, beq_iff] at h
  have h1 := allBelow_spec 10 _ h.2 0 (by omega)
  simp only [Bool.or_eq_true, Bool.and_eq_true, beq_iff] at h1
  have hf := final_past
  rcases h1 with h1 | ⟨h1, h2⟩
  · rw [show (0 + 1) = 1 from rfl, hf.1] at h1; exact absurd h1 (by decide)
  · rw [show (0 + 1) = 1 from rfl, hf.1] at h1
    obtain ⟨e, e1, e2, e3⟩ := hp.past 0 (by omega) (by rw [← h1]; decide)
    rw [← h1] at e2
    have e4 := sub_bit h2 e3
    cases σ with
    | nil => simp at e1
    | cons f σ =>
      simp only [List.getElem?_cons_zero, Option.some.injEq] at e1
      subst e1
      simp only [Nat.zero_add, List.drop_succ_cons, List.drop_zero] at e4
      have hlt : top σ < 558 := (Path.top_lt hp.2).1
      have := allBelow_spec 558 _ hf.2 (top σ) hlt
      rw [e4] at this
      simp only [Bool.not_true, Bool.or_false, beq_iff] at this
      cases σ with
      | nil => exact ⟨f, rfl, by omega⟩
      | cons g σ => exact absurd this hp.2.1.ne0

theorem endOf_pop {α} (n : Nat) (σ : List (Nat × Tree α)) :
    endOf (top (σ.drop n)) (σ.take n).reverse = top σ := by
  unfold endOf
  rw [List.getLast?_reverse]
  cases n with
  | zero => simp
  | succ n => cases σ <;> simp [top]

theorem step_spec {α} (d : α) (lim : Nat) (σ : List (Nat × Tree α)) (inp : List (Nat × α))
    (h : Inv σ (symbols inp)) (hz : ∀ t ∈ inp, symOf t.1 ≠ 0) : StepSpec lim σ inp (step d lim ⟨σ, inp⟩) := by
  have hp := h.path
  obtain ⟨hs, h17⟩ := hp.top_lt
  have ha := next_lt inp
  cases hact : actF (top σ) (firstToken (symbols inp) 0) with
  | error => rw [step_error d lim σ inp hp hact]; exact .error
  | shift s =>
    cases inp with
    | nil =>
      have hact' : actF (top σ) 0 = .shift s := hact
      rw [step_end d lim σ s hp hact']
      rcases shift_edge hs h17 (by omega) hact' with ⟨_, e2, e3⟩ | ⟨e1, _⟩
      · subst e2
        obtain ⟨e, rfl, hr⟩ := accept_stack hp e3
        unfold push
        by_cases hl : lim ≤ [e].length + 2
        · rw [if_pos hl]; exact .exhausted hl
        · rw [if_neg hl, if_pos (show 17 = YYFINAL from rfl)]
          exact .accept e.2 e.1 rfl rfl hr (by simp only [List.length_cons, List.length_nil] at hl; omega)
      · omega
    | cons t rest =>
      have hact' : actF (top σ) (symOf t.1) = .shift s := hact
      rw [step_shift d lim σ t rest s hp hact']
      rcases shift_edge hs h17 (translate_eq t.1).2 hact' with ⟨e1, _, _⟩ | ⟨e1, e2⟩
      · exact absurd e1 (hz t (by simp))
      · unfold push
        by_cases hl : lim ≤ σ.length + 2
        · rw [if_pos hl]; exact .exhausted hl
        · rw [if_neg hl, if_neg (show ¬ s = YYFINAL from e2.ne17)]
          refine .next _ _ ⟨e2, ?_, ?_⟩ ?_ ?_ ⟨[t], rfl⟩ ?_
          · refine good_leaf _ _ _ _ ?_
            have := (translate_eq t.1).2
            have h3 : T.CLASS = 3 := rfl
            have h4 : T.RPAREN = 136 := rfl
            simp only [isToken, Bool.and_eq_true, decide_eq_true_eq]
            omega
          · rw [symbols_cons] at h
            simpa [tokens] using h
          · simp [textOf, tokens, symbols_cons]
          · have := phi_le e2.lt
            rw [measure_cons]
            simp only [measure, List.length_cons]
            omega
          · intro hf
            exact ⟨by simp only [depth]; omega, hf⟩
  | reduce r =>
    rw [step_reduce d lim σ inp r hp hact]
    have hr := red_of_act _ _ r hs h17 ha hact
    have hpop := popped hp hr
    generalize hn : (ruleAt (r - 2)).rhs.length = n at hpop
    have hlen := hpop.len
    have hroots := hpop.roots
    have hback := hpop.back
    rw [hn] at hlen hroots hback
    obtain ⟨hch, hinv, htext⟩ := inv_pop (symbols inp) (firstToken (symbols inp) 0) rfl n σ [] hlen
      (by simpa [tokensL] using h) trivial
    simp only [List.append_nil] at hch hinv htext
    have hp' := hp.drop n
    obtain ⟨hs', h17'⟩ := hp'.top_lt
    obtain ⟨hedge, hphi⟩ := goto_edge hs' hr.nt hback
    have hroots' : ((σ.take n).reverse.map Prod.snd).map root = (ruleAt (r - 2)).rhs := by
      rw [List.map_reverse]; exact hroots
    have hgood := good_node hs' h17' ha hs h17 hch (endOf_pop n σ) hact hroots'
    have hw := hr.weight
    have hdl : (σ.drop n).length = σ.length - n := List.length_drop
    rw [List.map_reverse] at hgood hinv htext
    unfold push
    by_cases hl : lim ≤ (σ.drop n).length + 2
    · rw [if_pos hl]
      exact .exhausted (by omega)
    · rw [if_neg hl, if_neg (show ¬ _ = YYFINAL from hedge.ne17)]
      refine .next _ _ ⟨hedge, hgood, ?_⟩ ?_ ?_ ⟨[], rfl⟩ ?_
      · simpa [tokens] using hinv
      · simp only [textOf, tokens]
        rw [← htext]
        simp [tokensL]
      · rw [measure_cons]
        unfold measure
        rw [hn] at hw
        omega
      · intro hf
        by_cases h0 : n = 0
        · subst h0
          simp only [List.drop_zero, List.take_zero, List.map_nil, List.reverse_nil] at hl ⊢
          exact ⟨by simp only [depth, depthL]; omega, hf⟩
        · have hne : σ ≠ [] := by intro hh; rw [hh] at hlen; simp at hlen; omega
          obtain ⟨m, hm⟩ : ∃ m, n = m + 1 := ⟨n - 1, by omega⟩
          cases hσ : σ with
          | nil => exact absurd hσ hne
          | cons e σ' =>
            rw [hσ] at hf hl hlen
            subst hm
            have := fits_pop lim m σ' [e.2] (by simpa using hlen) hf.2 (by
              have := hf.1
              simp only [depthL]
              have : 1 ≤ depth e.2 := by cases e.2 <;> simp only [depth] <;> omega
              omega)
            simp only [List.drop_succ_cons, List.take_succ_cons, List.map_cons, List.reverse_cons]
              at hl ⊢
            refine ⟨?_, this.2⟩
            have h1 := this.1
            simp only [depth]
            omega

/-- What a whole run does. -/
theorem run_spec {α} (d : α) (lim : Nat) : ∀ (fuel : Nat) (σ : List (Nat × Tree α)) (inp : List (Nat × α))
    (_ : Inv σ (symbols inp)) (_ : Fits lim σ) (_ : ∀ t ∈ inp, symOf t.1 ≠ 0) (_ : measure σ inp.length < fuel),
    run d lim fuel ⟨σ, inp⟩ ≠ .ub ∧
    (run d lim fuel ⟨σ, inp⟩ = .exhausted → lim * 3 ≤ measure σ inp.length + 6) ∧
    ∀ t, run d lim fuel ⟨σ, inp⟩ = .accept t →
      t.ParseOf (textOf σ (symbols inp)) ∧ depth t + 1 < lim ∧ 3 < lim
  | 0, _, _, _, _, _, h => absurd h (by omega)
  | fuel + 1, σ, inp, hi, hf, hz, hm => by
    rw [run]
    have hs := step_spec d lim σ inp hi hz
    cases hst : step d lim ⟨σ, inp⟩ with
    | done r =>
      rw [hst] at hs
      cases hs with
      | error => simp
      | exhausted h =>
        refine ⟨by simp, ?_, by simp⟩
        intro _
        simp only [measure]
        omega
      | accept t s hσ hin hr hl =>
        refine ⟨by simp, by simp, ?_⟩
        intro t' ht'
        simp only [Result.accept.injEq] at ht'
        subst ht'
        subst hσ hin
        obtain ⟨h1, h2, _⟩ := hi
        refine ⟨⟨hr, h2.der, ?_, h2.ends, h2.grp⟩, ?_, hl⟩
        · simp [textOf, symbols]
        · have := hf.1
          simpa using this
    | next c =>
      rw [hst] at hs
      cases hs with
      | next σ' inp' h1 h2 h3 h4 h5 =>
        obtain ⟨pre, hpre⟩ := h4
        have ih := run_spec d lim fuel σ' inp' h1 (h5 hf) (fun t ht => hz t (by rw [hpre]; simp [ht])) (by omega)
        rw [h2] at ih
        refine ⟨ih.1, ?_, ih.2.2⟩
        intro he
        have := ih.2.1 he
        omega

/-- A larger limit changes nothing but exhaustion. -/
theorem step_mono {α} (d : α) {lim lim' : Nat} (hl : lim ≤ lim') (c : Conf α)
    (h : step d lim c ≠ .done .exhausted) : step d lim' c = step d lim c := by
  have hpush : ∀ s (t : Tree α) st inp, push lim s t st inp ≠ .done .exhausted →
      push lim' s t st inp = push lim s t st inp := by
    intro s t st inp hne
    unfold push at hne ⊢
    by_cases hc : lim ≤ st.length + 2
    · rw [if_pos hc] at hne; exact absurd rfl hne
    · rw [if_neg hc, if_neg (by omega)]
  unfold step at h ⊢
  split
  · rfl
  · rename_i tok h1
    simp only [h1] at h
    split
    · rfl
    · rfl
    · rename_i s h2
      simp only [h2] at h
      split <;> rename_i h3 <;> simp only [h3] at h <;> exact hpush _ _ _ _ h
    · rename_i r h2
      simp only [h2] at h
      split
      · rename_i len lhs h3 h4
        simp only [h3, h4] at h
        split
        · rfl
        · rename_i cs st h5
          simp only [h5] at h
          split
          · rfl
          · rename_i s h6
            simp only [h6] at h
            exact hpush _ _ _ _ h
      · rfl

theorem run_mono {α} (d : α) {lim lim' : Nat} (hl : lim ≤ lim') : ∀ (fuel : Nat) (c : Conf α)
    (_ : run d lim fuel c ≠ .exhausted), run d lim' fuel c = run d lim fuel c
  | 0, _, _ => rfl
  | fuel + 1, c, h => by
    rw [run] at h
    rw [run, run]
    have hne : step d lim c ≠ .done .exhausted := by
      intro hh; rw [hh] at h; exact h rfl
    rw [step_mono d hl c hne]
    cases hst : step d lim c with
    | done r => rfl
    | next c' =>
      rw [hst] at h
      exact run_mono d hl fuel c' h

end SPVM.Parse
