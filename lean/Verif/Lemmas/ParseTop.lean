import Verif.Lemmas.ParseComplete
import Verif.Spec.ParseCode

namespace SPVM.Parse

open Tree

theorem code_checked : (allBelow 137 fun x => Nat.ble x 2 || (Nat.beq (symOf (code x)) x)) = true := by decide +kernel

theorem sym_code {x : Nat} (h : isToken x = true) : symOf (code x) = x := by
  simp only [isToken, Bool.and_eq_true, decide_eq_true_eq] at h
  have h3 : T.CLASS = 3 := rfl
  have h4 : T.RPAREN = 136 := rfl
  have := allBelow_spec 137 _ code_checked x (by omega)
  rw [Bool.or_eq_true, beq_iff] at this
  rcases this with h' | h'
  · have := Nat.le_of_ble_eq_true h'; omega
  · exact h'

theorem symbols_encode {α} (text : List (Nat × α)) (h : ∀ t ∈ text, isToken t.1 = true) :
    symbols (encode text) = text := by
  induction text with
  | nil => rfl
  | cons t ts ih =>
    rw [encode, List.map_cons, symbols_cons]
    simp only
    rw [sym_code (h t (by simp))]
    congr 1
    exact ih (fun u hu => h u (by simp [hu]))

theorem encode_nonzero {α} (text : List (Nat × α)) (h : ∀ t ∈ text, isToken t.1 = true) :
    ∀ t ∈ encode text, symOf t.1 ≠ 0 := by
  intro t ht
  rw [encode, List.mem_map] at ht
  obtain ⟨u, hu, rfl⟩ := ht
  have := h u hu
  rw [sym_code this]
  intro h0
  rw [h0] at this
  exact absurd this (by decide)

/-- Codes other than 0 are not read as the end. -/
theorem zero_checked : (allBelow 378 fun n => Nat.beq n 0 || !Nat.beq (symOf n) 0) = true := by decide +kernel

theorem sym_nonzero {n : Nat} (h : n ≠ 0) : symOf n ≠ 0 := by
  by_cases hn : n < 378
  · have := allBelow_spec 378 _ zero_checked n hn
    rw [Bool.or_eq_true, beq_iff, bnot_beq] at this
    exact this.resolve_left h
  · unfold symOf yyTranslate
    rw [if_neg (by unfold YYMAXUTOK; omega)]
    decide

/-- A code is that of a token, or its symbol is none of the grammar. -/
theorem unknown_checked : (allBelow 378 fun n => Nat.ble (symOf n) 2 || Nat.beq (code (symOf n)) n) = true := by
  decide +kernel

theorem sym_unknown {n : Nat} (h : ∀ x, isToken x = true → code x ≠ n) : isToken (symOf n) = false := by
  cases ht : isToken (symOf n) with
  | false => rfl
  | true =>
    exfalso
    by_cases hn : n < 378
    · have := allBelow_spec 378 _ unknown_checked n hn
      rw [Bool.or_eq_true, beq_iff] at this
      rcases this with h' | h'
      · have h3 : T.CLASS = 3 := rfl
        simp only [isToken, Bool.and_eq_true, decide_eq_true_eq] at ht
        have := Nat.le_of_ble_eq_true h'
        omega
      · exact h _ ht h'
    · have : symOf n = 2 := by
        unfold symOf yyTranslate
        rw [if_neg (by unfold YYMAXUTOK; omega)]
        rfl
      rw [this] at ht
      exact absurd ht (by decide)

theorem tokens_are_tokens {α} (t : Tree α) : t.derivation = true → ∀ x ∈ t.tokens, isToken x.1 = true := by
  induction t using tree_ind with
  | hl s v =>
    intro hd x hx
    simp only [tokens, List.mem_singleton] at hx
    subst hx
    simpa [derivation] using hd
  | hn r cs ih =>
    intro hd x hx
    have h3 := (derivation_node hd).2.2
    rw [tokens] at hx
    clear hd
    induction cs with
    | nil => simp [tokensL] at hx
    | cons c cs ih2 =>
      rw [tokensL, List.mem_append] at hx
      rw [derivationL, Bool.and_eq_true] at h3
      rcases hx with hx | hx
      · exact ih c (by simp) h3.1 x hx
      · exact ih2 (fun c hc => ih c (by simp [hc])) hx h3.2

theorem yyparse_spec {α} (d : α) (lim : Nat) (inp : List (Nat × α)) (hz : ∀ t ∈ inp, symOf t.1 ≠ 0) :
    yyparse d lim inp ≠ .ub ∧ (yyparse d lim inp = .exhausted → lim ≤ 4 * inp.length + 8) ∧
    ∀ t, yyparse d lim inp = .accept t → t.ParseOf (symbols inp) ∧ depth t + 1 < lim ∧ 3 < lim := by
  have hphi := phi_le (show 0 < 558 by omega)
  have h := run_spec d lim (12 * (inp.length + 2)) [] inp trivial trivial hz (by
    simp only [measure, List.length_nil, top]
    omega)
  refine ⟨h.1, ?_, h.2.2⟩
  intro he
  have := h.2.1 he
  simp only [measure, List.length_nil, top] at this
  omega

end SPVM.Parse
