import Verif.Lemmas.ParseCert2

/-
What one step of the parser does on the stacks that occur.
-/

namespace SPVM.Parse

open Tree

/-! ### The checks, as statements -/

theorem rule_get (i : Nat) (h : i < grammar.length) : grammar[i]? = some (ruleAt i) := by
  unfold ruleAt
  simp [List.getD, h]

theorem grammar_length : grammar.length = 287 := by decide +kernel

theorem act_checked (s t : Nat) (hs : s < 558) (h17 : s ≠ 17) (ht : t < 137) : actOk s t = true := by
  have h := allBelow_spec 558 _ acts_checked s hs
  rw [Bool.or_eq_true] at h
  rcases h with h | h
  · exact absurd (Nat.eq_of_beq_eq_true h) h17
  · exact allBelow_spec 137 _ h t ht

theorem goto_checked (x p : Nat) (h1 : 137 ≤ x) (h2 : x < 233) (hp : p < 558) : gotoOk x p = true := by
  have h := allBelow_spec 96 _ gotos_checked (x - 137) (by omega)
  have h := allBelow_spec 558 _ h p hp
  rwa [show 137 + (x - 137) = x by omega] at h

theorem slot_checked (s : Nat) (hs : s < 558) : slotOk s 0 = true ∧ slotOk s 1 = true := by
  have h := allBelow_spec 558 _ slots_checked s hs
  rwa [Bool.and_eq_true] at h

theorem bnot_beq {a b : Nat} : (!Nat.beq a b) = true ↔ a ≠ b := by
  cases h : Nat.beq a b
  · have : a ≠ b := fun e => by rw [e, Nat.beq_refl] at h; exact absurd h (by decide)
    simp [this]
  · have := Nat.eq_of_beq_eq_true h
    simp [this]

theorem beq_iff {a b : Nat} : Nat.beq a b = true ↔ a = b :=
  ⟨Nat.eq_of_beq_eq_true, fun h => by rw [h, Nat.beq_refl]⟩

/-- What holds of a reduction of rule number `r` in state `s`. -/
structure Red (s r : Nat) : Prop where
  lo : 2 ≤ r
  hi : r < 289
  nt : 138 ≤ (ruleAt (r - 2)).lhs ∧ (ruleAt (r - 2)).lhs < 233
  r1 : lookup yyr1 r = some ((ruleAt (r - 2)).lhs : Int)
  r2 : lookup yyr2 r = some ((ruleAt (r - 2)).rhs.length : Int)
  past : matchPast s 0 (ruleAt (r - 2)).rhs.reverse = true
  back : sub (uncovered s (ruleAt (r - 2)).rhs.length) (GM (ruleAt (r - 2)).lhs) = true
  weight : psi (ruleAt (r - 2)).lhs + 4 ≤ phi s + 3 * (ruleAt (r - 2)).rhs.length
  len : (ruleAt (r - 2)).rhs.length ≤ 11
  slot : r = f16 PRED (2 * s) ∨ r = f16 PRED (2 * s + 1)

theorem add_sub (n : Nat) : ((n + 1000 : Nat) : Int) - 1000 = (n : Int) := by omega

theorem red_of_redOk (s r : Nat) (h : redOk s r (ruleAt (r - 2)) = true)
    (hs : r = f16 PRED (2 * s) ∨ r = f16 PRED (2 * s + 1)) : Red s r := by
  unfold redOk at h
  simp only [Bool.and_eq_true, Nat.ble_eq, beq_iff] at h
  obtain ⟨⟨⟨⟨⟨⟨⟨⟨⟨h1, h2⟩, h3⟩, h4⟩, h5⟩, h6⟩, h7⟩, h8⟩, h9⟩, h10⟩ := h
  refine ⟨h1, by omega, ⟨h3, by omega⟩, ?_, ?_, h7, h8, h9, h10, hs⟩
  · rw [look_yyr1 r (by omega), h5, add_sub]
  · rw [look_yyr2 r (by omega), h6, add_sub]

theorem red_of_act (s a r : Nat) (hs : s < 558) (h17 : s ≠ 17) (ha : a < 137) (h : actF s a = .reduce r) :
    Red s r := by
  have hc := act_checked s a hs h17 ha
  unfold actOk at hc
  rw [h] at hc
  simp only [Bool.and_eq_true, Bool.or_eq_true, bnot_beq, beq_iff] at hc
  obtain ⟨h0, hc⟩ := hc
  obtain ⟨s0, s1⟩ := slot_checked s hs
  refine red_of_redOk s r ?_ hc
  rcases hc with e | e
  · unfold slotOk at s0
    rw [Nat.add_zero, ← e] at s0
    simp only [Bool.or_eq_true, beq_iff] at s0
    exact s0.resolve_left h0
  · unfold slotOk at s1
    rw [← e] at s1
    simp only [Bool.or_eq_true, beq_iff] at s1
    exact s1.resolve_left h0

/-! ### Token codes -/

/-- The symbol of a token code. -/
def symOf (code : Nat) : Nat := ((yyTranslate code).getD 2).toNat

theorem translate_checked : (yytranslate.all fun x => decide (0 ≤ x) && decide (x < 137)) = true := by
  decide +kernel
theorem translate_length : yytranslate.length = 378 := by decide +kernel

theorem translate_eq (code : Nat) : yyTranslate code = some (symOf code : Int) ∧ symOf code < 137 := by
  unfold symOf yyTranslate YYMAXUTOK YYUNDEFTOK
  by_cases h : code ≤ 377
  · rw [if_pos h]
    unfold lookup
    rw [if_neg (by omega), show ((code : Int)).toNat = code by omega]
    have hl : code < yytranslate.length := by rw [translate_length]; omega
    have hg : yytranslate[code]? = some yytranslate[code] := by simp [hl]
    have hb := List.all_eq_true.mp translate_checked _ (List.getElem_mem hl)
    simp only [Bool.and_eq_true, decide_eq_true_eq] at hb
    rw [hg]
    simp only [Option.getD_some, Option.some.injEq]
    omega
  · rw [if_neg h]
    simp

/-- The symbols of the tokens that are not consumed. -/
def symbols {α} (inp : List (Nat × α)) : List (Nat × α) := inp.map fun t => (symOf t.1, t.2)

theorem peek_eq {α} (inp : List (Nat × α)) : peek inp = some (firstToken (symbols inp) 0 : Int) := by
  cases inp with
  | nil => rfl
  | cons t rest => exact (translate_eq t.1).1

theorem next_lt {α} (inp : List (Nat × α)) : firstToken (symbols inp) 0 < 137 := by
  cases inp with
  | nil => simp [symbols, firstToken]
  | cons t rest => exact (translate_eq t.1).2

/-! ### Stacks -/

/-- An entry of the stack: `s` was entered from `p` on the symbol `x`. -/
structure Edge (p x s : Nat) : Prop where
  lt : s < 558
  ne17 : s ≠ 17
  ne0 : s ≠ 0
  ok : edgeOk p x s = true
  shift : x < 137 → actF p x = .shift s
  goto : 137 ≤ x → x < 233 ∧ bit (GM x) p = true ∧ gotoF p x = s

def Path {α} : List (Nat × Tree α) → Prop
  | [] => True
  | e :: σ => Edge (top σ) e.2.root e.1 ∧ Path σ

theorem Path.top_lt {α} : ∀ {σ : List (Nat × Tree α)} (_ : Path σ), top σ < 558 ∧ top σ ≠ 17
  | [], _ => by simp [top]
  | _ :: _, h => ⟨h.1.lt, h.1.ne17⟩

theorem past_zero : (allBelow 11 fun i => Nat.beq (pastSym 0 i) 0) = true := by decide +kernel

theorem Path.past {α} : ∀ {σ : List (Nat × Tree α)} (_ : Path σ) (i : Nat) (_ : i < 11) (_ : pastSym (top σ) i ≠ 0),
    ∃ e, σ[i]? = some e ∧ e.2.root + 1 = pastSym (top σ) i ∧
      bit (pastMask (top σ) i) (top (σ.drop (i + 1))) = true
  | [], _, i, hi, hn => by
    exact absurd (beq_iff.mp (allBelow_spec 11 _ past_zero i hi)) hn
  | e :: σ, h, 0, hi, hn => by
    have ho := h.1.ok
    unfold edgeOk at ho
    simp only [Bool.and_eq_true, beq_iff] at ho
    exact ⟨e, by simp, ho.1.1.symm, ho.1.2⟩
  | e :: σ, h, i + 1, hi, hn => by
    have ho := h.1.ok
    unfold edgeOk at ho
    simp only [Bool.and_eq_true, beq_iff] at ho
    have := allBelow_spec 10 _ ho.2 i (by omega)
    simp only [Bool.or_eq_true, Bool.and_eq_true, beq_iff] at this
    rcases this with hz | ⟨he, hm⟩
    · exact absurd hz hn
    · obtain ⟨e', h1, h2, h3⟩ := Path.past h.2 i (by omega) (by
        rw [← he]; exact hn)
      refine ⟨e', by simpa using h1, ?_, ?_⟩
      · rw [h2]; exact he.symm
      · simp only [List.drop_succ_cons]
        exact sub_bit hm h3

theorem popN_eq {α} : ∀ (n : Nat) (σ : List (Nat × Tree α)) (acc : List (Tree α)) (_ : n ≤ σ.length),
    popN n σ acc = some (((σ.take n).map Prod.snd).reverse ++ acc, σ.drop n)
  | 0, σ, acc, _ => by simp [popN]
  | n + 1, [], acc, h => by simp at h
  | n + 1, e :: σ, acc, h => by
    rw [popN, popN_eq n σ (e.2 :: acc) (by simpa using h)]
    simp

theorem Path.drop {α} : ∀ (n : Nat) {σ : List (Nat × Tree α)} (_ : Path σ), Path (σ.drop n)
  | 0, _, h => h
  | _ + 1, [], h => h
  | n + 1, _ :: _, h => Path.drop n h.2

/-- The symbols on top of the stack. -/
theorem match_roots {α} {σ : List (Nat × Tree α)} (hp : Path σ) : ∀ (xs : List Nat) (i : Nat)
    (_ : i + xs.length ≤ 11) (_ : matchPast (top σ) i xs = true),
    ((σ.drop i).take xs.length).map (fun e => e.2.root) = xs ∧ i + xs.length ≤ max i σ.length
  | [], i, _, _ => ⟨by simp, by simp only [List.length_nil]; omega⟩
  | x :: xs, i, hl, h => by
    rw [matchPast, Bool.and_eq_true, beq_iff] at h
    simp only [List.length_cons] at hl
    obtain ⟨e, h1, h2, _⟩ := hp.past i (by omega) (by omega)
    obtain ⟨ih1, ih2⟩ := match_roots hp xs (i + 1) (by omega) h.2
    have hi : i < σ.length := by
      rw [List.getElem?_eq_some_iff] at h1
      exact h1.1
    refine ⟨?_, by simp only [List.length_cons]; omega⟩
    rw [List.getElem?_eq_some_iff] at h1
    obtain ⟨_, h1⟩ := h1
    rw [List.drop_eq_getElem_cons hi, h1]
    simp only [List.length_cons, List.take_succ_cons, List.map_cons]
    rw [ih1]
    congr 1
    omega

/-- What a reduction finds on the stack. -/
structure Popped {α} (σ : List (Nat × Tree α)) (r : Nat) : Prop where
  len : (ruleAt (r - 2)).rhs.length ≤ σ.length
  roots : (((σ.take (ruleAt (r - 2)).rhs.length).map Prod.snd).reverse).map Tree.root = (ruleAt (r - 2)).rhs
  back : bit (GM (ruleAt (r - 2)).lhs) (top (σ.drop (ruleAt (r - 2)).rhs.length)) = true

theorem bit_one (s : Nat) : bit (1 <<< s) s = true := by
  rw [bit_eq, Nat.testBit_shiftLeft]
  simp

theorem popped {α} {σ : List (Nat × Tree α)} (hp : Path σ) {r : Nat} (hr : Red (top σ) r) : Popped σ r := by
  obtain ⟨h1, h2⟩ := match_roots hp _ 0 (by simpa using hr.len) hr.past
  simp only [List.drop_zero, List.length_reverse, Nat.zero_add] at h1 h2
  have h2 : (ruleAt (r - 2)).rhs.length ≤ σ.length := by omega
  refine ⟨h2, ?_, ?_⟩
  · rw [List.map_reverse, List.map_map]
    have : (Tree.root ∘ Prod.snd : Nat × Tree α → Nat) = fun e => e.2.root := rfl
    rw [this, h1, List.reverse_reverse]
  · refine sub_bit hr.back ?_
    unfold uncovered
    by_cases h0 : (ruleAt (r - 2)).rhs.length = 0
    · rw [if_pos h0, h0, List.drop_zero]
      exact bit_one _
    · rw [if_neg h0]
      obtain ⟨n, hn⟩ : ∃ n, (ruleAt (r - 2)).rhs.length = n + 1 := ⟨_, (Nat.succ_pred_eq_of_ne_zero h0).symm⟩
      have hl := hr.len
      have hm : pastSym (top σ) n ≠ 0 := by
        have hpast := hr.past
        have : ∀ (xs : List Nat) (i : Nat) (_ : matchPast (top σ) i xs = true) (j : Nat) (_ : j < xs.length),
            pastSym (top σ) (i + j) ≠ 0 := by
          intro xs
          induction xs with
          | nil => intro i _ j hj; simp at hj
          | cons x xs ih =>
            intro i h j hj
            rw [matchPast, Bool.and_eq_true, beq_iff] at h
            cases j with
            | zero => rw [Nat.add_zero]; omega
            | succ j =>
              have := ih (i + 1) h.2 j (by simpa using hj)
              rwa [show i + (j + 1) = i + 1 + j by omega]
        have := this _ 0 hpast n (by simp; omega)
        simpa using this
      obtain ⟨e, _, _, h3⟩ := hp.past n (by omega) hm
      rw [hn]
      exact h3

/-- The goto after a reduction. -/
theorem goto_edge {p x : Nat} (hp : p < 558) (hx : 138 ≤ x ∧ x < 233) (h : bit (GM x) p = true) :
    Edge p x (gotoF p x) ∧ phi (gotoF p x) ≤ psi x := by
  have hc := goto_checked x p (by omega) hx.2 hp
  unfold gotoOk at hc
  rw [h] at hc
  simp only [Bool.not_true, Bool.false_or, Bool.and_eq_true, Nat.ble_eq, bnot_beq] at hc
  obtain ⟨⟨⟨⟨h1, h2⟩, h3⟩, h4⟩, h5⟩ := hc
  exact ⟨⟨by omega, h2, h3, h4, fun hh => by omega, fun _ => ⟨hx.2, h, rfl⟩⟩, h5⟩

/-- The shift of a token. -/
theorem shift_edge {p x s : Nat} (hp : p < 558) (h17 : p ≠ 17) (hx : x < 137) (h : actF p x = .shift s) :
    (x = 0 ∧ s = 17 ∧ edgeOk p 0 17 = true) ∨ (3 ≤ x ∧ Edge p x s) := by
  have hc := act_checked p x hp h17 hx
  unfold actOk at hc
  rw [h] at hc
  simp only [Bool.and_eq_true, Nat.ble_eq, cond_beq] at hc
  obtain ⟨⟨h1, h2⟩, h3⟩ := hc
  by_cases h0 : x = 0
  · rw [if_pos h0, beq_iff] at h3
    subst h0 h3
    exact .inl ⟨rfl, rfl, h2⟩
  · rw [if_neg h0, Bool.and_eq_true, Nat.ble_eq, bnot_beq] at h3
    refine .inr ⟨h3.1, by omega, h3.2, ?_, h2, fun _ => h, fun hh => by omega⟩
    intro e
    subst e
    unfold edgeOk at h2
    simp only [Bool.and_eq_true, beq_iff] at h2
    have := beq_iff.mp (allBelow_spec 11 _ past_zero 0 (by omega))
    omega

/-! ### Steps -/

theorem step_error {α} (d : α) (lim : Nat) (σ : List (Nat × Tree α)) (inp : List (Nat × α)) (hp : Path σ)
    (h : actF (top σ) (firstToken (symbols inp) 0) = .error) : step d lim ⟨σ, inp⟩ = .done .syntaxError := by
  unfold step
  simp only [peek_eq, action_eq _ _ hp.top_lt.1, h]

theorem step_shift {α} (d : α) (lim : Nat) (σ : List (Nat × Tree α)) (t : Nat × α) (rest : List (Nat × α)) (s : Nat)
    (hp : Path σ) (h : actF (top σ) (symOf t.1) = .shift s) :
    step d lim ⟨σ, t :: rest⟩ = push lim s (.leaf (symOf t.1) t.2) σ rest := by
  have : firstToken (symbols (t :: rest)) 0 = symOf t.1 := rfl
  unfold step
  simp only [peek_eq, action_eq _ _ hp.top_lt.1, this, h]
  rfl

theorem step_end {α} (d : α) (lim : Nat) (σ : List (Nat × Tree α)) (s : Nat)
    (hp : Path σ) (h : actF (top σ) 0 = .shift s) :
    step d lim ⟨σ, []⟩ = push lim s (.leaf 0 d) σ [] := by
  have : firstToken (symbols ([] : List (Nat × α))) 0 = 0 := rfl
  unfold step
  simp only [peek_eq, action_eq _ _ hp.top_lt.1, this, h]

theorem step_reduce {α} (d : α) (lim : Nat) (σ : List (Nat × Tree α)) (inp : List (Nat × α)) (r : Nat)
    (hp : Path σ) (h : actF (top σ) (firstToken (symbols inp) 0) = .reduce r) :
    step d lim ⟨σ, inp⟩ = push lim
      (gotoF (top (σ.drop (ruleAt (r - 2)).rhs.length)) (ruleAt (r - 2)).lhs)
      (.node (r - 2) ((σ.take (ruleAt (r - 2)).rhs.length).map Prod.snd).reverse)
      (σ.drop (ruleAt (r - 2)).rhs.length) inp := by
  have hr := red_of_act _ _ r hp.top_lt.1 hp.top_lt.2 (next_lt inp) h
  have ho := popped hp hr
  unfold step
  simp only [peek_eq, action_eq _ _ hp.top_lt.1, h, hr.r1, hr.r2]
  rw [show (((ruleAt (r - 2)).rhs.length : Int)).toNat = (ruleAt (r - 2)).rhs.length by omega,
    popN_eq _ _ _ ho.len]
  simp only [List.append_nil]
  rw [goto_eq _ _ (by have := hr.nt; omega) hr.nt.2]

end SPVM.Parse
