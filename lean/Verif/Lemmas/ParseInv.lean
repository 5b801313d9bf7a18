import Verif.Lemmas.ParseStep

/-
The invariant of the parser: the stack holds trees of the documented grammar that
group operators by the documented precedence.
-/

namespace SPVM.Parse

open Tree

/-! ### Trees -/

theorem mem_beginnings {α} (t : Tree α) : t ∈ t.beginnings := by
  cases t <;> simp [beginnings]

theorem beginnings_node {α} (r : Nat) (cs : List (Tree α)) :
    (node r cs).beginnings = node r cs :: (match cs with | [] => [] | c :: _ => c.beginnings) := by
  cases cs <;> simp [beginnings, beginnings.beginningsL]

theorem rule_lhs (i : Nat) (h : i < grammar.length) : 138 ≤ (ruleAt i).lhs ∧ (ruleAt i).lhs < 233 := by
  have := List.all_eq_true.mp first_checked _ (List.mem_of_getElem? (rule_get i h))
  unfold firstOk at this
  simp only [Bool.and_eq_true, Nat.ble_eq] at this
  omega

theorem derivation_node {α} {r : Nat} {cs : List (Tree α)} (h : (node r cs).derivation = true) :
    r < grammar.length ∧ cs.map root = (ruleAt r).rhs ∧ derivationL cs = true := by
  rw [derivation, Bool.and_eq_true, Bool.and_eq_true, decide_eq_true_eq, beq_iff_eq] at h
  exact ⟨h.1.1, h.1.2, h.2⟩

/-- A tree for a token is that token. -/
theorem leaf_of_root {α} {t : Tree α} (h : t.derivation = true) (hr : t.root < 137) : ∃ v, t = leaf t.root v := by
  cases t with
  | leaf s v => exact ⟨v, rfl⟩
  | node r cs =>
    have := rule_lhs r (derivation_node h).1
    simp only [root] at hr
    omega

theorem isEmptyBlock_spec {α} {t : Tree α} (h : isEmptyBlock t = true) :
    ∃ r a c b q, t = node r [a, c, b] ∧ (ruleAt r).lhs = N.block ∧ c.rule? = some q ∧ (ruleAt q).rhs = [] := by
  unfold isEmptyBlock at h
  split at h
  · rename_i r a c b
    rw [Bool.and_eq_true, beq_iff_eq] at h
    cases hq : c.rule? with
    | none => rw [hq] at h; simp at h
    | some q =>
      rw [hq] at h
      exact ⟨r, a, c, b, q, rfl, h.1, hq, by simpa using h.2⟩
  · exact absurd h (by decide)

theorem isBraced_spec {α} {t : Tree α} (h : isBraced t = true) :
    ∃ r a c b q, t = node r [a, c, b] ∧ (ruleAt r).lhs = N.array_init ∧
      (ruleAt r).rhs = [T.LBRACE, N.operators, T.RBRACE] ∧ c.rule? = some q ∧ (ruleAt q).rhs = [N.«operator»] := by
  unfold isBraced at h
  split at h
  · rename_i r a c b
    rw [Bool.and_eq_true, Bool.and_eq_true, beq_iff_eq, beq_iff_eq] at h
    cases hq : c.rule? with
    | none => rw [hq] at h; simp at h
    | some q =>
      rw [hq] at h
      exact ⟨r, a, c, b, q, rfl, h.1.1, h.1.2, hq, by simpa using h.2⟩
  · exact absurd h (by decide)

theorem block_rule : (grammar.all fun ρ => !(ρ.lhs == N.block) || ρ.rhs == [T.LBRACE, N.opt_statements, T.RBRACE]) = true := by
  decide +kernel

theorem block_rhs (i : Nat) (h : i < grammar.length) (hl : (ruleAt i).lhs = N.block) :
    (ruleAt i).rhs = [T.LBRACE, N.opt_statements, T.RBRACE] := by
  have := List.all_eq_true.mp block_rule _ (List.mem_of_getElem? (rule_get i h))
  rw [hl] at this
  simpa using this

theorem rule_root {α} {t : Tree α} {q : Nat} (h : t.rule? = some q) : t.root = (ruleAt q).lhs := by
  cases t with
  | leaf s v => simp [rule?] at h
  | node r cs => simp only [rule?, Option.some.injEq] at h; rw [← h]; rfl

/-! ### What holds of a tree on the stack -/

/-- The phrases the tree begins with are allowed in the state below. -/
def Spine {α} (p : Nat) (t : Tree α) : Prop :=
  ∀ u ∈ t.beginnings, (∀ q, u.rule? = some q → bit (BAD p) q = false) ∧
    (p1 p = true → isEmptyBlock u = false) ∧ (p2 p = true → isBraced u = false)

structure Good {α} (p : Nat) (t : Tree α) (a : Nat) : Prop where
  der : t.derivation = true
  ends : t.endsRight a = true
  grp : t.grouped = true
  spine : Spine p t
  one : r1 p = true → a = T.RBRACE → ∀ q, t.rule? = some q →
    ¬ ((ruleAt q).lhs = N.opt_statements ∧ (ruleAt q).rhs = [])
  two : r2 p = true → a = T.RBRACE → ∀ q, t.rule? = some q →
    ¬ ((ruleAt q).lhs = N.operators ∧ (ruleAt q).rhs = [N.«operator»])

theorem good_leaf {α} (p x : Nat) (v : α) (a : Nat) (hx : isToken x = true) : Good p (leaf x v) a where
  der := by simpa [derivation] using hx
  ends := by simp [endsRight]
  grp := by simp [grouped]
  spine := by
    intro u hu
    simp only [beginnings, List.mem_singleton] at hu
    subst hu
    simp [rule?, isEmptyBlock, isBraced]
  one := by intro _ _ q h; simp [rule?] at h
  two := by intro _ _ q h; simp [rule?] at h

/-- Trees next to each other: the states they were entered from, and `a` follows. -/
def Chain {α} : Nat → List (Nat × Tree α) → Nat → Prop
  | _, [], _ => True
  | p, e :: rest, a => Edge p e.2.root e.1 ∧
      Good p e.2 (firstToken (tokensL (rest.map Prod.snd)) a) ∧ Chain e.1 rest a

def Inv {α} : List (Nat × Tree α) → List (Nat × α) → Prop
  | [], _ => True
  | e :: σ, inp => Edge (top σ) e.2.root e.1 ∧ Good (top σ) e.2 (firstToken inp 0) ∧ Inv σ (e.2.tokens ++ inp)

theorem Inv.path {α} : ∀ {σ : List (Nat × Tree α)} {inp : List (Nat × α)} (_ : Inv σ inp), Path σ
  | [], _, _ => trivial
  | _ :: _, _, h => ⟨h.1, Inv.path h.2.2⟩

theorem firstToken_append {α} (ts us : List (Nat × α)) (n : Nat) :
    firstToken (ts ++ us) n = firstToken ts (firstToken us n) := by
  cases ts <;> simp [firstToken]

/-- The text of a stack and what follows it. -/
def textOf {α} : List (Nat × Tree α) → List (Nat × α) → List (Nat × α)
  | [], inp => inp
  | e :: σ, inp => textOf σ (e.2.tokens ++ inp)

/-- Taking entries off the stack. -/
theorem inv_pop {α} (inp : List (Nat × α)) (a : Nat) (ha : a = firstToken inp 0) :
    ∀ (n : Nat) (σ : List (Nat × Tree α)) (seg : List (Nat × Tree α)) (_ : n ≤ σ.length)
      (_ : Inv σ (tokensL (seg.map Prod.snd) ++ inp)) (_ : Chain (top σ) seg a),
      Chain (top (σ.drop n)) ((σ.take n).reverse ++ seg) a ∧
      Inv (σ.drop n) (tokensL (((σ.take n).reverse ++ seg).map Prod.snd) ++ inp) ∧
      textOf σ (tokensL (seg.map Prod.snd) ++ inp) =
        textOf (σ.drop n) (tokensL (((σ.take n).reverse ++ seg).map Prod.snd) ++ inp)
  | 0, σ, seg, _, hi, hc => by simpa using ⟨hc, hi⟩
  | n + 1, [], seg, hl, _, _ => by simp at hl
  | n + 1, e :: σ, seg, hl, hi, hc => by
    obtain ⟨h1, h2, h3⟩ := hi
    rw [firstToken_append, ← ha] at h2
    have ht : tokensL ((e :: seg).map Prod.snd) ++ inp = e.2.tokens ++ (tokensL (seg.map Prod.snd) ++ inp) := by
      simp [tokensL]
    have := inv_pop inp a ha n σ (e :: seg) (by simpa using hl) (by rw [ht]; exact h3) ⟨h1, h2, hc⟩
    simp only [List.drop_succ_cons, List.take_succ_cons, List.reverse_cons, List.append_assoc,
      List.cons_append, List.nil_append, textOf]
    rw [← ht]
    exact this

/-! ### A reduction -/

theorem lvl_lt {t : Nat} (h : (level t).isSome) : t < 137 := by
  have hall : (precedence.all fun e => e.2.all fun x => decide (x < 137)) = true := by decide +kernel
  have : ∀ (l : List (Assoc × List Nat)) (i : Nat), (levelIn l i t).isSome →
      (l.all fun e => e.2.all fun x => decide (x < 137)) = true → t < 137 := by
    intro l
    induction l with
    | nil => intro i h _; simp [levelIn] at h
    | cons e l ih =>
      intro i h ha
      rw [List.all_cons, Bool.and_eq_true] at ha
      unfold levelIn at h
      by_cases hc : e.2.contains t = true
      · have := List.all_eq_true.mp ha.1 t (by simpa using hc)
        simpa using this
      · rw [if_neg hc] at h
        exact ih (i + 1) h ha.2
  exact this _ _ h hall

theorem infix_spec {ρ : Rule} {b : Nat} (h : ρ.infix? = some b) :
    (∃ rest, ρ.rhs = N.«operator» :: b :: rest) ∧ b < 137 := by
  unfold Rule.infix? at h
  split at h
  · rename_i s t rest hr
    split at h
    · rename_i hc
      simp only [Option.some.injEq] at h
      subst h
      exact ⟨⟨rest, by rw [hr, hc.1]⟩, lvl_lt hc.2⟩
    · exact absurd h (by simp)
  · exact absurd h (by simp)

theorem infixes_get (i : Nat) (h : i < grammar.length) : infixes[i]? = some (ruleAt i).infix? := by
  rw [← infixes_eq, List.getElem?_map, rule_get i h]
  rfl

theorem bad_spec {p i : Nat} (hp : p < 558) (hi : i < grammar.length) (h : bit (BAD p) i = true) :
    ∃ b, (ruleAt i).infix? = some b ∧ ∀ s, actF (gotoF p N.«operator») b ≠ .shift s := by
  have hc := allIdx_spec badOk infixes 0 bad_checked i _ (infixes_get i hi)
  unfold badOk at hc
  have hc := allBelow_spec 558 _ hc p hp
  rw [Nat.zero_add, h] at hc
  simp only [Bool.not_true, Bool.false_or] at hc
  cases ho : (ruleAt i).infix? with
  | none => rw [ho] at hc; exact absurd hc Bool.false_ne_true
  | some b =>
    rw [ho] at hc
    refine ⟨b, rfl, ?_⟩
    intro s hs
    replace hc : notShift (actF (gotoF p N.«operator») b) = true := hc
    rw [hs] at hc
    exact absurd hc (by simp [notShift])

theorem lose_spec {i a : Nat} (hi : i < grammar.length) (ha : a < 137) :
    ((ruleAt i).givesUp a || (ruleAt i).goesOn a) = true ↔ bit (LOSE i) a = true := by
  have hc := allIdx_spec loseOk grammar 0 lose_checked i _ (rule_get i hi)
  unfold loseOk at hc
  rw [Nat.zero_add] at hc
  cases ho : ((ruleAt i).endsOpen || isGreedy (ruleAt i)) with
  | true =>
    rw [ho, cond_true] at hc
    have := allBelow_spec 137 _ hc a ha
    rw [beq_iff_eq] at this
    rw [this, givesUpW_eq]
  | false =>
    rw [ho, cond_false, beq_iff] at hc
    rw [Bool.or_eq_false_iff] at ho
    have h1 : (ruleAt i).givesUp a = false := by simp [Rule.givesUp, ho.1]
    have h2 : (ruleAt i).goesOn a = false := by
      unfold Rule.goesOn
      rw [List.any_eq_false]
      intro g hg hh
      have := ho.2
      unfold isGreedy at this
      rw [List.any_eq_false] at this
      apply this g hg
      simp only [Bool.and_eq_true] at hh ⊢
      exact hh.1
    rw [h1, h2, hc]
    simp [bit, Nat.zero_shiftRight]

theorem keep_spec {i j : Nat} (hi : i < grammar.length) (hj : j < grammar.length) :
    bit (KEEP i) j = true ↔ ∃ t, (ruleAt j).infix? = some t ∧ (ruleAt i).keeps t = true := by
  have hc := allIdx_spec keepOk grammar 0 keep_checked i _ (rule_get i hi)
  unfold keepOk at hc
  rw [Nat.zero_add] at hc
  cases ho : (ruleAt i).endsOpen with
  | true =>
    rw [ho, cond_true] at hc
    have := allIdx_spec _ infixes 0 hc j _ (infixes_get j hj)
    rw [beq_iff_eq, Nat.zero_add] at this
    rw [this]
    cases (ruleAt j).infix? with
    | none => simp
    | some t => simp
  | false =>
    rw [ho, cond_false, beq_iff] at hc
    rw [hc]
    simp [bit, Nat.zero_shiftRight, Rule.keeps, ho]

theorem chain_der {α} : ∀ {seg : List (Nat × Tree α)} {p a : Nat} (_ : Chain p seg a),
    derivationL (seg.map Prod.snd) = true ∧ endsRightL (seg.map Prod.snd) a = true ∧
    groupedL (seg.map Prod.snd) = true
  | [], _, _, _ => by simp [derivationL, endsRightL, groupedL]
  | e :: rest, p, a, h => by
    obtain ⟨h1, h2, h3⟩ := chain_der h.2.2
    simp only [List.map_cons, derivationL, endsRightL, groupedL, Bool.and_eq_true]
    exact ⟨⟨h.2.1.der, h1⟩, ⟨h.2.1.ends, h2⟩, ⟨h.2.1.grp, h3⟩⟩

theorem chain_last {α} : ∀ {seg : List (Nat × Tree α)} {p a : Nat} (_ : Chain p seg a) {e : Nat × Tree α}
    (_ : seg.getLast? = some e) (_ : p < 558), ∃ p', p' < 558 ∧ Edge p' e.2.root e.1 ∧ Good p' e.2 a
  | [], _, _, _, e, he, _ => by simp at he
  | [e], p, a, h, e', he, hp => by
    simp only [List.getLast?_singleton, Option.some.injEq] at he
    subst he
    exact ⟨p, hp, h.1, by simpa [tokensL, firstToken] using h.2.1⟩
  | e :: f :: rest, p, a, h, e', he, _ => by
    rw [List.getLast?_cons_cons] at he
    exact chain_last h.2.2 he h.1.lt

theorem special (s : Nat) (hs : s < 558) (h17 : s ≠ 17) : specialOk s = true := by
  have h := allBelow_spec 558 _ special_checked s hs
  rw [Bool.or_eq_true] at h
  rcases h with h | h
  · exact absurd (Nat.eq_of_beq_eq_true h) h17
  · exact h

theorem special_at {s q : Nat} (hs : s < 558) (h17 : s ≠ 17) (h : actF s T.AT = .shift q) : p2 q = true := by
  have hc := special s hs h17
  unfold specialOk at hc
  simp only [Bool.and_eq_true] at hc
  have := hc.1.1.1
  rw [h] at this
  exact this

theorem special_brace {s q : Nat} (hs : s < 558) (h17 : s ≠ 17) (h : actF s T.LBRACE = .shift q) :
    (p1 s = true → r1 q = true) ∧ (p2 s = true → r2 q = true) := by
  have hc := special s hs h17
  unfold specialOk at hc
  simp only [Bool.and_eq_true] at hc
  have := hc.1.1.2
  rw [h] at this
  simp only [Bool.and_eq_true, Bool.or_eq_true] at this
  constructor
  · intro hh; have := this.1; rw [hh] at this; simpa using this
  · intro hh; have := this.2; rw [hh] at this; simpa using this

theorem special_one {s r : Nat} (hs : s < 558) (h17 : s ≠ 17) (h1 : r1 s = true)
    (h : actF s T.RBRACE = .reduce r) : (ruleAt (r - 2)).lhs ≠ N.opt_statements := by
  have hc := special s hs h17
  unfold specialOk at hc
  simp only [Bool.and_eq_true] at hc
  have := hc.1.2
  rw [h1, h] at this
  intro hh
  replace this : (!Nat.beq (ruleAt (r - 2)).lhs N.opt_statements) = true := this
  rw [hh] at this
  exact absurd this (by decide)

theorem special_two {s r : Nat} (hs : s < 558) (h17 : s ≠ 17) (h1 : r2 s = true)
    (h : actF (gotoF s N.«operator») T.RBRACE = .reduce r) : (ruleAt (r - 2)).lhs ≠ N.operators := by
  have hc := special s hs h17
  unfold specialOk at hc
  simp only [Bool.and_eq_true] at hc
  have := hc.2
  rw [h1, h] at this
  intro hh
  replace this : (!Nat.beq (ruleAt (r - 2)).lhs N.operators) = true := this
  rw [hh] at this
  exact absurd this (by decide)

theorem roots_one {α} {seg : List (Nat × Tree α)} {x : Nat} (h : (seg.map Prod.snd).map root = [x]) :
    ∃ e, seg = [e] ∧ e.2.root = x := by
  cases seg with
  | nil => simp at h
  | cons e seg =>
    cases seg with
    | nil => exact ⟨e, rfl, by simpa using h⟩
    | cons f seg => simp at h

theorem roots_two {α} {seg : List (Nat × Tree α)} {x y : Nat} {l : List Nat}
    (h : (seg.map Prod.snd).map root = x :: y :: l) :
    ∃ e f seg', seg = e :: f :: seg' ∧ e.2.root = x ∧ f.2.root = y := by
  cases seg with
  | nil => simp at h
  | cons e seg =>
    cases seg with
    | nil => simp at h
    | cons f seg =>
      simp only [List.map_cons, List.cons.injEq] at h
      exact ⟨e, f, seg, rfl, h.1, h.2.1⟩

theorem chain_afterAt {α} : ∀ {seg : List (Nat × Tree α)} {p a : Nat} (_ : Chain p seg a) (_ : p < 558) (_ : p ≠ 17),
    afterAt (seg.map Prod.snd) = true
  | [], _, _, _, _, _ => by simp [afterAt]
  | [e], _, _, _, _, _ => by simp [afterAt]
  | e :: f :: rest, p, a, h, hp, h17 => by
    have ih := chain_afterAt h.2.2 h.1.lt h.1.ne17
    simp only [List.map_cons] at ih ⊢
    rw [afterAt, ih, Bool.and_true, Bool.or_eq_true]
    by_cases hr : e.2.root = T.AT
    · right
      have hs : p2 e.1 = true := special_at hp h17 (hr ▸ h.1.shift (by rw [hr]; decide))
      rw [List.all_eq_true]
      intro u hu
      have := (h.2.2.2.1.spine u hu).2.2 hs
      simp [this]
    · left; simpa using hr

theorem slot2 {s r : Nat} (hs : s < 558) (hr : Red s r) : slotOk2 s r (ruleAt (r - 2)) = true := by
  have h := allBelow_spec 558 _ slots2_checked s hs
  simp only [Bool.and_eq_true, Bool.or_eq_true, beq_iff] at h
  have := hr.lo
  rcases hr.slot with e | e
  · rw [← e] at h; exact h.1.resolve_left (by omega)
  · rw [← e] at h; exact h.2.resolve_left (by omega)

theorem edge_past {p x s : Nat} (h : Edge p x s) : bit (pastMask s 0) p = true := by
  have := h.ok
  unfold edgeOk at this
  simp only [Bool.and_eq_true] at this
  exact this.1.2

/-- The state after a list of entries. -/
def endOf {α} (p : Nat) (seg : List (Nat × Tree α)) : Nat :=
  match seg.getLast? with
  | some e => e.1
  | none => p

theorem good_node {α} {p a s r : Nat} {seg : List (Nat × Tree α)} (hp : p < 558) (h17 : p ≠ 17) (ha : a < 137)
    (hs : s < 558) (hs17 : s ≠ 17)
    (hc : Chain p seg a) (he : endOf p seg = s) (hact : actF s a = .reduce r)
    (hroots : (seg.map Prod.snd).map root = (ruleAt (r - 2)).rhs) :
    Good p (node (r - 2) (seg.map Prod.snd)) a := by
  have hr := red_of_act s a r hs hs17 ha hact
  have h2 := slot2 hs hr
  unfold slotOk2 at h2
  simp only [Bool.and_eq_true] at h2
  obtain ⟨⟨hlose, hkeep⟩, hstmt⟩ := h2
  have hi : r - 2 < grammar.length := by rw [grammar_length]; have := hr.lo; have := hr.hi; omega
  obtain ⟨cd, ce, cg⟩ := chain_der hc
  -- the parts of a three part node in braces
  have braces : ∀ {A C B : Tree α} {x : Nat}, seg.map Prod.snd = [A, C, B] →
      (ruleAt (r - 2)).rhs = [T.LBRACE, x, T.RBRACE] →
      ∃ q, actF p T.LBRACE = .shift q ∧ Good q C T.RBRACE ∧ C.root = x := by
    intro A C B x hseg hrhs
    match seg, hseg, hc with
    | [e0, e1, e2], hseg, hc =>
      simp only [List.map_cons, List.map_nil, List.cons.injEq, and_true] at hseg
      obtain ⟨hA, hC, hB⟩ := hseg
      rw [hrhs] at hroots
      simp only [List.map_cons, List.map_nil, List.cons.injEq, and_true] at hroots
      have hsh := hc.1.shift (by rw [hroots.1]; decide)
      rw [hroots.1] at hsh
      have hg := hc.2.2.2.1
      have hB' : e2.2.derivation = true := hc.2.2.2.2.2.1.der
      obtain ⟨v, hv⟩ := leaf_of_root hB' (by rw [hroots.2.2]; decide)
      have htok : firstToken (tokensL ([e2].map Prod.snd)) a = T.RBRACE := by
        simp only [List.map_cons, List.map_nil, tokensL]
        rw [hv, hroots.2.2]
        simp [tokens, firstToken]
      rw [htok] at hg
      exact ⟨e0.1, hsh, hC ▸ hg, hC ▸ hroots.2.1⟩
  refine ⟨?_, ?_, ?_, ?_, ?_, ?_⟩
  · rw [derivation, Bool.and_eq_true, Bool.and_eq_true, decide_eq_true_eq, beq_iff_eq]
    exact ⟨⟨hi, hroots⟩, cd⟩
  · rw [endsRight, Bool.and_eq_true, ce]
    refine ⟨?_, rfl⟩
    have : ¬ bit (LOSE (r - 2)) a = true := by
      intro hb
      by_cases h0 : LOSE (r - 2) = 0
      · rw [h0] at hb; simp [bit, Nat.zero_shiftRight] at hb
      · have hf : Nat.beq (LOSE (r - 2)) 0 = false := by
          cases hh : Nat.beq (LOSE (r - 2)) 0
          · rfl
          · exact absurd (beq_iff.mp hh) h0
        rw [hf, cond_false] at hlose
        have := allBelow_spec 137 _ hlose a ha
        rw [hb, hact] at this
        simp at this
    rw [← lose_spec hi ha] at this
    rw [Bool.or_eq_true, not_or] at this
    simp only [Bool.not_eq_true] at this
    rw [this.1, this.2]
    rfl
  · rw [grouped, cg, chain_afterAt hc hp h17, Bool.and_true, Bool.and_true, Bool.and_eq_true]
    constructor
    · cases ho : (ruleAt (r - 2)).endsOpen with
      | false => rfl
      | true =>
        rw [ho, cond_true] at hkeep
        simp only [Bool.not_true, Bool.false_or]
        rw [List.getLast?_map]
        cases hl : seg.getLast? with
        | none => rfl
        | some e =>
          simp only [Option.map_some]
          obtain ⟨p', hp', hedge, hgood⟩ := chain_last hc hl hp
          have hes : e.1 = s := by rw [← he]; unfold endOf; rw [hl]
          rw [hes] at hedge
          have hk := allBelow_spec 558 _ hkeep p' hp'
          rw [edge_past hedge] at hk
          simp only [Bool.not_true, Bool.false_or] at hk
          unfold keepsOperand
          rw [List.all_eq_true]
          intro u hu
          cases hq : u.rule? with
          | none => rfl
          | some q =>
            have hbad := (hgood.spine u hu).1 q hq
            simp only
            cases hinf : (ruleAt q).infix? with
            | none => rfl
            | some t =>
              simp only
              cases hkp : (ruleAt (r - 2)).keeps t with
              | false => rfl
              | true =>
                have hqg : q < grammar.length := by
                  apply Decidable.byContradiction
                  intro hn
                  have : ruleAt q = ⟨0, [], none⟩ := by
                    unfold ruleAt
                    simp only [List.getD]
                    rw [List.getElem?_eq_none (by omega)]
                    rfl
                  rw [this] at hinf
                  simp [Rule.infix?] at hinf
                have := (keep_spec hi hqg).mpr ⟨t, hinf, hkp⟩
                have := sub_bit hk this
                rw [hbad] at this
                exact absurd this (by decide)
    · by_cases hl : (ruleAt (r - 2)).lhs = N.statement
      · rw [Bool.or_eq_true]
        right
        rw [List.all_eq_true]
        intro c hcm
        by_cases hb : isEmptyBlock c = true
        · exfalso
          obtain ⟨r', A, C, B, q, e1, e2, _, _⟩ := isEmptyBlock_spec hb
          have hcr : c.root = N.block := by rw [e1]; exact e2
          have hmem : N.block ∈ (ruleAt (r - 2)).rhs := by
            rw [← hroots, ← hcr]
            exact List.mem_map_of_mem hcm
          rw [hl] at hstmt
          have : (Nat.beq N.statement N.statement && (ruleAt (r - 2)).rhs.contains N.block) = true := by
            rw [Bool.and_eq_true]
            exact ⟨by decide, by simpa using hmem⟩
          rw [this, cond_true, Bool.and_eq_true, beq_iff_eq] at hstmt
          obtain ⟨hrhs, hall⟩ := hstmt
          rw [hrhs] at hroots
          obtain ⟨e, rfl, hroots⟩ := roots_one hroots
          · simp only [List.map_cons, List.map_nil, List.mem_singleton] at hcm
            have hes : e.1 = s := by rw [← he]; simp [endOf]
            have hedge := hc.1
            rw [hes] at hedge
            have := allBelow_spec 558 _ hall p hp
            rw [edge_past hedge] at this
            simp only [Bool.not_true, Bool.false_or] at this
            have := (hc.2.1.spine e.2 (mem_beginnings _)).2.1 this
            rw [← hcm, hb] at this
            exact absurd this (by decide)
        · simpa using hb
      · rw [Bool.or_eq_true]
        left
        simpa using hl
  · intro u hu
    rw [beginnings_node] at hu
    rcases List.mem_cons.mp hu with hu | hu
    · subst hu
      refine ⟨?_, ?_, ?_⟩
      · intro q hq
        simp only [rule?, Option.some.injEq] at hq
        subst hq
        cases hb : bit (BAD p) (r - 2) with
        | false => rfl
        | true =>
          exfalso
          obtain ⟨b, hb1, hb2⟩ := bad_spec hp hi hb
          obtain ⟨⟨rest, hrest⟩, hblt⟩ := infix_spec hb1
          rw [hrest] at hroots
          obtain ⟨e0, e1, seg', rfl, hr1, hr2⟩ := roots_two hroots
          · have hg := (hc.1.goto (by rw [hr1]; decide)).2.2
            rw [hr1] at hg
            have hsh := hc.2.2.1.shift (by rw [hr2]; exact hblt)
            rw [hr2, ← hg] at hsh
            exact hb2 _ hsh
      · intro h1
        cases hb : isEmptyBlock (node (r - 2) (seg.map Prod.snd)) with
        | false => rfl
        | true =>
          exfalso
          obtain ⟨r', A, C, B, q, e1, e2, e3, e4⟩ := isEmptyBlock_spec hb
          injection e1 with e1 e1'
          rw [← e1] at e2
          obtain ⟨q', hsh, hg, hC⟩ := braces e1' (block_rhs _ hi e2)
          refine hg.one ((special_brace hp h17 hsh).1 h1) rfl q e3 ⟨?_, e4⟩
          rw [← rule_root e3, hC]
      · intro h1
        cases hb : isBraced (node (r - 2) (seg.map Prod.snd)) with
        | false => rfl
        | true =>
          exfalso
          obtain ⟨r', A, C, B, q, e1, e2, e2', e3, e4⟩ := isBraced_spec hb
          injection e1 with e1 e1'
          rw [← e1] at e2'
          obtain ⟨q', hsh, hg, hC⟩ := braces e1' e2'
          refine hg.two ((special_brace hp h17 hsh).2 h1) rfl q e3 ⟨?_, e4⟩
          rw [← rule_root e3, hC]
    · match seg, hu, hc with
      | e :: seg', hu, hc => exact hc.2.1.spine u hu
  · intro h1 hab q hq hh
    simp only [rule?, Option.some.injEq] at hq
    subst hq
    rw [hh.2] at hroots
    have : seg = [] := by simpa using hroots
    subst this
    have : s = p := by rw [← he]; rfl
    rw [this, hab] at hact
    exact special_one hp h17 h1 hact hh.1
  · intro h1 hab q hq hh
    simp only [rule?, Option.some.injEq] at hq
    subst hq
    rw [hh.2] at hroots
    obtain ⟨e, rfl, hr1⟩ := roots_one hroots
    · have hg := (hc.1.goto (by rw [hr1]; decide)).2.2
      rw [hr1] at hg
      have hes : e.1 = s := by rw [← he]; simp [endOf]
      rw [← hes, ← hg, hab] at hact
      exact special_two hp h17 h1 hact hh.1

end SPVM.Parse
