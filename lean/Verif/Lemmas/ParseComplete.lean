import Verif.Lemmas.ParseSound

/-
The parser finds every tree the documentation describes.
-/

namespace SPVM.Parse

open Tree

theorem tree_ind {α} {P : Tree α → Prop} (hl : ∀ s v, P (leaf s v))
    (hn : ∀ r cs, (∀ c ∈ cs, P c) → P (node r cs)) (t : Tree α) : P t :=
  Tree.rec (motive_1 := P) (motive_2 := fun cs => ∀ c ∈ cs, P c) hl hn (by simp)
    (fun c cs h1 h2 d hd => by
      rcases List.mem_cons.mp hd with h | h
      · exact h ▸ h1
      · exact h2 d h) t

theorem bit_or (a b i : Nat) : bit (a ||| b) i = (bit a i || bit b i) := by
  rw [bit_eq, bit_eq, bit_eq, Nat.testBit_or]

/-! ### First tokens -/

theorem firstSeq_mono : ∀ (xs : List Nat) (m i : Nat) (_ : bit (firstSeq xs 0) i = true), bit (firstSeq xs m) i = true
  | [], m, i, h => by simp [firstSeq, bit, Nat.zero_shiftRight] at h
  | x :: xs, m, i, h => by
    rw [firstSeq] at h ⊢
    cases hn : nul x with
    | false => rw [hn] at h; exact h
    | true =>
      rw [hn, cond_true, bit_or, Bool.or_eq_true] at h
      rw [cond_true, bit_or, Bool.or_eq_true]
      exact h.imp id (firstSeq_mono xs m i)

def FirstOk {α} (t : Tree α) : Prop := t.derivation = true →
  (t.tokens = [] → nul t.root = true) ∧ ∀ x ts, t.tokens = x :: ts → bit (firstOf t.root) x.1 = true

theorem firstL {α} : ∀ (cs : List (Tree α)) (_ : ∀ c ∈ cs, FirstOk c) (_ : derivationL cs = true),
    (tokensL cs = [] → (cs.map root).all nul = true) ∧
    ∀ x ts, tokensL cs = x :: ts → bit (firstSeq (cs.map root) 0) x.1 = true
  | [], _, _ => by simp [tokensL]
  | c :: cs, h, hd => by
    rw [derivationL, Bool.and_eq_true] at hd
    have hc := h c (by simp) hd.1
    have ih := firstL cs (fun d hd => h d (by simp [hd])) hd.2
    constructor
    · intro he
      rw [tokensL, List.append_eq_nil_iff] at he
      rw [List.map_cons, List.all_cons, Bool.and_eq_true]
      exact ⟨hc.1 he.1, ih.1 he.2⟩
    · intro x ts he
      rw [tokensL] at he
      rw [List.map_cons, firstSeq]
      cases ht : c.tokens with
      | nil =>
        rw [ht, List.nil_append] at he
        rw [hc.1 ht, cond_true, bit_or, Bool.or_eq_true]
        exact Or.inr (ih.2 x ts he)
      | cons y ys =>
        rw [ht, List.cons_append] at he
        injection he with he1 he2
        have := hc.2 y ys ht
        rw [he1] at this
        cases nul c.root with
        | true => rw [cond_true, bit_or, this]; rfl
        | false => rw [cond_false]; exact this

theorem first_ok {α} (t : Tree α) : FirstOk t := by
  induction t using tree_ind with
  | hl s v =>
    intro hd
    simp only [derivation, isToken, Bool.and_eq_true, decide_eq_true_eq] at hd
    have h4 : T.RPAREN = 136 := rfl
    refine ⟨by simp [tokens], ?_⟩
    intro x ts he
    simp only [tokens, List.cons.injEq] at he
    rw [← he.1]
    have : Nat.ble s 136 = true := Nat.ble_eq.mpr (by omega)
    simp only [root, firstOf, this, cond_true]
    exact bit_one s
  | hn r cs ih =>
    intro hd
    obtain ⟨h1, h2, h3⟩ := derivation_node hd
    have hL := firstL cs ih h3
    have := List.all_eq_true.mp first_checked _ (List.mem_of_getElem? (rule_get r h1))
    unfold firstOk at this
    simp only [Bool.and_eq_true] at this
    rw [← h2] at this
    constructor
    · intro he
      have hn := this.1.1.2
      rw [hL.1 (by simpa [tokens] using he)] at hn
      simpa [root] using hn
    · intro x ts he
      exact sub_bit this.1.1.1 (hL.2 x ts (by simpa [tokens] using he))

/-- The token after a part is among the first tokens of what follows. -/
theorem first_next {α} (cs : List (Tree α)) (hd : derivationL cs = true) (m a : Nat) (ha : bit m a = true) :
    bit (firstSeq (cs.map root) m) (firstToken (tokensL cs) a) = true := by
  induction cs with
  | nil => simpa [firstSeq, tokensL, firstToken] using ha
  | cons c cs ih =>
    rw [derivationL, Bool.and_eq_true] at hd
    have hc := first_ok c hd.1
    rw [tokensL, List.map_cons, firstSeq]
    cases ht : c.tokens with
    | nil =>
      rw [hc.1 ht, cond_true, bit_or, Bool.or_eq_true]
      exact Or.inr (ih hd.2)
    | cons y ys =>
      have := hc.2 y ys ht
      simp only [List.cons_append, firstToken]
      cases nul c.root with
      | true => rw [cond_true, bit_or, this]; rfl
      | false => rw [cond_false]; exact this

/-! ### Empty blocks -/

/-- In a well grouped tree only the tree itself can be the empty block it begins with. -/
theorem begin_block {α} (t : Tree α) : t.derivation = true → t.grouped = true → ∀ u ∈ t.beginnings,
    isEmptyBlock u = true → t.root = N.block := by
  induction t using tree_ind with
  | hl s v =>
    intro _ _ u hu he
    simp only [beginnings, List.mem_singleton] at hu
    rw [hu] at he
    simp [isEmptyBlock] at he
  | hn r cs ih =>
    intro hd hg u hu he
    obtain ⟨h1, h2, h3⟩ := derivation_node hd
    rw [beginnings_node] at hu
    rcases List.mem_cons.mp hu with hu | hu
    · subst hu
      obtain ⟨r', a, c, b, q, e1, e2, _, _⟩ := isEmptyBlock_spec he
      rw [e1]
      exact e2
    · exfalso
      cases cs with
      | nil => simp at hu
      | cons c cs =>
        simp only at hu
        rw [derivationL, Bool.and_eq_true] at h3
        rw [grouped] at hg
        simp only [Bool.and_eq_true, groupedL] at hg
        have hroot := ih c (by simp) h3.1 hg.2.1 u hu he
        have hb := List.all_eq_true.mp begin_checked _ (List.mem_of_getElem? (rule_get r h1))
        unfold beginOk at hb
        rw [← h2, List.map_cons, hroot] at hb
        simp only [Nat.beq_refl, Bool.not_true, Bool.false_or, beq_iff] at hb
        have hs := hg.1.1.2
        rw [hb] at hs
        simp only [beq_self_eq_true, Bool.not_true, Bool.false_or, List.all_cons, Bool.and_eq_true] at hs
        -- `u` is `c`: a tree whose root is `block` begins with `{`
        have hu' : u = c := by
          cases c with
          | leaf s v => simpa [beginnings] using hu
          | node r' ds =>
            rw [beginnings_node] at hu
            rcases List.mem_cons.mp hu with hu | hu
            · exact hu
            · exfalso
              obtain ⟨k1, k2, k3⟩ := derivation_node h3.1
              have hr := block_rhs r' k1 hroot
              rw [hr] at k2
              cases ds with
              | nil => simp at k2
              | cons e ds =>
                simp only [List.map_cons, List.cons.injEq] at k2
                rw [derivationL, Bool.and_eq_true] at k3
                obtain ⟨v, hv⟩ := leaf_of_root k3.1 (by rw [k2.1]; decide)
                rw [hv] at hu
                simp only [beginnings, List.mem_singleton] at hu
                rw [hu] at he
                simp [isEmptyBlock] at he
        rw [hu'] at he
        rw [he] at hs
        simp at hs

/-! ### Reaching a configuration -/

def Reach {α} (d : α) (lim : Nat) (c c' : Conf α) : Prop := ∃ n, ∀ fuel, run d lim (fuel + n) c = run d lim fuel c'

theorem Reach.refl {α} (d : α) (lim : Nat) (c : Conf α) : Reach d lim c c := ⟨0, fun _ => rfl⟩

theorem Reach.trans {α} {d : α} {lim : Nat} {a b c : Conf α} (h1 : Reach d lim a b) (h2 : Reach d lim b c) :
    Reach d lim a c := by
  obtain ⟨n, hn⟩ := h1
  obtain ⟨m, hm⟩ := h2
  exact ⟨m + n, fun fuel => by rw [← Nat.add_assoc, hn, hm]⟩

theorem Reach.step {α} {d : α} {lim : Nat} {c c' : Conf α} (h : step d lim c = .next c') : Reach d lim c c' :=
  ⟨1, fun fuel => by rw [run, h]⟩

theorem rm_spec {q i a : Nat} (hq : q < 558) (ha : a < 137) (h : bit (RM q i) a = true) :
    actF q a = .reduce (i + 2) := by
  have hc := allBelow_spec 558 _ rm_checked q hq
  rw [Bool.and_eq_true] at hc
  have key : ∀ j, rmOk q j = true → f16 PRED (2 * q + j) = i + 2 →
      bit ((PRMM >>> (144 * f16 PRMI (2 * q + j))) % 2 ^ 144) a = true → actF q a = .reduce (i + 2) := by
    intro j h1 h2 h3
    unfold rmOk at h1
    rw [Bool.or_eq_true, beq_iff] at h1
    rcases h1 with h1 | h1
    · omega
    · have := allBelow_spec 137 _ h1 a ha
      rw [h3] at this
      simp only [Bool.not_true, Bool.false_or] at this
      split at this
      · rename_i r hr
        rw [hr, beq_iff.mp this, h2]
      · exact absurd this (by decide)
  unfold RM at h
  cases h1 : Nat.beq (f16 PRED (2 * q)) (i + 2) with
  | true =>
    rw [h1, cond_true] at h
    exact key 0 hc.1 (beq_iff.mp h1) h
  | false =>
    rw [h1, cond_false] at h
    cases h2 : Nat.beq (f16 PRED (2 * q + 1)) (i + 2) with
    | true =>
      rw [h2, cond_true] at h
      exact key 1 hc.2 (beq_iff.mp h2) h
    | false =>
      rw [h2, cond_false] at h
      simp [bit, Nat.zero_shiftRight] at h

/-- The state after the symbol `x`. -/
def after (s x : Nat) : Nat :=
  if x < 137 then (match actF s x with | .shift q => q | _ => 0) else gotoF s x

/-- What the parser does with the text of a tree. -/
def Parses {α} (d : α) (lim : Nat) (t : Tree α) : Prop :=
  ∀ (σ : List (Nat × Tree α)) (pre rest : List (Nat × α)),
    Path σ → symbols pre = t.tokens → Good (top σ) t (firstToken (symbols rest) 0) →
    (if t.root < 137 then ∃ q, actF (top σ) t.root = .shift q
     else bit (LA (top σ) t.root) (firstToken (symbols rest) 0) = true) →
    σ.length + depth t + 1 < lim →
    Path ((after (top σ) t.root, t) :: σ) ∧
    Reach d lim ⟨σ, pre ++ rest⟩ ⟨(after (top σ) t.root, t) :: σ, rest⟩

theorem symbols_append {α} (a b : List (Nat × α)) : symbols (a ++ b) = symbols a ++ symbols b := by simp [symbols]

theorem symbols_split {α} {pre : List (Nat × α)} {x y : List (Nat × α)} (h : symbols pre = x ++ y) :
    ∃ p q, pre = p ++ q ∧ symbols p = x ∧ symbols q = y := by
  refine ⟨pre.take x.length, pre.drop x.length, by simp, ?_, ?_⟩
  · have := congrArg (List.take x.length) h
    simpa [symbols, List.map_take] using this
  · have := congrArg (List.drop x.length) h
    simpa [symbols, List.map_drop] using this

theorem parses_leaf {α} (d : α) (lim : Nat) (x : Nat) (v : α) : Parses d lim (leaf x v) := by
  intro σ pre rest hp hpre hg hsh hd
  have hder := hg.der
  simp only [derivation, isToken, Bool.and_eq_true, decide_eq_true_eq] at hder
  have h4 : T.RPAREN = 136 := rfl
  have h3 : T.CLASS = 3 := rfl
  have hx : x < 137 := by omega
  obtain ⟨q, hq⟩ : ∃ q, actF (top σ) x = .shift q := by
    rw [if_pos (show (leaf x v).root < 137 from hx)] at hsh
    exact hsh
  simp only [root]
  have haft : after (top σ) x = q := by unfold after; rw [if_pos hx, hq]
  rw [haft]
  cases pre with
  | nil => simp [symbols, tokens] at hpre
  | cons t pre =>
    simp only [symbols, tokens, List.map_cons, List.cons.injEq, List.map_eq_nil_iff, Prod.mk.injEq] at hpre
    obtain ⟨⟨e1, e2⟩, e3⟩ := hpre
    subst e3
    obtain ⟨hs, h17⟩ := hp.top_lt
    rcases shift_edge hs h17 hx hq with ⟨e, _, _⟩ | ⟨_, hedge⟩
    · omega
    · refine ⟨⟨hedge, hp⟩, Reach.step ?_⟩
      simp only [List.cons_append, List.nil_append]
      rw [step_shift d lim σ t rest q hp (by rw [e1]; exact hq)]
      simp only [depth] at hd
      unfold push
      rw [if_neg (by omega), if_neg (show ¬ q = YYFINAL from hedge.ne17), e1, e2]

theorem keep_287 : (allBelow 287 fun i => !bit (KEEP i) 287) = true := by decide +kernel

theorem no_bad {i : Nat} : bit 0 i = false := by rw [bit_eq]; simp

/-- The parts of a rule one after the other. -/
theorem parses_list {α} (d : α) (lim : Nat) (s i a : Nat) (all : List (Tree α)) (hall : Good s (node i all) a)
    (ha : bit (LA s (ruleAt i).lhs) a = true) :
    ∀ (cs dn : List (Tree α)) (q prev : Nat) (σ : List (Nat × Tree α)) (pre rest : List (Nat × α)),
      (∀ c ∈ cs, Parses d lim c) → all = dn ++ cs → (dn = [] → q = s) → Path σ → top σ = q →
      a = firstToken (symbols rest) 0 → symbols pre = tokensL cs →
      walk s i (ruleAt i) dn.length q prev (cs.map root) = true →
      derivationL cs = true → endsRightL cs a = true → groupedL cs = true → afterAt cs = true →
      (∀ c ds, cs = c :: ds → prev = T.AT → ∀ u ∈ c.beginnings, isBraced u = false) →
      (∀ c, cs.getLast? = some c → (ruleAt i).endsOpen = true → keepsOperand (ruleAt i) c = true) →
      σ.length + depthL cs + 1 < lim →
      ∃ es : List (Nat × Tree α), es.map Prod.snd = cs ∧ Path (es.reverse ++ σ) ∧
        Reach d lim ⟨σ, pre ++ rest⟩ ⟨es.reverse ++ σ, rest⟩ ∧
        sub (LA s (ruleAt i).lhs) (RM (top (es.reverse ++ σ)) i ||| LOSE i ||| rootEx s (ruleAt i)) = true
  | [], dn, q, prev, σ, pre, rest, _, _, _, hp, hq, _, hpre, hw, _, _, _, _, _, _, _ => by
    rw [List.map_nil, walk] at hw
    have : pre = [] := by simpa [symbols, tokensL] using hpre
    subst this
    exact ⟨[], rfl, hp, Reach.refl _ _ _, by simpa [hq] using hw⟩
  | c :: cs, dn, q, prev, σ, pre, rest, hps, hdn, hs0, hp, hq, har, hpre, hw, hd, he, hg, hat, hprev, hlast, hdep => by
    rw [tokensL] at hpre
    obtain ⟨p1', p2', e1, e2, e3⟩ := symbols_split hpre
    subst e1
    rw [derivationL, Bool.and_eq_true] at hd
    rw [endsRightL, Bool.and_eq_true] at he
    rw [groupedL, Bool.and_eq_true] at hg
    rw [List.map_cons, walk] at hw
    obtain ⟨hql, hq17⟩ := hp.top_lt
    rw [hq] at hql hq17
    have hnext : firstToken (symbols (p2' ++ rest)) 0 = firstToken (tokensL cs) a := by
      rw [symbols_append, firstToken_append, e3, har]
    rw [depthL] at hdep
    have hi := (derivation_node hall.der).1
    have hroots := (derivation_node hall.der).2.1
    -- what remains after this part
    have cont : Good q c (firstToken (tokensL cs) a) →
        (if c.root < 137 then ∃ q', actF q c.root = .shift q' else bit (LA q c.root) (firstToken (tokensL cs) a) = true) →
        walk s i (ruleAt i) (dn.length + 1) (after q c.root) c.root (cs.map root) = true →
        ∃ es : List (Nat × Tree α), es.map Prod.snd = c :: cs ∧ Path (es.reverse ++ σ) ∧
        Reach d lim ⟨σ, p1' ++ p2' ++ rest⟩ ⟨es.reverse ++ σ, rest⟩ ∧
        sub (LA s (ruleAt i).lhs) (RM (top (es.reverse ++ σ)) i ||| LOSE i ||| rootEx s (ruleAt i)) = true := by
      intro hgood hcan hw'
      obtain ⟨k1, k2⟩ := hps c (by simp) σ p1' (p2' ++ rest) hp e2 (by rw [hq, hnext]; exact hgood)
        (by rw [hq, hnext]; exact hcan) (by omega)
      rw [hq] at k1 k2
      obtain ⟨es, m1, m2, m3, m4⟩ := parses_list d lim s i a all hall ha cs (dn ++ [c]) (after q c.root) c.root
        ((after q c.root, c) :: σ) p2' rest (fun c' h' => hps c' (by simp [h'])) (by rw [hdn]; simp) (by simp) k1 rfl har e3
        (by simpa using hw') hd.2 he.2 hg.2
        (by cases cs with
            | nil => simp [afterAt]
            | cons x xs => rw [afterAt, Bool.and_eq_true] at hat; exact hat.2)
        (by
          intro x xs hx hc u hu
          subst hx
          rw [afterAt, hc, Bool.and_eq_true] at hat
          have := hat.1
          simp only [beq_self_eq_true, Bool.not_true, Bool.false_or] at this
          have := List.all_eq_true.mp this u hu
          simpa using this)
        (by
          intro x hx
          refine hlast x ?_
          cases cs with
          | nil => simp at hx
          | cons y ys => rw [List.getLast?_cons_cons]; exact hx)
        (by simp only [List.length_cons]; omega)
      refine ⟨(after q c.root, c) :: es, by rw [List.map_cons, m1], ?_, ?_, ?_⟩
      · simpa using m2
      · rw [List.append_assoc]
        have := k2.trans m3
        simpa using this
      · simpa using m4
    cases hx : Nat.ble c.root 136 with
    | true =>
      rw [hx, cond_true] at hw
      have hlt : c.root < 137 := by have := Nat.le_of_ble_eq_true hx; omega
      obtain ⟨v, hv⟩ := leaf_of_root hd.1 hlt
      have htok : isToken c.root = true := by
        have := hd.1
        rw [hv] at this
        simpa [derivation] using this
      split at hw
      · rename_i q' hq'
        refine cont (by rw [hv]; exact good_leaf _ _ _ _ htok) (by rw [if_pos hlt]; exact ⟨q', hq'⟩) ?_
        unfold after
        rw [if_pos hlt, hq']
        exact hw
      · rw [Bool.and_eq_true] at hw
        have := (hall.spine _ (mem_beginnings _)).1 i rfl
        rw [this] at hw
        exact absurd hw.2 (by decide)
    | false =>
      rw [hx, cond_false] at hw
      have hge : ¬ c.root < 137 := by
        intro h
        have : Nat.ble c.root 136 = true := Nat.ble_eq.mpr (by omega)
        rw [this] at hx
        exact absurd hx (by decide)
      simp only [Bool.and_eq_true] at hw
      obtain ⟨⟨⟨⟨w1, w2⟩, w3⟩, w4⟩, w5⟩ := hw
      have hla := sub_bit w3 (first_next cs hd.2 _ _ ha)
      have haft : after q c.root = gotoF q c.root := by unfold after; rw [if_neg hge]
      refine cont ?_ (by rw [if_neg hge]; exact hla) (by rw [haft]; exact w5)
      -- the part is allowed here
      cases hdl : dn with
      | nil =>
        rw [hdl] at w4
        have hqs := hs0 hdl
        subst hqs
        simp only [List.length_nil] at w4
        rw [show Nat.beq 0 0 = true from rfl, cond_true] at w4
        unfold child0Ok at w4
        simp only [Bool.and_eq_true] at w4
        refine ⟨hd.1, he.1, hg.1, ?_, ?_, ?_⟩
        · intro u hu
          refine hall.spine u ?_
          rw [beginnings_node, hdn, hdl]
          simp [hu]
        · intro h1 _ r hr hh
          have := w4.1
          rw [h1, rule_root hr, hh.1] at this
          exact absurd this (by decide)
        · intro h2 hb r hr hh
          have := w4.2
          rw [h2, rule_root hr, hh.1] at this
          simp only [Bool.not_true, Bool.false_or, Nat.beq_refl] at this
          cases hcs : cs with
          | nil => rw [hcs] at this; simp at this
          | cons y ys =>
            rw [hcs] at this hd
            simp only [List.map_cons, Bool.and_eq_true, bnot_beq] at this
            rw [derivationL, Bool.and_eq_true] at hd
            obtain ⟨v, hv⟩ := leaf_of_root hd.2.1 (by have := Nat.le_of_ble_eq_true this.1; omega)
            rw [hcs, tokensL, hv] at hb
            simp only [tokens, List.cons_append, firstToken] at hb
            exact this.2 hb
      | cons x xs =>
        have hk : Nat.beq dn.length 0 = false := by
          rw [hdl]; rfl
        rw [hk, cond_false] at w4
        unfold childOk at w4
        simp only [Bool.and_eq_true] at w4
        obtain ⟨⟨⟨⟨v1, v2⟩, v3⟩, v4⟩, v5⟩ := w4
        -- a rule of three parts of which this is the second
        have three : ∀ {y z w : Nat}, (ruleAt i).rhs = [y, z, w] → Nat.beq dn.length 1 = true →
            ∃ A B, all = [A, c, B] := by
          intro y z w hrhs hl
          have hl := beq_iff.mp hl
          rw [hrhs, hdn] at hroots
          rw [hdl] at hl hroots hdn
          simp only [List.length_cons] at hl
          have : xs = [] := List.length_eq_zero_iff.mp (by omega)
          subst this
          cases hcs : cs with
          | nil => rw [hcs] at hroots; simp at hroots
          | cons B ys =>
            rw [hcs] at hroots
            have : ys = [] := by
              simp only [List.cons_append, List.nil_append, List.map_cons, List.cons.injEq, List.map_eq_nil_iff] at hroots
              exact hroots.2.2.2
            subst this
            exact ⟨x, B, by rw [hdn, hcs]; rfl⟩
        refine ⟨hd.1, he.1, hg.1, ?_, ?_, ?_⟩
        · intro u hu
          refine ⟨?_, ?_, ?_⟩
          · intro r hr
            cases hb : bit (BAD q) r with
            | false => rfl
            | true =>
              exfalso
              have hb := sub_bit v1 hb
              cases hc2 : ((List.map root cs).isEmpty && (ruleAt i).endsOpen) with
              | false =>
                rw [hc2, cond_false, no_bad] at hb
                exact absurd hb (by decide)
              | true =>
                rw [hc2, cond_true] at hb
                rw [Bool.and_eq_true] at hc2
                have hcs : cs = [] := by simpa using hc2.1
                have hkeep := hlast c (by rw [hcs]; rfl) hc2.2
                unfold keepsOperand at hkeep
                have hkeep := List.all_eq_true.mp hkeep u hu
                rw [hr] at hkeep
                by_cases hrl : r < grammar.length
                · obtain ⟨t, ht, ht2⟩ := (keep_spec hi hrl).mp hb
                  simp only [ht, ht2] at hkeep
                  exact absurd hkeep (by decide)
                · have hlt : r < 288 := by
                    apply Decidable.byContradiction
                    intro hn
                    rw [bit_eq] at hb
                    unfold KEEP at hb
                    rw [Nat.testBit_mod_two_pow] at hb
                    simp [hn] at hb
                  have : r = 287 := by rw [grammar_length] at hrl; omega
                  subst this
                  have := allBelow_spec 287 _ keep_287 i (by rw [grammar_length] at hi; exact hi)
                  rw [hb] at this
                  exact absurd this (by decide)
          · intro h1
            cases hb : isEmptyBlock u with
            | false => rfl
            | true =>
              have := begin_block c hd.1 hg.1 u hu hb
              rw [h1, this] at v2
              exact absurd v2 (by decide)
          · intro h2
            rw [h2] at v3
            simp only [Bool.not_true, Bool.false_or, beq_iff] at v3
            exact hprev c cs rfl v3 u hu
        · intro h1 _ r hr hh
          rw [h1, rule_root hr, hh.1] at v4
          simp only [Bool.not_true, Nat.beq_refl, Bool.false_or, Bool.and_eq_true] at v4
          obtain ⟨⟨f1, f2⟩, f3⟩ := v4
          have hl := beq_iff.mp f3
          obtain ⟨A, B, hAB⟩ := three (block_rhs i hi hl) f1
          have := (hall.spine _ (mem_beginnings _)).2.1 f2
          rw [hAB] at this
          replace this : ((ruleAt i).lhs == N.block &&
            (match c.rule? with | some q => (ruleAt q).rhs == [] | none => false)) = false := this
          rw [hl, hr] at this
          simp [hh.2] at this
        · intro h1 _ r hr hh
          rw [h1, rule_root hr, hh.1] at v5
          simp only [Bool.not_true, Nat.beq_refl, Bool.false_or, Bool.and_eq_true, beq_iff_eq] at v5
          obtain ⟨⟨⟨f1, f2⟩, f3⟩, f4⟩ := v5
          have hl := beq_iff.mp f3
          obtain ⟨A, B, hAB⟩ := three f4 f1
          have := (hall.spine _ (mem_beginnings _)).2.2 f2
          rw [hAB] at this
          replace this : ((ruleAt i).lhs == N.array_init && (ruleAt i).rhs == [T.LBRACE, N.operators, T.RBRACE] &&
            (match c.rule? with | some q => (ruleAt q).rhs == [N.«operator»] | none => false)) = false := this
          rw [hl, hr, f4] at this
          simp [hh.2] at this

theorem parses_node {α} (d : α) (lim : Nat) (i : Nat) (cs : List (Tree α)) (ih : ∀ c ∈ cs, Parses d lim c) :
    Parses d lim (node i cs) := by
  intro σ pre rest hp hpre hg hcan hdep
  obtain ⟨hi, hroots, hder⟩ := derivation_node hg.der
  have hlhs := rule_lhs i hi
  obtain ⟨hs, h17⟩ := hp.top_lt
  have haft : after (top σ) (node i cs).root = gotoF (top σ) (ruleAt i).lhs := by
    unfold after
    rw [if_neg (show ¬ (node i cs).root < 137 by simp only [root]; omega)]
    rfl
  have hla : bit (LA (top σ) (ruleAt i).lhs) (firstToken (symbols rest) 0) = true := by
    rw [if_neg (show ¬ (node i cs).root < 137 by simp only [root]; omega)] at hcan
    exact hcan
  have hw : walk (top σ) i (ruleAt i) 0 (top σ) 0 (cs.map root) = true := by
    have := allIdx_spec walksOk grammar 0 walks_checked i _ (rule_get i hi)
    unfold walksOk at this
    have := allBelow_spec 558 _ this (top σ) hs
    rw [Bool.or_eq_true, beq_iff, Nat.zero_add] at this
    rcases this with h | h
    · rw [h, no_bad] at hla; exact absurd hla (by decide)
    · rw [hroots]; exact h
  have hends := hg.ends
  rw [endsRight] at hends
  simp only [Bool.and_eq_true, Bool.not_eq_true'] at hends
  have hgrp := hg.grp
  rw [grouped] at hgrp
  simp only [Bool.and_eq_true] at hgrp
  rw [depth] at hdep
  obtain ⟨es, m1, m2, m3, m4⟩ := parses_list d lim (top σ) i _ cs hg hla cs [] (top σ) 0 σ pre rest ih rfl
    (fun _ => rfl) hp rfl rfl (by simpa [tokens] using hpre) hw hder hends.2 hgrp.2 hgrp.1.2
    (by intro _ _ _ h; exact absurd h (by decide))
    (by
      intro c hc ho
      have := hgrp.1.1.1
      rw [ho, hc] at this
      simpa using this)
    (by omega)
  obtain ⟨hql, hq17⟩ := m2.top_lt
  have hact : actF (top (es.reverse ++ σ)) (firstToken (symbols rest) 0) = .reduce (i + 2) := by
    have := sub_bit m4 hla
    rw [bit_or, bit_or, Bool.or_eq_true, Bool.or_eq_true] at this
    rcases this with (h | h) | h
    · exact rm_spec hql (next_lt rest) h
    · rw [← lose_spec hi (next_lt rest), hends.1.1, hends.1.2] at h
      exact absurd h (by decide)
    · exfalso
      unfold rootEx at h
      cases hc : ((r1 (top σ) && Nat.beq (ruleAt i).lhs N.opt_statements && (ruleAt i).rhs.isEmpty) ||
          (r2 (top σ) && Nat.beq (ruleAt i).lhs N.operators && ((ruleAt i).rhs == [N.«operator»]))) with
      | false => rw [hc, cond_false, no_bad] at h; exact absurd h (by decide)
      | true =>
        rw [hc, cond_true, bit_eq, Nat.testBit_shiftLeft, Bool.and_eq_true, decide_eq_true_eq] at h
        have hb : firstToken (symbols rest) 0 = T.RBRACE := by
          have h2 := h.2
          cases hk : firstToken (symbols rest) 0 - T.RBRACE with
          | zero => have := h.1; omega
          | succ k => rw [hk, Nat.testBit_succ] at h2; simp at h2
        simp only [Bool.or_eq_true, Bool.and_eq_true, beq_iff, beq_iff_eq, List.isEmpty_iff] at hc
        rcases hc with ⟨⟨h1, h2⟩, h3⟩ | ⟨⟨h1, h2⟩, h3⟩
        · exact hg.one h1 hb i rfl ⟨h2, h3⟩
        · exact hg.two h1 hb i rfl ⟨h2, h3⟩
  have hlen : es.length = (ruleAt i).rhs.length := by
    rw [← hroots, ← m1]; simp
  have hred := red_of_act _ _ _ hql hq17 (next_lt rest) hact
  have hpop := popped m2 hred
  have hst := step_reduce d lim (es.reverse ++ σ) rest (i + 2) m2 hact
  have hback := hpop.back
  rw [Nat.add_sub_cancel, ← hlen] at hst hback
  have hdrop : (es.reverse ++ σ).drop es.length = σ := by
    exact List.drop_left' (by simp)
  have htake : (es.reverse ++ σ).take es.length = es.reverse := by
    exact List.take_left' (by simp)
  rw [hdrop, htake] at hst
  rw [hdrop] at hback
  obtain ⟨hedge, _⟩ := goto_edge hs hlhs hback
  rw [haft]
  refine ⟨⟨hedge, hp⟩, m3.trans (Reach.step ?_)⟩
  rw [hst]
  unfold push
  rw [if_neg (by omega), if_neg (show ¬ _ = YYFINAL from hedge.ne17), ← m1]
  simp

theorem parses {α} (d : α) (lim : Nat) (t : Tree α) : Parses d lim t := by
  induction t using tree_ind with
  | hl s v => exact parses_leaf d lim s v
  | hn r cs ih => exact parses_node d lim r cs ih

theorem start_checked : bit (LA 0 N.grammar) 0 = true ∧ BAD 0 = 0 ∧ p1 0 = false ∧ p2 0 = false ∧ r1 0 = false ∧
    r2 0 = false ∧ actF (gotoF 0 N.grammar) 0 = .shift 17 := by decide +kernel

theorem run_fuel {α} (d : α) (lim : Nat) : ∀ (n m : Nat) (c : Conf α) (_ : run d lim n c ≠ .ub),
    run d lim (n + m) c = run d lim n c
  | 0, _, _, h => absurd rfl h
  | n + 1, m, c, h => by
    rw [show n + 1 + m = n + m + 1 by omega, run, run]
    rw [run] at h
    cases hst : step d lim c with
    | done r => rfl
    | next c' =>
      rw [hst] at h
      exact run_fuel d lim n m c' h

/-- The whole parse, on symbols. -/
theorem yyparse_complete {α} (d : α) (lim : Nat) (inp : List (Nat × α)) (t : Tree α) (h : t.ParseOf (symbols inp))
    (hd : depth t + 1 < lim) (hl : 3 < lim) (hz : ∀ t ∈ inp, symOf t.1 ≠ 0) : yyparse d lim inp = .accept t := by
  obtain ⟨c1, c2, c3, c4, c5, c6, c7⟩ := start_checked
  have hgood : Good (top ([] : List (Nat × Tree α))) t (firstToken (symbols ([] : List (Nat × α))) 0) := by
    refine ⟨h.derives, h.ends, h.groups, ?_, ?_, ?_⟩
    · intro u _
      simp only [top]
      rw [c2, c3, c4]
      exact ⟨fun _ _ => no_bad, by simp, by simp⟩
    · intro h1; simp only [top] at h1; rw [c5] at h1; exact absurd h1 (by decide)
    · intro h1; simp only [top] at h1; rw [c6] at h1; exact absurd h1 (by decide)
  have hroot : ¬ t.root < 137 := by rw [h.start]; decide
  obtain ⟨hp, n, hn⟩ := parses d lim t [] inp [] trivial h.reads.symm hgood
    (by rw [if_neg hroot, h.start]; exact c1) (by simpa using hd)
  have haft : after (top ([] : List (Nat × Tree α))) t.root = gotoF 0 N.grammar := by
    unfold after
    rw [if_neg hroot, h.start]
    rfl
  rw [haft] at hp hn
  have hlast : run d lim (1 + n) ⟨[], inp⟩ = .accept t := by
    have := hn 1
    rw [List.append_nil] at this
    rw [this, run, step_end d lim _ 17 hp c7]
    unfold push
    rw [if_neg (by simp only [List.length_cons, List.length_nil]; omega), if_pos (show 17 = YYFINAL from rfl)]
  have hspec := run_spec d lim (12 * (inp.length + 2)) [] inp trivial trivial hz (by
    have := phi_le (show 0 < 558 by omega)
    simp only [measure, List.length_nil, top]
    omega)
  unfold yyparse
  have e1 := run_fuel d lim (12 * (inp.length + 2)) (1 + n) ⟨[], inp⟩ hspec.1
  have e2 := run_fuel d lim (1 + n) (12 * (inp.length + 2)) ⟨[], inp⟩ (by rw [hlast]; simp)
  rw [← e1, Nat.add_comm, e2, hlast]

end SPVM.Parse
