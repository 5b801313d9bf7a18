import Verif.Lemmas.ParseTop

/-
C68: the parser finds exactly the parse tree the documentation describes.

`yyparse` (Verif.Model.Parse) is the loop of the generated parser over its
tables; `Tree.ParseOf` (Verif.Spec.Parse) is the documented grammar together
with the documented precedence.  Tokens are given to the parser by their codes
(Verif.Spec.ParseCode).  α is whatever a token carries.
-/

namespace SPVM.Parse

open Tree

/-! ### Every text -/

/-- A text of tokens is accepted with a tree exactly if the documentation
describes that tree for it, and reading it needs fewer than 9999 symbols at
once. -/
theorem parse_iff_partial {α} (d : α) (text : List (Nat × α)) (t : Tree α) (h : ∀ x ∈ text, isToken x.1 = true) :
    yyparse d YYMAXDEPTH (encode text) = .accept t ↔ t.ParseOf text ∧ t.depth < 9999 := by
  have hm : YYMAXDEPTH = 10000 := rfl
  have hz := encode_nonzero text h
  constructor
  · intro ha
    obtain ⟨h1, h2, _⟩ := (yyparse_spec d YYMAXDEPTH (encode text) hz).2.2 t ha
    rw [symbols_encode text h] at h1
    exact ⟨h1, by omega⟩
  · intro ⟨h1, h2⟩
    refine yyparse_complete d YYMAXDEPTH (encode text) t ?_ (by omega) (by omega) hz
    rw [symbols_encode text h]
    exact h1

/-- A text that has a tree is accepted with it or, if reading the tree needs too
many symbols at once, refused for exhaustion: never taken for a wrong text. -/
theorem described_text {α} (d : α) (text : List (Nat × α)) (t : Tree α) (h : t.ParseOf text) :
    yyparse d YYMAXDEPTH (encode text) = if t.depth < 9999 then .accept t else .exhausted := by
  have ht : ∀ x ∈ text, isToken x.1 = true := by rw [← h.reads]; exact tokens_are_tokens t h.derives
  have hm : YYMAXDEPTH = 10000 := rfl
  have hz := encode_nonzero text ht
  by_cases hd : t.depth < 9999
  · rw [if_pos hd]
    exact (parse_iff_partial d text t ht).mpr ⟨h, hd⟩
  · rw [if_neg hd]
    apply Classical.byContradiction
    intro hne
    -- with a larger limit nothing else changes
    have hbig : yyparse d (t.depth + 10000) (encode text) = .accept t :=
      yyparse_complete d _ (encode text) t (by rw [symbols_encode text ht]; exact h) (by omega) (by omega) hz
    have := run_mono d (show YYMAXDEPTH ≤ t.depth + 10000 by omega) (12 * ((encode text).length + 2)) ⟨[], encode text⟩ hne
    unfold yyparse at hbig hne
    rw [this] at hbig
    have := (parse_iff_partial d text t ht).mp hbig
    exact hd this.2

/-- The documentation describes at most one tree for a text.  (`d` only says
that there is something a token can carry.) -/
theorem unambiguous {α} (d : α) (text : List (Nat × α)) (t u : Tree α) (ht : t.ParseOf text) (hu : u.ParseOf text) :
    t = u := by
  have hT : ∀ y ∈ text, isToken y.1 = true := by rw [← ht.reads]; exact tokens_are_tokens t ht.derives
  have hz := encode_nonzero text hT
  have h1 := yyparse_complete d (t.depth + u.depth + 10) (encode text) t
    (by rw [symbols_encode _ hT]; exact ht) (by omega) (by omega) hz
  have h2 := yyparse_complete d (t.depth + u.depth + 10) (encode text) u
    (by rw [symbols_encode _ hT]; exact hu) (by omega) (by omega) hz
  rw [h1] at h2
  exact Result.accept.inj h2

/-- The parser always comes to an end, and never looks outside of its tables or
takes more from its stack than is there, whatever the codes are (0 stands for
the end of the text and does not occur in it). -/
theorem parse_ends {α} (d : α) (input : List (Nat × α)) (h : ∀ x ∈ input, x.1 ≠ 0) :
    yyparse d YYMAXDEPTH input ≠ .ub :=
  (yyparse_spec d YYMAXDEPTH input (fun t ht => sym_nonzero (h t ht))).1

/-- Up to 2497 tokens the limit does not matter: the text is accepted if the
documentation describes a tree for it, and is a syntax error otherwise. -/
theorem short_text {α} (d : α) (text : List (Nat × α)) (h : ∀ x ∈ text, isToken x.1 = true) (hl : text.length ≤ 2497) :
    (∃ t, t.ParseOf text ∧ yyparse d YYMAXDEPTH (encode text) = .accept t) ∨
    ((¬ ∃ t : Tree α, t.ParseOf text) ∧ yyparse d YYMAXDEPTH (encode text) = .syntaxError) := by
  have hm : YYMAXDEPTH = 10000 := rfl
  have hz := encode_nonzero text h
  obtain ⟨h1, h2, h3⟩ := yyparse_spec d YYMAXDEPTH (encode text) hz
  have hlen : (encode text).length = text.length := by simp [encode]
  cases hr : yyparse d YYMAXDEPTH (encode text) with
  | ub => exact absurd hr h1
  | exhausted => have := h2 hr; omega
  | accept t => exact Or.inl ⟨t, ((parse_iff_partial d text t h).mp hr).1, rfl⟩
  | syntaxError =>
    refine Or.inr ⟨?_, rfl⟩
    intro ⟨t, ht⟩
    have := described_text d text t ht
    rw [hr] at this
    split at this <;> exact absurd this (by simp)

/-- A text with a code that is none of a token of the language is refused. -/
theorem unknown_code {α} (d : α) (input : List (Nat × α)) (h : ∀ x ∈ input, x.1 ≠ 0) (y : Nat × α) (hy : y ∈ input)
    (hu : ∀ x, isToken x = true → code x ≠ y.1) :
    yyparse d YYMAXDEPTH input = .syntaxError ∨ yyparse d YYMAXDEPTH input = .exhausted := by
  obtain ⟨h1, _, h3⟩ := yyparse_spec d YYMAXDEPTH input (fun t ht => sym_nonzero (h t ht))
  cases hr : yyparse d YYMAXDEPTH input with
  | ub => exact absurd hr h1
  | exhausted => exact Or.inr rfl
  | syntaxError => exact Or.inl rfl
  | accept t =>
    exfalso
    have hp := (h3 t hr).1
    have hm : (symOf y.1, y.2) ∈ symbols input := List.mem_map.mpr ⟨y, hy, rfl⟩
    rw [← hp.reads] at hm
    have := tokens_are_tokens t hp.derives _ hm
    rw [sym_unknown hu] at this
    exact absurd this (by decide)

/-! ### Concrete texts -/

/-- `class A { INIT { … ; } }` around the tokens of an expression. -/
def around (l : List (Nat × Unit)) : List (Nat × Unit) :=
  [(T.CLASS, ()), (T.SYMBOL_NAME, ()), (T.LBRACE, ()), (T.INIT, ()), (T.LBRACE, ())] ++ l ++
  [(T.SEMICOLON, ()), (T.RBRACE, ()), (T.RBRACE, ()), (T.END_OF_FILE, ())]

/-- Its tree around the tree of the expression. -/
def aroundClass (c : Tree Unit) : Tree Unit :=
  node 34 [leaf T.CLASS (), node 39 [node 9 [leaf T.SYMBOL_NAME ()]], node 40 [],
    node 42 [leaf T.LBRACE (), node 44 [node 46 [node 52 [node 57 [leaf T.INIT (),
      node 158 [leaf T.LBRACE (), node 101 [node 103 [node 119 [c, leaf T.SEMICOLON ()]]], leaf T.RBRACE ()]]]]],
      leaf T.RBRACE ()], leaf T.END_OF_FILE ()]
def aroundTree (c : Tree Unit) : Tree Unit := node 0 [node 31 [node 33 [aroundClass c]]]

theorem root_leaf {α} (s : Nat) (v : α) : (leaf s v).root = s := rfl
theorem root_node {α} (r : Nat) (cs : List (Tree α)) : (node r cs).root = (ruleAt r).lhs := rfl

theorem afterAt_plain {α} : ∀ (cs : List (Tree α)) (_ : T.AT ∉ cs.map root), afterAt cs = true
  | [], _ => by simp [afterAt]
  | [c], _ => by simp [afterAt]
  | c :: e :: cs, h => by
    rw [List.map_cons, List.mem_cons, not_or] at h
    rw [afterAt, afterAt_plain (e :: cs) h.2]
    have : (c.root == T.AT) = false := by
      rw [beq_eq_false_iff_ne]
      exact fun hh => h.1 hh.symm
    rw [this]
    rfl

theorem grouped_plain {α} {r : Nat} {cs : List (Tree α)}
    (h1 : (!(ruleAt r).endsOpen && !((ruleAt r).lhs == N.statement)) = true)
    (h2 : (!(cs.map root).contains T.AT) = true) (h3 : groupedL cs = true) : (node r cs).grouped = true := by
  simp only [Bool.and_eq_true, Bool.not_eq_true'] at h1
  rw [grouped, afterAt_plain _ (by simpa using h2), h1.1, h1.2, h3]
  rfl

theorem around_parse (c : Tree Unit) (h1 : c.root = N.«operator») (h2 : c.derivation = true)
    (h3 : c.endsRight T.SEMICOLON = true) (h4 : c.grouped = true) : (aroundTree c).ParseOf (around c.tokens) := by
  have hb : isEmptyBlock c = false := by
    cases hb : isEmptyBlock c with
    | false => rfl
    | true =>
      obtain ⟨r, a, c', b, q, e1, e2, _, _⟩ := isEmptyBlock_spec hb
      rw [e1] at h1
      simp only [root] at h1
      rw [e2] at h1
      exact absurd h1 (by decide)
  have hder : (aroundTree c).derivation = true := by
    simp only [aroundTree, aroundClass, derivation, derivationL, List.map_cons, List.map_nil, root_leaf, root_node, h1, h2]
    decide +kernel
  refine ⟨show (ruleAt 0).lhs = N.grammar by decide +kernel, hder, ?_, ?_, ?_⟩
  · simp [aroundTree, aroundClass, around, tokens, tokensL]
  · simp [aroundTree, aroundClass, endsRight, endsRightL, h3, tokens, tokensL, firstToken]
    decide +kernel
  · have gl : ∀ x, (leaf x () : Tree Unit).grouped = true := fun x => by simp [grouped]
    have g39 : (node 39 [node 9 [leaf T.SYMBOL_NAME ()]] : Tree Unit).grouped = true := by decide +kernel
    have g40 : (node 40 [] : Tree Unit).grouped = true := by decide +kernel
    have g119 : (node 119 [c, leaf T.SEMICOLON ()]).grouped = true := by
      rw [grouped, afterAt_plain _ (by simp only [List.map_cons, List.map_nil, root_leaf, h1]; decide)]
      simp only [groupedL, gl, h4, List.all_cons, hb, List.all_nil]
      rw [show (ruleAt 119).endsOpen = false by decide +kernel]
      simp [isEmptyBlock]
    have one : ∀ (r : Nat) (t : Tree Unit), (!(ruleAt r).endsOpen && !((ruleAt r).lhs == N.statement)) = true →
        (!(t.root == T.AT)) = true → t.grouped = true → (node r [t]).grouped = true := by
      intro r t k1 k2 k3
      simp only [Bool.not_eq_true', beq_eq_false_iff_ne] at k2
      refine grouped_plain k1 ?_ (by simp [groupedL, k3])
      simpa using fun hh => k2 hh.symm
    have three : ∀ (r x y : Nat) (t : Tree Unit), (!(ruleAt r).endsOpen && !((ruleAt r).lhs == N.statement)) = true →
        (!(t.root == T.AT)) = true → x ≠ T.AT → y ≠ T.AT → t.grouped = true →
        (node r [leaf x (), t, leaf y ()]).grouped = true := by
      intro r x y t k1 k2 k3 k4 k5
      simp only [Bool.not_eq_true', beq_eq_false_iff_ne] at k2
      refine grouped_plain k1 ?_ (by simp [groupedL, k5, gl])
      simpa [root_leaf] using ⟨fun hh => k3 hh.symm, fun hh => k2 hh.symm, fun hh => k4 hh.symm⟩
    have g103 := one 103 _ (by decide +kernel) (by rw [root_node]; decide +kernel) g119
    have g101 := one 101 _ (by decide +kernel) (by rw [root_node]; decide +kernel) g103
    have g158 := three 158 T.LBRACE T.RBRACE _ (by decide +kernel) (by rw [root_node]; decide +kernel)
      (by decide) (by decide) g101
    have two : ∀ (r x : Nat) (t : Tree Unit), (!(ruleAt r).endsOpen && !((ruleAt r).lhs == N.statement)) = true →
        (!(t.root == T.AT)) = true → x ≠ T.AT → t.grouped = true → (node r [leaf x (), t]).grouped = true := by
      intro r x t k1 k2 k3 k5
      simp only [Bool.not_eq_true', beq_eq_false_iff_ne] at k2
      refine grouped_plain k1 ?_ (by simp [groupedL, k5, gl])
      simpa [root_leaf] using ⟨fun hh => k3 hh.symm, fun hh => k2 hh.symm⟩
    have g57 := two 57 T.INIT _ (by decide +kernel) (by rw [root_node]; decide +kernel) (by decide) g158
    have g52 := one 52 _ (by decide +kernel) (by rw [root_node]; decide +kernel) g57
    have g46 := one 46 _ (by decide +kernel) (by rw [root_node]; decide +kernel) g52
    have g44 := one 44 _ (by decide +kernel) (by rw [root_node]; decide +kernel) g46
    have g42 := three 42 T.LBRACE T.RBRACE _ (by decide +kernel) (by rw [root_node]; decide +kernel)
      (by decide) (by decide) g44
    have g34 : (aroundClass c).grouped = true := by
      unfold aroundClass
      refine grouped_plain (by decide +kernel) ?_ ?_
      · simp only [List.map_cons, List.map_nil, root_node, root_leaf]; decide +kernel
      · simp only [groupedL, gl, g39, g40, Bool.and_true, Bool.true_and]; exact g42
    have g33 := one 33 _ (by decide +kernel) (by unfold aroundClass; rw [root_node]; decide +kernel) g34
    have g31 := one 31 _ (by decide +kernel) (by rw [root_node]; decide +kernel) g33
    exact one 0 _ (by decide +kernel) (by rw [root_node]; decide +kernel) g31

theorem around_depth (c : Tree Unit) : (aroundTree c).depth = max 2 c.depth + 6 := by
  have : 1 ≤ c.depth := by cases c <;> simp only [depth] <;> omega
  simp only [aroundTree, aroundClass, depth, depthL]
  omega

theorem around_tokens (l : List (Nat × Unit)) (h : ∀ x ∈ l, isToken x.1 = true) :
    ∀ x ∈ around l, isToken x.1 = true := by
  intro x hx
  simp only [around, List.mem_append, List.mem_cons, List.not_mem_nil, or_false] at hx
  rcases hx with (hx | hx) | hx
  · rcases hx with rfl | rfl | rfl | rfl | rfl <;> decide
  · exact h x hx
  · rcases hx with rfl | rfl | rfl | rfl <;> decide

/-- The variable `$x`. -/
def aVar : Tree Unit := node 167 [node 162 [leaf T.VAR_NAME ()]]

/-- `$x` followed by `+ $x` and `- $x` in any order, grouped from the left; the
most recent operator is first in the list, `true` stands for `+`. -/
def leftSum : List Bool → Tree Unit
  | [] => aVar
  | plus :: ops => node 180 [node 218 [node (if plus then 223 else 224)
      [leftSum ops, leaf (if plus then T.ADD else T.SUB) (), aVar]]]

theorem leftSum_ok : ∀ (ops : List Bool), (leftSum ops).root = N.«operator» ∧ (leftSum ops).derivation = true ∧
    (leftSum ops).grouped = true ∧ ∀ next, next = T.SEMICOLON ∨ next = T.ADD ∨ next = T.SUB →
    (leftSum ops).endsRight next = true
  | [] => by
    refine ⟨by decide +kernel, by decide +kernel, by decide +kernel, ?_⟩
    intro next h
    rcases h with rfl | rfl | rfl <;> decide +kernel
  | plus :: ops => by
    obtain ⟨h1, h2, h3, h4⟩ := leftSum_ok ops
    have hv : aVar.root = N.«operator» ∧ aVar.derivation = true ∧ aVar.grouped = true := by decide +kernel
    have hve : ∀ next, next = T.SEMICOLON ∨ next = T.ADD ∨ next = T.SUB → aVar.endsRight next = true := by
      intro next h
      rcases h with rfl | rfl | rfl <;> decide +kernel
    have hk : ∀ p : Bool, keepsOperand (ruleAt (if p then 223 else 224)) aVar = true := by decide +kernel
    refine ⟨by rw [leftSum, root_node]; decide +kernel, ?_, ?_, ?_⟩
    · simp only [leftSum, derivation, derivationL, List.map_cons, List.map_nil, root_leaf, root_node, h1, h2, hv.1, hv.2.1]
      cases plus <;> decide +kernel
    · have hin : (node (if plus then 223 else 224)
          [leftSum ops, leaf (if plus then T.ADD else T.SUB) (), aVar]).grouped = true := by
        rw [grouped, afterAt_plain _ (by
          simp only [List.map_cons, List.map_nil, root_leaf, h1, hv.1]; cases plus <;> decide)]
        simp only [groupedL, h3, hv.2.2, grouped, Bool.and_true, List.getLast?_cons_cons, List.getLast?_singleton, hk]
        cases plus <;> simp only [Bool.or_true, Bool.true_and] <;>
          (rw [show ((ruleAt _).lhs == N.statement) = false by decide +kernel]; rfl)
      have hmid : (node 218 [node (if plus then 223 else 224)
          [leftSum ops, leaf (if plus then T.ADD else T.SUB) (), aVar]]).grouped = true := by
        refine grouped_plain (by decide +kernel) ?_ (by rw [groupedL, hin, groupedL]; rfl)
        simp only [List.map_cons, List.map_nil, root_node]
        cases plus <;> decide +kernel
      rw [leftSum]
      refine grouped_plain (by decide +kernel) ?_ (by rw [groupedL, hmid, groupedL]; rfl)
      simp only [List.map_cons, List.map_nil, root_node]
      decide +kernel
    · intro next hn
      have htok : aVar.tokens = [(T.VAR_NAME, ())] := by simp [aVar, tokens, tokensL]
      have hop : (if plus then T.ADD else T.SUB) = T.SEMICOLON ∨ (if plus then T.ADD else T.SUB) = T.ADD ∨
          (if plus then T.ADD else T.SUB) = T.SUB := by cases plus <;> decide
      simp only [leftSum, endsRight, endsRightL, tokensL, tokens, htok, firstToken, List.cons_append, h4 _ hop,
        hve _ hn, Bool.and_true]
      rcases hn with rfl | rfl | rfl <;> cases plus <;> decide +kernel

/-- A sum of any length of variables with `+` and `-` in any order groups from
the left. -/
theorem sums_group_left (ops : List Bool) :
    yyparse () YYMAXDEPTH (encode (around (leftSum ops).tokens)) = .accept (aroundTree (leftSum ops)) := by
  obtain ⟨h1, h2, h3, h4⟩ := leftSum_ok ops
  have hp := around_parse (leftSum ops) h1 h2 (h4 _ (Or.inl rfl)) h3
  rw [described_text () _ _ hp, if_pos]
  rw [around_depth]
  have : ∀ ops, (leftSum ops).depth ≤ 3 := by
    intro ops
    induction ops with
    | nil => decide
    | cons p ops ih =>
      simp only [leftSum, depth, depthL]
      have : aVar.depth = 1 := by decide
      omega
  have := this ops
  omega

example : (leftSum [false, true]).tokens =
    [(T.VAR_NAME, ()), (T.ADD, ()), (T.VAR_NAME, ()), (T.SUB, ()), (T.VAR_NAME, ())] := by decide

/-- `((… $x …))`. -/
def parens : Nat → Tree Unit
  | 0 => aVar
  | n + 1 => node 192 [node 193 [leaf T.LPAREN (), node 196 [parens n], leaf T.RPAREN ()]]

theorem parens_ok : ∀ (n : Nat), (parens n).root = N.«operator» ∧ (parens n).derivation = true ∧
    (parens n).grouped = true ∧ ∀ next, next = T.SEMICOLON ∨ next = T.RPAREN → (parens n).endsRight next = true
  | 0 => by
    refine ⟨by decide +kernel, by decide +kernel, by decide +kernel, ?_⟩
    intro next h
    rcases h with rfl | rfl <;> decide +kernel
  | n + 1 => by
    obtain ⟨h1, h2, h3, h4⟩ := parens_ok n
    refine ⟨by rw [parens, root_node]; decide +kernel, ?_, ?_, ?_⟩
    · simp only [parens, derivation, derivationL, List.map_cons, List.map_nil, root_leaf, root_node, h1, h2]
      decide +kernel
    · have hin : (node 196 [parens n]).grouped = true := by
        rw [grouped, afterAt_plain _ (by simp only [List.map_cons, List.map_nil, h1]; decide)]
        have hk : keepsOperand (ruleAt 196) (parens n) = true := by
          unfold keepsOperand
          rw [List.all_eq_true]
          intro u _
          split
          · split
            · rename_i t _
              have : (ruleAt 196).keeps t = false := by
                unfold Rule.keeps staysOut
                rw [show (ruleAt 196).level = none by decide +kernel]
                simp
              rw [this]; rfl
            · rfl
          · rfl
        simp only [groupedL, h3, List.getLast?_singleton, hk, Bool.or_true, Bool.and_true, Bool.true_and]
        rw [show ((ruleAt 196).lhs == N.statement) = false by decide +kernel]
        rfl
      have hmid : (node 193 [leaf T.LPAREN (), node 196 [parens n], leaf T.RPAREN ()]).grouped = true := by
        refine grouped_plain (by decide +kernel) ?_ (by
          have gl : ∀ x, (leaf x () : Tree Unit).grouped = true := fun x => by simp [grouped]
          simp only [groupedL, hin, gl, Bool.and_true])
        simp only [List.map_cons, List.map_nil, root_node, root_leaf]
        decide +kernel
      rw [parens]
      refine grouped_plain (by decide +kernel) ?_ (by rw [groupedL, hmid, groupedL]; rfl)
      simp only [List.map_cons, List.map_nil, root_node]
      decide +kernel
    · intro next hn
      simp only [parens, endsRight, endsRightL, tokensL, tokens, firstToken, List.append_nil, h4 _ (Or.inr rfl), Bool.and_true, Bool.true_and]
      rcases hn with rfl | rfl <;> decide +kernel

theorem parens_depth : ∀ n, (parens (n + 1)).depth = n + 3
  | 0 => by decide
  | n + 1 => by
    rw [parens]
    simp only [depth, depthL]
    rw [parens_depth n]
    omega

/-- Parentheses can be nested, but not without limit: with 9991 pairs of
parentheses around a variable the program has the documented form and is
refused. -/
theorem parse_deep_violated : ∃ (text : List (Nat × Unit)) (t : Tree Unit),
    t.ParseOf text ∧ yyparse () YYMAXDEPTH (encode text) = .exhausted := by
  obtain ⟨h1, h2, h3, h4⟩ := parens_ok 9991
  have hp := around_parse (parens 9991) h1 h2 (h4 _ (Or.inl rfl)) h3
  refine ⟨_, _, hp, ?_⟩
  rw [described_text () _ _ hp, if_neg]
  rw [around_depth, show 9991 = 9990 + 1 from rfl, parens_depth]
  omega

/-- Fewer parentheses are accepted. -/
theorem parens_accepted (n : Nat) (h : n < 9991) :
    yyparse () YYMAXDEPTH (encode (around (parens n).tokens)) = .accept (aroundTree (parens n)) := by
  obtain ⟨h1, h2, h3, h4⟩ := parens_ok n
  have hp := around_parse (parens n) h1 h2 (h4 _ (Or.inl rfl)) h3
  rw [described_text () _ _ hp, if_pos]
  rw [around_depth]
  cases n with
  | zero => decide
  | succ n => rw [parens_depth]; omega

/-- `{ }` as a statement. -/
def emptyBlockTree : Tree Unit :=
  node 0 [node 31 [node 33 [node 34 [leaf T.CLASS (), node 39 [node 9 [leaf T.SYMBOL_NAME ()]], node 40 [],
    node 42 [leaf T.LBRACE (), node 44 [node 46 [node 52 [node 57 [leaf T.INIT (), node 158 [leaf T.LBRACE (),
      node 101 [node 103 [node 108 [node 158 [leaf T.LBRACE (), node 100 [], leaf T.RBRACE ()]]]],
      leaf T.RBRACE ()]]]]], leaf T.RBRACE ()], leaf T.END_OF_FILE ()]]]]

def refused (text : List (Nat × Unit)) : Bool :=
  match yyparse () YYMAXDEPTH (encode text) with
  | .syntaxError => true
  | _ => false

/-- The documented rules derive `class A { INIT { { } } }`, where an empty block
is a statement, but the program is refused as a syntax error. -/
theorem empty_block_violated : emptyBlockTree.root = N.grammar ∧ emptyBlockTree.derivation = true ∧
    emptyBlockTree.tokens.map Prod.fst = [T.CLASS, T.SYMBOL_NAME, T.LBRACE, T.INIT, T.LBRACE, T.LBRACE, T.RBRACE,
      T.RBRACE, T.RBRACE, T.END_OF_FILE] ∧
    refused emptyBlockTree.tokens = true := by decide +kernel

/-- Comparisons do not chain: `$x == $x == $x` is refused. -/
theorem comparisons_do_not_chain : refused (around [(T.VAR_NAME, ()), (T.NUMEQ, ()), (T.VAR_NAME, ()), (T.NUMEQ, ()),
    (T.VAR_NAME, ())]) = true := by decide +kernel

/-- `$x * $x + $x` and `$x + $x * $x`: the product is an operand of the sum. -/
def product : Tree Unit := node 180 [node 218 [node 225 [aVar, leaf T.MUL (), aVar]]]
theorem product_first :
    yyparse () YYMAXDEPTH (encode (around [(T.VAR_NAME, ()), (T.MUL, ()), (T.VAR_NAME, ()), (T.ADD, ()), (T.VAR_NAME, ())])) =
      .accept (aroundTree (node 180 [node 218 [node 223 [product, leaf T.ADD (), aVar]]])) ∧
    yyparse () YYMAXDEPTH (encode (around [(T.VAR_NAME, ()), (T.ADD, ()), (T.VAR_NAME, ()), (T.MUL, ()), (T.VAR_NAME, ())])) =
      .accept (aroundTree (node 180 [node 218 [node 223 [aVar, leaf T.ADD (), product]]])) := by
  constructor
  · have := described_text () _ _ (around_parse (node 180 [node 218 [node 223 [product, leaf T.ADD (), aVar]]])
      (by decide +kernel) (by decide +kernel) (by decide +kernel) (by decide +kernel))
    rw [if_pos (by decide +kernel)] at this
    exact this
  · have := described_text () _ _ (around_parse (node 180 [node 218 [node 223 [aVar, leaf T.ADD (), product]]])
      (by decide +kernel) (by decide +kernel) (by decide +kernel) (by decide +kernel))
    rw [if_pos (by decide +kernel)] at this
    exact this

/-- The text of the sums has a tree, so the theorems above say something. -/
example : ∃ t : Tree Unit, t.ParseOf (around aVar.tokens) ∧ t.depth < 9999 :=
  ⟨_, around_parse aVar (by decide +kernel) (by decide +kernel) (by decide +kernel) (by decide +kernel), by decide +kernel⟩
/-- The code of `?` is none of a token. -/
example : ∀ x, isToken x = true → code x ≠ 63 := by
  intro x hx hc
  have := sym_code hx
  rw [hc] at this
  have h2 : symOf 63 = 2 := by decide +kernel
  rw [h2] at this
  rw [← this] at hx
  exact absurd hx (by decide)

end SPVM.Parse
