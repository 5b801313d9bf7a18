import Verif.Model.ParseTables
import Verif.Spec.Parse

/-
The parser: the loop of `yyparse` (lib/SPVM/Builder/src/spvm_yacc.c 2369-4790)
over the tables of Verif.Model.ParseTables.

Simplifications.  The semantic actions (`SPVM_OP_build_…`) are not modelled: a
reduction builds a parse tree node for its rule, so that the tree records
exactly which reductions were made and in which order.  No rule mentions the
`error` token, so after a syntax error the C code pops its whole stack and gives
up (4602-4734); the model gives up at once.  The growth of the two stacks from
200 by doubling to 10000 entries (2452-2513) is not modelled, only the limit:
allocation failures are not modelled.
-/

namespace SPVM.Parse

/-- `YYFINAL` (spvm_yacc.c 495). -/
def YYFINAL : Nat := 17
/-- `YYLAST` (spvm_yacc.c 497). -/
def YYLAST : Int := 4819
/-- `YYNTOKENS` (spvm_yacc.c 500). -/
def YYNTOKENS : Int := 137
/-- `YYUNDEFTOK` and `YYMAXUTOK` (spvm_yacc.c 510-511). -/
def YYUNDEFTOK : Int := 2
def YYMAXUTOK : Nat := 377
/-- `YYPACT_NINF` (spvm_yacc.c 669). -/
def YYPACT_NINF : Int := -455
/-- `YYTABLE_NINF` (spvm_yacc.c 674). -/
def YYTABLE_NINF : Int := -168
/-- `YYMAXDEPTH` (spvm_yacc.c 2119). -/
def YYMAXDEPTH : Nat := 10000

/-- An access to a table: outside of the table it is undefined behaviour. -/
def lookup (tab : List Int) (i : Int) : Option Int :=
  if i < 0 then none else tab[i.toNat]?

/-- `YYTRANSLATE` (spvm_yacc.c 513-514): the symbol of a token code. -/
def yyTranslate (code : Nat) : Option Int :=
  if code ≤ YYMAXUTOK then lookup yytranslate code else some YYUNDEFTOK

/-- What the parser does next. -/
inductive Act
  | shift (state : Nat)
  | reduce (rule : Nat)
  | error
deriving DecidableEq, Repr

/-- `yydefault` (spvm_yacc.c 2590-2594). -/
def defaultAct (s : Nat) : Option Act :=
  match lookup yydefact s with
  | none => none
  | some n => if n = 0 then some .error else some (.reduce n.toNat)

/-- `yybackup` (spvm_yacc.c 2524-2584): the action in state `s` when the next
symbol is `tok`.  (Where `yypact` has the default value the C code does not read
the next token; neither does its value matter here.) -/
def action (s : Nat) (tok : Int) : Option Act :=
  match lookup yypact s with
  | none => none
  | some p =>
    if p = YYPACT_NINF then defaultAct s
    else if p + tok < 0 ∨ YYLAST < p + tok then defaultAct s
    else
      match lookup yycheck (p + tok) with
      | none => none
      | some c =>
        if c ≠ tok then defaultAct s
        else
          match lookup yytable (p + tok) with
          | none => none
          | some v =>
            if v ≤ 0 then
              if v = YYTABLE_NINF then some .error else some (.reduce (-v).toNat)
            else some (.shift v.toNat)

/-- The state after a reduction to the nonterminal `lhs` uncovers the state `s`
(spvm_yacc.c 4586-4594). -/
def goto (s : Nat) (lhs : Int) : Option Nat :=
  match lookup yypgoto (lhs - YYNTOKENS) with
  | none => none
  | some p =>
    if 0 ≤ p + s ∧ p + s ≤ YYLAST then
      match lookup yycheck (p + s) with
      | none => none
      | some c =>
        if c = s then (lookup yytable (p + s)).map Int.toNat
        else (lookup yydefgoto (lhs - YYNTOKENS)).map Int.toNat
    else (lookup yydefgoto (lhs - YYNTOKENS)).map Int.toNat

/-- The parser between two steps: the stacks of states and values (the first
entry is the top; below the last entry lies state 0), and the tokens that are
not consumed, each a code and what it carries. -/
structure Conf (α : Type) where
  stack : List (Nat × Tree α)
  input : List (Nat × α)

/-- The state at the top. -/
def top {α} : List (Nat × Tree α) → Nat
  | [] => 0
  | e :: _ => e.1

/-- How a parse ends. -/
inductive Result (α : Type)
  | accept (t : Tree α)
  | syntaxError
  | exhausted
  | ub

/-- One step either continues or ends the parse. -/
inductive Step (α : Type)
  | next (c : Conf α)
  | done (r : Result α)

/-- `yynewstate` and `yysetstate` (spvm_yacc.c 2445-2519): push a state, refuse
when `limit` entries are in use, and accept in the final state.  The tree of the
parse is below the end marker. -/
def push {α} (limit : Nat) (s : Nat) (t : Tree α) (stack : List (Nat × Tree α))
    (input : List (Nat × α)) : Step α :=
  if limit ≤ stack.length + 2 then .done .exhausted
  else if s = YYFINAL then
    match stack with
    | e :: _ => .done (.accept e.2)
    | [] => .done .ub
  else .next ⟨(s, t) :: stack, input⟩

/-- The symbol of the next token: the end marker 0 when there is none. -/
def peek {α} (input : List (Nat × α)) : Option Int :=
  match input with
  | [] => some 0
  | t :: _ => yyTranslate t.1

/-- The values a reduction takes off the stack, the leftmost first, and what
remains. -/
def popN {α} : Nat → List (Nat × Tree α) → List (Tree α) → Option (List (Tree α) × List (Nat × Tree α))
  | 0, stack, acc => some (acc, stack)
  | _ + 1, [], _ => none
  | n + 1, e :: stack, acc => popN n stack (e.2 :: acc)

/-- One round of the loop from `yybackup` on (spvm_yacc.c 2524-4596).  `dflt`
is the value the end marker carries. -/
def step {α} (dflt : α) (limit : Nat) (c : Conf α) : Step α :=
  match peek c.input with
  | none => .done .ub
  | some tok =>
    match action (top c.stack) tok with
    | none => .done .ub
    | some .error => .done .syntaxError
    | some (.shift s) =>
      match c.input with
      | [] => push limit s (.leaf 0 dflt) c.stack []
      | t :: rest => push limit s (.leaf tok.toNat t.2) c.stack rest
    | some (.reduce r) =>
      match lookup yyr2 r, lookup yyr1 r with
      | some len, some lhs =>
        match popN len.toNat c.stack [] with
        | none => .done .ub
        | some (cs, stack) =>
          match goto (top stack) lhs with
          | none => .done .ub
          | some s => push limit s (.node (r - 2) cs) stack c.input
      | _, _ => .done .ub

/-- The loop; running out of fuel is `ub`. -/
def run {α} (dflt : α) (limit : Nat) : Nat → Conf α → Result α
  | 0, _ => .ub
  | fuel + 1, c =>
    match step dflt limit c with
    | .next c => run dflt limit fuel c
    | .done r => r

/-- `yyparse` (spvm_yacc.c 2369-4790) on a list of token codes, from state 0
with an empty stack.  The fuel is a bound on the number of steps. -/
def yyparse {α} (dflt : α) (limit : Nat) (input : List (Nat × α)) : Result α :=
  run dflt limit (12 * (input.length + 2)) ⟨[], input⟩

end SPVM.Parse
