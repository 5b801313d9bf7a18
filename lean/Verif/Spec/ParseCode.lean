import Verif.Spec.Parse
/-
The codes of the tokens.
-/

namespace SPVM.Parse

/-- The tokens that are a character (SyntaxParsing.pm 29, 62-64, and the
characters in the rules). -/
def charTokens : List (Nat × Char) := [
  (T.LBRACKET, '['), (T.LBRACE, '{'), (T.LPAREN, '('), (T.ADD, '+'), (T.SUB, '-'), (T.DOT, '.'), (T.MUL, '*'),
  (T.AT, '@'), (T.RBRACKET, ']'), (T.COLON, ':'), (T.SEMICOLON, ';'), (T.RBRACE, '}'), (T.COMMA, ','),
  (T.RPAREN, ')')]

/-- The code the tokenizer gives for a token: a character stands for itself, the
others are numbered from 258 in the order of their declaration
(`enum yytokentype`, lib/SPVM/Builder/include/spvm_yacc.h 48-167). -/
def code (x : Nat) : Nat :=
  match charTokens.lookup x with
  | some c => c.toNat
  | none => 258 + (x - T.CLASS) - (charTokens.filter fun e => decide (e.1 < x)).length

/-- A text of tokens as the tokenizer hands it over. -/
def encode {α} (text : List (Nat × α)) : List (Nat × α) := text.map fun t => (code t.1, t.2)

end SPVM.Parse
