import Verif.Model.Toke
import Verif.Spec.StrLit
import Verif.Spec.Utf8
/-!
# What the tokenizer is to do

After lib/SPVM/Document/Language/Tokenization.pm.
-/
namespace SPVM.Spec.Toke
open SPVM.Toke (Op Tok)
open SPVM.Spec (NameChar VarName NameEnd Spells)

/-- The bytes of an ASCII text. -/
def bytes (s : String) : List UInt8 := s.toList.map (fun c => UInt8.ofNat c.toNat)

/-- How an operator is written; Tokenization.pm, "Operator Tokens". -/
def spelling : Op → String
  | .concat => "." | .concatAssign => ".="
  | .add => "+" | .inc => "++" | .addAssign => "+="
  | .sub => "-" | .dec => "--" | .subAssign => "-=" | .arrow => "->"
  | .mul => "*" | .mulAssign => "*="
  | .div => "/" | .divAssign => "/="
  | .mod => "%" | .modAssign => "%="
  | .xor => "^" | .xorAssign => "^="
  | .bitOr => "|" | .or => "||" | .orAssign => "|="
  | .bitAnd => "&" | .and => "&&" | .andAssign => "&="
  | .assign => "=" | .eq => "==" | .fatComma => "=>"
  | .lt => "<" | .le => "<=" | .cmp => "<=>" | .shl => "<<" | .shlAssign => "<<="
  | .gt => ">" | .ge => ">=" | .shr => ">>" | .shrAssign => ">>=" | .ushr => ">>>" | .ushrAssign => ">>>="
  | .not => "!" | .ne => "!=" | .bitNot => "~" | .ref => "\\"
  | .lparen => "(" | .rparen => ")" | .lbracket => "[" | .rbracket => "]" | .lbrace => "{" | .rbrace => "}"
  | .comma => "," | .colon => ":" | .semicolon => ";" | .at => "@"

/-- Of all operators the text begins with, this one is the longest. -/
def Longest (o : Op) (text : List UInt8) : Prop :=
  bytes (spelling o) <+: text ∧ ∀ o', bytes (spelling o') <+: text → (bytes (spelling o')).length ≤ (bytes (spelling o)).length

/-- A letter. -/
def Letter (b : UInt8) : Prop := (65 ≤ b.toNat ∧ b.toNat ≤ 90) ∨ (97 ≤ b.toNat ∧ b.toNat ≤ 122)

/-- A decimal digit. -/
def Digit (b : UInt8) : Prop := 48 ≤ b.toNat ∧ b.toNat ≤ 57

/-- A white space character: space, tab, form feed, line feed, carriage return. -/
def White (b : UInt8) : Prop := b = 32 ∨ b = 9 ∨ b = 12 ∨ b = 10 ∨ b = 13

/-- A comment is no directive. -/
def NoDirective (c : List UInt8) : Prop :=
  ¬ bytes "line " <+: c ∧ ¬ bytes "file " <+: c ∧ ¬ bytes "lib " <+: c

/-- Text without `=cut` before white space. -/
def NoCut (t : List UInt8) : Prop := ∀ p w q, t = p ++ bytes "=cut" ++ w :: q → ¬ White w

/-- Text that is no token: white space, comments and POD.  The flags say whether a line begins before the text and after it. -/
inductive Blank : Bool → List UInt8 → Bool → Prop where
  | nil {b} : Blank b [] b
  | space {b c t b'} : c = 32 ∨ c = 9 ∨ c = 12 → Blank false t b' → Blank b (c :: t) b'
  | line {b t b'} : Blank true t b' → Blank b (10 :: t) b'
  | comment {b c t b'} : 10 ∉ c → NoDirective c → Blank true t b' → Blank b (35 :: (c ++ 10 :: t)) b'
  | pod {c body tail t b'} : Letter c → NoCut (body ++ [10]) → 10 ∉ tail → (∀ w q, tail = w :: q → White w) → Blank true t b' →
      Blank true (61 :: c :: (body ++ [10] ++ bytes "=cut" ++ tail ++ 10 :: t)) b'

/-- A line begins at `rest`. -/
def LineBegin (src rest : List UInt8) : Prop := ∃ pre, src = pre ++ rest ∧ (pre = [] ∨ ∃ p, pre = p ++ [10])

/-- The source contains this text. -/
def Contains (src part : List UInt8) : Prop := ∃ p q, src = p ++ part ++ q

/-- No line, file or lib directive, and no `0x` before a line feed. -/
def Undirected (src : List UInt8) : Prop :=
  ¬ Contains src (bytes "#line ") ∧ ¬ Contains src (bytes "#file ") ∧ ¬ Contains src (bytes "#lib ") ∧
    ¬ Contains src [48, 120, 10] ∧ ¬ Contains src [48, 88, 10]

/-- The token that ends after `pos` bytes is no character literal with a raw line feed, and no `<`, `>` or `scalar` whose last character,
swallowed by mistake, is a line feed. -/
def Counted (src : List UInt8) (tok : Tok) (pos : Nat) : Prop :=
  (tok = .byte 10 → src[pos - 2]? ≠ some 10) ∧
    (tok = .op .lt ∨ tok = .op .gt ∨ tok = .kw (bytes "scalar") → src[pos - 1]? ≠ some 10)

/-- A symbol name as far as its characters go: names joined with `::`. -/
inductive NameText : List UInt8 → Prop where
  | nil : NameText []
  | char {b n} : NameChar b → NameText n → NameText (b :: n)
  | colons {n} : NameText n → NameText (58 :: 58 :: n)

/-- A name does not go on here. -/
def NoName (rest : List UInt8) : Prop := (∀ b r, rest = b :: r → ¬ NameChar b) ∧ ∀ r, rest ≠ 58 :: 58 :: r

/-- The keywords; Tokenization.pm, "Keywords". -/
def documentedKeywords : List String :=
  ["alias", "allow", "as", "basic_type_id", "break", "byte", "can", "case", "cmp", "class", "compile_type_name", "copy", "default",
    "die", "div_uint", "div_ulong", "double", "dump", "elsif", "else", "enum", "eq", "eval", "eval_error_id", "extends", "for",
    "float", "false", "gt", "ge", "has", "if", "interface", "int", "interface_t", "isa", "isa_error", "isweak", "is_compile_type",
    "is_type", "is_error", "is_read_only", "args_width", "last", "length", "lt", "le", "long", "make_read_only", "method",
    "mod_uint", "mod_ulong", "mulnum_t", "mutable", "my", "native", "ne", "next", "new", "new_string_len", "of", "our", "object",
    "print", "private", "protected", "public", "precompile", "pointer", "return", "require", "required", "rw", "ro", "say",
    "static", "switch", "string", "short", "scalar", "true", "type_name", "undef", "unless", "unweaken", "use", "version", "void",
    "warn", "while", "weaken", "wo", "INIT", "__END__", "__PACKAGE__", "__FILE__", "__LINE__"]

/-- `=>` follows, perhaps after white space. -/
def FatComma (rest : List UInt8) : Prop := ∃ w r, rest = w ++ bytes "=>" ++ r ∧ ∀ b ∈ w, White b

/-- The documented rules for a variable name without `$`, as far as the tokenizer keeps them. -/
def VarNameRules (n : List UInt8) : Prop :=
  ¬ Contains n (bytes "__") ∧ ¬ bytes "::" <+: n ∧ ¬ bytes "::" <:+ n ∧ ¬ Contains n (bytes "::::") ∧ ∀ b r, n = b :: r → ¬ Digit b

/-- The name of a here document. -/
def HereName (n : List UInt8) : Prop :=
  (∃ b r, n = b :: r ∧ ¬ Digit b) ∧ (∀ b ∈ n, NameChar b) ∧ ¬ Contains n (bytes "__")

/-- A text of whole lines in which no line is the name. -/
inductive HereText (n : List UInt8) : List UInt8 → Prop where
  | nil : HereText n []
  | line {l t} : 10 ∉ l → l ≠ n → HereText n t → HereText n (l ++ 10 :: t)

/-- The text after the `$` of a variable in a string literal, the text after it, and the tokens it is read as. -/
inductive Simple : List UInt8 → List UInt8 → List Tok → Prop where
  | var {n next} : VarName n → VarNameRules n → NameEnd next → (∀ r, next ≠ 45 :: 62 :: r) → Simple n next [.var n]
  | braced {n next} : VarName n → VarNameRules n → Simple (123 :: (n ++ [125])) next [.var n]
  | deref {n next} : VarName n → VarNameRules n → NameEnd next → Simple (36 :: n) next [.deref, .var n]
  | derefBraced {n next} : VarName n → VarNameRules n → Simple (36 :: 123 :: (n ++ [125])) next [.deref, .var n]
  | exception {next} : Simple [64] next [.exception]
  | exceptionBraced {next} : Simple [123, 64, 125] next [.exception]

/-- The text of a string literal after its opening `"` with variables in it, the tokens - those of the strings between the variables
and of the variables, joined with `.` - and the text after the closing `"`. -/
inductive Pieces : List UInt8 → List Tok → List UInt8 → Prop where
  | last {text v rest} : Spells true text v → Pieces (text ++ 34 :: rest) [.str v] rest
  | more {text v e next toks ts rest} : Spells false text v → Simple e next toks → Pieces next ts rest →
      Pieces (text ++ 36 :: (e ++ next)) (.str v :: .op .concat :: (toks ++ .op .concat :: ts)) rest

/-- A source is UTF-8; its ASCII characters are printable or white space, and it has no carriage return. -/
def Source (src : List UInt8) : Prop :=
  ∃ cs : List Nat, (∀ c ∈ cs, Utf8.IsScalar c ∧ (c < 128 → 32 ≤ c ∧ c ≤ 126 ∨ c = 9 ∨ c = 10 ∨ c = 11 ∨ c = 12)) ∧
    src = cs.flatMap Utf8.encode

end SPVM.Spec.Toke
