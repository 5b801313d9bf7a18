import Verif.Spec.Numeral
import Verif.Spec.Utf8
import Verif.Spec.Decimal
/-!
# String and character literals (specification)

After lib/SPVM/Document/Language/Tokenization.pm: "String Literal", "Single-Quoted String Literal", "Character Literal" and the
tables of their escape characters.
-/
namespace SPVM.Spec

/-- The escape characters of one byte: `\a \t \n \f \r \" \$ \' \\`. -/
inductive Named : UInt8 → UInt8 → Prop where
  | bel : Named 97 7
  | ht : Named 116 9
  | lf : Named 110 10
  | ff : Named 102 12
  | cr : Named 114 13
  | quote : Named 34 34
  | dollar : Named 36 36
  | single : Named 39 39
  | backslash : Named 92 92

/-- The characters of the table of raw escape characters, and the digits 8 and 9, which are not in it. -/
def rawTable : List UInt8 :=
  [33, 35, 37, 38, 40, 41, 42, 43, 44, 45, 46, 47, 58, 59, 60, 61, 62, 63, 64, 65, 66, 68, 71, 72, 75, 78, 80, 82, 83, 86, 87, 88,
    90, 91, 93, 94, 95, 96, 98, 100, 103, 104, 107, 112, 115, 118, 119, 122, 123, 124, 125, 126] ++ [56, 57]

/-- The text does not begin with a digit of this base. -/
def NoDigit (base : Nat) (next : List UInt8) : Prop := ∀ b r, next = b :: r → ¬ IsDigit base b

/-- The escape characters that give a byte by its number: `\` and one to three octal digits, `\o{...}`, `\x` and one or two
hexadecimal digits, `\x{...}`.  An escape character without braces takes as many digits as there are, up to three or
two; `next` is the text after it. -/
inductive Numbered : List UInt8 → UInt8 → List UInt8 → Prop where
  | octal {ds n next} : ds.length ≤ 3 → Denotes 8 ds n → n < 256 → (ds.length < 3 → NoDigit 8 next) →
      Numbered (92 :: ds) (UInt8.ofNat n) next
  | octalBrace {ds n next} : ds.length ≤ 3 → Denotes 8 ds n → n < 256 →
      Numbered ([92, 111, 123] ++ ds ++ [125]) (UInt8.ofNat n) next
  | hex {ds n next} : ds.length ≤ 2 → Denotes 16 ds n → (ds.length < 2 → NoDigit 16 next) →
      Numbered ([92, 120] ++ ds) (UInt8.ofNat n) next
  | hexBrace {ds n next} : ds.length ≤ 2 → Denotes 16 ds n → Numbered ([92, 120, 123] ++ ds ++ [125]) (UInt8.ofNat n) next

/-- A part of the text of a string literal, the bytes it stands for, and the text after it. -/
inductive Item : List UInt8 → List UInt8 → List UInt8 → Prop where
  | plain {b next} : b ≠ 34 → b ≠ 36 → b ≠ 92 → Item [b] [b] next
  | named {c v next} : Named c v → Item [92, c] [v] next
  | numbered {s v next} : Numbered s v next → Item s [v] next
  | unicode {ds n next} : ds.length ≤ 8 → Denotes 16 ds n → Utf8.IsScalar n → Item ([92, 78, 123, 85, 43] ++ ds ++ [125]) (Utf8.encode n) next
  | raw {c next} : c ∈ rawTable → (c = 78 → ∀ r, next ≠ 123 :: r) → Item [92, c] [92, c] next

/-- Text inside a string literal: it is free of `"` and `$`, but for a backslash before.  A `$` at the end is allowed when `last` is
set. -/
inductive Unquoted (last : Bool) : List UInt8 → Prop where
  | nil : Unquoted last []
  | dollar : last = true → Unquoted last [36]
  | plain {b r} : b ≠ 34 → b ≠ 36 → b ≠ 92 → Unquoted last r → Unquoted last (b :: r)
  | esc {c r} : Unquoted last r → Unquoted last (92 :: c :: r)

/-- The text of a string literal without variable expansions, and the bytes of the string.  A `$` at the end stands for itself
when `last` is set. -/
inductive Spells (last : Bool) : List UInt8 → List UInt8 → Prop where
  | nil : Spells last [] []
  | dollar : last = true → Spells last [36] [36]
  | cons {s out next v} : Item s out next → Spells last next v → Spells last (s ++ next) (out ++ v)

/-- The text of a single-quoted string literal: `\'` and `\\` are the only escape characters. -/
inductive SpellsQ : List UInt8 → List UInt8 → Prop where
  | nil : SpellsQ [] []
  | plain {b t v} : b ≠ 39 → b ≠ 92 → SpellsQ t v → SpellsQ (b :: t) (b :: v)
  | escaped {b t v} : b = 39 ∨ b = 92 → SpellsQ t v → SpellsQ (92 :: b :: t) (b :: v)

/-- The text of a character literal; `\$` is no escape character here. -/
inductive SpellsChar : List UInt8 → UInt8 → Prop where
  | plain {b} : b ≠ 39 → b ≠ 92 → SpellsChar [b] b
  | named {c v} : Named c v → c ≠ 36 → SpellsChar [92, c] v
  | numbered {s v next} : Numbered s v (39 :: next) → SpellsChar s v

/-- A letter, a digit or `_`. -/
def NameChar (b : UInt8) : Prop := (48 ≤ b.toNat ∧ b.toNat ≤ 57) ∨ (65 ≤ b.toNat ∧ b.toNat ≤ 90) ∨ (97 ≤ b.toNat ∧ b.toNat ≤ 122) ∨ b = 95

/-- The name of a local variable or a class variable, without `$`. -/
inductive VarName : List UInt8 → Prop where
  | one {b} : NameChar b → VarName [b]
  | sep : VarName [58, 58]
  | char {b n} : NameChar b → VarName n → VarName (b :: n)
  | colons {n} : VarName n → VarName (58 :: 58 :: n)

/-- `{name}` or `[number]`. -/
inductive Index : List UInt8 → Prop where
  | field {w} : (∀ b ∈ w, NameChar b) → Index ([123] ++ w ++ [125])
  | elem {w} : (∀ b ∈ w, NameChar b) → Index ([91] ++ w ++ [93])

/-- Indexes one after the other, with or without arrows. -/
inductive Chain : List UInt8 → Prop where
  | one {i} : Index i → Chain i
  | more {i c} : Index i → Chain c → Chain (i ++ c)
  | arrow {i c} : Index i → Chain c → Chain (i ++ [45, 62] ++ c)

/-- The text does not begin with any of these characters. -/
def NotFirst (cs : List UInt8) (next : List UInt8) : Prop := ∀ b r, next = b :: r → b ∉ cs

/-- The text does not go on with a name, and not with `}`. -/
def NameEnd (next : List UInt8) : Prop :=
  (∀ b r, next = b :: r → ¬ NameChar b ∧ b ≠ 125) ∧ ∀ r, next ≠ 58 :: 58 :: r

/-- The text after the `$` of a variable expansion, and the text after it. -/
inductive Expansion : List UInt8 → List UInt8 → Prop where
  | var {n next} : VarName n → NameEnd next → (∀ r, next ≠ 45 :: 62 :: r) → Expansion n next
  | braced {n next} : VarName n → Expansion ([123] ++ n ++ [125]) next
  | deref {n next} : VarName n → NameEnd next → Expansion (36 :: n) next
  | derefBraced {n next} : VarName n → Expansion ([36, 123] ++ n ++ [125]) next
  | exception {next} : Expansion [64] next
  | exceptionBraced {next} : Expansion [123, 64, 125] next
  | access {n c next} : VarName n → Chain c → NotFirst [91, 123] next → (∀ r, next ≠ 45 :: 62 :: r) →
      Expansion (n ++ [45, 62] ++ c) next

/-- The text that spells these bytes with hexadecimal escape characters only. -/
def hexText (s : List UInt8) : List UInt8 := s.flatMap (fun b => [92, 120] ++ hex2 b)

/-- A readable text: `"`, `$` and `\` are written with a backslash. -/
def quoteText (s : List UInt8) : List UInt8 := s.flatMap (fun b => if b = 34 ∨ b = 36 ∨ b = 92 then [92, b] else [b])

/-- The text of a single-quoted string literal for these bytes. -/
def quoteSingle (s : List UInt8) : List UInt8 := s.flatMap (fun b => if b = 39 ∨ b = 92 then [92, b] else [b])

end SPVM.Spec
