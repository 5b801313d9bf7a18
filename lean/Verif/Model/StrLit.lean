import Verif.Model.Literal
import Verif.Model.Utf8
/-!
# String and character literals

The parts of the tokenizer that read a character literal, a string literal and a single-quoted string literal,
lib/SPVM/Builder/src/spvm_toke.c 897-973, 974-1385 and 1543-1645, with the escapes of 2964-3067.

As in `Model/Literal`, the source is the list of the bytes from the current position on, `[]` is the position of the terminating
NUL, a read after it is `ub`, and a compilation error is `die`.  The tokenizer goes on after an error; so does `decode`, which
keeps the error in a flag.  Not modelled: the line numbers, the messages (one text for all errors of a literal), the overflow of
the `int32_t` length for a literal of more than 2^29 bytes.
-/
namespace SPVM
namespace StrLit
open VM (Bytes)
open Literal (isDec isHex)

/-- `SPVM_TOKE_is_octal_number`, spvm_toke.c 2942-2951. -/
def isOct (b : UInt8) : Bool := 48 ≤ b.toNat && b.toNat ≤ 55

/-- `SPVM_TOKE_isalnum_ascii` or `_`, spvm_toke.c 3090-3099 and its uses. -/
def isAlnumU (b : UInt8) : Bool :=
  isDec b || (97 ≤ b.toNat && b.toNat ≤ 122) || (65 ≤ b.toNat && b.toNat ≤ 90) || b == 95

/-- The loops that collect at most `n` digits, spvm_toke.c 2991-2998 and 3040-3047. -/
def takeN (p : UInt8 → Bool) : Nat → Bytes → Bytes × Bytes
  | 0, s => ([], s)
  | _ + 1, [] => ([], [])
  | n + 1, b :: s => if p b then (b :: (takeN p n s).1, (takeN p n s).2) else ([], b :: s)

/-- What an escape character leaves: the bytes, the text after it, whether there was an error. -/
structure Esc where
  out : Bytes
  rest : Bytes
  err : Bool
deriving DecidableEq, Repr

/-- After the digits of an escape character with a brace, spvm_toke.c 3009-3016 and 3056-3063. -/
def closeBrace (out : Bytes) (err : Bool) : Bytes → Esc
  | 125 :: r => ⟨out, r, err⟩
  | r => ⟨out, r, true⟩

/-- The digits of an octal escape character, spvm_toke.c 2989-3019; `start` is the text at the beginning of the escape character
(`ch_ptr_ptr` is not changed when the number is too large). -/
def octDigits (start : Bytes) (brace : Bool) (s : Bytes) : Esc :=
  let r := takeN isOct 3 s
  if r.1 = [] then (if brace then closeBrace [255] false r.2 else ⟨[255], r.2, false⟩)
  else
    let number := (NumStr.strtoll r.1 8).num
    if number > 255 then ⟨[255], start, true⟩
    else if brace then closeBrace [UInt8.ofNat number.toNat] false r.2
    else ⟨[UInt8.ofNat number.toNat], r.2, false⟩

/-- `SPVM_TOKE_parse_octal_escape`, spvm_toke.c 2964-3020; `s` is the text from `o` or the first digit on. -/
def parseOct (s : Bytes) : Esc :=
  match s with
  | 111 :: t =>
    match t with
    | 123 :: u =>
      match u with
      | d :: u' => if isOct d then octDigits s true (d :: u') else ⟨[255], s, true⟩
      | [] => ⟨[255], s, true⟩
    | _ => ⟨[255], s, true⟩
  | _ => octDigits s false s

/-- The digits of a hexadecimal escape character, spvm_toke.c 3038-3066.  Without a digit the byte is not initialised; the model
takes 0 (an error is reported). -/
def hexDigits (brace : Bool) (s : Bytes) : Esc :=
  let r := takeN isHex 2 s
  let out : Bytes := if r.1 = [] then [0] else [UInt8.ofNat (NumStr.strtoll r.1 16).num.toNat]
  if brace then closeBrace out (r.1 == []) r.2 else ⟨out, r.2, r.1 == []⟩

/-- `SPVM_TOKE_parse_hex_escape`, spvm_toke.c 3022-3067; `s` is the text after `x`. -/
def parseHex (s : Bytes) : Esc :=
  match s with
  | 123 :: t => hexDigits true t
  | _ => hexDigits false s

/-- The code point of a Unicode escape character, spvm_toke.c 1249-1276. -/
def unicode (ds rest : Bytes) : Esc :=
  if ds.length < 1 then ⟨[], rest, true⟩
  else if ds.length > 8 then ⟨[], rest, true⟩
  else
    let cp := (NumStr.strtoll ds 16).num
    if FnStr.isScalar cp then ⟨Utf8.convert cp, rest, false⟩ else ⟨[], rest, true⟩

/-- A Unicode escape character, spvm_toke.c 1233-1284; `s` is the text after `\N`, which begins with `{`. -/
def parseUni (s : Bytes) : Esc :=
  match s with
  | 123 :: 85 :: 43 :: t =>
    match t.dropWhile isHex with
    | 125 :: r => unicode (t.takeWhile isHex) r
    | r => ⟨[], r, true⟩
  | _ => ⟨[], s, true⟩

/-- The escape characters of one byte, spvm_toke.c 1172-1216. -/
def named (c : UInt8) : Option UInt8 :=
  if c = 97 then some 7 else if c = 116 then some 9 else if c = 110 then some 10 else if c = 102 then some 12
  else if c = 114 then some 13 else if c = 34 then some 34 else if c = 36 then some 36 else if c = 39 then some 39
  else if c = 92 then some 92 else none

/-- The cases of the `switch`, spvm_toke.c 1287-1343: `! # % & ( ) * + , - . /`, `1` to `9`, `: ; < = > ? @`, `A B D G H K N P R S V W X Z`,
`[ ] ^ _`, the back quote, `b d g h k p s v w z`, `{ | } ~`. -/
def isRaw (c : UInt8) : Bool :=
  [33, 35, 37, 38, 40, 41, 42, 43, 44, 45, 46, 47, 49, 50, 51, 52, 53, 54, 55, 56, 57, 58, 59, 60, 61, 62, 63, 64, 65, 66, 68, 71, 72,
    75, 78, 80, 82, 83, 86, 87, 88, 90, 91, 93, 94, 95, 96, 98, 100, 103, 104, 107, 112, 115, 118, 119, 122, 123, 124, 125, 126].contains c

/-- Whether the text begins with this byte. -/
def begins (c : UInt8) : Bytes → Bool
  | b :: _ => b == c
  | [] => false

/-- After a backslash, spvm_toke.c 1170-1352: the character `c` and the text after it. -/
def escape (c : UInt8) (r : Bytes) : Esc :=
  match named c with
  | some v => ⟨[v], r, false⟩
  | none =>
    if isOct c ∨ c = 111 then parseOct (c :: r)
    else if c = 120 then parseHex r
    else if c = 78 ∧ begins 123 r then parseUni r
    else if isRaw c then ⟨[92, c], r, false⟩
    else ⟨[], c :: r, true⟩

/-- The loop that decodes the text of a literal, spvm_toke.c 1166-1372.  The loop ends when the pointer is equal to the end pointer;
a backslash at the end would take it beyond, which is `ub`.  A line terminator gives a line feed, as every other
character gives itself.  The first argument bounds the number of rounds. -/
def decode : Nat → Bytes → Out (Bytes × Bool)
  | _, [] => .ok ([], false)
  | 0, _ :: _ => .ub
  | n + 1, b :: r =>
    if b = 92 then
      match r with
      | [] => .ub
      | c :: r' =>
        match decode n (escape c r').rest with
        | .ok (o, e) => .ok ((escape c r').out ++ o, (escape c r').err || e)
        | .die m => .die m
        | .ub => .ub
    else
      match decode n r with
      | .ok (o, e) => .ok (b :: o, e)
      | .die m => .die m
      | .ub => .ub

/-- Where the first loop of a string literal ends: the text before, the character, the text after it. -/
structure Cut where
  raw : Bytes
  term : UInt8
  rest : Bytes
deriving DecidableEq, Repr

/-- The position is after `pre`. -/
def Cut.after (pre : Bytes) : Out Cut → Out Cut
  | .ok c => .ok ⟨pre ++ c.raw, c.term, c.rest⟩
  | .die m => .die m
  | .ub => .ub

def msgEnd : String := "The string literal must be end with '\"'."
def msgEsc : String := "Invalid string literal escape character."
def msgArrow : String := "The character after \"->\" in a string literal must be \"[\" or \"{\"."
def msgClose : String := "The getting field or the getting array element in a string literal must be closed."
def msgCharEmpty : String := "The character literal cannnot be empty."
def msgChar : String := "The character literal must ends with \"'\"."
def msgSingle : String := "A single-quoted string literal must be end with \"'\"."

/-- The loop that finds the end of a string literal or a variable expansion, spvm_toke.c 997-1157 (without the walk through the
variable).  A backslash advances by two characters, over the terminating NUL too. -/
def cut : Bytes → Out Cut
  | [] => .die msgEnd
  | b :: r =>
    if b = 34 then .ok ⟨[], 34, r⟩
    else if b = 36 ∧ begins 34 r = false then .ok ⟨[], 36, r⟩
    else if b = 92 then
      match r with
      | [] => .ub
      | c :: r' => Cut.after [92, c] (cut r')
    else Cut.after [b] (cut r)

/-- The loop through the name of a variable, spvm_toke.c 1039-1057.  Without an open brace, `}` neither advances nor leaves the
loop.  The first argument bounds the number of rounds; the loop goes on when it is exhausted, which is `ub`. -/
def skipName (brace : Bool) : Nat → Bytes → Out Bytes
  | 0, _ => .ub
  | n + 1, s =>
    match s with
    | [] => .ok []
    | b :: r =>
      if isAlnumU b then skipName brace n r
      else if b = 58 ∧ begins 58 r then skipName brace n (r.drop 1)
      else if b = 125 then (if brace then .ok r else skipName brace n s)
      else .ok s

/-- `->` is skipped. -/
def skipArrow : Bytes → Bytes
  | 45 :: 62 :: r => r
  | r => r

/-- Whether the text begins with `->`. -/
def hasArrow : Bytes → Bool
  | 45 :: 62 :: _ => true
  | _ => false

/-- One field or element, spvm_toke.c 1076-1117: `s` is the text after the arrow. -/
def skipIndex : Bytes → Out Bytes
  | 123 :: t =>
    match t.dropWhile isAlnumU with
    | 125 :: v => .ok v
    | _ => .die msgClose
  | 91 :: t =>
    match t.dropWhile isAlnumU with
    | 93 :: v => .ok v
    | _ => .die msgClose
  | _ => .die msgArrow

/-- The loop through fields and elements after its first arrow, spvm_toke.c 1064-1129. -/
def skipIndexes : Nat → Bytes → Out Bytes
  | 0, _ => .ub
  | n + 1, s =>
    match skipIndex s with
    | .ok v => if begins 123 (skipArrow v) ∨ begins 91 (skipArrow v) then skipIndexes n (skipArrow v) else .ok (skipArrow v)
    | .die m => .die m
    | .ub => .ub

/-- After the name, spvm_toke.c 1059-1130. -/
def varTail (fuel : Nat) (brace ref : Bool) (s : Bytes) : Out Bytes :=
  if brace = false ∧ ref = false then (if hasArrow s then skipIndexes fuel (skipArrow s) else .ok s) else .ok s

/-- The walk through a variable expansion, spvm_toke.c 1009-1133: `s` is the text after `$`; the result is
`next_string_literal_ch_ptr`. -/
def varEnd (fuel : Nat) (s : Bytes) : Out Bytes :=
  let ref := begins 36 s
  let s1 := if ref then s.drop 1 else s
  let brace := begins 123 s1
  let s2 := if brace then s1.drop 1 else s1
  if begins 64 s2 then
    .ok (if brace ∧ begins 125 (s2.drop 1) then s2.drop 2 else s2.drop 1)
  else
    match skipName brace fuel s2 with
    | .ok s3 => varTail fuel brace ref s3
    | .die m => .die m
    | .ub => .ub

/-- A constant of a string literal, the text the tokenizer goes on with (from `$` on for a variable expansion, 1392-1396), and
for a variable expansion the text of the next string literal. -/
structure StrTok where
  value : Bytes
  rest : Bytes
  next : Option Bytes
deriving DecidableEq, Repr

/-- The constant. -/
def strConst (raw rest : Bytes) (next : Option Bytes) : Out StrTok :=
  match decode raw.length raw with
  | .ok (v, e) => if e then .die msgEsc else .ok ⟨v, rest, next⟩
  | .die m => .die m
  | .ub => .ub

/-- A string literal, spvm_toke.c 974-1400: `src` is the text after the opening `"`, or from the next string literal of a
variable expansion on.  `fuel` bounds the rounds of the loops through a variable. -/
def strLit (fuel : Nat) (src : Bytes) : Out StrTok :=
  match cut src with
  | .ok c =>
    if c.term = 36 then
      match varEnd fuel c.rest with
      | .ok n => strConst c.raw (36 :: c.rest) (some n)
      | .die m => .die m
      | .ub => .ub
    else strConst c.raw c.rest none
  | .die m => .die m
  | .ub => .ub

/-! ## Single-quoted string literals -/

/-- The first loop of a single-quoted string literal, spvm_toke.c 1557-1586. -/
def cutQ : Bytes → Out (Bytes × Bytes)
  | [] => .die msgSingle
  | b :: r =>
    if b = 39 then .ok ([], r)
    else if b = 92 then
      match r with
      | [] => .ub
      | c :: r' =>
        match cutQ r' with
        | .ok (raw, rest) => .ok (92 :: c :: raw, rest)
        | .die m => .die m
        | .ub => .ub
    else
      match cutQ r with
      | .ok (raw, rest) => .ok (b :: raw, rest)
      | .die m => .die m
      | .ub => .ub

/-- The second loop, spvm_toke.c 1594-1628. -/
def decodeQ : Nat → Bytes → Out (Bytes × Bool)
  | _, [] => .ok ([], false)
  | 0, _ :: _ => .ub
  | n + 1, b :: r =>
    if b = 92 then
      match r with
      | [] => .ub
      | c :: r' =>
        if c = 92 ∨ c = 39 then
          match decodeQ n r' with
          | .ok (o, e) => .ok (c :: o, e)
          | .die m => .die m
          | .ub => .ub
        else
          match decodeQ n (c :: r') with
          | .ok (o, _) => .ok (o, true)
          | .die m => .die m
          | .ub => .ub
    else
      match decodeQ n r with
      | .ok (o, e) => .ok (b :: o, e)
      | .die m => .die m
      | .ub => .ub

/-- A single-quoted string literal, spvm_toke.c 1543-1645: `src` is the text after `q'`. -/
def singleLit (src : Bytes) : Out (Bytes × Bytes) :=
  match cutQ src with
  | .ok (raw, rest) =>
    match decodeQ raw.length raw with
    | .ok (v, e) => if e then .die msgEsc else .ok (v, rest)
    | .die m => .die m
    | .ub => .ub
  | .die m => .die m
  | .ub => .ub

/-! ## Character literals -/

/-- The escape characters of a character literal, spvm_toke.c 907-950: the character `c` after the backslash, the text
after it.  An invalid one is skipped. -/
def charEscape (c : UInt8) (r : Bytes) : Esc :=
  if c = 36 then ⟨[0], r, true⟩
  else
    match named c with
    | some v => ⟨[v], r, false⟩
    | none =>
      if isOct c ∨ c = 111 then parseOct (c :: r)
      else if c = 120 then parseHex r
      else ⟨[0], r, true⟩

/-- The end of a character literal, spvm_toke.c 957-962. -/
def charEnd (e : Esc) : Out (UInt8 × Bytes) :=
  match e.rest with
  | 39 :: r => if e.err then .die msgEsc else .ok (e.out.headD 0, r)
  | _ => .die msgChar

/-- A character literal, spvm_toke.c 897-973: `src` is the text after the opening quote.  At the end of the source the pointer
is advanced over the terminating NUL, and the next character is read. -/
def charLit : Bytes → Out (UInt8 × Bytes)
  | [] => .ub
  | b :: r =>
    if b = 39 then .die msgCharEmpty
    else if b = 92 then
      match r with
      | [] => .ub
      | c :: r' => charEnd (charEscape c r')
    else charEnd ⟨[b], r, false⟩

end StrLit
end SPVM
