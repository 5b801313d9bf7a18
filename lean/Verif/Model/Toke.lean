import Verif.Model.StrLit
/-!
# The tokenizer

`SPVM_yylex`, lib/SPVM/Builder/src/spvm_toke.c 33-2604, for the source of one class file: white space, comments, line, file and
lib directives, POD, operators, here documents, names, keywords, variables, variable expansions, line numbers, `__END__`.  The
literals are those of `Model/Literal` and `Model/StrLit`.

The source is the list of its bytes.  A position (`ch_ptr`) is the list of the bytes from it on; `[]` is the position of the
terminating NUL.  A source contains no NUL (`source`, spvm_toke.c 2854-2883), so `*ch_ptr == '\0'` is `[]`.  Pointers that are
only compared (`line_begin_ch_ptr`, `next_string_literal_ch_ptr`) are the number of bytes from them to the end.  A compilation
error is `die`, with the first message; the tokenizer itself goes on after some of the errors, but the compilation fails.  Line
numbers are `int32_t`; a line number after 2147483647 is `ub`.

Not modelled: the next class file after the end of a source (2606-2910 but for the check of the characters), the columns of
`method`, the allocations, the file part of the messages.
-/
namespace SPVM
namespace Toke
open VM (Bytes)
open Literal (isDec Const Libc)
open StrLit (isAlnumU begins cut strLit singleLit charLit)

/-! ## The characters of a source -/

/-- `SPVM_TOKE_isprint_ascii` or `SPVM_TOKE_isspace_ascii`, spvm_toke.c 3101-3110 and 3134-3143, of an ASCII character. -/
def printOrSpace (b : UInt8) : Bool := (32 ≤ b.toNat && b.toNat ≤ 126) || (9 ≤ b.toNat && b.toNat ≤ 13)

def msgUtf8 : String := "The charactor encoding of SPVM source codes must be UTF-8."
def msgAscii : String := "If a character in an SPVM source code is ASCII, it must be ASCII printable or space."
def msgCr : String := "The new line of SPVM source codes must be LF."

/-- The check of the characters of a source, spvm_toke.c 2854-2883, from the offset on.  The decoder is given the length of the
whole source at every offset, as in the source code.  The first argument bounds the number of rounds. -/
def checkChars (src : Bytes) : Nat → Nat → Out Unit
  | 0, _ => .ub
  | n + 1, offset =>
    if offset < src.length then
      match Utf8.iterate (src ++ [0]) offset src.length with
      | .ok (len, _) =>
        if ¬ len > 0 then .die msgUtf8
        else if len = 1 then
          let b := src.getD offset 0
          if ¬ printOrSpace b then .die msgAscii
          else if b = 13 then .die msgCr
          else checkChars src n (offset + 1)
        else checkChars src n (offset + len.toNat)
      | .die m => .die m
      | .ub => .ub
    else .ok ()

/-- A source is loaded, spvm_toke.c 2854-2883. -/
def source (src : Bytes) : Out Unit := checkChars src (src.length + 1) 0

/-! ## Tokens -/

/-- The operator tokens, by the token and the kind or the flag of its operation. -/
inductive Op where
  | concat | concatAssign
  | add | inc | addAssign
  | sub | dec | subAssign | arrow
  | mul | mulAssign
  | div | divAssign
  | mod | modAssign
  | xor | xorAssign
  | bitOr | or | orAssign
  | bitAnd | and | andAssign
  | assign | eq | fatComma
  | lt | le | cmp | shl | shlAssign
  | gt | ge | shr | shrAssign | ushr | ushrAssign
  | not | ne | bitNot | ref
  | lparen | rparen | lbracket | rbracket | lbrace | rbrace | comma | colon | semicolon | at
deriving DecidableEq, Repr

/-- What `SPVM_yylex` returns.  `outmost` is `OUTMOST_CLASS` (the `&` of `&foo`), `str` is a `CONSTANT` of string type, `byte` one of
byte type, `kw` is a keyword token, `name` is `SYMBOL_NAME`, `var` is `VAR_NAME` with the name without `$`, `deref` is the first `$`
of `$$`. -/
inductive Tok where
  | op (o : Op)
  | outmost
  | const (c : Const)
  | byte (b : UInt8)
  | str (v : Bytes)
  | var (n : Bytes)
  | exception
  | deref
  | kw (n : Bytes)
  | name (n : Bytes)
  | eof
deriving DecidableEq, Repr

/-- `SPVM_TOKE_C_VAR_EXPANSION_STATE_*`, include/spvm_toke.h. -/
inductive Expand where
  | no | first | var | second | begin
deriving DecidableEq, Repr

/-- The state of the tokenizer between two tokens. -/
structure St where
  /-- `ch_ptr` -/
  rest : Bytes
  /-- `current_line` -/
  line : Nat
  /-- `line_begin_ch_ptr` -/
  lineBegin : Nat
  /-- `line_begin_after_shebang_line_ch_ptr` -/
  shebang : Option Nat
  /-- `current_file` -/
  file : Bytes
  /-- `before_token_is_arrow` -/
  arrow : Bool
  /-- `previous_token_is_heredoc` -/
  heredoc : Bool
  /-- `expect_method_name` -/
  method : Bool
  /-- `expect_field_name` -/
  field : Bool
  /-- `var_expansion_state` -/
  expand : Expand
  /-- `next_string_literal_ch_ptr` -/
  next : Option Nat
deriving DecidableEq, Repr

/-- The state at the beginning of a source, spvm_toke.c 2885-2889. -/
def start (file src : Bytes) : St := ⟨src, 1, src.length, none, file, false, false, false, false, .no, none⟩

/-- The flags are cleared at the beginning of `SPVM_yylex`, spvm_toke.c 46-68. -/
def St.clear (st : St) : St := { st with arrow := false, heredoc := false, method := false, field := false, expand := .no }

/-! ## Characters -/

/-- `SPVM_TOKE_is_white_space`, spvm_toke.c 2931-2940. -/
def isWhite (b : UInt8) : Bool := b == 32 || b == 13 || b == 10 || b == 9 || b == 12

/-- `SPVM_TOKE_isalpha_ascii`, spvm_toke.c 3079-3088. -/
def isAlpha (b : UInt8) : Bool := (97 ≤ b.toNat && b.toNat ≤ 122) || (65 ≤ b.toNat && b.toNat ≤ 90)

/-- The next character of the text satisfies `p`. -/
def headIs (p : UInt8 → Bool) : Bytes → Bool
  | b :: _ => p b
  | [] => false

/-- `strstr` finds the text. -/
def hasSub (p : Bytes) : Bytes → Bool
  | [] => p.isPrefixOf []
  | b :: r => p.isPrefixOf (b :: r) || hasSub p r

/-- The text after spaces, the loops of spvm_toke.c 411-413, 420-422 and others. -/
def spaces (s : Bytes) : Bytes := s.dropWhile (· == 32)

/-! ## Comments, directives, POD -/

def msgLineBegin : String := "A line directive must begin from the beggining of the line."
def msgLineEnd : String := "A line directive must end with \"\\n\"."
def msgLineNone : String := "A line directive must have a line number."
def msgLineRange : String := "The line number given to a line directive must be a positive 32bit integer."
def msgFileBegin : String := "A file directive must begin from the beggining of the source code excluding a shebang line."
def msgFileStart : String := "A file directive must start with '\"'."
def msgFileClose : String := "A file in a file directive must end with \"."
def msgFileEnd : String := "A file directive must end with \"\\n\"."
def msgFileNone : String := "A file directive must have a file path."
def msgLibBegin : String := "A lib directive must begin from the beggining of the line."
def msgLibStart : String := "The directory specified by a lib directive must start with '\"'."
def msgLibClose : String := "The directory specified by a lib directive must end with \"."
def msgLibEnd : String := "The directory specified by a lib directive must end with \"\\n\"."
def msgLibNone : String := "The directory specified by a lib directive must not be an empty string."

/-- A line directive, spvm_toke.c 402-447; `r` is the text after `#line`. -/
def lineDirective (st : St) (r : Bytes) : Out St :=
  if st.lineBegin ≠ st.rest.length then .die msgLineBegin
  else
    let s := spaces r
    let t := s.dropWhile (fun b => isDec b || b == 45)
    match spaces t with
    | 10 :: u =>
      if s.length = (spaces t).length then .die msgLineNone
      else
        let n := NumStr.strtoll s 10
        if 1 ≤ n.num ∧ n.num ≤ 2147483647 ∧ n.erange = false then
          .ok { st with rest := u, line := n.num.toNat, lineBegin := u.length }
        else .die msgLineRange
    | _ => .die msgLineEnd

/-- The loops to the closing `"`, spvm_toke.c 468-477 and 528-536: they end at `"` or a line feed, not at the end of the
source. -/
def quoted (msg : String) : Bytes → Out (Bytes × Bytes)
  | [] => .ub
  | b :: r =>
    if b = 34 then .ok ([], r)
    else if b = 10 then .die msg
    else
      match quoted msg r with
      | .ok (v, t) => .ok (b :: v, t)
      | .die m => .die m
      | .ub => .ub

/-- A file directive, spvm_toke.c 449-509; `r` is the text after `#file`.  The current line is not changed. -/
def fileDirective (src : Bytes) (st : St) (r : Bytes) : Out St :=
  if ¬ (st.rest.length = src.length ∨ st.shebang = some st.rest.length) then .die msgFileBegin
  else
    match spaces r with
    | 34 :: q =>
      match quoted msgFileClose q with
      | .ok (v, t) =>
        match spaces t with
        | 10 :: u => if v = [] then .die msgFileNone else .ok { st with rest := u, file := v, lineBegin := u.length }
        | _ => .die msgFileEnd
      | .die m => .die m
      | .ub => .ub
    | _ => .die msgFileStart

/-- A lib directive, spvm_toke.c 510-562; `r` is the text after `#lib`.  The current line is not changed. -/
def libDirective (st : St) (r : Bytes) : Out St :=
  if st.lineBegin ≠ st.rest.length then .die msgLibBegin
  else
    match spaces r with
    | 34 :: q =>
      match quoted msgLibClose q with
      | .ok (v, t) =>
        match spaces t with
        | 10 :: u => if v = [] then .die msgLibNone else .ok { st with rest := u, lineBegin := u.length }
        | _ => .die msgLibEnd
      | .die m => .die m
      | .ub => .ub
    | _ => .die msgLibStart

/-- A comment, spvm_toke.c 563-590; `r` is the text after `#`. -/
def comment (src : Bytes) (st : St) (r : Bytes) : St :=
  let st1 :=
    match r.dropWhile (· != 10) with
    | _ :: u => { st with rest := u, line := st.line + 1, lineBegin := u.length }
    | [] => { st with rest := [] }
  if st.rest.length = src.length ∧ begins 33 r then { st1 with shebang := some st1.rest.length } else st1

/-- At `#`, spvm_toke.c 391-594; `r` is the text after `#`. -/
def hash (src : Bytes) (st : St) (r : Bytes) : Out St :=
  if [108, 105, 110, 101, 32].isPrefixOf r then lineDirective st (r.drop 4)
  else if [102, 105, 108, 101, 32].isPrefixOf r then fileDirective src st (r.drop 4)
  else if [108, 105, 98, 32].isPrefixOf r then libDirective st (r.drop 3)
  else .ok (comment src st r)

/-- `cut` and the end of the source or white space, spvm_toke.c 611-615. -/
def isCut : Bytes → Bool
  | 99 :: 117 :: 116 :: t => match t with | [] => true | b :: _ => isWhite b
  | _ => false

/-- The loop through POD, spvm_toke.c 599-627: the text after it and the number of line feeds counted. -/
def pod : Bytes → Bytes × Nat
  | [] => ([], 0)
  | b :: r =>
    if b = 61 ∧ isCut r then ((r.drop 3).dropWhile (· != 10), 0)
    else ((pod r).1, (pod r).2 + if b = 10 then 1 else 0)

/-- Whether the position is the beginning of the source or the character before it is a line feed, spvm_toke.c 597. -/
def afterLf (src rest : Bytes) : Bool :=
  rest.length == src.length || src[src.length - rest.length - 1]? == some 10

/-- POD begins at `=`, spvm_toke.c 597; `r` is the text after `=`. -/
def podBegins (src rest r : Bytes) : Bool :=
  afterLf src rest && match r with | c :: _ => isAlpha c | [] => false

/-- White space, comments, directives and POD, spvm_toke.c 142-164, 391-594 and 595-629.  `none`: a token begins here. -/
def skip (src : Bytes) (st : St) : Out (Option St) :=
  match st.rest with
  | [] => .ok none
  | b :: r =>
    if b = 32 ∨ b = 9 ∨ b = 12 then .ok (some { st with rest := r })
    else if b = 10 then .ok (some { st with rest := r, line := st.line + 1, lineBegin := r.length })
    else if b = 35 then
      match hash src st r with
      | .ok st' => .ok (some st')
      | .die m => .die m
      | .ub => .ub
    else if b = 61 ∧ podBegins src st.rest r then
      .ok (some { st with rest := (pod (r.drop 1)).1, line := st.line + (pod (r.drop 1)).2 })
    else .ok none

/-! ## Operators -/

/-- The operators with `=`: the token with and without it. -/
def withAssign (plain withEq : Op) : Bytes → Op × Bytes
  | 61 :: r => (withEq, r)
  | r => (plain, r)

/-- At `<`, spvm_toke.c 656-670 and 781-813, without here documents.  A single `<` advances twice. -/
def less : Bytes → Op × Bytes
  | 60 :: r => withAssign .shl .shlAssign r
  | 61 :: 62 :: r => (.cmp, r)
  | 61 :: r => (.le, r)
  | r => (.lt, r.drop 1)

/-- At `>`, spvm_toke.c 815-872.  A single `>` advances twice. -/
def greater : Bytes → Op × Bytes
  | 62 :: 62 :: r => withAssign .ushr .ushrAssign r
  | 62 :: r => withAssign .shr .shrAssign r
  | 61 :: r => (.ge, r)
  | r => (.gt, r.drop 1)

/-- The operator that begins with this character, spvm_toke.c 167-390, 630-654, 656-896, 1400-1405 and 1520-1540; `r` is the text
after the character.  The sign of a number, `&` before a name, POD and here documents are handled before. -/
def operator (b : UInt8) (r : Bytes) : Option (Op × Bytes) :=
  if b = 46 then some (withAssign .concat .concatAssign r)
  else if b = 43 then some (if begins 43 r then (.inc, r.drop 1) else withAssign .add .addAssign r)
  else if b = 45 then
    some (if begins 62 r then (.arrow, r.drop 1) else if begins 45 r then (.dec, r.drop 1) else withAssign .sub .subAssign r)
  else if b = 42 then some (withAssign .mul .mulAssign r)
  else if b = 47 then some (withAssign .div .divAssign r)
  else if b = 37 then some (withAssign .mod .modAssign r)
  else if b = 94 then some (withAssign .xor .xorAssign r)
  else if b = 124 then some (if begins 124 r then (.or, r.drop 1) else withAssign .bitOr .orAssign r)
  else if b = 38 then some (if begins 38 r then (.and, r.drop 1) else withAssign .bitAnd .andAssign r)
  else if b = 61 then
    some (if begins 61 r then (.eq, r.drop 1) else if begins 62 r then (.fatComma, r.drop 1) else (.assign, r))
  else if b = 60 then some (less r)
  else if b = 62 then some (greater r)
  else if b = 33 then some (if begins 61 r then (.ne, r.drop 1) else (.not, r))
  else if b = 126 then some (.bitNot, r)
  else if b = 92 then some (.ref, r)
  else if b = 40 then some (.lparen, r)
  else if b = 41 then some (.rparen, r)
  else if b = 91 then some (.lbracket, r)
  else if b = 93 then some (.rbracket, r)
  else if b = 123 then some (.lbrace, r)
  else if b = 125 then some (.rbrace, r)
  else if b = 44 then some (.comma, r)
  else if b = 58 then some (.colon, r)
  else if b = 59 then some (.semicolon, r)
  else if b = 64 then some (.at, r)
  else none

/-! ## Here documents -/

def msgHereLength : String := "The length of a here document name must be greater than or equal to 0."
def msgHereDigit : String := "A here document name cannot start with a number."
def msgHereName : String := "A here document name cannot contain \"__\"."
def msgHereFirst : String := "The first line of the here document must end with \"';\" + a line terminator."
def msgHereEnd : String := "A here document must end with its here document name + a line terminator."

/-- The loop through the lines of a here document, spvm_toke.c 717-746: the text of the here document and the text after its
end; `none` at the end of the source.  `bol` is `previous_is_line_terminator`. -/
def hereBody (nm : Bytes) : Bool → Bytes → Option (Bytes × Bytes)
  | _, [] => none
  | bol, b :: r =>
    if bol && (nm ++ [10]).isPrefixOf (b :: r) then some ([], (b :: r).drop (nm.length + 1))
    else
      match hereBody nm (b == 10) r with
      | some (v, t) => some (b :: v, t)
      | none => none

/-- A here document, spvm_toke.c 673-780; `r` is the text after `<<'`. -/
def heredoc (st : St) (r : Bytes) : Out (Tok × St) :=
  let nm := r.takeWhile isAlnumU
  let s := r.dropWhile isAlnumU
  if nm = [] then .die msgHereLength
  else if headIs isDec nm then .die msgHereDigit
  else if hasSub [95, 95] nm then .die msgHereName
  else
    match s with
    | 39 :: 59 :: 10 :: t =>
      match hereBody nm true t with
      | some (v, u) =>
        .ok (.str v, { st.clear with rest := u, line := st.line + 1 + v.count 10 + 1, lineBegin := u.length, heredoc := true })
      | none => .die msgHereEnd
    | _ => .die msgHereFirst

/-! ## Names and variables -/

/-- The loops through a symbol name, spvm_toke.c 2002-2016 and 1442-1456: the name and the text after it. -/
def symbol : Bytes → Bytes × Bytes
  | [] => ([], [])
  | b :: r =>
    if isAlnumU b then (b :: (symbol r).1, (symbol r).2)
    else if b = 58 then
      match r with
      | c :: r' => if c = 58 then (58 :: 58 :: (symbol r').1, (symbol r').2) else ([], b :: r)
      | [] => ([], b :: r)
    else ([], b :: r)

/-- The keywords, spvm_toke.c 2049-2548. -/
def keywords : List String :=
  ["alias", "allow", "args_width", "as", "basic_type_id", "break", "byte", "can", "case", "cmp", "class", "compile_type_name", "copy",
    "default", "die", "div_uint", "div_ulong", "double", "dump", "elsif", "else", "enum", "eq", "eval", "eval_error_id", "extends",
    "for", "float", "false", "gt", "ge", "has", "if", "interface", "int", "interface_t", "isa", "isa_error", "isweak",
    "is_compile_type", "is_type", "is_error", "is_read_only", "last", "length", "lt", "le", "long", "make_read_only", "method",
    "mod_uint", "mod_ulong", "mulnum_t", "mutable", "my", "native", "ne", "next", "new", "new_string_len", "of", "our", "object",
    "print", "private", "protected", "public", "precompile", "pointer", "return", "require", "required", "rw", "ro", "say", "static",
    "switch", "string", "short", "scalar", "true", "type_name", "undef", "unless", "unweaken", "use", "version", "void", "warn",
    "while", "weaken", "wo", "INIT", "__END__", "__PACKAGE__", "__FILE__", "__LINE__"]

/-- The bytes of an ASCII text. -/
def ascii (s : String) : Bytes := s.toList.map (fun c => UInt8.ofNat c.toNat)

def msgSymbolUnder : String := "The symbol name cannnot constain \"__\"."
def msgSymbolColons : String := "The symbol name cannnot contains \"::::\"."
def msgSymbolFat : String := "The string literal of the left operand of the fat camma cannnot contains \"::\"."

/-- The token of a keyword, spvm_toke.c 2049-2548.  `scalar` advances once more; `__END__` goes to the end of the source.  The
tokens of the other keywords are told apart by their name. -/
def keyword (st : St) (nm rest : Bytes) : Tok × St :=
  if nm = ascii "scalar" then (.kw nm, { st.clear with rest := rest.drop 1 })
  else if nm = ascii "__END__" then (.eof, { st.clear with rest := [] })
  else if nm = ascii "__FILE__" then (.str st.file, { st.clear with rest := rest })
  else if nm = ascii "__LINE__" then (.const (.int st.line), { st.clear with rest := rest })
  else if nm = ascii "has" then (.kw nm, { st.clear with rest := rest, field := true })
  else if nm = ascii "method" then (.kw nm, { st.clear with rest := rest, method := true })
  else (.kw nm, { st.clear with rest := rest })

/-- Whether `=>` follows after white space, spvm_toke.c 2024-2035. -/
def fatCommaNext (rest : Bytes) : Bool := [61, 62].isPrefixOf (rest.dropWhile isWhite)

/-- A symbol name, spvm_toke.c 1994-2596.  `scalar` at the end of the source advances over the terminating NUL. -/
def word (st : St) : Out (Tok × St) :=
  let nm := (symbol st.rest).1
  let rest := (symbol st.rest).2
  let fat := fatCommaNext rest
  if ¬ fat ∧ ¬ st.method ∧ ¬ st.field ∧ nm ∈ keywords.map ascii then
    if nm = ascii "scalar" ∧ rest = [] then .ub else .ok (keyword st nm rest)
  else if hasSub [95, 95] nm then .die msgSymbolUnder
  else if hasSub [58, 58, 58, 58] nm then .die msgSymbolColons
  else if fat then
    if hasSub [58, 58] nm then .die msgSymbolFat else .ok (.str nm, { st.clear with rest := rest })
  else .ok (.name nm, { st.clear with rest := rest })

def msgVarClose : String := "The variable name is not closed by \"}\"."
def msgVarUnder : String := "The variable name cannnot contain \"__\"."
def msgVarBegin : String := "The variable name cannnot begin with \"$::\"."
def msgVarEnd : String := "The variable name cannnot end with \"::\"."
def msgVarColons : String := "The variable name cannnot contain \"::::\"."
def msgVarDigit : String := "The symbol name part of the variable name cannnot begin with a number."

/-- The checks of a variable name, spvm_toke.c 1485-1511; `nm` is the name without `$`. -/
def varCheck (nm : Bytes) : Option String :=
  if hasSub [95, 95] nm then some msgVarUnder
  else if [58, 58].isPrefixOf nm then some msgVarBegin
  else if [58, 58].isPrefixOf nm.reverse then some msgVarEnd
  else if hasSub [58, 58, 58, 58] nm then some msgVarColons
  else if headIs isDec nm then some msgVarDigit
  else none

/-- A variable name, spvm_toke.c 1429-1518; `r` is the text after `$`. -/
def varTok (st : St) (r : Bytes) : Out (Tok × St) :=
  let brace := begins 123 r
  let s := if brace then r.drop 1 else r
  let nm := (symbol s).1
  let rest := (symbol s).2
  if brace ∧ ¬ begins 125 rest then .die msgVarClose
  else
    match varCheck nm with
    | some m => .die m
    | none => .ok (.var nm, { st.clear with rest := if brace then rest.drop 1 else rest })

/-- At `$`, spvm_toke.c 1406-1518; `r` is the text after `$`. -/
def dollar (st : St) (r : Bytes) : Out (Tok × St) :=
  if begins 36 r then .ok (.deref, { st.clear with rest := r })
  else if begins 64 r then .ok (.exception, { st.clear with rest := r.drop 1 })
  else if [123, 64, 125].isPrefixOf r then .ok (.exception, { st.clear with rest := r.drop 3 })
  else varTok st r

/-! ## Literals -/

/-- The line feeds the loop of a string literal counts, spvm_toke.c 1166-1372: those that are not in an escape character.  The
first argument bounds the number of rounds. -/
def countLf : Nat → Bytes → Nat
  | 0, _ => 0
  | _ + 1, [] => 0
  | n + 1, b :: r =>
    if b = 92 then
      match r with
      | [] => 0
      | c :: r' => countLf n (StrLit.escape c r').rest
    else (if b = 10 then 1 else 0) + countLf n r

/-- The line feeds the loop of a single-quoted string literal counts, spvm_toke.c 1594-1628. -/
def countLfQ : Nat → Bytes → Nat
  | 0, _ => 0
  | _ + 1, [] => 0
  | n + 1, b :: r =>
    if b = 92 then
      match r with
      | [] => 0
      | c :: r' => if c = 92 ∨ c = 39 then countLfQ n r' else countLfQ n (c :: r')
    else (if b = 10 then 1 else 0) + countLfQ n r

/-- A string literal, spvm_toke.c 974-1400; `r` is the text after the opening `"`, or the position where the literal goes on after
a variable expansion.  The beginning of the line is set to the position after the literal when there is a line feed in it. -/
def stringTok (st : St) (r : Bytes) : Out (Tok × St) :=
  match cut r with
  | .ok c =>
    match strLit (r.length + 1) r with
    | .ok t =>
      let k := countLf c.raw.length c.raw
      .ok (.str t.value, { st.clear with
        rest := t.rest, line := st.line + k, lineBegin := if k = 0 then st.lineBegin else c.rest.length
        expand := if c.term = 36 then .first else .no
        next := match t.next with | some n => some n.length | none => st.next })
    | .die m => .die m
    | .ub => .ub
  | .die m => .die m
  | .ub => .ub

/-- A single-quoted string literal, spvm_toke.c 1543-1645; `r` is the text after `q'`. -/
def singleTok (st : St) (r : Bytes) : Out (Tok × St) :=
  match StrLit.cutQ r with
  | .ok (raw, rest) =>
    match singleLit r with
    | .ok (v, _) =>
      let k := countLfQ raw.length raw
      .ok (.str v, { st.clear with
        rest := rest, line := st.line + k, lineBegin := if k = 0 then st.lineBegin else rest.length })
    | .die m => .die m
    | .ub => .ub
  | .die m => .die m
  | .ub => .ub

/-- A character literal, spvm_toke.c 897-973; `r` is the text after the opening quote. -/
def charTok (st : St) (r : Bytes) : Out (Tok × St) :=
  match charLit r with
  | .ok (b, rest) => .ok (.byte b, { st.clear with rest := rest })
  | .die m => .die m
  | .ub => .ub

/-- A numeric literal, spvm_toke.c 221-231 and 1646-1990. -/
def numTok (lc : Libc) (st : St) : Out (Tok × St) :=
  match Literal.lexNum lc st.rest with
  | .ok (some (c, rest)) => .ok (.const c, { st.clear with rest := rest })
  | .ok none => .ub
  | .die m => .die m
  | .ub => .ub

def msgChar : String := "Use of the character code is not allowed in source code."

/-- After an operator: the flags of spvm_toke.c 232-239 and 1531-1539. -/
def operatorTok (st : St) (o : Op) (rest : Bytes) : Tok × St :=
  (.op o, { st.clear with rest := rest, arrow := o == .arrow, method := o == .arrow, field := st.arrow && o == .lbrace })

/-- The token that begins with the character `b`; `r` is the text after it.  The `switch` of spvm_toke.c 144-2602 without the parts
of `skip`.  `<` and `>` at the end of the source advance over the terminating NUL. -/
def token (lc : Libc) (st : St) (b : UInt8) (r : Bytes) : Out (Tok × St) :=
  if isDec b ∨ (b = 45 ∧ headIs isDec r) then numTok lc st
  else if b = 39 then charTok st r
  else if b = 34 then stringTok st r
  else if b = 36 then dollar st r
  else if b = 113 ∧ begins 39 r then singleTok st (r.drop 1)
  else if isAlpha b ∨ b = 95 then word st
  else if b = 60 ∧ [60, 39].isPrefixOf r then heredoc st (r.drop 2)
  else if b = 38 ∧ headIs (fun c => isAlpha c || c == 95) r then .ok (.outmost, { st.clear with rest := r, method := true })
  else
    match operator b r with
    | some (o, rest) => if (o = .lt ∨ o = .gt) ∧ r = [] then .ub else .ok (operatorTok st o rest)
    | none => .die msgChar

/-! ## `SPVM_yylex` -/

/-- The position where a string literal goes on is reached, spvm_toke.c 98-102. -/
def resume (st : St) : St :=
  if st.next = some st.rest.length then { st with next := none, expand := .second } else st

/-- The loop of `SPVM_yylex`, spvm_toke.c 70-2603.  At the end of the source the token is `END_OF_FILE` (76-83).  The first
argument bounds the number of rounds. -/
def lexLoop (lc : Libc) (src : Bytes) : Nat → St → Out (Tok × St)
  | 0, _ => .ub
  | n + 1, st =>
    if st.line > 2147483647 then .ub
    else
      match st.rest with
      | [] => .ok (.eof, st.clear)
      | b :: r =>
        match (resume st).expand with
        | .first => .ok (.op .concat, { (resume st).clear with expand := .var })
        | .second => .ok (.op .concat, { (resume st).clear with expand := .begin })
        | .begin => stringTok (resume st) st.rest
        | .no | .var =>
          if (resume st).expand = .no ∧ st.heredoc then .ok (.op .semicolon, (resume st).clear)
          else
            match skip src (resume st) with
            | .ok (some st') => lexLoop lc src n st'
            | .ok none => token lc (resume st) b r
            | .die m => .die m
            | .ub => .ub

/-- `SPVM_yylex`: the token and the state after it. -/
def lex (lc : Libc) (src : Bytes) (st : St) : Out (Tok × St) :=
  match lexLoop lc src (st.rest.length + 1) st with
  | .ok (t, st') => if st'.line > 2147483647 then .ub else .ok (t, st')
  | .die m => .die m
  | .ub => .ub

/-- Calls of `SPVM_yylex` one after the other: the tokens before the end of the source, each with the line the tokenizer gives it
and the number of bytes of the source that have been read. -/
inductive Run (lc : Libc) (src : Bytes) : St → List (Tok × Nat × Nat) → St → Prop where
  | nil {st} : Run lc src st [] st
  | cons {st st1 st2 t ts} : lex lc src st = .ok (t, st1) → t ≠ .eof → Run lc src st1 ts st2 →
      Run lc src st ((t, st1.line, src.length - st1.rest.length) :: ts) st2

/-- The tokens up to the end of the source, with their lines. -/
def tokens (lc : Libc) (src : Bytes) : Nat → St → Out (List (Tok × Nat))
  | 0, _ => .ub
  | n + 1, st =>
    match lex lc src st with
    | .ok (.eof, _) => .ok []
    | .ok (t, st') =>
      match tokens lc src n st' with
      | .ok ts => .ok ((t, st'.line) :: ts)
      | .die m => .die m
      | .ub => .ub
    | .die m => .die m
    | .ub => .ub

end Toke
end SPVM
