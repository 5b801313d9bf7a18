import Verif.Model.NumStr
/-!
# Numeric literals

The part of the tokenizer that reads a numeric literal, lib/SPVM/Builder/src/spvm_toke.c 1646-1967.

The source is the list of the bytes from the current position to the end; `[]` is the position of the terminating NUL (a source
has no other NUL, spvm_toke.c 2775-2890).  A read after that NUL is `ub`.  A compilation error is `die`: the real tokenizer
goes on after the error to find more errors, but no program comes out of the compilation.

`strtof` and `strtod` are not modelled: a literal of a floating point type keeps its sign and the text these functions get, and
whether they read the whole text is a parameter.
-/
namespace SPVM
namespace Literal
open VM (Bytes)
open NumStr (digitLoop isSpace sign hasPrefix)

/-- `SPVM_TOKE_isdigit_ascii`, spvm_toke.c 3114-3124. -/
def isDec (b : UInt8) : Bool := 48 ≤ b.toNat && b.toNat ≤ 57

/-- `SPVM_TOKE_is_hex_number`, spvm_toke.c 2953-2962. -/
def isHex (b : UInt8) : Bool := isDec b || (97 ≤ b.toNat && b.toNat ≤ 102) || (65 ≤ b.toNat && b.toNat ≤ 70)

/-- The result of `strtoull`: the value, whether `errno` is `ERANGE`, and the text from `end` on. -/
structure UParsed where
  num : Nat
  erange : Bool
  rest : Bytes
deriving DecidableEq, Repr

/-- After the digits: a number with a minus sign is negated modulo 2^64. -/
def convertU (neg : Bool) (acc : Nat) (ovf : Bool) (rest : Bytes) : UParsed :=
  if ovf then ⟨18446744073709551615, true, rest⟩
  else ⟨if neg then (18446744073709551616 - acc) % 18446744073709551616 else acc, false, rest⟩

/-- `strtoull(s, &end, base)` of the C library, after C11 7.22.1.4 and the digit loop of the GNU C library. -/
def strtoull (s : Bytes) (base : Nat) : UParsed :=
  let t := s.dropWhile isSpace
  let u := (sign t).2
  if base = 16 ∧ hasPrefix u then
    let r := digitLoop base 0 false false (u.drop 2)
    if r.2.2.1 then convertU (sign t).1 r.1 r.2.1 r.2.2.2 else ⟨0, false, u.drop 1⟩
  else
    let r := digitLoop base 0 false false u
    if r.2.2.1 then convertU (sign t).1 r.1 r.2.1 r.2.2.2 else ⟨0, false, s⟩

/-- The variable `digit`, spvm_toke.c 1657-1679: the base the second character selects. -/
def baseOf : Bytes → Nat
  | b0 :: b1 :: _ =>
    if b0 = 48 then
      if b1 = 120 ∨ b1 = 88 then 16
      else if b1 = 98 ∨ b1 = 66 then 2
      else if isDec b1 ∨ b1 = 95 then 8
      else 10
    else 10
  | _ => 10

/-- The loop for base 16, spvm_toke.c 1690-1710; `e` is `before_is_exponant`.  What is scanned, and the rest. -/
def scanHex (e : Bool) : Bytes → Bytes × Bytes
  | [] => ([], [])
  | b :: bs =>
    if isHex b ∨ b = 95 ∨ b = 46 ∨ b = 112 ∨ b = 80 ∨ b = 45 ∨ b = 43 then
      if e = false ∧ (b = 45 ∨ b = 43) then ([], b :: bs)
      else
        let r := scanHex (e || b == 112 || b == 80) bs
        (b :: r.1, r.2)
    else ([], b :: bs)

/-- The loop for bases 8 and 2, spvm_toke.c 1713-1722. -/
def scanOct : Bytes → Bytes × Bytes
  | [] => ([], [])
  | b :: bs => if isDec b ∨ b = 95 then ((b :: (scanOct bs).1), (scanOct bs).2) else ([], b :: bs)

/-- The loop for base 10, spvm_toke.c 1724-1743. -/
def scanDec (e : Bool) : Bytes → Bytes × Bytes
  | [] => ([], [])
  | b :: bs =>
    if isDec b ∨ b = 46 ∨ b = 45 ∨ b = 43 ∨ b = 101 ∨ b = 69 ∨ b = 95 then
      if e = false ∧ (b = 45 ∨ b = 43) then ([], b :: bs)
      else
        let r := scanDec (e || b == 46 || b == 101 || b == 69) bs
        (b :: r.1, r.2)
    else ([], b :: bs)

/-- What the scan leaves: `numeric_literal`, the text from `ch_ptr` on, `is_floating_number`. -/
structure Scanned where
  text : Bytes
  rest : Bytes
  floating : Bool
deriving DecidableEq, Repr

/-- Without the underlines, spvm_toke.c 1745-1762. -/
def strip (t : Bytes) : Bytes := t.filter (fun b => b != 95)

/-- The scan of a hexadecimal literal, spvm_toke.c 1681-1710 and 1745-1767: the character after `0x` is skipped whatever it
is (`ch_ptr++` and `ch_ptr += 2`), so it must not be the NUL.  When there is an exponent and the last character is not a
decimal digit, that character is given back. -/
def scan16 : Bytes → Out Scanned
  | b0 :: b1 :: b2 :: src =>
    let r := scanHex false src
    let taken := b0 :: b1 :: b2 :: r.1
    let floating := r.1.any (fun b => b == 46 || b == 112 || b == 80)
    let last := taken.getLastD 0
    if r.1.any (fun b => b == 112 || b == 80) ∧ isDec last = false then
      .ok ⟨(strip taken).dropLast, last :: r.2, floating⟩
    else .ok ⟨strip taken, r.2, floating⟩
  | _ => .ub

/-- The scan of an octal or a binary literal, spvm_toke.c 1711-1722: two characters and the loop. -/
def scan8 : Bytes → Out Scanned
  | b0 :: b1 :: src => .ok ⟨strip (b0 :: b1 :: (scanOct src).1), (scanOct src).2, false⟩
  | _ => .ub

/-- The scan of a decimal literal, spvm_toke.c 1723-1743: one character and the loop. -/
def scan10 : Bytes → Out Scanned
  | b0 :: src =>
    let r := scanDec false src
    .ok ⟨strip (b0 :: r.1), r.2, r.1.any (fun b => b == 46 || b == 101 || b == 69)⟩
  | _ => .ub

/-- The scan, spvm_toke.c 1681-1767. -/
def scan (src : Bytes) : Out Scanned :=
  if baseOf src = 16 then scan16 src
  else if baseOf src = 8 ∨ baseOf src = 2 then scan8 src
  else scan10 src

/-- The type of a literal. -/
inductive Ty where
  | int | long | float | double
deriving DecidableEq, Repr

/-- The type and the text after the suffix, spvm_toke.c 1769-1810. -/
def suffix (floating : Bool) : Bytes → Ty × Bytes
  | [] => (if floating then .double else .int, [])
  | b :: bs =>
    if b = 108 ∨ b = 76 then (.long, bs)
    else if b = 102 ∨ b = 70 then (.float, bs)
    else if b = 100 ∨ b = 68 then (.double, bs)
    else (if floating then .double else .int, b :: bs)

/-- `parse_start_offset`, spvm_toke.c 1821-1835 and 1890-1904. -/
def startOffset (base : Nat) : Nat := if base = 16 then 2 else if base = 8 then 1 else if base = 2 then 2 else 0

def msgInt : String := "The numeric literal is out of range of maximum and minimum values of int type."
def msgLong : String := "The numeric literal is out of range of maximum and minimum values of long type."
def msgFloat : String := "Invalid float literal."
def msgDouble : String := "Invalid double literal."

/-- The conversion of an unsigned number to a signed type of `2 * half` values, which keeps the bits. -/
def toSigned (half : Nat) (n : Nat) : Int :=
  if n % (2 * half) < half then (n % (2 * half) : Nat) else (n % (2 * half) : Nat) - (2 * half : Nat)

/-- The value of an integer literal of the type whose least value is `- half`, spvm_toke.c 1815-1881 (int) and 1883-1949 (long).
`num.ival = -num.ival` is a signed negation: undefined for the least value. -/
def intValue (half : Nat) (msg : String) (base : Nat) (minus : Bool) (text : Bytes) : Out Int :=
  let p := strtoull (text.drop (startOffset base)) base
  let outOfRange : Bool :=
    if p.rest ≠ [] then true
    else if p.erange then true
    else if base = 16 ∨ base = 8 ∨ base = 2 then decide (p.num > 2 * half - 1)
    else if minus then decide (p.num > half)
    else decide (p.num > half - 1)
  let v : Out Int :=
    if base = 16 ∨ base = 8 ∨ base = 2 then
      if minus then (if toSigned half p.num = -(half : Int) then .ub else .ok (-(toSigned half p.num)))
      else .ok (toSigned half p.num)
    else if minus then .ok (toSigned half ((18446744073709551616 - p.num) % 18446744073709551616))
    else .ok (toSigned half p.num)
  match v with
  | .ok x => if outOfRange then .die msg else .ok x
  | .die m => .die m
  | .ub => .ub

/-- The constant of a literal.  A constant of a floating point type is the number `strtof` or `strtod` makes of the text,
negated when `neg` is set. -/
inductive Const where
  | int (v : Int)
  | long (v : Int)
  | float (neg : Bool) (text : Bytes)
  | double (neg : Bool) (text : Bytes)
deriving DecidableEq, Repr

/-- Whether the functions of the C library read the whole text. -/
structure Libc where
  strtof : Bytes → Bool
  strtod : Bytes → Bool

def mapOut {α β : Type} (f : α → β) : Out α → Out β
  | .ok a => .ok (f a)
  | .die m => .die m
  | .ub => .ub

/-- The constant, spvm_toke.c 1812-1967. -/
def const (lc : Libc) (base : Nat) (minus : Bool) (text : Bytes) : Ty → Out Const
  | .int => mapOut .int (intValue 2147483648 msgInt base minus text)
  | .long => mapOut .long (intValue 9223372036854775808 msgLong base minus text)
  | .float => if lc.strtof text then .ok (.float minus text) else .die msgFloat
  | .double => if lc.strtod text then .ok (.double minus text) else .die msgDouble

/-- The token of the numeric literal `src` begins with (spvm_toke.c 1646-1990) and the text after it.  `minus` is
`before_char_is_minus`. -/
def numLit (lc : Libc) (minus : Bool) (src : Bytes) : Out (Const × Bytes) :=
  match scan src with
  | .ok s => mapOut (fun c => (c, (suffix s.floating s.rest).2)) (const lc (baseOf src) minus s.text (suffix s.floating s.rest).1)
  | .die m => .die m
  | .ub => .ub

/-- The tokenizer at a digit, or at a minus sign before a digit, spvm_toke.c 221-231 and 1646-1990.  Other characters do not
begin a numeric literal. -/
def lexNum (lc : Libc) : Bytes → Out (Option (Const × Bytes))
  | [] => .ok none
  | b :: bs =>
    if isDec b then mapOut some (numLit lc false (b :: bs))
    else if b = 45 then
      match bs with
      | c :: _ => if isDec c then mapOut some (numLit lc true bs) else .ok none
      | [] => .ok none
    else .ok none

end Literal
end SPVM
