import Verif.Model.StrBuf
import Verif.Model.ObjList
/-!
# String functions of `Fn` (lib/SPVM/Fn.spvm)
-/
namespace SPVM

/-- `for (my $i = start; $i < start + n; $i++)` with an early exit: the body returns `some r` where the code executes
`last` or `return`. -/
def searchUp (start n : Nat) (body : Nat → Out (Option β)) : Out (Option β) :=
  match n with
  | 0 => .ok none
  | n + 1 => do
    let r ← body start
    match r with
    | some r => .ok (some r)
    | none => searchUp (start + 1) n body

/-- `for (my $i = lo + n - 1; $i >= lo; $i--)` with an early exit. -/
def searchDown (lo n : Nat) (body : Nat → Out (Option β)) : Out (Option β) :=
  match n with
  | 0 => .ok none
  | n + 1 => do
    let r ← body (lo + n)
    match r with
    | some r => .ok (some r)
    | none => searchDown lo n body

namespace FnStr
open VM (Bytes)
open Str

/-- The value of `$string->[$i]`: a `byte` is signed (`SPVM_IMPLEMENT_GET_ARRAY_ELEMENT_BYTE`, spvm_implement.h 785-800). -/
def sbyte (b : UInt8) : Int := if b.toNat < 128 then b.toNat else (b.toNat : Int) - 256

/-! ## Character classes, Fn.spvm 278-468 -/

/-- `is_alnum`, Fn.spvm 278-286. -/
def isAlnum (c : Int) : Bool := (c ≥ 65 ∧ c ≤ 90) ∨ (c ≥ 97 ∧ c ≤ 122) ∨ (c ≥ 48 ∧ c ≤ 57)
/-- `is_alpha`, Fn.spvm 288-296. -/
def isAlpha (c : Int) : Bool := (c ≥ 65 ∧ c ≤ 90) ∨ (c ≥ 97 ∧ c ≤ 122)
/-- `is_blank`, Fn.spvm 300-309. -/
def isBlank (c : Int) : Bool := c ≥ 0x20 ∨ c ≤ 9
/-- `is_cntrl`, Fn.spvm 313-321. -/
def isCntrl (c : Int) : Bool := (c ≥ 0 ∧ c ≤ 0x1f) ∨ c = 0x7f
/-- `is_digit`, Fn.spvm 323-331. -/
def isDigit (c : Int) : Bool := c ≥ 48 ∧ c ≤ 57
/-- `is_graph`, Fn.spvm 333-341. -/
def isGraph (c : Int) : Bool := c ≥ 0x21 ∧ c ≤ 0x7E
/-- `is_hex_digit`, Fn.spvm 343-351. -/
def isHexDigit (c : Int) : Bool := (c ≥ 48 ∧ c ≤ 57) ∨ (c ≥ 97 ∧ c ≤ 102) ∨ (c ≥ 65 ∧ c ≤ 70)
/-- `is_lower`, Fn.spvm 353-361. -/
def isLower (c : Int) : Bool := c ≥ 97 ∧ c ≤ 122
/-- `is_perl_space`, Fn.spvm 370-384. -/
def isPerlSpace (c : Int) : Bool := c = 0x20 ∨ c = 0x0D ∨ c = 0x0A ∨ c = 9 ∨ c = 0x0C
/-- `is_perl_word`, Fn.spvm 386-402. -/
def isPerlWord (c : Int) : Bool :=
  if c ≥ 97 ∧ c ≤ 122 then true else if c ≥ 65 ∧ c ≤ 90 then true else if c = 95 then true else if c ≥ 48 ∧ c ≤ 57 then true else false
/-- `is_print`, Fn.spvm 406-414. -/
def isPrint (c : Int) : Bool := c ≥ 0x20 ∧ c ≤ 0x7E
/-- `is_punct`, Fn.spvm 416-424. -/
def isPunct (c : Int) : Bool := (c ≥ 0x21 ∧ c ≤ 0x2F) ∨ (c ≥ 0x3A ∧ c ≤ 0x40) ∨ (c ≥ 0x5B ∧ c ≤ 0x60) ∨ (c ≥ 0x7B ∧ c ≤ 0x7E)
/-- `is_space`, Fn.spvm 426-434. -/
def isSpace (c : Int) : Bool := (c ≥ 9 ∧ c ≤ 0x0D) ∨ c = 0x20
/-- `is_unicode_scalar_value`, Fn.spvm 436-447. -/
def isScalar (c : Int) : Bool := if c ≥ 0 ∧ c ≤ 0x10FFFF then (if ¬ (c ≥ 0xD800 ∧ c ≤ 0xDFFF) then true else false) else false
/-- `is_upper`, Fn.spvm 449-457. -/
def isUpper (c : Int) : Bool := c ≥ 65 ∧ c ≤ 90
/-- `is_xdigit`, Fn.spvm 459-467. -/
def isXdigit (c : Int) : Bool := (c ≥ 65 ∧ c ≤ 70) ∨ (c ≥ 97 ∧ c ≤ 102) ∨ (c ≥ 48 ∧ c ≤ 57)
/-- `to_lower`, Fn.spvm 868-874. -/
def toLower (c : Int) : Int := if c ≥ 65 ∧ c ≤ 90 then c + 0x20 else c
/-- `to_upper`, Fn.spvm 876-882. -/
def toUpper (c : Int) : Int := if c ≥ 97 ∧ c ≤ 122 then c - 0x20 else c

/-! ## Arithmetic -/

/-- `abs`, Fn.spvm 57-67. -/
def abs (v : Int) : Out Int := if v > 0 then .ok v else chk32 (-v)
/-- `labs`, Fn.spvm 499-509. -/
def labs (v : Int) : Out Int := if v > 0 then .ok v else chk64 (-v)

def msgExpNeg : String := "The exponent number $exponant must be greater than or equal to 0."
def msgZeroZero : String := "If the base number $base is 0, the exponent number $exponant number cannnot be 0."

/-- `powi`, Fn.spvm 571-589. -/
def powi (base e : Int) : Out Int :=
  if ¬ e ≥ 0 then .die msgExpNeg
  else if base = 0 ∧ ¬ e ≠ 0 then .die msgZeroZero
  else forLoop 0 e.toNat (fun _ r => mul32 r base) 1

/-- `powl`, Fn.spvm 591-608.  The product is a `long`, but the loop counter `$i` is an `int`: `$i++` is an `int` addition. -/
def powl (base e : Int) : Out Int :=
  if ¬ e ≥ 0 then .die msgExpNeg
  else if base = 0 ∧ ¬ e ≠ 0 then .die msgZeroZero
  else forLoop 0 e.toNat (fun i r => do
    let r ← chk64 (r * base)
    let _ ← add32 i 1
    .ok r) 1

/-! ## Searching -/

def msgSubUndef : String := "The substring $substring must be defined."
def msgBegin : String := "The begin $begin must be between 0 and the length of the string $string."
def msgEndLen : String := "The end $end must be less than or equal to the length of the string $string."
def msgEndBegin : String := "The end $end must be greater than or equal to the begin $begin."

/-- The inner loop of `index` and `rindex`, Fn.spvm 235-247 and 690-701: does `sub` match at `i`, with last byte not
after `e`? -/
def matchAt (s sub : Bytes) (e : Int) (i : Nat) : Out Bool := do
  let r ← searchUp 0 sub.length fun k => do
    let p ← add32 i k
    if p > e then .ok (some ())
    else do
      let c ← aGet s p
      let d ← aGet sub k
      .ok (if c = d then none else some ())
  .ok r.isNone

/-- Exit of the outer loop of `index`/`rindex` with `return $i`. -/
def matchExit (s sub : Bytes) (e : Int) (i : Nat) : Out (Option Int) := do
  let m ← matchAt s sub e i
  .ok (if m then some (i : Int) else none)

/-- The loop of `index` after the argument checks, Fn.spvm 229-255. `e` is the checked `$end`. -/
def indexBody (s sub : Bytes) (begin_ e : Int) : Out Int :=
  if (sub.length : Int) = 0 then .ok begin_
  else do
    let e := if e = s.length then e - 1 else e
    let r ← searchUp begin_.toNat (e + 1 - begin_).toNat (matchExit s sub e)
    .ok (r.getD (-1))

/-- The loop of `rindex` after the argument checks, Fn.spvm 683-711. -/
def rindexBody (s sub : Bytes) (e begin_ : Int) : Out Int :=
  if (sub.length : Int) = 0 then .ok e
  else do
    let e := if e = s.length then e - 1 else e
    let r ← searchDown begin_.toNat (e + 1 - begin_).toNat (matchExit s sub e)
    .ok (r.getD (-1))

/-- The argument checks shared by `index` and `rindex`, Fn.spvm 198-226 and 654-680. -/
def searchArgs (string substring : Option Bytes) (begin_ end_ : Int) (k : Bytes → Bytes → Int → Out Int) : Out Int :=
  match string with
  | none => .die msgStringUndef
  | some s =>
    match substring with
    | none => .die msgSubUndef
    | some sub =>
      if ¬ (begin_ ≥ 0 ∧ begin_ ≤ s.length) then .die msgBegin
      else
        let e := if end_ < 0 then (s.length : Int) else end_
        if ¬ e ≤ s.length then .die msgEndLen
        else if ¬ e ≥ begin_ then .die msgEndBegin
        else k s sub e

/-- `index`, Fn.spvm 197-256. -/
def index (string substring : Option Bytes) (begin_ : Int := 0) (end_ : Int := -1) : Out Int :=
  searchArgs string substring begin_ end_ fun s sub e => indexBody s sub begin_ e

/-- `rindex`, Fn.spvm 653-712. -/
def rindex (string substring : Option Bytes) (end_ : Int := -1) (begin_ : Int := 0) : Out Int :=
  searchArgs string substring begin_ end_ fun s sub e => rindexBody s sub e begin_

/-- `contains`, Fn.spvm 107-109. -/
def contains (string substring : Option Bytes) (offset : Int := 0) (length : Int := -1) : Out Bool := do
  let r ← index string substring offset length
  .ok (decide (r ≥ 0))

/-- `equals_string_range`, Fn.spvm 117-155. -/
def equalsStringRange (s1 : Option Bytes) (o1 : Int) (s2 : Option Bytes) (o2 length : Int) : Out Bool :=
  match s1 with
  | none => .die "The string1 $string1 must be defined."
  | some s1 =>
    match s2 with
    | none => .die "The string2 $string2 must be defined."
    | some s2 =>
      if ¬ o1 ≥ 0 then .die "The string1 offset $string1_offset must be greater than or equal to 0."
      else if ¬ o2 ≥ 0 then .die "The string2 offset $string2_offset must be greater than or equal to 0."
      else do
        let e1 ← add32 o1 length
        if ¬ e1 ≤ s1.length then .ok false
        else do
          let e2 ← add32 o1 length
          if ¬ e2 ≤ s2.length then .ok false
          else do
            let r ← searchUp 0 length.toNat fun i => do
              let p ← add32 o1 i
              let c ← aGet s1 p
              let q ← add32 o2 i
              let d ← aGet s2 q
              .ok (if c = d then none else some ())
            .ok r.isNone

/-! ## Case conversion -/

/-- The body of the loop of `lc`, Fn.spvm 520-525. -/
def lcChar (b : UInt8) : UInt8 := if sbyte b ≥ 65 ∧ sbyte b ≤ 90 then toByte (sbyte b + 32) else b
/-- The body of the loop of `uc`, Fn.spvm 1023-1028. -/
def ucChar (b : UInt8) : UInt8 := if sbyte b ≥ 97 ∧ sbyte b ≤ 122 then toByte (sbyte b - 32) else b

/-- The shape of `lc` and `uc`: fill a new string byte by byte. -/
def mapString (limit : Nat) (f : UInt8 → UInt8) (string : Option Bytes) : Out Bytes :=
  match string with
  | none => .die msgStringUndef
  | some s => do
    let new ← newStringLen limit s.length
    forLoop 0 s.length (fun i new => do
      let c ← aGet s i
      aSet new i (f c)) new

/-- `lc`, Fn.spvm 511-529. -/
def lc (limit : Nat) (string : Option Bytes) : Out Bytes := mapString limit lcChar string
/-- `uc`, Fn.spvm 1014-1032. -/
def uc (limit : Nat) (string : Option Bytes) : Out Bytes := mapString limit ucChar string

/-- The first byte in `lcfirst`/`ucfirst`, Fn.spvm 539-547. -/
def setFirst (f : UInt8 → UInt8) (s new : Bytes) : Out Bytes :=
  if (s.length : Int) > 0 then do
    let c ← aGet s 0
    aSet new 0 (f c)
  else .ok new

/-- The shape of `lcfirst` and `ucfirst`. -/
def mapFirst (limit : Nat) (f : UInt8 → UInt8) (string : Option Bytes) : Out Bytes :=
  match string with
  | none => .die msgStringUndef
  | some s => do
    let new ← newStringLen limit s.length
    let new ← setFirst f s new
    memcpy new 1 s 1 (s.length - 1)

/-- `lcfirst`, Fn.spvm 531-551. -/
def lcfirst (limit : Nat) (string : Option Bytes) : Out Bytes := mapFirst limit lcChar string
/-- `ucfirst`, Fn.spvm 1034-1054. -/
def ucfirst (limit : Nat) (string : Option Bytes) : Out Bytes := mapFirst limit ucChar string

/-! ## Functions that change a mutable string: the result is its new contents -/

/-- `Fn->shorten` on a mutable string (Fn.c 480-496, `SPVM_API_shorten`, spvm_api.c 4477-4508). -/
def shorten (s : Bytes) (length : Int) : Out Bytes :=
  if ¬ length ≥ 0 then .die "The length $length must be greater than or equal to 0."
  else if ¬ length < s.length then .ok s
  else .ok (s.take length.toNat)

/-- `chomp`, Fn.spvm 69-82. -/
def chomp (string : Option Bytes) : Out Bytes :=
  match string with
  | none => .die msgStringUndef
  | some s =>
    let n : Int := s.length
    let atEnd (k : Int) (c : UInt8) : Out Bool := do let x ← aGet s (n - k); .ok (x == c)
    do
      let crlf ← if n ≥ 2 then do
          let a ← atEnd 2 13
          if a then atEnd 1 10 else .ok false
        else .ok false
      if crlf then shorten s (n - 2)
      else do
        let lf ← if n ≥ 1 then atEnd 1 10 else .ok false
        if lf then shorten s (n - 1) else .ok s

/-- `replace_chars`, Fn.spvm 639-651. -/
def replaceChars (string : Option Bytes) (fromCh toCh : Int) : Out Bytes :=
  match string with
  | none => .die msgStringUndef
  | some s =>
    forLoop 0 s.length (fun i t => do
      let c ← aGet t i
      if sbyte c = fromCh then aSet t i (toByte toCh) else .ok t) s

/-- `shorten_null_char`, Fn.spvm 720-738. -/
def shortenNullChar (string : Option Bytes) : Out Bytes :=
  match string with
  | none => .die msgStringUndef
  | some s => do
    let r ← searchUp 0 s.length fun i => do
      let c ← aGet s i
      .ok (if sbyte c = 0 then some (i : Int) else none)
    let off := r.getD (-1)
    if off ≥ 0 then shorten s off else .ok s

/-! ## trim, hex -/

/-- `trim`, Fn.spvm 963-1012. -/
def trim (limit : Nat) (string : Option Bytes) : Out Bytes :=
  match string with
  | none => .die msgStringUndef
  | some s => do
    let stop (i : Nat) : Out (Option Int) := do
      let c ← aGet s i
      .ok (if isSpace (sbyte c) then none else some (i : Int))
    let b ← searchUp 0 s.length stop
    let e ← searchDown 0 s.length stop
    let b := b.getD (-1)
    let e := e.getD (-1)
    if b = -1 ∧ e = -1 then .ok []
    else if e = -1 then substr limit (some s) b (s.length - b)
    else do
      let n ← sub32 e b
      let n ← add32 n 1
      substr limit (some s) b n

/-- The value of a digit in `hex`, Fn.spvm 178-186. -/
def hexDigit (c : Int) : Int :=
  if c ≥ 48 ∧ c ≤ 57 then c - 48 else if c ≥ 97 ∧ c ≤ 102 then c - 87 else if c ≥ 65 ∧ c ≤ 70 then c - 55 else 0

/-- The body of the loop of `hex`, Fn.spvm 171-191; `j` counts the iterations, so the index is `length - 1 - j` and
`$digit` is `j`. -/
def hexStep (s : Bytes) (j : Nat) (value : Int) : Out Int := do
  let c ← aGet s (s.length - 1 - j)
  if ¬ isHexDigit (sbyte c) then .die "The hex string $hex_string must contain only hex characters."
  else do
    let p ← powi 16 j
    let m ← mul32 (hexDigit (sbyte c)) p
    add32 value m

/-- `hex`, Fn.spvm 159-195. -/
def hex (string : Option Bytes) : Out Int :=
  match string with
  | none => .die "The hex string $hex_string must be defined."
  | some s =>
    if ¬ ((s.length : Int) ≥ 1 ∧ (s.length : Int) ≤ 8) then .die "The length of $hex string must be 1 to 8."
    else forLoop 0 s.length (hexStep s) 0

/-! ## join and split -/

/-- The body of the loop of `join`, Fn.spvm 481-491. -/
def joinStep (limit : Nat) (sep : Bytes) (strings : List (Option Bytes)) (i : Nat) : Prog StrBuf Unit := do
  let s ← Prog.lift (aGet strings i)
  StrBuf.push limit (some (s.getD []))
  if (i : Int) ≠ alen strings - 1 then StrBuf.push limit (some sep) else pure ()

/-- `join`, Fn.spvm 470-497. -/
def join (limit : Nat) (sep : Option Bytes) (strings : Option (List (Option Bytes))) : Out Bytes :=
  match sep with
  | none => .die "The separator $separator must be defined."
  | some sep =>
    match strings with
    | none => .die "The strings $strings must be defined."
    | some strings => do
      let b ← StrBuf.new limit none
      ((do
        Prog.loopUp 0 strings.length (joinStep limit sep strings)
        StrBuf.toString limit : Prog StrBuf Bytes) b).1

/-- The local state of `split`: the `StringList`, `$offset` and `$match_count`. -/
structure SplitState where
  list : ObjList Bytes
  offset : Int
  count : Int

/-- Push on the `StringList` of `split` (a `List`, StringList.spvm 4, 44). -/
def splitPush (limit : Nat) (part : Bytes) : Prog SplitState Unit := fun st =>
  match ObjList.push limit (fun _ => true) (some part) st.list with
  | (r, l) => (r, { st with list := l })

/-- The body of the loop of `split` when a match was looked for, Fn.spvm 766-777. -/
def splitMatch (limit : Nat) (sep s : Bytes) : Prog SplitState Unit := do
  let st ← Prog.get
  let m ← Prog.lift (index (some s) (some sep) st.offset)
  if m ≥ 0 then do
    let c ← Prog.lift (add32 st.count 1)
    let n ← Prog.lift (sub32 m st.offset)
    let part ← Prog.lift (substr limit (some s) st.offset n)
    splitPush limit part
    let st ← Prog.get
    let o ← Prog.lift (add32 m sep.length)
    Prog.set { st with offset := o, count := c }
  else pure ()

/-- The loop of `split`, Fn.spvm 761-778: `n` iterations are left. -/
def splitLoop (limit : Nat) (sep s : Bytes) (lim : Int) : Nat → Prog SplitState Unit
  | 0 => pure ()
  | n + 1 => do
    let st ← Prog.get
    if lim > 0 ∧ st.count ≥ lim - 1 then pure ()
    else do
      splitMatch limit sep s
      splitLoop limit sep s lim n

/-- The last part, Fn.spvm 779-785. -/
def splitLast (limit : Nat) (s : Bytes) : Prog SplitState Unit := do
  let st ← Prog.get
  if st.offset = s.length then splitPush limit []
  else do
    let n ← Prog.lift (sub32 s.length st.offset)
    let part ← Prog.lift (substr limit (some s) st.offset n)
    splitPush limit part

/-- The removal of trailing empty parts, Fn.spvm 787-796: `n` bounds the number of iterations (each one pops). -/
def splitDropEmpty : Nat → Prog (ObjList Bytes) Unit
  | 0 => pure ()
  | n + 1 => do
    let l ← Prog.get
    if l.length > 0 then do
      let x ← ObjList.get (l.length - 1)
      if x = some [] then do
        let _ ← ObjList.pop (fun _ => true)
        splitDropEmpty n
      else pure ()
    else pure ()

/-- `split`, Fn.spvm 740-799.  The comparison `eq ""` of a defined string is equality of contents
(`SPVM_IMPLEMENT_STRING_COMPARISON`, spvm_implement.h 488-563, see `VM.stringCmp`). -/
def split (limit : Nat) (sep string : Option Bytes) (lim : Int := 0) : Out (List (Option Bytes)) :=
  match sep with
  | none => .die "The separator $separator must be defined."
  | some sep =>
    match string with
    | none => .die msgStringUndef
    | some s =>
      if ¬ (sep.length : Int) > 0 then .die "The length of the separator $separator must be greater than 0."
      else do
        let l ← ObjList.newLen limit 0
        match (do splitLoop limit sep s lim s.length; splitLast limit s : Prog SplitState Unit) ⟨l, 0, 0⟩ with
        | (.ok _, st) =>
          ((do
            if lim = 0 then splitDropEmpty st.list.length.toNat else pure ()
            ObjList.toArray limit (fun _ => true) : Prog (ObjList Bytes) (List (Option Bytes))) st.list).1
        | (.die m, _) => .die m
        | (.ub, _) => .ub

end FnStr
end SPVM
