import Verif.Model.FnStr
import Verif.Model.NumList
/-!
# UTF-8 functions (lib/SPVM/Fn.c, lib/SPVM/Fn.spvm, lib/SPVM/Builder/src/spvm_utf8.c)
-/
namespace SPVM
namespace Utf8
open VM (Bytes)

/-- Reading one `uint8_t` of a memory block; outside the block the behaviour is undefined. -/
def readB (block : Bytes) (i : Nat) : Out Nat :=
  match block[i]? with
  | some b => .ok b.toNat
  | none => .ub

/-- `utf_cont`, Fn.c 147. -/
def utfCont (ch : Nat) : Bool := ch &&& 0xc0 == 0x80

/-- `utf_cont(str[0]) && ... && utf_cont(str[n-1])`, evaluated from left to right (Fn.c 165, 170, 183). -/
def conts (block : Bytes) (str : Nat) : Nat → Out Bool
  | 0 => .ok true
  | n + 1 => do
    let c ← readB block str
    if utfCont c then conts block (str + 1) n else .ok false

/-- The test in front of an `n + 1` byte sequence: `str + n - 1 >= end || !utf_cont(...) ...` (Fn.c 165, 170, 183). -/
def haveConts (block : Bytes) (str : Nat) (end_ : Int) (n : Nat) : Out Bool :=
  if (str : Int) + n - 1 ≥ end_ then .ok false else conts block str n

/-- The two-byte branch, Fn.c 163-168. -/
def iterate2 (block : Bytes) (uc str : Nat) (end_ : Int) : Out (Int × Int) := do
  let good ← haveConts block str end_ 1
  if ¬ good then .ok (-3, -1)
  else do
    let c1 ← readB block str
    .ok (2, (((uc &&& 0x1f) <<< 6) ||| (c1 &&& 0x3f) : Nat))

/-- The three-byte branch, Fn.c 169-180. -/
def iterate3 (block : Bytes) (uc str : Nat) (end_ : Int) : Out (Int × Int) := do
  let good ← haveConts block str end_ 2
  if ¬ good then .ok (-3, -1)
  else do
    let c1 ← readB block str
    let c2 ← readB block (str + 1)
    if uc = 0xed ∧ c1 > 0x9f then .ok (-3, -1)
    else
      let uc := ((uc &&& 0xf) <<< 12) ||| ((c1 &&& 0x3f) <<< 6) ||| (c2 &&& 0x3f)
      if uc < 0x800 then .ok (-3, -1) else .ok (3, (uc : Nat))

/-- The four-byte branch, Fn.c 181-192. -/
def iterate4 (block : Bytes) (uc str : Nat) (end_ : Int) : Out (Int × Int) := do
  let good ← haveConts block str end_ 3
  if ¬ good then .ok (-3, -1)
  else do
    let c1 ← readB block str
    if uc = 0xf0 ∧ c1 < 0x90 then .ok (-3, -1)
    else if uc ≠ 0xf0 ∧ uc = 0xf4 ∧ c1 > 0x8f then .ok (-3, -1)
    else do
      let c2 ← readB block (str + 1)
      let c3 ← readB block (str + 2)
      .ok (4, (((uc &&& 7) <<< 18) ||| ((c1 &&& 0x3f) <<< 12) ||| ((c2 &&& 0x3f) <<< 6) ||| (c3 &&& 0x3f) : Nat))

/-- `spvm_utf8proc_iterate`, Fn.c 149-193, and the same text in `SPVM_UTF8_iterate`, spvm_utf8.c 9-53.  `str` points
into `block`.  The result is the returned length (0, 1-4 or the error -3) and the value stored in `*dst`.  The
`uint32_t` subtraction `uc - 0xc2` wraps. -/
def iterate (block : Bytes) (str : Nat) (strlen : Int) : Out (Int × Int) :=
  if strlen = 0 then .ok (0, -1)
  else do
    let end_ : Int := str + (if strlen < 0 then 4 else strlen)
    let uc ← readB block str
    if uc < 0x80 then .ok (1, uc)
    else if (uc + 4294967296 - 0xc2) % 4294967296 > 0xf4 - 0xc2 then .ok (-3, -1)
    else if uc < 0xe0 then iterate2 block uc (str + 1) end_
    else if uc < 0xf0 then iterate3 block uc (str + 1) end_
    else iterate4 block uc (str + 1) end_

def msgInvalid : String := "An invalid UTF-8 is gotten."

/-- `SPVM__Fn__get_code_point`, Fn.c 195-242.  The state is the offset variable.  The memory block of a string is its
bytes and a terminating NUL (`SPVM_API_new_string`, spvm_api.c 3833-3878).  The decoder is given the length of the
whole string, as in the source.  The class of the thrown error (`Error::Unicode::InvalidUTF8`) is not modelled. -/
def getCodePoint (string : Option Bytes) : Prog Int Int := fun offset =>
  match string with
  | none => (.die "The string $string must be defined.", offset)
  | some s =>
    if ¬ offset ≥ 0 then (.die "The offset $offset must be greater than or equal to 0.", offset)
    else if ¬ offset < s.length then
      (.die "The value of the offset $offset must be less than the length of the string $string.", offset)
    else
      match iterate (s ++ [0]) offset.toNat s.length with
      | .ok (n, dst) => if n > 0 then (.ok dst, offset + n) else (.die msgInvalid, offset)
      | .die m => (.die m, offset)
      | .ub => (.ub, offset)

/-- `convert_code_point_to_utf8_char`, Fn.c 71-95 and `SPVM_UTF8_convert_unicode_codepoint_to_utf8_character`,
spvm_utf8.c 70-97: the bytes written. -/
def convert (uc : Int) : Bytes :=
  if uc < 0 then []
  else
    let u := uc.toNat
    if u < 0x80 then [UInt8.ofNat u]
    else if u < 0x800 then [UInt8.ofNat (0xC0 + (u >>> 6)), UInt8.ofNat (0x80 + (u &&& 0x3F))]
    else if u < 0x10000 then
      [UInt8.ofNat (0xE0 + (u >>> 12)), UInt8.ofNat (0x80 + ((u >>> 6) &&& 0x3F)), UInt8.ofNat (0x80 + (u &&& 0x3F))]
    else if u < 0x110000 then
      [UInt8.ofNat (0xF0 + (u >>> 18)), UInt8.ofNat (0x80 + ((u >>> 12) &&& 0x3F)),
        UInt8.ofNat (0x80 + ((u >>> 6) &&& 0x3F)), UInt8.ofNat (0x80 + (u &&& 0x3F))]
    else []

/-- `Fn->chr`, Fn.spvm 96-105 with `_chr_native`, Fn.c 97-112.  `none` is `undef`.  The allocation of at most four bytes
is assumed to succeed. -/
def chr (cp : Int) : Option Bytes := if FnStr.isScalar cp then some (convert cp) else none

/-- `Fn->ord`, Fn.spvm 564-569. -/
def ord (string : Option Bytes) : Out Int := (getCodePoint string 0).1

/-- `Fn->look_code_point`, Fn.spvm 553-558. -/
def lookCodePoint (string : Option Bytes) : Prog Int Int := do
  let save ← Prog.get
  let cp ← getCodePoint string
  Prog.set save
  return cp

/-- The value and the new offset of one call `get_code_point($string, \$offset)`. -/
def nextCp (s : Bytes) (offset : Int) : Out (Int × Int) :=
  match getCodePoint (some s) offset with
  | (.ok cp, offset') => .ok (cp, offset')
  | (.die m, _) => .die m
  | (.ub, _) => .ub

/-- The loop `while ($offset < $string_length) { my $code_point = &get_code_point($string, \$offset); body }` of
Fn.spvm 841-844, 892-897, 928-953, 1065-1068, 1089-1121, 1151-1168.  The body returns `false` for `last`.
The fuel `n` only makes the definition total: running out of it is the outcome `ub`, so that every theorem
about a normal result also shows that the loop ends. -/
def cpLoop (s : Bytes) (body : Int → Prog σ Bool) : Nat → Int → Prog σ Unit
  | 0, offset => if offset < s.length then Prog.lift .ub else pure ()
  | n + 1, offset =>
    if offset < s.length then do
      let p ← Prog.lift (nextCp s offset)
      let go ← body p.1
      if go then cpLoop s body n p.2 else pure ()
    else pure ()

/-- `Fn->to_code_points`, Fn.spvm 833-851. -/
def toCodePoints (limit : Nat) (string : Option Bytes) : Out (List Int) :=
  match string with
  | none => .die "The string $string must be defined."
  | some s => do
    let l ← NumList.new limit 0 none
    ((do
      cpLoop s (fun cp => do NumList.push limit 0 cp; return true) s.length 0
      NumList.toArray limit 0 : Prog (NumList Int) (List Int)) l).1

/-- `Fn->to_utf8_chars`, Fn.spvm 884-904. -/
def toUtf8Chars (limit : Nat) (string : Option Bytes) : Out (List (Option Bytes)) :=
  match string with
  | none => .die "The string $string must be defined."
  | some s => do
    let l ← ObjList.newLen (α := Bytes) limit 0
    ((do
      cpLoop s (fun cp => do ObjList.push limit (fun _ => true) (chr cp); return true) s.length 0
      ObjList.toArray limit (fun _ => true) : Prog (ObjList Bytes) (List (Option Bytes))) l).1

/-- `Fn->utf8_length`, Fn.spvm 1056-1071.  The state is `$utf8_length`. -/
def utf8Length (string : Option Bytes) : Out Int :=
  match string with
  | none => .die "The string $string must be defined."
  | some s =>
    ((do
      cpLoop s (fun _ => do
        let n ← Prog.get
        let n' ← Prog.lift (add32 n 1)
        Prog.set n'
        return true) s.length 0
      Prog.get : Prog Int Int) 0).1

/-- The variables of the loop of `utf8_substr`. -/
structure SubState where
  buffer : StrBuf
  current : Int

/-- `$buffer->push(...)` of a possibly undefined string. -/
def bufPush (limit : Nat) (char : Option Bytes) : Prog SubState Unit := fun st =>
  ((StrBuf.push limit char 0 (-1) st.buffer).1, { st with buffer := (StrBuf.push limit char 0 (-1) st.buffer).2 })

/-- The range test, Fn.spvm 1092-1110: -1 before, 0 inside, 1 after. -/
def rangeOf (utf8Offset utf8Length current : Int) : Out Int :=
  if current < utf8Offset then .ok (-1)
  else if utf8Length < 0 then .ok 0
  else do
    let e ← add32 utf8Offset utf8Length
    if current < e then .ok 0 else .ok 1

/-- The end of the loop body, Fn.spvm 1120. -/
def incCurrent : Prog SubState Bool := do
  let st ← Prog.get
  let c ← Prog.lift (add32 st.current 1)
  Prog.set { st with current := c }
  return true

/-- The loop body, Fn.spvm 1090-1121. -/
def substrBody (limit : Nat) (utf8Offset utf8Length cp : Int) : Prog SubState Bool := do
  let st ← Prog.get
  let range ← Prog.lift (rangeOf utf8Offset utf8Length st.current)
  if range = 0 then do
    bufPush limit (chr cp)
    incCurrent
  else if range = 1 then return false
  else incCurrent

/-- The final check, Fn.spvm 1123-1127. -/
def substrCheck (utf8Offset utf8Length current : Int) : Out Unit :=
  if utf8Length ≥ 0 then do
    let e ← add32 utf8Offset utf8Length
    if ¬ e ≤ current then
      .die "The offset $utf8_offset + the length $utf8_length must be less than or equal to the UTF-8 length of the string $string."
    else .ok ()
  else .ok ()

/-- The loop, the check and `$buffer->to_string`. -/
def substrRun (limit : Nat) (s : Bytes) (utf8Offset utf8Length : Int) (st : SubState) : Out Bytes := do
  let r := cpLoop s (substrBody limit utf8Offset utf8Length) s.length 0 st
  let _ ← r.1
  let _ ← substrCheck utf8Offset utf8Length r.2.current
  (StrBuf.toString limit r.2.buffer).1

/-- `Fn->utf8_substr`, Fn.spvm 1074-1131. -/
def utf8Substr (limit : Nat) (string : Option Bytes) (utf8Offset : Int) (utf8Length : Int := -1) : Out Bytes :=
  match string with
  | none => .die "The string $string must be defined."
  | some s =>
    if ¬ utf8Offset ≥ 0 then .die "The offset $utf8_offset must be greater than or equal to 0."
    else do
      let b ← StrBuf.new limit none
      substrRun limit s utf8Offset utf8Length ⟨b, 0⟩

/-- The variables of the loop of `_parse_range`. -/
structure RangeState where
  min : Int
  max : Int
  index : Int

/-- The loop body, Fn.spvm 1153-1167. -/
def rangeBody (cp : Int) : Prog RangeState Bool := fun st =>
  if st.index = 0 then (.ok true, { st with min := cp, index := st.index + 1 })
  else if st.index = 1 then
    if ¬ cp = 45 then (.die "The second character ot the range format of the argument name $arg_name must be \"-\".", st)
    else (.ok true, { st with index := st.index + 1 })
  else if st.index = 2 then (.ok true, { st with max := cp, index := st.index + 1 })
  else
    match add32 st.index 1 with
    | .ok i => (.ok true, { st with index := i })
    | .die m => (.die m, st)
    | .ub => (.ub, st)

/-- The end of `_parse_range`, Fn.spvm 1169-1183. -/
def rangeEnd (st : RangeState) : Out (Int × Int) := do
  let max := if ¬ st.index = 3 ∧ st.index = 1 then st.min else st.max
  if ¬ st.index = 3 ∧ max < 0 then
    .die "The range format of the argument name $arg_name must be 1 or 3 characters."
  else if ¬ st.min ≤ max then
    .die "The code point of the ending character in the argument name $arg_name must be greater than or equal to the code point of the begining caharater."
  else .ok (st.min, max)

/-- `_parse_range`, Fn.spvm 1142-1184. -/
def parseRange (s : Bytes) : Out (Int × Int) := do
  let r := cpLoop s rangeBody s.length 0 ⟨-1, -1, 0⟩
  let _ ← r.1
  rangeEnd r.2

/-- The loop body of `tr`, Fn.spvm 930-952. -/
def trBody (limit : Nat) (pat repl : Int × Int) (cp : Int) : Prog StrBuf Bool := do
  if cp ≥ pat.1 ∧ cp ≤ pat.2 then do
    let off ← Prog.lift (sub32 cp pat.1)
    let rc ← Prog.lift (add32 repl.1 off)
    StrBuf.push limit (chr rc) 0 (-1)
    return true
  else do
    StrBuf.push limit (chr cp) 0 (-1)
    return true

/-- `Fn->tr`, Fn.spvm 906-961. -/
def tr (limit : Nat) (string pattern replace : Option Bytes) : Out Bytes :=
  match string with
  | none => .die "The string $string must be defined."
  | some s =>
    match pattern with
    | none => .die "The pattern $pattern must be defined."
    | some p =>
      match replace with
      | none => .die "The replace $replace must be defined."
      | some r => do
        let pr ← parseRange p
        let rr ← parseRange r
        let b ← StrBuf.new limit none
        ((do
          cpLoop s (trBody limit pr rr) s.length 0
          StrBuf.toString limit : Prog StrBuf Bytes) b).1

end Utf8
end SPVM
