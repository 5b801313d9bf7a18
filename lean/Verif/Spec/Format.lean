import Verif.Spec.Decimal
import Verif.Spec.Utf8
/-!
# What `sprintf` should produce

A format is a list of pieces: literal text, and fields.  `text` is how it is written; `sprintf` is what it expands to.
-/
namespace SPVM
namespace Spec
namespace Format

/-- The value of an argument, by run-time type.  `other` is an object of any other class; `D` stands for `double` (the value of
a `Float` object is converted to it). -/
inductive Arg (D : Type) where
  | undef
  | byte (v : Int)
  | int (v : Int)
  | long (v : Int)
  | float (v : D)
  | double (v : D)
  | str (s : List UInt8)
  | other

inductive Flag where
  | zero | plus | minus
deriving DecidableEq, Repr

inductive Conv where
  | c | d | f | g | s | u | x | X | ld | lu | lx | lX
deriving DecidableEq, Repr

/-- A piece of a format.  Width 0 is no width. -/
inductive Piece where
  | lit (text : List UInt8)
  | field (flags : List Flag) (width : Nat) (precision : Option Nat) (conv : Conv)

def Flag.char : Flag → UInt8
  | .zero => 48
  | .plus => 43
  | .minus => 45

def Conv.letters : Conv → List UInt8
  | .c => [99]
  | .d => [100]
  | .f => [102]
  | .g => [103]
  | .s => [115]
  | .u => [117]
  | .x => [120]
  | .X => [88]
  | .ld => [108, 100]
  | .lu => [108, 117]
  | .lx => [108, 120]
  | .lX => [108, 88]

/-- Conversions that print a sign. -/
def Conv.signed : Conv → Bool
  | .d | .f | .g | .ld => true
  | _ => false

def widthText (w : Nat) : List UInt8 := if w = 0 then [] else digits w

def precisionText : Option Nat → List UInt8
  | none => []
  | some n => 46 :: digits n

/-- How a piece is written: in literal text `%` is doubled; a field is `%`, flags, width, precision and letters. -/
def Piece.text : Piece → List UInt8
  | .lit t => t.flatMap fun b => if b = 37 then [37, 37] else [b]
  | .field flags w p conv => 37 :: (flags.map Flag.char ++ (widthText w ++ (precisionText p ++ conv.letters)))

def text (ps : List Piece) : List UInt8 := ps.flatMap Piece.text

def lowerHex (d : Nat) : UInt8 := UInt8.ofNat (if d < 10 then 48 + d else 97 + (d - 10))
def upperHex (d : Nat) : UInt8 := UInt8.ofNat (if d < 10 then 48 + d else 65 + (d - 10))

/-- Hexadecimal notation with the given digits. -/
def hex (digit : Nat → UInt8) (n : Nat) : List UInt8 :=
  if n < 16 then [digit n] else hex digit (n / 16) ++ [digit (n % 16)]

/-- `v` as an unsigned number of the given number of values. -/
def unsigned (modulus : Nat) (v : Int) : Nat := (v % modulus).toNat

open Classical Utf8 in
/-- The character with code point `v`, or `?`. -/
noncomputable def char (v : Int) : List UInt8 := if 0 ≤ v ∧ IsScalar v.toNat then encode v.toNat else [63]

/-- The text of one argument: `none` when its type does not fit the conversion.  `F` and `G` are the texts of a double. -/
noncomputable def value (F G : D → Option Nat → List UInt8) (p : Option Nat) : Conv → Arg D → Option (List UInt8)
  | .d, .int v => some (decimal v)
  | .ld, .long v => some (decimal v)
  | .u, .int v => some (digits (unsigned 4294967296 v))
  | .lu, .long v => some (digits (unsigned 18446744073709551616 v))
  | .x, .int v => some (hex lowerHex (unsigned 4294967296 v))
  | .lx, .long v => some (hex lowerHex (unsigned 18446744073709551616 v))
  | .X, .int v => some (hex upperHex (unsigned 4294967296 v))
  | .lX, .long v => some (hex upperHex (unsigned 18446744073709551616 v))
  | .c, .byte v => some (char v)
  | .c, .int v => some (char v)
  | .f, .float v => some (F v p)
  | .f, .double v => some (F v p)
  | .g, .float v => some (G v p)
  | .g, .double v => some (G v p)
  | .s, .str t => some (match p with | none => t | some n => t.take n)
  | _, _ => none

/-- The width that is used: of a string that is cut to its precision `n` it is `n`. -/
def effectiveWidth (w : Nat) (p : Option Nat) : Conv → Arg D → Nat
  | .s, .str t => match p with
    | none => w
    | some n => if n < t.length then n else w
  | _, _ => w

/-- A field: the sign if asked for, then padding up to the width, on the left with `0` if asked for and else with spaces, on
the right with spaces. -/
def pad (flags : List Flag) (signed : Bool) (w : Nat) (t : List UInt8) : List UInt8 :=
  let t := if signed ∧ .plus ∈ flags ∧ t.head? ≠ some 45 then 43 :: t else t
  if .minus ∈ flags then t ++ List.replicate (w - t.length) 32
  else List.replicate (w - t.length) (if .zero ∈ flags then 48 else 32) ++ t

/-- Widths and precisions an `int` can hold (with the slack the reading of digits needs). -/
def Piece.Small : Piece → Prop
  | .lit _ => True
  | .field _ w p _ => w ≤ 2147483599 ∧ ∀ n, p = some n → n ≤ 2147483599

/-- Values of the run-time types. -/
def Arg.InRange : Arg D → Prop
  | .byte v => -128 ≤ v ∧ v ≤ 127
  | .int v => -2147483648 ≤ v ∧ v ≤ 2147483647
  | .long v => -9223372036854775808 ≤ v ∧ v ≤ 9223372036854775807
  | .str t => t.length ≤ 2147483647
  | _ => True

/-- How `sprintf` ends. -/
inductive End where
  /-- With the result. -/
  | returns
  /-- With an exception. -/
  | throws
  /-- The text of a floating point number did not fit in 21 characters and the precision. -/
  | overrun
deriving DecidableEq, Repr

/-- Whether the text of a floating point number fits. -/
def overruns (p : Option Nat) (t : List UInt8) : Conv → Bool
  | .f | .g => match p with
    | none => decide (20 < t.length)
    | some n => decide (21 + n < t.length)
  | _ => false

/-- The text produced and how the call ends. -/
noncomputable def sprintf (F G : D → Option Nat → List UInt8) : List Piece → List (Arg D) → List UInt8 × End
  | [], _ => ([], .returns)
  | .lit t :: ps, as => (t ++ (sprintf F G ps as).1, (sprintf F G ps as).2)
  | .field _ _ _ _ :: _, [] => ([], .throws)
  | .field fl w p conv :: ps, a :: as =>
    match value F G p conv a with
    | none => ([], .throws)
    | some t =>
      if overruns p t conv then ([], .overrun)
      else if t = [] then ([], .throws)
      else (pad fl conv.signed (effectiveWidth w p conv a) t ++ (sprintf F G ps as).1, (sprintf F G ps as).2)

end Format
end Spec
end SPVM
