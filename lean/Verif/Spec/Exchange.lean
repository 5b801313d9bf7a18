import Verif.Base

/-!
# Specification of the data exchange with Perl

Perl scalars, and what an SPVM array made from a Perl list must show to Perl again.
-/

namespace SPVM.Exch

/-- The six numeric types. -/
inductive NumK
  | byte | short | int | long | float | double
deriving DecidableEq, Repr

/-- Perl classes of SPVM objects: `SPVM::BlessedObject::Class`, `::String` and `::Array`. -/
inductive Kind
  | cls | str | arr
deriving DecidableEq, Repr

/-- A Perl scalar.  `int` is an integer scalar (IV or UV), `nv` a double given by its bits, `pv` a string given by the bytes
`SvPV` returns.  `obj` is a blessed SPVM object with the address it holds (`none` is the null pointer).  Array and hash
references blessed into other classes count as `aref` and `href` (`sv_derived_from(sv, "ARRAY")`). -/
inductive Sv
  | undef
  | int (n : Int)
  | nv (bits : BitVec 64)
  | pv (s : List UInt8)
  | aref (es : List Sv)
  | href (es : List (String × Sv))
  | sref (v : Sv)
  | code
  | obj (k : Kind) (o : Option Nat)
deriving Repr

/-- What Perl itself and the C casts between `float` and `double` do. -/
structure Perl where
  /-- `SvIV` and `SvUV` of a double -/
  nvIV : BitVec 64 → BitVec 64
  nvUV : BitVec 64 → BitVec 64
  /-- `SvIV`, `SvUV` and `SvNV` of a string -/
  pvIV : List UInt8 → BitVec 64
  pvUV : List UInt8 → BitVec 64
  pvNV : List UInt8 → BitVec 64
  /-- `SvNV` of an integer -/
  intNV : Int → BitVec 64
  /-- `SvPV` of an integer and a double -/
  intPV : Int → List UInt8
  nvPV : BitVec 64 → List UInt8
  /-- the number of a reference (its address) -/
  refIV : BitVec 64
  refNV : BitVec 64
  /-- the C casts `(float)` of a double and `(double)` of a float -/
  narrow : BitVec 64 → BitVec 32
  widen : BitVec 32 → BitVec 64

/-- Basic types. -/
inductive BT
  | num (k : NumK)
  | string
  | any
  | cls (name : String)
  | mul (fields : List String) (k : NumK)
deriving DecidableEq, Repr

/-! ## Numbers -/

/-- The four integer types. -/
def NumK.isInt : NumK → Prop
  | .byte | .short | .int | .long => True
  | .float | .double => False

/-- The number of values of an integer type. -/
def NumK.count : NumK → Int
  | .byte => 256
  | .short => 65536
  | .int | .float => 4294967296
  | .long | .double => 18446744073709551616

/-- The integer is a value of the type. -/
def Fits (k : NumK) (n : Int) : Prop := -k.count ≤ 2 * n ∧ 2 * n < k.count

/-- `m` is the value of the type that agrees with `n` up to a multiple of the number of values. -/
def Wraps (k : NumK) (n m : Int) : Prop := Fits k m ∧ ∃ c : Int, m = n + c * k.count

/-- A defined scalar that is not a reference. -/
inductive Plain : Sv → Prop
  | int (n) : Plain (.int n)
  | nv (b) : Plain (.nv b)
  | pv (s) : Plain (.pv s)

/-- The integer Perl sees in a scalar (`u`: read as unsigned). -/
inductive IntOf (P : Perl) (u : Bool) : Sv → Int → Prop
  | int (n) : IntOf P u (.int n) n
  | nv (b) : IntOf P u (.nv b) (if u then P.nvUV b else P.nvIV b).toInt
  | pv (s) : IntOf P u (.pv s) (if u then P.pvUV s else P.pvIV s).toInt
  | undef : IntOf P u .undef 0

/-- The double Perl sees in a scalar. -/
inductive DoubleOf (P : Perl) : Sv → BitVec 64 → Prop
  | int (n) : DoubleOf P (.int n) (P.intNV n)
  | nv (b) : DoubleOf P (.nv b) b
  | pv (s) : DoubleOf P (.pv s) (P.pvNV s)
  | undef : DoubleOf P .undef (P.intNV 0)

/-- What Perl sees of an element of type `k` that was made from the scalar. -/
inductive Shows (P : Perl) (u : Bool) : NumK → Sv → Sv → Prop
  | int {k v n m} : k.isInt → IntOf P u v n → Wraps k n m → Shows P u k v (.int m)
  | float {v b} : DoubleOf P v b → Shows P u .float v (.nv (P.widen (P.narrow b)))
  | double {v b} : DoubleOf P v b → Shows P u .double v (.nv b)

/-- What Perl sees of a multi-numeric element made from the hash: exactly the fields of the type, in their order. -/
inductive ShowsFields (P : Perl) (k : NumK) (es : List (String × Sv)) : List String → List (String × Sv) → Prop
  | nil : ShowsFields P k es [] []
  | cons {f fs v w r} : (es.find? (·.1 == f)).map (·.2) = some v → Shows P false k v w → ShowsFields P k es fs r →
      ShowsFields P k es (f :: fs) ((f, w) :: r)

end SPVM.Exch
