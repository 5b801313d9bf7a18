import Verif.Base

/-!
# Specification of the immutable lists

What a program can see: numbers and the bytes of strings, and what it can do with strings, arrays and lists.
-/

namespace SPVM.Immutable

/-- The classes `Immutable::ByteList` to `Immutable::DoubleList` and `Immutable::StringList`. -/
inductive Kind
  | byte | short | int | long | float | double | string
deriving DecidableEq

/-- An element as a program sees it: a number, or the bytes of a string (`none` is undef). -/
inductive View (α : Type)
  | num (v : α)
  | str (b : Option (List UInt8))
deriving DecidableEq

/-- A value a program gives: a number, a string it has, or undef. -/
inductive Src (α : Type)
  | num (v : α)
  | str (s : Nat)
  | undef

/-- What a program does.  Strings, arrays and lists are numbered in the order in which the program gets them.  A new string is
held in a `mutable string` variable. -/
inductive Op (α : Type)
  /-- a new string with these bytes -/
  | newString (b : List UInt8)
  /-- a byte of a string in a `mutable string` variable is set -/
  | writeString (s : Nat) (i : Int) (c : UInt8)
  /-- the type cast `(mutable string)` -/
  | castMutable (s : Nat)
  /-- `make_read_only` -/
  | makeReadOnly (s : Nat)
  /-- a new array with these elements -/
  | newArray (xs : List (Src α))
  /-- an element of an array is set or read -/
  | write (u : Nat) (i : Int) (v : Src α)
  | read (u : Nat) (i : Int)
  /-- the methods of the list -/
  | new (u : Option Nat)
  | newLen (n : Int)
  | length (l : Nat)
  | get (l : Nat) (i : Int)
  | toArray (l : Nat)

/-- What an operation yields. -/
inductive Res (α : Type)
  | unit
  | int (n : Int)
  | value (v : View α)
deriving DecidableEq

end SPVM.Immutable
