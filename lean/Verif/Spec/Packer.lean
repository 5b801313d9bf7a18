import Verif.Spec.Decimal
/-!
# What `pack` and `unpack` should do

A template is a list of items; each item takes one object.
-/
namespace SPVM
namespace Spec
namespace Packer

/-- The numeric types. -/
inductive Num where
  | byte | short | int | long | float | double
deriving DecidableEq, Repr

/-- The number of bytes of a numeric type. -/
def Num.size : Num → Nat
  | .byte => 1
  | .short => 2
  | .int => 4
  | .long => 8
  | .float => 4
  | .double => 8

/-- An object given to `pack` or made by `unpack`.  A number is its bytes in memory; an array is the list of its elements. -/
inductive Value where
  | undef
  | text (s : List UInt8)
  | array (t : Num) (elements : List (List UInt8))
  | number (t : Num) (bytes : List UInt8)
  | other
deriving DecidableEq, Repr

/-- Numbers have the size of their type; arrays and strings are no longer than an `int` can count. -/
def Value.Wf : Value → Prop
  | .text s => s.length ≤ 2147483647
  | .array t es => (∀ e ∈ es, e.length = t.size) ∧ t.size * es.length ≤ 2147483647
  | .number t b => b.length = t.size
  | _ => True

/-- The letters of a template; the hexadecimal ones are left out. -/
inductive Letter where
  | a | c | C | s | S | l | L | q | Q | f | d
deriving DecidableEq, Repr

def Letter.char : Letter → UInt8
  | .a => 97
  | .c => 99
  | .C => 67
  | .s => 115
  | .S => 83
  | .l => 108
  | .L => 76
  | .q => 113
  | .Q => 81
  | .f => 102
  | .d => 100

/-- The numeric type of a letter; `a` is a string. -/
def Letter.num : Letter → Option Num
  | .a => none
  | .c | .C => some .byte
  | .s | .S => some .short
  | .l | .L => some .int
  | .q | .Q => some .long
  | .f => some .float
  | .d => some .double

/-- The byte order asked for. -/
inductive Order where
  | system | big | little
deriving DecidableEq, Repr

def Order.text : Order → List UInt8
  | .system => []
  | .big => [62]
  | .little => [60]

/-- No count (a single number), a count, or `*`. -/
inductive Count where
  | one
  | times (n : Nat)
  | star
deriving DecidableEq, Repr

def Count.text : Count → List UInt8
  | .one => []
  | .times n => digits n
  | .star => [42]

structure Item where
  letter : Letter
  order : Order
  count : Count
deriving DecidableEq, Repr

def Item.text (i : Item) : List UInt8 := i.letter.char :: (i.order.text ++ i.count.text)

/-- How a template is written. -/
def text (items : List Item) : List UInt8 := items.flatMap Item.text

/-- Counts are positive and fit an `int`; `a` has a count. -/
def Item.Ok (i : Item) : Prop :=
  (∀ n, i.count = .times n → 0 < n ∧ n ≤ 2147483647) ∧ (i.letter = .a → i.count ≠ .one)

/-- The object has the type the item asks for: `a` takes a string; another letter takes a number, or with a count an array. -/
def Item.Takes (i : Item) : Value → Prop
  | .text _ => i.letter = .a
  | .array t _ => i.letter.num = some t ∧ i.count ≠ .one
  | .number t _ => i.letter.num = some t ∧ i.count = .one
  | _ => False

/-- A list cut to `n` elements, or filled up to `n` with `z`. -/
def resize (n : Nat) (z : α) (l : List α) : List α := l.take n ++ List.replicate (n - l.length) z

/-- The object cut or filled up with zeros to the count. -/
def Item.fit (i : Item) : Value → Value
  | .text s => .text (match i.count with
    | .times n => resize n 0 s
    | _ => s)
  | .array t es => .array t (match i.count with
    | .times n => resize n (List.replicate t.size 0) es
    | _ => es)
  | v => v

/-- A number of the system in the order asked for; `le`: the system is little endian. -/
def Order.apply (le : Bool) : Order → List UInt8 → List UInt8
  | .system, b => b
  | .big, b => if le then b.reverse else b
  | .little, b => if le then b else b.reverse

/-- The bytes of an object, each number in the given order. -/
def Value.bytes (le : Bool) (o : Order) : Value → List UInt8
  | .text s => s
  | .array _ es => (es.map (o.apply le)).flatten
  | .number _ b => o.apply le b
  | _ => []

/-- What `pack` should produce. -/
def pack (le : Bool) : List Item → List Value → List UInt8
  | i :: is, v :: vs => (i.fit v).bytes le i.order ++ pack le is vs
  | _, _ => []

/-- What `unpack` of that should produce. -/
def unpacked : List Item → List Value → List Value
  | i :: is, v :: vs => i.fit v :: unpacked is vs
  | _, _ => []

/-- Only the last item may have the count `*`. -/
def StarLast : List Item → Prop
  | [] => True
  | [_] => True
  | i :: is => i.count ≠ .star ∧ StarLast is

/-- The bytes of one element of a letter. -/
def Letter.size (l : Letter) : Nat :=
  match l.num with
  | some t => t.size
  | none => 1

/-- The bytes a template needs; `*` needs none. -/
def need : List Item → Nat
  | [] => 0
  | i :: is => (match i.count with
    | .one => i.letter.size
    | .times n => i.letter.size * n
    | .star => 0) + need is

end Packer
end Spec
end SPVM
