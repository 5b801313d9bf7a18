import Verif.Spec.Hash
/-!
# Specification of the typed methods of `Hash`

`set_int`, `get_int`, `get_or_default_int`, `delete_or_default_int` and their siblings, and `to_array` with an order, over the
map of `Verif.Spec.Hash`.
-/
namespace SPVM.Spec.HashTyped
open SPVM.Spec.Map SPVM.Spec.Hash

/-- An object in the hash, as far as the typed methods look at it: the numeric objects with their value, strings, and any
other object.  Floating point numbers are kept as bits. -/
inductive Val where
  | byte (v : BitVec 8)
  | short (v : BitVec 16)
  | int (v : BitVec 32)
  | long (v : BitVec 64)
  | float (v : BitVec 32)
  | double (v : BitVec 64)
  | string (s : Bytes)
  | other (id : Nat)
deriving DecidableEq, Repr

/-- The last word of the method name; `object` for `get_or_default` and `delete_or_default`. -/
inductive Kind where
  | byte | short | int | long | float | double | string | object
deriving DecidableEq, Repr

/-- What the method of a kind returns (the types in the signatures): `byte` and `short` values are returned as `int`. -/
abbrev Answer : Kind → Type
  | .byte | .short | .int | .float => BitVec 32
  | .long | .double => BitVec 64
  | .string => Option Bytes
  | .object => Option Val

/-- Size in bits and value of the integer objects. -/
def whole : Val → Option (Nat × Int)
  | .byte v => some (8, v.toInt)
  | .short v => some (16, v.toInt)
  | .int v => some (32, v.toInt)
  | .long v => some (64, v.toInt)
  | _ => none

/-- The stored value `v` is of a type documented for the methods of the kind, and `a` is its value.  An integer kind takes the
integer objects of at most its size, with the same number as answer. -/
def Reads : (kind : Kind) → Option Val → Answer kind → Prop
  | .byte, v, a => ∃ o n, v = some o ∧ whole o = some (n, a.toInt) ∧ n ≤ 8
  | .short, v, a => ∃ o n, v = some o ∧ whole o = some (n, a.toInt) ∧ n ≤ 16
  | .int, v, a => ∃ o n, v = some o ∧ whole o = some (n, a.toInt) ∧ n ≤ 32
  | .long, v, a => ∃ o n, v = some o ∧ whole o = some (n, a.toInt) ∧ n ≤ 64
  | .float, v, a => v = some (.float a)
  | .double, v, a => v = some (.double a)
  | .string, v, a => v = a.map .string
  | .object, v, a => v = a

/-- Calls: those of `Verif.Spec.Hash` and the typed ones.  `get` of the kind `object` is `get` again. -/
inductive TOp where
  | base (op : Op Val)
  | setByte (key : Option Bytes) (v : BitVec 32)
  | setShort (key : Option Bytes) (v : BitVec 32)
  | setInt (key : Option Bytes) (v : BitVec 32)
  | setLong (key : Option Bytes) (v : BitVec 64)
  | setFloat (key : Option Bytes) (v : BitVec 32)
  | setDouble (key : Option Bytes) (v : BitVec 64)
  | setString (key : Option Bytes) (v : Option Bytes)
  | get (kind : Kind) (key : Option Bytes)
  | getOr (kind : Kind) (key : Option Bytes) (default : Answer kind)
  | deleteOr (kind : Kind) (key : Option Bytes) (default : Answer kind)
  | toArray (sort : BitVec 32)

/-- Results. -/
inductive TRes where
  | base (r : Res Val)
  | answer (kind : Kind) (a : Answer kind)

/-- Lexicographic order of byte strings. -/
inductive Before : Bytes → Bytes → Prop
  | nil : Before [] (b :: bs)
  | head : a.toNat < b.toNat → Before (a :: as) (b :: bs)
  | tail : Before as bs → Before (a :: as) (a :: bs)

/-- Setting a key to `v`. -/
def Sets (m : Map Bytes (Option Val)) (key : Option Bytes) (v : Option Val) (r : Option TRes) (m' : Map Bytes (Option Val)) :
    Prop :=
  match key with
  | none => r = none ∧ m' = m
  | some k => r = some (.base .unit) ∧ m' = put m k (some v)

/-- `op` on the map `m` may return `r` (`none`: it throws) and leave the map `m'`. -/
def TAllows (m : Map Bytes (Option Val)) (op : TOp) (r : Option TRes) (m' : Map Bytes (Option Val)) : Prop :=
  match op with
  | .base op => ∃ r0, Allows m op r0 m' ∧ r = r0.map .base
  | .setByte key v => ∃ w : BitVec 8, w.toInt = v.toInt.bmod (2 ^ 8) ∧ Sets m key (some (.byte w)) r m'
  | .setShort key v => ∃ w : BitVec 16, w.toInt = v.toInt.bmod (2 ^ 16) ∧ Sets m key (some (.short w)) r m'
  | .setInt key v => Sets m key (some (.int v)) r m'
  | .setLong key v => Sets m key (some (.long v)) r m'
  | .setFloat key v => Sets m key (some (.float v)) r m'
  | .setDouble key v => Sets m key (some (.double v)) r m'
  | .setString key v => Sets m key (v.map .string) r m'
  | .get _ none | .getOr _ none _ | .deleteOr _ none _ => r = none ∧ m' = m
  | .get kind (some k) =>
    m' = m ∧ ((∃ a, Reads kind (m k).join a ∧ r = some (.answer kind a)) ∨ ((∀ a, ¬ Reads kind (m k).join a) ∧ r = none))
  | .getOr kind (some k) d =>
    m' = m ∧ match m k with
      | none => r = some (.answer kind d)
      | some v => (∃ a, Reads kind v a ∧ r = some (.answer kind a)) ∨ ((∀ a, ¬ Reads kind v a) ∧ r = none)
  | .deleteOr kind (some k) d =>
    match m k with
    | none => r = some (.answer kind d) ∧ m' = m
    | some v => (∃ a, Reads kind v a ∧ r = some (.answer kind a) ∧ m' = put m k none) ∨
        ((∀ a, ¬ Reads kind v a) ∧ r = none ∧ m' = m)
  | .toArray sort =>
    m' = m ∧ ∃ ks, Enumerates m ks ∧ (0 < sort.toInt → ks.Pairwise Before) ∧
      (sort.toInt < 0 → ks.Pairwise (fun x y => Before y x)) ∧
      r = some (.base (.items (ks.flatMap (fun k => [.key (some k), .value (m k).join]))))

end SPVM.Spec.HashTyped
