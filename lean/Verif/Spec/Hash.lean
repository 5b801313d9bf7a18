import Verif.Spec.Map
/-!
# Specification of `Hash`: a finite map from byte strings to possibly undefined objects
-/
namespace SPVM.Spec.Hash
open SPVM.Spec.Map

/-- A string. -/
abbrev Bytes := List UInt8

/-- Operations. -/
inductive Op (α : Type) where
  | set (key : Option Bytes) (value : Option α)
  | get (key : Option Bytes)
  | exist (key : Option Bytes)
  | delete (key : Option Bytes)
  | weaken (key : Option Bytes)
  | unweaken (key : Option Bytes)
  | isweak (key : Option Bytes)
  | keysLength
  | hasKeys
  | keys
  | values
  | toArray

/-- An element of the `object[]` built by `to_array`. -/
inductive Item (α : Type) where
  | key (k : Option Bytes)
  | value (v : Option α)
deriving DecidableEq, Repr

/-- Results. -/
inductive Res (α : Type) where
  | unit
  | num (n : Int)
  | value (v : Option α)
  | keys (ks : List (Option Bytes))
  | values (vs : List (Option α))
  | items (xs : List (Item α))
deriving DecidableEq, Repr

/-- `op` on the map `m` may return `r` (`none`: it throws) and leave the map `m'`.  A key that is absent reads as undef.
The order of the keys is free. -/
def Allows (m : Map Bytes (Option α)) (op : Op α) (r : Option (Res α)) (m' : Map Bytes (Option α)) : Prop :=
  match op with
  | .set none _ | .get none | .exist none | .delete none | .weaken none | .unweaken none | .isweak none =>
    r = none ∧ m' = m
  | .set (some k) v => r = some .unit ∧ m' = put m k (some v)
  | .get (some k) => r = some (.value (m k).join) ∧ m' = m
  | .exist (some k) => r = some (.num (if (m k).isSome then 1 else 0)) ∧ m' = m
  | .delete (some k) => r = some (.value (m k).join) ∧ m' = put m k none
  | .weaken (some _) | .unweaken (some _) => r = some .unit ∧ m' = m
  | .isweak (some _) => (r = some (.num 0) ∨ r = some (.num 1)) ∧ m' = m
  | .keysLength => (∃ ks, Enumerates m ks ∧ r = some (.num ks.length)) ∧ m' = m
  | .hasKeys => (((∃ k, m k ≠ none) ∧ r = some (.num 1)) ∨ ((∀ k, m k = none) ∧ r = some (.num 0))) ∧ m' = m
  | .keys => (∃ ks, Enumerates m ks ∧ r = some (.keys (ks.map some))) ∧ m' = m
  | .values => (∃ ks, Enumerates m ks ∧ r = some (.values (ks.map (fun k => (m k).join)))) ∧ m' = m
  | .toArray =>
    (∃ ks, Enumerates m ks ∧ r = some (.items (ks.flatMap (fun k => [.key (some k), .value (m k).join])))) ∧ m' = m

/-- The map given by a list of alternating keys and values; later pairs win. `asString` tells the bytes of an object that
is a string. `none`: some key is not a string, or the length is odd. -/
def ofPairs (asString : α → Option Bytes) : Map Bytes (Option α) → List (Option α) → Option (Map Bytes (Option α))
  | m, [] => some m
  | _, [_] => none
  | m, k :: v :: rest =>
    match k.bind asString with
    | none => none
    | some key => ofPairs asString (put m key (some v)) rest

end SPVM.Spec.Hash
