/-!
# Specification of a finite map (for `Hash` and for the C symbol table)

A map is a function from keys to `none` (absent) or `some value`.
-/
namespace SPVM.Spec.Map

/-- A map from keys `κ` to values `ν`. -/
abbrev Map (κ ν : Type) := κ → Option ν

/-- The empty map. -/
def empty : Map κ ν := fun _ => none

/-- Replace the entry of one key; `none` removes it. -/
def put [DecidableEq κ] (m : Map κ ν) (k : κ) (v : Option ν) : Map κ ν := fun k' => if k' = k then v else m k'

/-- `ks` lists the present keys of `m`, each exactly once. -/
def Enumerates (m : Map κ ν) (ks : List κ) : Prop := ks.Nodup ∧ ∀ k, k ∈ ks ↔ m k ≠ none

end SPVM.Spec.Map
