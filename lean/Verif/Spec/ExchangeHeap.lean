import Verif.Model.Exchange

/-!
# Scalars that hold objects of the heap
-/

namespace SPVM.Exch

/-- What an array of objects takes: undef, or an object whose type may be assigned to the element type. -/
def Assignable (W : World) (t : BT) (d : Nat) (h : Heap) (v : Sv) : Prop :=
  v = .undef ∨ ∃ k b ob, v = .obj k (some b) ∧ h[b]? = some ob ∧ W.isa ob.ty ob.dim t d = true

/-- The pointer is null or points to an object. -/
def Points (h : Heap) (o : Option Nat) : Prop := ∀ a, o = some a → a < h.length

/-- The object a scalar holds exists: Perl never holds a dangling object. -/
def Known (h : Heap) (v : Sv) : Prop := ∀ k o, v = .obj k o → o ≠ none ∧ Points h o

/-- A Perl list shorter than 2³¹. -/
def Small (v : Sv) : Prop := ∀ es, v = .aref es → es.length < 2147483648

/-- Every object keeps its type, length and contents. -/
def Same (h h' : Heap) : Prop := ∀ (a : Nat) (ob : Obj), h[a]? = some ob → ∃ r, h'[a]? = some { ob with rc := r }

end SPVM.Exch
