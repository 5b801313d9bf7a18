import Verif.Spec.Callback

/-!
# Specification of copies and comparisons of object arrays
-/

namespace SPVM.Spec.CloneEq

/-- A method that compares two objects: it may change the program's state, and answers or throws. -/
abbrev Checker (σ α : Type) := Option α → Option α → Prog σ Int

/-- The method changes the length of neither array.  In SPVM nothing does. -/
def KeepsLengths (a b : σ → List (Option α)) (chk : Checker σ α) : Prop :=
  ∀ x y s, (a (chk x y s).2).length = (a s).length ∧ (b (chk x y s).2).length = (b s).length

/-- `Checks a b chk n i s out s'`: from the state `s` on, the pairs number `i`, `i + 1`, ..., `n - 1`, each as it is when its turn
comes, are given to the method until it answers 0 or throws.  `out` is 1 if it never did, 0 if it answered 0, the exception if it
threw; `s'` is the state at the end. -/
inductive Checks (a b : σ → List (Option α)) (chk : Checker σ α) (n : Nat) : Nat → σ → Out Int → σ → Prop
  | all (i s) : i = n → Checks a b chk n i s (.ok 1) s
  | same {i s x y r s₁ out s'} : i < n → (a s)[i]? = some x → (b s)[i]? = some y → chk x y s = (.ok r, s₁) → r ≠ 0 →
      Checks a b chk n (i + 1) s₁ out s' → Checks a b chk n i s out s'
  | differ {i s x y s'} : i < n → (a s)[i]? = some x → (b s)[i]? = some y → chk x y s = (.ok 0, s') →
      Checks a b chk n i s (.ok 0) s'
  | throw {i s x y m s'} : i < n → (a s)[i]? = some x → (b s)[i]? = some y → chk x y s = (.die m, s') →
      Checks a b chk n i s (.die m) s'

/-- An object: a `Point`, a `Point3D`, or an object of a class that is neither `Cloneable` nor `EqualityCheckable`. -/
inductive Obj
  | point (x y : Int)
  | point3d (x y z : Int)
  | other (cls : Nat)
deriving DecidableEq, Repr

/-- Is it a `Point` (or a `Point3D`, which is one)? -/
def Obj.isPoint : Obj → Bool
  | .point _ _ => true
  | .point3d _ _ _ => true
  | .other _ => false

/-- Is it a `Point3D`? -/
def Obj.isPoint3D : Obj → Bool
  | .point3d _ _ _ => true
  | _ => false

/-- The objects of the program; a reference is a number `k`, and the object is `h[k]`. -/
abbrev Objs := List Obj

/-- The references refer to points, or are `undef`. -/
def Points (h : Objs) (xs : List (Option Nat)) : Prop := ∀ k, some k ∈ xs → ∃ o, h[k]? = some o ∧ o.isPoint = true

/-- `x` is a reference to an object of the same class and with the same coordinates as the one `y` refers to, or both are `undef`. -/
def SameValue (h : Objs) : Option Nat → Option Nat → Prop
  | none, none => True
  | some k, some j => ∃ o, h[k]? = some o ∧ h[j]? = some o
  | _, _ => False

end SPVM.Spec.CloneEq
