import Verif.Model.Body
/-!
# Calls: what they mean, and what they do with the argument stack

A call passes its arguments on the argument stack, and takes the return value from there.  Here the documented calls (`Calls`, Spec/Body) are compared with what
happens at run time (`Oracle`, Model/Body).
-/
namespace SPVM
namespace Expr

/-- The arguments `vs` of a call of a method with the signature `g` are on the stack; those that are left out have default values. -/
def Fit {φ} (g : Sig φ) (vs : List (Val φ)) (d : Side φ) : Prop :=
  vs.length ≤ g.params.length ∧ g.params.length ≤ vs.length + g.defaults.length ∧
    ∀ i t x, g.params[i]? = some t → vs[i]? = some x → d.stack i = some (t, x) ∧ HasTy t x

/-- The same for all the arguments `ps` of a method, the default values among them. -/
def Passed {φ} (ps : List Var) (vs : List (Val φ)) (d : Side φ) : Prop :=
  vs.length = ps.length ∧ ∀ i v x, ps[i]? = some v → vs[i]? = some x → d.stack i = some (v.ty, x) ∧ HasTy v.ty x

/-- What a method with the return type `R` leaves behind: `$@`, and the return value on the stack unless there is an exception. -/
def Left {φ} (R : Option NT) (a : Answer φ) (d : Side φ) : Prop :=
  d.exc = a.exc ∧ (a.threw = false → ∀ t, R = some t → ∃ x, a.result = some (t, x) ∧ d.stack 0 = some (t, x) ∧ HasTy t x)

/-- What `C` says is what `K` does. -/
def Serves {φ} (G : Nat → Option (Sig φ)) (C : Calls φ) (K : Oracle φ) : Prop := ∀ f g vs d a, G f = some g → Fit g vs d → C f (g.fill vs) d.exc a →
  ∃ d', K f vs.length d = some (d', if a.threw then 1 else 0) ∧ Left g.ret a d'

/-- What `K` does is what `C` says. -/
def Reflects {φ} (G : Nat → Option (Sig φ)) (C : Calls φ) (K : Oracle φ) : Prop := ∀ f g vs d d' e, G f = some g → Fit g vs d → K f vs.length d = some (d', e) →
  ∃ a, C f (g.fill vs) d.exc a ∧ e = (if a.threw then 1 else 0) ∧ Left g.ret a d'

end Expr
end SPVM
