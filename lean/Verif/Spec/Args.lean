import Verif.Model.Args
import Verif.Spec.Types
import Verif.Spec.Expr
/-!
# Specification of argument passing

Only the data types of the model (`Env`, `Param`, `Meth`, `Dflt`, `V`, `Mem`, `Term`) are used here, none of its functions.
-/
namespace SPVM
namespace Spec
namespace Args
open SPVM.Args (Env Param Meth Dflt V Mem Term)
open SPVM.Types (Ty World)
open Spec.Types (HasCat IsObj WfTy Wf Assignable Converts)
open Vars (VarKind Decl)
open Expr (NT Val Fl InRange)

/-- The numeric type with a basic type id. -/
inductive NumTy : Nat → NT → VarKind → Prop
  | byte : NumTy 3 .byte .byte
  | short : NumTy 4 .short .short
  | int : NumTy 5 .int .int
  | long : NumTy 6 .long .long
  | float : NumTy 7 .float .float
  | double : NumTy 8 .double .double

/-- What a variable of the type `t` consists of: `n` values of the kind `k`.  It is one number, one object or one address; a variable
of a multi-numeric type has a number for each field. -/
inductive Shape (E : Env) (t : Ty) : VarKind → Nat → Prop
  | num : t.dim = 0 → t.ref = false → NumTy t.bt nt k → Shape E t k 1
  | obj : IsObj E.w t → Shape E t .object 1
  | ref : t.ref = true → Shape E t .ref 1
  | mul : t.dim = 0 → t.ref = false → HasCat E.w t.bt .mulnum → Shape E t (E.mul t.bt).1 (E.mul t.bt).2

/-- The compiler accepted the declarations of the types; the multi-numeric types have fields, all of a numeric type. -/
structure EnvOk (E : Env) : Prop where
  types : Wf E.w
  fields : ∀ b, HasCat E.w b .mulnum → 1 ≤ (E.mul b).2 ∧ ∃ i nt, NumTy i nt (E.mul b).1

/-- A type that a variable can have. -/
structure VarTy (w : World) (t : Ty) : Prop where
  wf : WfTy w t
  undef : ¬ HasCat w t.bt .undef
  void : ¬ HasCat w t.bt .void

/-- The value of the variable that starts at `i`. -/
def valueAt {φ} (m : Mem φ) (k : VarKind) (i n : Nat) : List (V φ) := (List.range n).map (fun j => m k (i + j))

/-- The value that the operand `a` has in the caller's frame, for a parameter of the type `t`. -/
inductive Passed {φ} (E : Env) (t : Ty) (a : Term) (m : Mem φ) : List (V φ) → Prop
  | undef : HasCat E.w a.ty.bt .undef → Passed E t a m [.obj none]
  | value : ¬ HasCat E.w a.ty.bt .undef → Shape E t k n → Passed E t a m (valueAt m k a.var n)

/-- The value of a default: an integer constant keeps its value in an integer parameter and is converted to a floating point
one; a floating point constant goes to a floating point parameter; objects have the default `undef`. -/
inductive Default {φ} (E : Env) (F : Fl φ) (t : Ty) : Dflt φ → V φ → Prop
  | int : t.dim = 0 → t.ref = false → NumTy t.bt nt k → nt.IsInt → s.IsInt → InRange nt n →
      Default E F t (.const s (.i n)) (.num (.i n))
  | intFloat : t.dim = 0 → t.ref = false → NumTy t.bt nt k → ¬ nt.IsInt → s.IsInt →
      Default E F t (.const s (.i n)) (.num (.f (F.ofInt nt n)))
  | float : t.dim = 0 → t.ref = false → NumTy t.bt nt k → ¬ nt.IsInt → Default E F t (.const nt (.f x)) (.num (.f x))
  | floatFloat : t.dim = 0 → t.ref = false → NumTy t.bt nt k → ¬ nt.IsInt → ¬ s.IsInt → s ≠ nt →
      Default E F t (.const s (.f x)) (.num (.f (F.cast s nt x)))
  | undef : IsObj E.w t → Default E F t .undef (.obj none)

/-- The constants the parser makes. -/
def ConstOk {φ} (p : Param φ) : Prop :=
  ∀ t x, p.dflt = some (.const t x) → Expr.Literal t x

/-- The number of values of all parameters. -/
inductive TotalWidth {φ} (E : Env) : List (Param φ) → Nat → Prop
  | nil : TotalWidth E [] 0
  | cons : Shape E p.ty k n → TotalWidth E ps w → TotalWidth E (p :: ps) (n + w)

/-- The parameters before the first one with a default. -/
def IsRequired {φ} (ps : List (Param φ)) (r : Nat) : Prop :=
  r ≤ ps.length ∧ (∀ (j : Nat) (p : Param φ), j < r → ps[j]? = some p → p.dflt = none) ∧ (∀ p, ps[r]? = some p → p.dflt ≠ none)

/-- The parameter list keeps the rules: the defaults are valid, no required parameter follows an optional one, and there are at
most 255 values. -/
structure ParamsOk {φ} (E : Env) (F : Fl φ) (ps : List (Param φ)) : Prop where
  defaults : ∀ p ∈ ps, ∀ d, p.dflt = some d → ∃ v, Default E F p.ty d v
  last : ∀ (i j : Nat) (p q : Param φ), i < j → ps[i]? = some p → ps[j]? = some q → p.dflt ≠ none → q.dflt ≠ none
  width : ∃ n, TotalWidth E ps n ∧ n ≤ 255

/-- The operand of the type `s` can be given for a parameter of the type `d`. -/
def CanPass (w : World) (d s : Ty) (narrow : Bool) : Prop :=
  ¬ HasCat w s.bt .void ∧ (Assignable w false d s ∨ Converts w narrow d s)

/-- The operands of a call fit the parameters. -/
def CallOk {φ} (w : World) (ps : List (Param φ)) (ts : List (Ty × Bool)) : Prop :=
  (∀ r, IsRequired ps r → r ≤ ts.length) ∧ ts.length ≤ ps.length ∧
  ∀ (j : Nat) (p : Param φ) (t : Ty × Bool), ps[j]? = some p → ts[j]? = some t → CanPass w p.ty t.1 t.2

/-- The instance method `sm` can be called where `dm` is declared. -/
structure Overrides {φ} (E : Env) (dm sm : Meth φ) : Prop where
  dmInstance : dm.isClass = false
  smInstance : sm.isClass = false
  selfs : ∀ p, dm.params[0]? = some p ∨ sm.params[0]? = some p → IsObj E.w p.ty
  args : ∀ (j : Nat) (p q : Param φ), 0 < j → dm.params[j]? = some p → sm.params[j]? = some q → Assignable E.w true p.ty q.ty
  ret : Assignable E.w true dm.ret sm.ret

/-- The frame `m` at the start of the method: every parameter has the value of its argument, or else its default; the other
variables are as in `m0`. -/
structure Bound {φ} (E : Env) (F : Fl φ) (ps : List (Param φ)) (vars : List Nat) (as : List Term) (cm m0 m : Mem φ) : Prop where
  given : ∀ (j : Nat) (p : Param φ) (v : Nat) (a : Term), ps[j]? = some p → vars[j]? = some v → as[j]? = some a →
    ∃ k n, Shape E p.ty k n ∧ Passed E p.ty a cm (valueAt m k v n)
  omitted : ∀ (j : Nat) (p : Param φ) (v : Nat), ps[j]? = some p → vars[j]? = some v → as[j]? = none →
    ∃ k d x, Shape E p.ty k 1 ∧ p.dflt = some d ∧ Default E F p.ty d x ∧ m k v = x
  others : ∀ k i, (∀ (j : Nat) (p : Param φ) (v n : Nat), ps[j]? = some p → vars[j]? = some v → Shape E p.ty k n → ¬ (v ≤ i ∧ i < v + n)) → m k i = m0 k i

/-- One of the objects that are given is not of the type of its parameter. -/
def Misfit {φ} (E : Env) (fits : Nat → Ty → Bool) (ps : List (Param φ)) (as : List Term) (cm : Mem φ) : Prop :=
  ∃ (j : Nat) (p : Param φ) (a : Term) (o : Nat), ps[j]? = some p ∧ as[j]? = some a ∧ IsObj E.w p.ty ∧ Passed E p.ty a cm [.obj (some o)] ∧ fits o p.ty = false

end Args
end Spec
end SPVM
