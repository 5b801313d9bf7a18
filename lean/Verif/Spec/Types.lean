import Verif.Model.Types
/-!
# Specification of types, inheritance and interfaces

Only the data types of the model (`World`, `BT`, `Method`, `Ty`) are used here, none of its functions.
-/
namespace SPVM
namespace Spec
namespace Types
open SPVM.Types (World BT Method Ty Cat)
open VM (Bytes)

/-- Basic type `i` is of category `k`. -/
def HasCat (w : World) (i : Nat) (k : Cat) : Prop := ∃ b, w[i]? = some b ∧ b.cat = k

/-- `class c extends p`. -/
def Parent (w : World) (p c : Nat) : Prop :=
  ∃ bc bp, w[c]? = some bc ∧ w[p]? = some bp ∧ bc.parentName = some bp.name

/-- `a` is a super class of `c`. -/
inductive Ancestor (w : World) : Nat → Nat → Prop
  | parent : Parent w a c → Ancestor w a c
  | up : Parent w p c → Ancestor w a p → Ancestor w a c

/-- Looking for a method called `name` from `c` upwards finds first the definition `m` in `o`. -/
inductive Resolves (w : World) (name : Bytes) : Nat → Nat → Method → Prop
  | here : w[c]? = some b → m ∈ b.methods → m.name = name → Resolves w name c c m
  | up : w[c]? = some b → (∀ m ∈ b.methods, m.name ≠ name) → Parent w p c → Resolves w name p o m →
      Resolves w name c o m

/-- Variables of the type `t` hold references to objects. -/
def IsObj (w : World) (t : Ty) : Prop :=
  t.ref = false ∧ (0 < t.dim ∨ HasCat w t.bt .string ∨ HasCat w t.bt .cls ∨ HasCat w t.bt .iface ∨ HasCat w t.bt .anyObject)

mutual
/-- A value of the type `s` can be stored in a variable of the type `d` as it is.  The first argument tells that the types
occur in the signature of a method that is compared with an interface; interface types are then compared by identity. -/
inductive Assignable (w : World) : Bool → Ty → Ty → Prop
  /-- `undef` goes into every variable that holds references. -/
  | undef : HasCat w s.bt .undef → IsObj w d → Assignable w im d s
  /-- The same type; a mutable string can be used as a string. -/
  | same : ¬ HasCat w d.bt .undef → d.bt = s.bt → d.dim = s.dim → d.ref = s.ref →
      (d.dim = 0 → d.isMut = true → s.isMut = true) → Assignable w im d s
  /-- A sub class; the numeric object types (`Int`, ...) only accept themselves, but arrays of them accept arrays of sub
  classes. -/
  | subclass : d.ref = false → s.ref = false → d.dim = s.dim → (d.dim = 0 → ¬ (11 ≤ d.bt ∧ d.bt ≤ 16)) →
      HasCat w d.bt .cls → HasCat w s.bt .cls → Ancestor w d.bt s.bt → Assignable w im d s
  /-- An implementation of an interface, or arrays of these. -/
  | iface : d.ref = false → s.ref = false → d.dim = s.dim → (im = true → 0 < d.dim) → HasCat w d.bt .iface →
      Implements w s.bt d.bt → Assignable w im d s
  /-- `object`. -/
  | any : HasCat w d.bt .anyObject → d.dim = 0 → IsObj w s → Assignable w im d s
  /-- `object[]`. -/
  | anyArray : HasCat w d.bt .anyObject → d.dim = 1 → 0 < s.dim → IsObj w { s with dim := s.dim - 1 } → Assignable w im d s

/-- The class or interface `s` has, for every instance method of `d`, a compatible instance method (if it has one of that
name; it must have one if the method of `d` is required). -/
inductive Implements (w : World) : Nat → Nat → Prop
  | mk : (HasCat w s .cls ∨ HasCat w s .iface) → (HasCat w d .cls ∨ HasCat w d .iface) → w[d]? = some b →
      (∀ m ∈ b.methods, m.isClass = false → m.isRequired = true → ∃ o sm, Resolves w m.name s o sm) →
      (∀ m ∈ b.methods, m.isClass = false → ∀ o sm, Resolves w m.name s o sm → sm.isClass = false) →
      (∀ m ∈ b.methods, m.isClass = false → ∀ o sm, Resolves w m.name s o sm → sm.required ≤ m.args.length) →
      (∀ m ∈ b.methods, m.isClass = false → ∀ o sm, Resolves w m.name s o sm →
        ∀ i dt st, 0 < i → m.args[i]? = some dt → sm.args[i]? = some st → Assignable w true dt st) →
      (∀ m ∈ b.methods, m.isClass = false → ∀ o sm, Resolves w m.name s o sm → Assignable w true m.ret sm.ret) →
      Implements w s d
end

/-- A variable of the type `t` holds a number. -/
def IsNum (w : World) (t : Ty) : Prop := t.dim = 0 ∧ t.ref = false ∧ HasCat w t.bt .numeric

/-- A value of the type `s` can be stored in a variable of the type `d` after a conversion.  `narrow` tells that the value is
a constant that fits.  The ids of the numeric types are ordered `byte`, `short`, `int`, `long`, `float`, `double`, those of
the classes `Byte`, ..., `Double` follow at a distance of 8. -/
inductive Converts (w : World) (narrow : Bool) (d s : Ty) : Prop
  | widen : IsNum w d → IsNum w s → s.bt < d.bt → Converts w narrow d s
  | narrow : IsNum w d → IsNum w s → d.bt < s.bt → narrow = true → Converts w narrow d s
  | unbox : IsNum w d → s.dim = 0 → s.ref = false → s.bt = d.bt + 8 → Converts w narrow d s
  | unboxAny : IsNum w d → s.dim = 0 → s.ref = false → HasCat w s.bt .anyObject → Converts w narrow d s
  | toString : HasCat w d.bt .string → d.dim = 0 → IsNum w s → Converts w narrow d s
  | box : IsNum w s → d.dim = 0 → d.ref = false → d.bt = s.bt + 8 → Converts w narrow d s
  | boxAny : IsNum w s → d.dim = 0 → HasCat w d.bt .anyObject → Converts w narrow d s

/-- A type that can be written in a program: references are to numeric or multi-numeric variables, only strings are mutable,
there are no arrays of `void`. -/
structure WfTy (w : World) (t : Ty) : Prop where
  known : ∃ b, w[t.bt]? = some b ∧ b.cat ≠ .unknown
  ref : t.ref = true → t.dim = 0 ∧ (HasCat w t.bt .numeric ∨ HasCat w t.bt .mulnum)
  mutable : t.isMut = true → HasCat w t.bt .string
  dim : 0 < t.dim → ¬ HasCat w t.bt .undef ∧ ¬ HasCat w t.bt .void

/-- A program whose declarations the compiler accepts: the built-in basic types have their ids, names are unique (a second
declaration is an error), parents are loaded classes and there is no circular inheritance. -/
structure Wf (w : World) : Prop where
  undef : ∀ i, HasCat w i .undef ↔ i = 1
  void : ∀ i, HasCat w i .void ↔ i = 2
  numeric : ∀ i, HasCat w i .numeric ↔ 3 ≤ i ∧ i ≤ 8
  string : ∀ i, HasCat w i .string ↔ i = 9
  anyObject : ∀ i, HasCat w i .anyObject ↔ i = 10
  numericObject : ∀ i, 11 ≤ i → i ≤ 16 → HasCat w i .cls
  names : ∀ (i j : Nat) (bi bj : BT), w[i]? = some bi → w[j]? = some bj → bi.name = bj.name → i = j
  parent : ∀ (c : Nat) (b : BT) (p : Bytes), w[c]? = some b → b.parentName = some p → HasCat w c .cls ∧ ∃ q, Parent w q c ∧ HasCat w q .cls
  acyclic : ∀ c, ¬ Ancestor w c c
  methods : ∀ (i : Nat) (b : BT), w[i]? = some b → (b.methods.map Method.name).Nodup
  types : ∀ (i : Nat) (b : BT), w[i]? = some b → ∀ m ∈ b.methods, WfTy w m.ret ∧ ∀ t ∈ m.args, WfTy w t

end Types
end Spec
end SPVM
