import Verif.Model.Access
import Verif.Spec.Types
/-!
# Specification of access control

lib/SPVM/Document/Language/Class.pm: the tables of class, enumeration, class variable, field and method attributes, "allow
Statement", "Anon Method Class Definition", "Outmost Class", and the resolution of variables, fields and methods.  Only the data
types of the model are used, none of its functions.
-/
namespace SPVM
namespace Spec
namespace Access
open SPVM.Access (Classes Info Member Meth Acc)
open Spec.Types (HasCat Parent Ancestor)
open VM (Bytes)

/-- The name of the basic type `i` is `x`. -/
def Named (P : Classes) (i : Nat) (x : Bytes) : Prop := ∃ b, P.w[i]? = some b ∧ b.name = x

/-- The class in which code of the class `cur` is written: an anon method belongs to its outmost class. -/
inductive Outmost (P : Classes) : Nat → Nat → Prop
  | self : (P.info c).outmost = none → Outmost P c c
  | anon : (P.info c).outmost = some o → Outmost P c o

/-- `class d { allow o; }`. -/
def Allows (P : Classes) (d o : Nat) : Prop := ∃ x, Named P o x ∧ x ∈ (P.info d).allows

/-- Code of the class `cur` may access a member, declared in the class `d` (or an object of the class `d`), with the access control
`a`: public ones, its own ones and those of the class it is written in, protected ones of super classes, those of classes that
allow it. -/
inductive Permitted (P : Classes) (cur d : Nat) : Acc → Prop
  | pub : Permitted P cur d .pub
  | own : cur = d → Permitted P cur d a
  | outmost : Outmost P cur d → Permitted P cur d a
  | child : Outmost P cur o → Ancestor P.w d o → Permitted P cur d .prot
  | allow : Outmost P cur o → Allows P d o → Permitted P cur d a

/-- The declarations the compiler accepts: those of C35, anon method classes are classes written in a class that is none, members
of one class have different names, and `allow` names no anon method class (`::anon_method::`). -/
structure Wf (P : Classes) : Prop where
  types : Spec.Types.Wf P.w
  outmost : ∀ c o, (P.info c).outmost = some o → (∃ b, P.w[o]? = some b) ∧ (P.info o).outmost = none
  allows : ∀ d c o, (P.info c).outmost = some o → ¬ Allows P d c
  fields : ∀ c, ((P.info c).fields.map Member.name).Nodup
  vars : ∀ c, ((P.info c).vars.map Member.name).Nodup
  methods : ∀ c, ((P.info c).methods.map Meth.name).Nodup

/-- Looking for a method from `c` upwards finds first the definition `m` in the class `d`. -/
inductive FindsMethod (P : Classes) (name : Bytes) : Nat → Nat → Meth → Prop
  | here : m ∈ (P.info c).methods → m.name = name → FindsMethod P name c c m
  | up : (∀ m ∈ (P.info c).methods, m.name ≠ name) → Parent P.w p c → FindsMethod P name p d m → FindsMethod P name c d m

/-- `t` or a super class of it declares the field `f`; `d` is that class. -/
def HasField (P : Classes) (t d : Nat) (f : Member) : Prop := (d = t ∨ Ancestor P.w d t) ∧ f ∈ (P.info d).fields

/-- No field of that class or its super classes is declared again in a sub class of the declaring class. -/
def NoRedeclaration (P : Classes) (t : Nat) : Prop :=
  ∀ d e f g, HasField P t d f → HasField P t e g → f.name = g.name → d = e

/-- A name without a colon. -/
def Plain (x : Bytes) : Prop := (58 : UInt8) ∉ x

/-- The documented defaults; `anon` is a class generated by an anon method, `mulnum` a multi-numeric type. -/
def Default : SPVM.Access.Decl → (anon mulnum : Bool) → Acc
  | .method, _, _ => .pub
  | .enum, _, _ => .pub
  | .classVar, _, _ => .priv
  | .cls, anon, _ => if anon then .pub else .priv
  | .field, anon, mulnum => if anon || mulnum then .pub else .priv

/-- The access control that the attributes of a declaration ask for. -/
def Declared (attrs : List SPVM.Access.Attr) (default : Acc) (a : Acc) : Prop :=
  (SPVM.Access.Attr.acc a ∈ attrs) ∨ ((∀ b, SPVM.Access.Attr.acc b ∉ attrs) ∧ a = default)

/-- The attributes each kind of declaration has. -/
inductive Legal : SPVM.Access.Decl → SPVM.Access.Attr → Prop
  | acc (d a) : Legal d (.acc a)
  | cls {x} : x ∈ [SPVM.Access.Attr.pointer, .mulnumT, .precompile, .interfaceT] → Legal .cls x
  | classVar {x} : x ∈ [SPVM.Access.Attr.rw, .ro, .wo] → Legal .classVar x
  | field {x} : x ∈ [SPVM.Access.Attr.rw, .ro, .wo] → Legal .field x
  | method {x} : x ∈ [SPVM.Access.Attr.precompile, .required, .native, .static] → Legal .method x

/-- At most one place of the list has the property. -/
def AtMostOne {α : Type} (p : α → Prop) (l : List α) : Prop :=
  ∀ pre mid post x y, l = pre ++ x :: mid ++ y :: post → ¬ (p x ∧ p y)

end Access
end Spec
end SPVM
