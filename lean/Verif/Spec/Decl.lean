import Verif.Base
/-!
# What the declarations in a class give

From lib/SPVM/Document/Language/Class.pm (version statement, class variable definition, field definition, enumeration
definition, method definition).  A class is a list of declarations; each gives members that are used by name.
-/
namespace SPVM
namespace Decl

abbrev Name := List Char

/-- Types, as far as the generated methods are concerned. -/
inductive Ty where
  | byte | short | int
  /-- any other type -/
  | other (k : Nat)
deriving DecidableEq, Repr

/-- The attributes for accessors. -/
inductive Acc where
  | rw | ro | wo
deriving DecidableEq, Repr

/-- Literals, as far as declarations use them. -/
inductive Lit where
  | int (v : Int)
  | str (s : List UInt8)
  /-- a long, float, double literal and so on -/
  | other
deriving DecidableEq, Repr

/-- `NAME` or `NAME = VALUE` in an enumeration. -/
structure Item where
  name : Name
  value : Option Lit
deriving DecidableEq, Repr

/-- A method written in the class.  The arguments are those between the parentheses; `code` stands for the statements. -/
structure UserMethod where
  name : Name
  isClass : Bool
  native : Bool
  required : Bool
  hasBlock : Bool
  /-- `none`: void -/
  ret : Option Ty
  args : List (Name × Ty)
  code : Nat
deriving DecidableEq, Repr

/-- Declarations.  The name of a class variable begins with `$`. -/
inductive Decl where
  | version (l : Lit)
  | classVar (name : Name) (ty : Ty) (acc : List Acc)
  | field (name : Name) (ty : Ty) (acc : List Acc)
  | enum (items : List Item)
  | method (m : UserMethod)
  | init
deriving DecidableEq, Repr

inductive Cat where
  | cls | interface | mulnum
deriving DecidableEq, Repr

/-! ## Values of enumerations -/

/-- The first item is 0 and every other item the previous one plus 1, where no value is given. -/
def EnumValues (given : List (Option Int)) (vals : List Int) : Prop :=
  vals.length = given.length ∧
  (∀ (k : Nat) v, given[k]? = some (some v) → vals[k]? = some v) ∧
  (given[0]? = some none → vals[0]? = some 0) ∧
  (∀ (k : Nat) v, given[k + 1]? = some none → vals[k]? = some v → vals[k + 1]? = some (v + 1))

/-- The value given to an item. -/
def Item.given (i : Item) : Option Int :=
  match i.value with
  | some (.int v) => some v
  | _ => none

/-- No value, or the value is an int literal. -/
def Item.Int (i : Item) : Prop := i.value = none ∨ ∃ v, i.value = some (.int v)

/-! ## Version strings -/

def Digits (s : List UInt8) : Prop := ∀ b ∈ s, 48 ≤ b ∧ b ≤ 57

/-- Digits, or digits, a point and digits in groups of three. -/
def VersionOk (s : List UInt8) : Prop :=
  ∃ a, a ≠ [] ∧ Digits a ∧ (s = a ∨ ∃ b, b ≠ [] ∧ Digits b ∧ b.length % 3 = 0 ∧ s = a ++ 46 :: b)

/-! ## Accessors -/

def Readable (acc : List Acc) : Prop := .rw ∈ acc ∨ .ro ∈ acc
def Writable (acc : List Acc) : Prop := .rw ∈ acc ∨ .wo ∈ acc

instance (acc : List Acc) : Decidable (Readable acc) := inferInstanceAs (Decidable (_ ∨ _))
instance (acc : List Acc) : Decidable (Writable acc) := inferInstanceAs (Decidable (_ ∨ _))

/-- The type of the value of the accessors of a variable or field of type `t`: `int` for `byte` and `short`. -/
def AccessorType (t u : Ty) : Prop := ((t = .byte ∨ t = .short) → u = .int) ∧ (t ≠ .byte → t ≠ .short → u = t)

/-- The methods a declaration gives, by name. -/
def Decl.methodNames : Decl → List Name
  | .version _ => []
  | .classVar n _ acc => (if Readable acc then [n.drop 1] else []) ++ (if Writable acc then [['S', 'E', 'T', '_'] ++ n.drop 1] else [])
  | .field n _ acc => (if Readable acc then [n] else []) ++ (if Writable acc then [['s', 'e', 't', '_'] ++ n] else [])
  | .enum items => items.map (·.name)
  | .method m => [m.name]
  | .init => []

def Decl.classVarNames : Decl → List Name
  | .classVar n _ _ => [n]
  | _ => []

def Decl.fieldNames : Decl → List Name
  | .field n _ _ => [n]
  | _ => []

/-- Values.  Numbers of the types up to `int` are integers. -/
inductive V where
  | num (v : Int)
  | other (k : Nat)
deriving DecidableEq, Repr

/-- What is in a variable of a type when `v` has been stored into it. -/
def Stored (ty : Ty) (v w : V) : Prop :=
  match ty, v with
  | .byte, .num v => ∃ x : Int, w = .num x ∧ -128 ≤ x ∧ x < 128 ∧ ∃ k : Int, x = v + 256 * k
  | .short, .num v => ∃ x : Int, w = .num x ∧ -32768 ≤ x ∧ x < 32768 ∧ ∃ k : Int, x = v + 65536 * k
  | _, v => w = v

/-! ## Classes that compile -/

/-- Two colons one after the other. -/
def HasColons (n : Name) : Prop := ∃ a b, n = a ++ ':' :: ':' :: b

def initName : Name := ['I', 'N', 'I', 'T']
def destroyName : Name := ['D', 'E', 'S', 'T', 'R', 'O', 'Y']
def selfName : Name := ['s', 'e', 'l', 'f']
def valueName : Name := ['$', 'v', 'a', 'l', 'u', 'e']

/-- Rules for one declaration in a class of a category. -/
def Decl.Ok (cat : Cat) : Decl → Prop
  | .version l => ∃ s, l = .str s ∧ VersionOk s
  | .classVar n _ acc => ¬ HasColons n ∧ acc.length ≤ 1 ∧ cat = .cls
  | .field n _ acc =>
    ¬ HasColons n ∧ acc.length ≤ 1 ∧ cat ≠ .interface ∧ (acc ≠ [] → cat = .cls) ∧ (Writable acc → n ≠ selfName)
  | .enum items => ∀ i ∈ items, i.Int
  | .method m =>
    (cat = .mulnum → m.isClass = true) ∧
    (cat = .cls → m.required = false) ∧
    -- a native method has no block, the others have one, but for instance methods of interfaces
    (m.native = true → m.hasBlock = false) ∧
    (m.native = false → m.hasBlock = false → cat = .interface ∧ m.isClass = false) ∧
    (m.name = destroyName → m.ret = none ∧ m.isClass = false ∧ m.args = []) ∧
    -- the names of the arguments
    (m.hasBlock = true → ((if m.isClass then [] else [['$', 's', 'e', 'l', 'f']]) ++ m.args.map (·.1)).Nodup)
  | .init => True

/-- Rules for a class. -/
structure ClassOk (cat : Cat) (ds : List Decl) : Prop where
  each : ∀ d ∈ ds, d.Ok cat
  oneVersion : (ds.filter (fun d => match d with | .version _ => true | _ => false)).length ≤ 1
  methods : (ds.flatMap Decl.methodNames).Nodup
  classVars : (ds.flatMap Decl.classVarNames).Nodup
  fields : (ds.flatMap Decl.fieldNames).Nodup
  notInit : initName ∉ ds.flatMap Decl.methodNames
  noColons : ∀ n ∈ ds.flatMap Decl.methodNames, ¬ HasColons n
  /-- only a method written as such is a destructor -/
  destroy : ∀ d ∈ ds, destroyName ∈ d.methodNames → ∃ m, d = .method m
  /-- a multi-numeric type has fields -/
  mulnum : cat = .mulnum → 1 ≤ (ds.flatMap Decl.fieldNames).length ∧ (ds.flatMap Decl.fieldNames).length ≤ 255

end Decl
end SPVM
