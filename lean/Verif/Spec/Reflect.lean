import Verif.Model.Reflect

/-!
# What the description of a program must say (C86)

`Described rt i d`: the answers of the reflection API about basic type `i` are the declarations of the class `d`.  Every member
is one kind of question; names are compared as the strings read through the pointers that the API returns.
-/

namespace SPVM.Reflect

/-- No NUL byte in a name. -/
def NoNul (v : Bytes) : Prop := (0 : UInt8) ∉ v

/-- The type answered is the type declared. -/
def TyIs (r : RTy) (t : Ty) : Prop := r.basic = some t.basic ∧ r.dim = t.dim ∧ r.flag = t.flag

/-- A class variable answered is the one declared. -/
def ClassVarIs (rt : Rt) (r : RClassVar) (v : ClassVar) : Prop :=
  Api.cstr rt r.name = .ok v.name ∧ r.index = v.index ∧ TyIs r.ty v.ty ∧ r.cur = some v.cur

/-- A field answered is the one declared. -/
def FieldIs (rt : Rt) (r : RField) (v : Field) : Prop :=
  Api.cstr rt r.name = .ok v.name ∧ r.index = v.index ∧ r.offset = v.offset ∧ TyIs r.ty v.ty ∧ r.cur = some v.cur

/-- An argument answered is the one declared at position `k` of method `mi` of class `i`. -/
def ArgIs (rt : Rt) (i mi k : Nat) (r : RArg) (a : Arg) : Prop :=
  Api.cstr rt r.name = .ok a.name ∧ r.index = k ∧ TyIs r.ty a.ty ∧ r.stackIndex = a.stackIndex ∧ r.method = (i, mi) ∧
    r.dflt = a.dflt ∧ r.optional = a.optional

/-- A method answered is the one declared, with its arguments. -/
structure MethodIs (rt : Rt) (i k : Nat) (r : RMethod) (m : Method) : Prop where
  name : Api.cstr rt r.name = .ok m.name
  index : r.index = m.index
  cur : r.cur = some m.cur
  ret : TyIs r.ret m.ret
  kind : r.isClass = m.isClass ∧ r.isInit = m.isInit ∧ r.isDestroy = m.isDestroy ∧ r.isRequired = m.isRequired
  code : r.isNative = m.isNative ∧ r.isPrecompile = m.isPrecompile ∧ r.isEnum = m.isEnum
  body : r.widths = m.widths ∧ r.opcodes = m.opcodes
  argsLength : r.args.length = m.args.length
  required : r.required = m.required
  arg : ∀ (j : Nat) (a : Arg), m.args[j]? = some a → ∃ ra, Api.byIndex r.args j = some ra ∧ ArgIs rt i k j ra a
  noArg : ∀ j : Int, j < 0 ∨ j ≥ m.args.length → Api.byIndex r.args j = none

/-- The basic type `b` of the runtime, at position `i`, describes the class `d`. -/
structure DescribedBy (rt : Rt) (i : Nat) (b : RBasic) (d : Decl) : Prop where
  name : Api.optCstr rt b.name = .ok (some d.name)
  id : b.id = d.id
  category : b.category = d.category
  parent : b.parent = d.parent
  file : Api.optCstr rt b.file = .ok d.file
  classDir : Api.optCstr rt b.classDir = .ok d.classDir
  relFile : Api.optCstr rt b.relFile = .ok d.relFile
  version : Api.optCstr rt b.version = .ok d.version
  flags : b.isAnon = d.isAnon ∧ b.isPointer = d.isPointer ∧ b.fieldsSize = d.fieldsSize
  classVarsLength : b.classVars.length = d.classVars.length
  classVar : ∀ (k : Nat) (v : ClassVar), d.classVars[k]? = some v →
    ∃ r, Api.byIndex b.classVars k = some r ∧ ClassVarIs rt r v
  noClassVar : ∀ k : Int, k < 0 ∨ k ≥ d.classVars.length → Api.byIndex b.classVars k = none
  fieldsLength : b.fields.length = d.fields.length
  field : ∀ (k : Nat) (v : Field), d.fields[k]? = some v → ∃ r, Api.byIndex b.fields k = some r ∧ FieldIs rt r v
  noField : ∀ k : Int, k < 0 ∨ k ≥ d.fields.length → Api.byIndex b.fields k = none
  methodsLength : (b.methods.getD []).length = d.methods.length
  method : ∀ (k : Nat) (m : Method), d.methods[k]? = some m → ∃ r, Api.methodByIndex b k = some r ∧ MethodIs rt i k r m
  noMethod : ∀ k : Int, k < 0 ∨ k ≥ d.methods.length → Api.methodByIndex b k = none
  anons : b.anons = d.anons.map some
  init : b.init = match d.init with
    | none => .null
    | some j => .at i j
  strings : ∀ v ∈ d.strings, ∃ j, d.pool.find v = some j ∧ Api.constantString b j = some v

/-- Basic type `i` of the runtime describes the class `d`. -/
def Described (rt : Rt) (i : Nat) (d : Decl) : Prop :=
  ∃ b, Api.basicTypeById rt i = some b ∧ Api.basicTypeByName rt d.name = some b ∧ DescribedBy rt i b d

/-- What a compilation without errors leaves in a class: no name holds a NUL byte (they are C strings), the types, owners,
parents and anonymous classes named are basic types of the list, and an `INIT` is one of its methods. -/
structure DeclOk (n : Nat) (d : Decl) : Prop where
  name : NoNul d.name
  file : ∀ v, d.file = some v → NoNul v
  classDir : ∀ v, d.classDir = some v → NoNul v
  relFile : ∀ v, d.relFile = some v → NoNul v
  version : ∀ v, d.version = some v → NoNul v
  parent : ∀ q, d.parent = some q → q < n
  anons : ∀ q ∈ d.anons, q < n
  classVars : ∀ v ∈ d.classVars, NoNul v.name ∧ v.ty.basic < n ∧ v.cur < n
  fields : ∀ v ∈ d.fields, NoNul v.name ∧ v.ty.basic < n ∧ v.cur < n
  methods : ∀ m ∈ d.methods, NoNul m.name ∧ m.ret.basic < n ∧ m.cur < n ∧ ∀ a ∈ m.args, NoNul a.name ∧ a.ty.basic < n
  init : ∀ j, d.init = some j → j < d.methods.length

/-- The list of basic types of the compiler: ids are positions and names are unique (`SPVM_COMPILER_add_basic_type`). -/
structure ListOk (ds : List Decl) : Prop where
  ids : ∀ (i : Nat) (d : Decl), ds[i]? = some d → d.id = i
  names : ∀ (i j : Nat) (d e : Decl), ds[i]? = some d → ds[j]? = some e → d.name = e.name → i = j
  decls : ∀ d ∈ ds, DeclOk ds.length d

/-- The runtime describes the whole program. -/
def DescribesAll (rt : Rt) (ds : List Decl) : Prop :=
  rt.types.length = ds.length ∧ (∀ (i : Nat) (d : Decl), ds[i]? = some d → Described rt i d) ∧
    ∀ name, (∀ d ∈ ds, d.name ≠ name) → Api.basicTypeByName rt name = none

/-- The states of the compiler and its runtime after any number of successful compilations, each of which adds basic types to
the list and builds the runtime (spvm_compiler.c 278-288). -/
inductive Compiled : List Decl → Rt → Prop where
  | start : Compiled [] {}
  | compile {ds new : List Decl} {rt rt' : Rt} : Compiled ds rt → ListOk (ds ++ new) →
      buildRuntime (ds ++ new) rt = .ok rt' → Compiled (ds ++ new) rt'

/-- `DESTROY`. -/
def destroyName : Bytes := [68, 69, 83, 84, 82, 79, 89]

/-- The destructor of class `i` is the method of its class, or of the nearest class above it, with that name. -/
def DestroyResolved (ds : List Decl) (i : Nat) (d : Decl) : Prop :=
  ∃ n, d.destroy = searchMethod ds destroyName (n + 2) (some i)

end SPVM.Reflect
