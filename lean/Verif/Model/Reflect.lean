import Verif.Base

/-!
# The runtime description of a program

`SPVM_COMPILER_build_runtime` copies the declarations of the compiled classes into the structures that the virtual
machine, the native API and `Native::*` classes read.  Models lib/SPVM/Builder/src/spvm_compiler.c 409-426 and 755-977,
spvm_basic_type.c 346-368, spvm_check.c 214-220, 831-866, 3914-3935, spvm_op.c 952-956, spvm_string_buffer.c 129-144,
spvm_api_basic_type.c, spvm_api_class_var.c, spvm_api_field.c, spvm_api_method.c, spvm_api_arg.c and spvm_api_runtime.c
147-169.

Simplifications: memory exhaustion is not modelled; the machine code, the opcodes and the variable widths of a method are
one opaque list of numbers each; the hash tables are association lists; the interfaces of a class are not copied by the code
and are not here.
-/

namespace SPVM.Reflect

/-- The bytes of a C string or of a string pool. -/
abbrev Bytes := List UInt8

/-- The constant strings of a class: `string_pool`, `constant_strings` (`string_pool_index`, `length`) and
`constant_string_symtable` (value to `index`), spvm_basic_type.c 66-74. -/
structure Pool where
  bytes : Bytes := []
  strs : List (Nat × Nat) := []
  tbl : List (Bytes × Nat) := []
deriving DecidableEq

/-- `SPVM_HASH_get(basic_type->constant_string_symtable, value, length)`. -/
def Pool.find (p : Pool) (v : Bytes) : Option Nat := p.tbl.lookup v

/-- `SPVM_BASIC_TYPE_add_constant_string`, spvm_basic_type.c 346-368, with `SPVM_STRING_BUFFER_add_len_nullstr`,
spvm_string_buffer.c 129-144. -/
def Pool.add (p : Pool) (v : Bytes) : Pool :=
  match p.find v with
  | some _ => p
  | none =>
    { bytes := p.bytes ++ (v ++ [0])
      strs := p.strs ++ [(p.bytes.length, v.length)]
      tbl := p.tbl ++ [(v, p.strs.length)] }

/-- The end of `SPVM_CHECK_check_asts`, spvm_check.c 900-902: four NUL bytes after the pool. -/
def Pool.close (p : Pool) : Pool := { p with bytes := p.bytes ++ [0, 0, 0, 0] }

/-- A type: basic type id, dimension, flag (spvm_type.h). -/
structure Ty where
  basic : Nat
  dim : Nat
  flag : Nat
deriving DecidableEq

/-- A class variable of the compiler (spvm_class_var.h). -/
structure ClassVar where
  name : Bytes
  index : Nat
  ty : Ty
  cur : Nat
deriving DecidableEq

/-- A field of the compiler (spvm_field.h). -/
structure Field where
  name : Bytes
  index : Nat
  offset : Nat
  ty : Ty
  cur : Nat
deriving DecidableEq

/-- An argument declaration of the compiler (spvm_var_decl.h). -/
structure Arg where
  name : Bytes
  ty : Ty
  stackIndex : Nat
  dflt : Int
  optional : Bool
deriving DecidableEq

/-- A method of the compiler (spvm_method.h). -/
structure Method where
  name : Bytes
  index : Nat
  cur : Nat
  ret : Ty
  isClass : Bool
  isInit : Bool
  isNative : Bool
  isPrecompile : Bool
  isDestroy : Bool
  isRequired : Bool
  isEnum : Bool
  widths : List Nat
  args : List Arg
  required : Nat
  opcodes : List Nat
deriving DecidableEq

/-- A basic type of the compiler (spvm_basic_type.h).  `lits` are the other constant strings of its methods;
`destroy` is the method found by `SPVM_CHECK_search_method` (its class and its index). -/
structure Decl where
  name : Bytes
  id : Nat
  category : Nat := 0
  parent : Option Nat := none
  file : Option Bytes := none
  classDir : Option Bytes := none
  relFile : Option Bytes := none
  version : Option Bytes := none
  isAnon : Bool := false
  isPointer : Bool := false
  fieldsSize : Nat := 0
  classVars : List ClassVar := []
  fields : List Field := []
  methods : List Method := []
  anons : List Nat := []
  lits : List Bytes := []
  init : Option Nat := none
  destroy : Option (Nat × Nat) := none
deriving DecidableEq

/-- The strings added to the pool of a class, in this order: the names of the arguments while the class is parsed (spvm_op.c
952-956), then those of `SPVM_CHECK_check_asts` (spvm_check.c 835-866), then those met in the bodies. -/
def Decl.strings (d : Decl) : List Bytes :=
  d.methods.flatMap (fun m => m.args.map Arg.name)
    ++ [d.name] ++ d.file.toList ++ d.classDir.toList ++ d.relFile.toList ++ d.version.toList
    ++ d.classVars.map ClassVar.name ++ d.fields.map Field.name ++ d.methods.map Method.name ++ d.lits

/-- The pool of a class at the end of its compilation. -/
def Decl.pool (d : Decl) : Pool := (d.strings.foldl Pool.add {}).close

/-- A `char*` of the runtime: an offset in the copied pool of a basic type. -/
abbrev SPtr := Nat × Nat

/-- The type part of a runtime structure; the basic type is a pointer (null or the type of an id). -/
structure RTy where
  basic : Option Nat
  dim : Nat
  flag : Nat
deriving DecidableEq

/-- spvm_runtime_class_var.h. -/
structure RClassVar where
  name : SPtr
  index : Nat
  ty : RTy
  cur : Option Nat
deriving DecidableEq

/-- spvm_runtime_field.h. -/
structure RField where
  name : SPtr
  index : Nat
  offset : Nat
  ty : RTy
  cur : Option Nat
deriving DecidableEq

/-- spvm_runtime_arg.h; `method` is `current_method`, by class and index in its array. -/
structure RArg where
  name : SPtr
  index : Nat
  ty : RTy
  stackIndex : Nat
  method : Nat × Nat
  dflt : Int
  optional : Bool
deriving DecidableEq

/-- spvm_runtime_method.h. -/
structure RMethod where
  name : SPtr
  index : Nat
  cur : Option Nat
  ret : RTy
  isClass : Bool
  isInit : Bool
  isNative : Bool
  isPrecompile : Bool
  isDestroy : Bool
  isRequired : Bool
  isEnum : Bool
  widths : List Nat
  args : List RArg
  required : Nat
  opcodes : List Nat
  isPrecompileFallback : Int := 0
deriving DecidableEq

/-- A pointer to a runtime method: null, the address of an element of the array of a class, or an address computed from
a null array. -/
inductive MPtr where
  | null
  | at (cls idx : Nat)
  | wild (idx : Nat)
deriving DecidableEq

/-- `&methods[idx]`. -/
def addr (methods : Option (List RMethod)) (cls idx : Nat) : MPtr :=
  match methods with
  | some _ => .at cls idx
  | none => if idx = 0 then .null else .wild idx

/-- spvm_runtime_basic_type.h.  The default values are those of the zeroed block (spvm_allocator.c 30-43);
`methods = none` is the null pointer. -/
structure RBasic where
  name : Option SPtr := none
  id : Nat := 0
  category : Nat := 0
  parent : Option Nat := none
  file : Option SPtr := none
  classDir : Option SPtr := none
  relFile : Option SPtr := none
  version : Option SPtr := none
  isAnon : Bool := false
  isPointer : Bool := false
  fieldsSize : Nat := 0
  pool : Bytes := []
  strs : List (Nat × Nat) := []
  classVars : List RClassVar := []
  fields : List RField := []
  methods : Option (List RMethod) := none
  anons : List (Option Nat) := []
  init : MPtr := .null
  destroy : MPtr := .null
deriving DecidableEq

/-- The runtime: `basic_types` and `basic_type_symtable`. -/
structure Rt where
  types : List RBasic := []
  tbl : List (Bytes × Nat) := []
deriving DecidableEq

/-- `SPVM_API_RUNTIME_get_basic_type_by_id`, spvm_api_runtime.c 147-162. -/
def Rt.byId (len : Nat) (id : Nat) : Option Nat := if id < len then some id else none

/-- The address of a name: `constant_strings[SPVM_HASH_get(..)->index].value`; a string that is not in the table is a null
dereference. -/
def strPtr (cls : Nat) (p : Pool) (v : Bytes) : Out SPtr :=
  match p.find v with
  | none => .ub
  | some i =>
    match p.strs[i]? with
    | none => .ub
    | some s => .ok (cls, s.1)

/-- The same for a string that may be null, e.g. spvm_compiler.c 925-928. -/
def optPtr (cls : Nat) (p : Pool) : Option Bytes → Out (Option SPtr)
  | none => .ok none
  | some v => do
    let s ← strPtr cls p v
    .ok (some s)

/-- A `for` loop that fills an array from a list. -/
def fillFrom (f : Nat → α → Out β) : Nat → List α → Out (List β)
  | _, [] => .ok []
  | k, x :: xs => do
    let y ← f k x
    let ys ← fillFrom f (k + 1) xs
    .ok (y :: ys)

/-- The three type members, e.g. spvm_compiler.c 811-813. -/
def buildTy (len : Nat) (t : Ty) : RTy := ⟨Rt.byId len t.basic, t.dim, t.flag⟩

/-- spvm_compiler.c 806-818. -/
def buildClassVar (len cls : Nat) (p : Pool) (_ : Nat) (v : ClassVar) : Out RClassVar := do
  let s ← strPtr cls p v.name
  .ok { name := s, index := v.index, ty := buildTy len v.ty, cur := Rt.byId len v.cur }

/-- spvm_compiler.c 825-838. -/
def buildField (len cls : Nat) (p : Pool) (_ : Nat) (v : Field) : Out RField := do
  let s ← strPtr cls p v.name
  .ok { name := s, index := v.index, offset := v.offset, ty := buildTy len v.ty, cur := Rt.byId len v.cur }

/-- spvm_compiler.c 884-900. -/
def buildArg (len cls : Nat) (p : Pool) (mi : Nat) (k : Nat) (a : Arg) : Out RArg := do
  let s ← strPtr cls p a.name
  .ok { name := s, index := k, ty := buildTy len a.ty, stackIndex := a.stackIndex, method := (cls, mi), dflt := a.dflt,
        optional := a.optional }

/-- spvm_compiler.c 845-904. -/
def buildMethod (len cls : Nat) (p : Pool) (k : Nat) (m : Method) : Out RMethod := do
  let s ← strPtr cls p m.name
  let args ← fillFrom (buildArg len cls p k) 0 m.args
  .ok { name := s, index := m.index, cur := Rt.byId len m.cur, ret := buildTy len m.ret, isClass := m.isClass,
        isInit := m.isInit, isNative := m.isNative, isPrecompile := m.isPrecompile, isDestroy := m.isDestroy,
        isRequired := m.isRequired, isEnum := m.isEnum, widths := m.widths, args := args, required := m.required,
        opcodes := m.opcodes }

/-- `SPVM_HASH_get(compiler->basic_type_symtable, name)`. -/
def findId (ds : List Decl) (name : Bytes) : Option Nat := (ds.find? (fun d => d.name = name)).map Decl.id

/-- The parent, spvm_compiler.c 949-952: looked up again by its name. -/
def buildParent (ds : List Decl) : Option Nat → Out (Option Nat)
  | none => .ok none
  | some q =>
    match ds[q]? with
    | none => .ub
    | some pd =>
      match findId ds pd.name with
      | none => .ub
      | some j => .ok (Rt.byId ds.length j)

/-- The destructor, spvm_compiler.c 960-964: the address of an element of the array of its class, as that array is now. -/
def buildDestroy (types : List RBasic) (cls : Nat) (own : Option (List RMethod)) : Option (Nat × Nat) → MPtr
  | none => .null
  | some (o, j) => if o = cls then addr own o j else addr ((types[o]?).bind RBasic.methods) o j

/-- The body of the second loop for one basic type, spvm_compiler.c 781-968. -/
def buildOne (ds : List Decl) (types : List RBasic) (cls : Nat) (d : Decl) : Out RBasic := do
  let len := ds.length
  let p := d.pool
  let cvs ← fillFrom (buildClassVar len cls p) 0 d.classVars
  let fs ← fillFrom (buildField len cls p) 0 d.fields
  let ms ← fillFrom (buildMethod len cls p) 0 d.methods
  let methods := if d.methods.length > 0 then some ms else none
  let name ← strPtr cls p d.name
  let file ← optPtr cls p d.file
  let dir ← optPtr cls p d.classDir
  let rel ← optPtr cls p d.relFile
  let ver ← optPtr cls p d.version
  let parent ← buildParent ds d.parent
  .ok { name := some name, id := d.id, category := d.category, parent := parent, file := file, classDir := dir,
        relFile := rel, version := ver, isAnon := d.isAnon, isPointer := d.isPointer, fieldsSize := d.fieldsSize,
        pool := p.bytes, strs := p.strs, classVars := cvs, fields := fs, methods := methods,
        anons := d.anons.map (Rt.byId len),
        init := match d.init with
          | none => .null
          | some j => addr methods cls j,
        destroy := buildDestroy types cls methods d.destroy }

/-- The second loop, spvm_compiler.c 779-969, from basic type `cls` on. -/
def buildLoop (ds : List Decl) (cls : Nat) (rt : Rt) : List Decl → Out Rt
  | [] => .ok rt
  | d :: rest => do
    let b ← buildOne ds rt.types cls d
    buildLoop ds (cls + 1) { types := rt.types.set cls b, tbl := (d.name, cls) :: rt.tbl } rest

/-- `SPVM_COMPILER_build_runtime`, spvm_compiler.c 755-974: the old entries are kept, the new ones are allocated and then
filled. -/
def buildRuntime (ds : List Decl) (rt : Rt) : Out Rt :=
  let base := rt.types.length
  buildLoop ds base { rt with types := rt.types ++ List.replicate (ds.length - base) {} } (ds.drop base)

/-! ### The compiler's list of basic types -/

/-- `SPVM_COMPILER_add_basic_type`, spvm_compiler.c 416-430: the id of the name, a new one when it is not known. -/
def addBasicType (names : List Bytes) (n : Bytes) : List Bytes × Nat :=
  match names.idxOf? n with
  | some i => (names, i)
  | none => (names ++ [n], names.length)

/-- `class NAME extends PARENT`, yacc/spvm_yacc.y 253-266: the name of the class is reduced before that of its parent. -/
def declareClass (names : List Bytes) (cls par : Bytes) : List Bytes × Nat × Nat :=
  let r := addBasicType names cls
  let q := addBasicType r.1 par
  (q.1, r.2, q.2)

/-- `SPVM_CHECK_search_method(compiler, basic_type, "DESTROY")`, spvm_check.c 3914-3935, run for every basic type at
214-220: the class itself, then its parents. -/
def searchMethod (ds : List Decl) (name : Bytes) : Nat → Option Nat → Option (Nat × Nat)
  | 0, _ => none
  | _ + 1, none => none
  | n + 1, some q =>
    match ds[q]? with
    | none => none
    | some d =>
      match d.methods.find? (fun m => m.name = name) with
      | some m => some (m.cur, m.index)
      | none => searchMethod ds name n d.parent

/-! ### The API -/

namespace Api

/-- Reading a C string from the copied pool of a basic type; no NUL up to the end of the pool is an overrun. -/
def cstr (rt : Rt) (s : SPtr) : Out Bytes :=
  match rt.types[s.1]? with
  | none => .ub
  | some b =>
    let rest := b.pool.drop s.2
    if 0 ∈ rest then .ok (rest.takeWhile (· != 0)) else .ub

/-- Reading a `char*` that may be null. -/
def optCstr (rt : Rt) : Option SPtr → Out (Option Bytes)
  | none => .ok none
  | some s => do
    let v ← cstr rt s
    .ok (some v)

/-- `SPVM_API_RUNTIME_get_basic_type_by_id`, spvm_api_runtime.c 147-162. -/
def basicTypeById (rt : Rt) (id : Int) : Option RBasic :=
  if id < 0 then none else if id ≥ rt.types.length then none else rt.types[id.toNat]?

/-- `SPVM_API_RUNTIME_get_basic_type_by_name`, spvm_api_runtime.c 164-169. -/
def basicTypeByName (rt : Rt) (name : Bytes) : Option RBasic :=
  match rt.tbl.lookup name with
  | none => none
  | some i => rt.types[i]?

/-- `get_class_var_by_index`, `get_field_by_index`, `get_anon_basic_type_by_index`, spvm_api_basic_type.c 111-124, 148-161,
245-259, and `SPVM_API_METHOD_get_arg_by_index`, spvm_api_method.c 85-98. -/
def byIndex (l : List α) (k : Int) : Option α :=
  if k < 0 then none else if k ≥ l.length then none else l[k.toNat]?

/-- `get_method_by_index`, spvm_api_basic_type.c 186-199. -/
def methodByIndex (b : RBasic) (k : Int) : Option RMethod := byIndex (b.methods.getD []) k

/-- The loop of `get_class_var_by_name` and `get_field_by_name`, spvm_api_basic_type.c 126-141, 163-179. -/
def byName (rt : Rt) (nameOf : α → SPtr) (name : Bytes) : List α → Out (Option α)
  | [] => .ok none
  | x :: xs => do
    let s ← cstr rt (nameOf x)
    if s = name then .ok (some x) else byName rt nameOf name xs

/-- A constant string of a basic type, as `SPVM_RUNTIME_STRING` (value and length). -/
def constantString (b : RBasic) (i : Nat) : Option Bytes :=
  (b.strs[i]?).map fun s => (b.pool.drop s.1).take s.2

/-- The test and the call in `SPVM_API_dec_ref_count`, spvm_api.c 5197-5208: which method is run on an object of this class
that dies. -/
def destructor (b : RBasic) : Out (Option (Nat × Nat)) :=
  match b.destroy with
  | .null => .ok none
  | .at c j => .ok (some (c, j))
  | .wild _ => .ub

/-- The functions of spvm_api_method.c that read or write the two flags. -/
inductive MethodFn where
  | isPrecompile
  | isPrecompileFallback
  | setIsPrecompileFallback
deriving DecidableEq

/-- The function that the API table puts into each of these members, spvm_api_method.c 29, 44-45 against
include/spvm_native.h 456, 471-472. -/
def methodTable : MethodFn → MethodFn
  | .isPrecompile => .isPrecompile
  | .isPrecompileFallback => .isPrecompile
  | .setIsPrecompileFallback => .setIsPrecompileFallback

/-- spvm_api_method.c 155-158, 231-239: the functions themselves; a getter ignores the value. -/
def runFn (f : MethodFn) (m : RMethod) (x : Int) : RMethod × Int :=
  match f with
  | .isPrecompile => (m, if m.isPrecompile then 1 else 0)
  | .isPrecompileFallback => (m, m.isPrecompileFallback)
  | .setIsPrecompileFallback => ({ m with isPrecompileFallback := x }, 0)

/-- `env->api->method->is_precompile`. -/
def isPrecompile (m : RMethod) : Int := (runFn (methodTable .isPrecompile) m 0).2

/-- `env->api->method->is_precompile_fallback`. -/
def isPrecompileFallback (m : RMethod) : Int := (runFn (methodTable .isPrecompileFallback) m 0).2

/-- `env->api->method->set_is_precompile_fallback`. -/
def setIsPrecompileFallback (m : RMethod) (x : Int) : RMethod := (runFn (methodTable .setIsPrecompileFallback) m x).1

end Api

end SPVM.Reflect
