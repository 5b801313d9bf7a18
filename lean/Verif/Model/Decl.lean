import Verif.Spec.Decl
/-!
# Declarations in the compiler

`SPVM_OP_build_class`, `SPVM_OP_build_enumeration`, `SPVM_OP_build_enumeration_item`, `SPVM_OP_build_class_var`,
`SPVM_OP_build_field` and `SPVM_OP_build_method` of lib/SPVM/Builder/src/spvm_op.c, and running the methods they make.

Simplifications.  Names are lists of characters (bytes ended by `\0` in the code).  The symbol tables are looked up by a scan of
the list of members (the hash table of the code is property C15).  The attributes for access control are left out (property C67),
as are `use`, `alias`, `allow`, `extends` and `interface` declarations (properties C67 and C69), anonymous methods and the
statements of methods written by the user.  `isdigit` is taken for the bytes `0` to `9`.
-/
namespace SPVM
namespace Decl

/-- Expressions of generated methods. -/
inductive Exp where
  | var (n : Name)
  | field (n : Name)
  | cast (t : Ty) (e : Exp)
  | int (v : Int)
deriving DecidableEq, Repr

/-- Statements of generated methods. -/
inductive Stmt where
  | ret (e : Exp)
  | setVar (n : Name) (e : Exp)
  | setField (n : Name) (e : Exp)
deriving DecidableEq, Repr

inductive Body where
  | gen (s : Stmt)
  | user (code : Nat)
  | init
  /-- `op_block` is `NULL` -/
  | none
deriving DecidableEq, Repr

/-- `SPVM_METHOD`.  `args` has the invocant. -/
structure Method where
  name : Name
  isClass : Bool
  native : Bool
  required : Bool
  ret : Option Ty
  args : List (Name × Ty)
  body : Body
deriving DecidableEq, Repr

/-- Compile errors. -/
inductive Err where
  | versionTwice | versionType | versionChar | versionBegin | versionEnd | versionDots | versionGroups | versionStrtod
  | colons | accessors | enumType | initMethod | nativeBlock | destroyRet | destroyClass | destroyArgs
  | interfaceVar | interfaceField | noBlock | required | redeclaration (n : Name)
  | mulnumMethod | mulnumVar | mulnumEmpty | mulnumMany | varNotFound (n : Name)
deriving DecidableEq, Repr

/-! ## Version strings -/

/-- `isdigit`. -/
def isDigit (b : UInt8) : Bool := 48 ≤ b && b ≤ 57

/-- The loop of the validation, spvm_op.c 443-458: the counts of points and of digits after a point, or an invalid character. -/
def scanVersion : List UInt8 → Nat → Nat → Option (Nat × Nat)
  | [], dots, after => some (dots, after)
  | b :: bs, dots, after =>
    if !(b == 46 || isDigit b) then none
    else
      let dots := if b == 46 then dots + 1 else dots
      scanVersion bs dots (if dots > 0 && isDigit b then after + 1 else after)

/-- The end pointer of `strtod` (C17 7.22.1.3) on a string of digits and points: what follows the longest prefix made of digits
with an optional point among, before or after them. -/
def strtodEnd (s : List UInt8) : List UInt8 :=
  match s.dropWhile isDigit with
  | 46 :: r => if s.takeWhile isDigit = [] && r.takeWhile isDigit = [] then s else r.dropWhile isDigit
  | r => r

/-- The validation of the version string, spvm_op.c 438-490.  The byte after the string is 0. -/
def checkVersion (s : List UInt8) : Option Err :=
  match scanVersion s 0 0 with
  | none => some .versionChar
  | some (dots, after) =>
    if !isDigit (s.headD 0) then some .versionBegin
    else if !isDigit (s.getLastD 0) then some .versionEnd
    else if !(dots ≤ 1) then some .versionDots
    else if !(after % 3 == 0) then some .versionGroups
    else if !(strtodEnd s).isEmpty then some .versionStrtod
    else none

/-! ## Methods -/

/-- `strstr(name, "::")`. -/
def hasColons : Name → Bool
  | [] => false
  | c :: cs => (c == ':' && cs.head? == some ':') || hasColons cs

def selfVar : Name := '$' :: selfName

/-- `SPVM_OP_build_method`, spvm_op.c 1376-1572: the invocant goes before the arguments (1460-1468). -/
def newMethod (name : Name) (isClass native required : Bool) (ret : Option Ty) (args : List (Name × Ty)) (body : Body) : Method :=
  ⟨name, isClass, native, required, ret, if isClass then args else (selfVar, .other 0) :: args, body⟩

/-- The errors of `SPVM_OP_build_method`: spvm_op.c 1385-1387, 1404-1406, 1451-1453, 1500-1517. -/
def Method.errs (m : Method) : List Err :=
  (if hasColons m.name then [.colons] else []) ++
  (if m.body != .init && m.name == initName then [.initMethod] else []) ++
  (if m.native && m.body != .none then [.nativeBlock] else []) ++
  (if m.name == destroyName then
    (if m.ret != none then [.destroyRet] else []) ++ (if m.isClass then [.destroyClass] else []) ++
      (if m.args.length != 1 then [.destroyArgs] else [])
   else [])

/-! ## Enumerations -/

/-- `current_enum_value++` (`int32_t`, spvm_compiler.h 98). -/
def incr (cur : Int) : Out Int := if cur = 2147483647 then .ub else .ok (cur + 1)

/-- `SPVM_OP_build_enumeration_item`, spvm_op.c 1147-1203.  `value.ival` of a constant that is no int is 0 here (there is an
error then). -/
def enumItem (cur : Int) (i : Item) : Out (Method × List Err × Int) :=
  let val : Int × List Err × Int :=
    match i.value with
    | some (.int v) => (v, [], v)
    | some _ => (0, [.enumType], cur)
    | none => (cur, [], cur)
  match incr val.2.2 with
  | .ok next =>
    let m := newMethod i.name true false false (some .int) [] (.gen (.ret (.int val.1)))
    .ok (m, val.2.1 ++ m.errs, next)
  | .die m => .die m
  | .ub => .ub

/-- The items of an enumeration, in the order the parser reduces them (spvm_yacc.y 423-449). -/
def enumItems : Int → List Item → Out (List Method × List Err × Int)
  | cur, [] => .ok ([], [], cur)
  | cur, i :: is =>
    match enumItem cur i with
    | .ok (m, e, next) =>
      match enumItems next is with
      | .ok (ms, es, last) => .ok (m :: ms, e ++ es, last)
      | .die x => .die x
      | .ub => .ub
    | .die x => .die x
    | .ub => .ub

/-! ## What the parser makes of the declarations -/

/-- Ops of the declarations. -/
inductive Op where
  | version (l : Lit)
  | classVar (name : Name) (ty : Ty) (acc : List Acc)
  | field (name : Name) (ty : Ty) (acc : List Acc)
  | enum (ms : List Method)
  | method (m : Method)
  | init
deriving DecidableEq, Repr

/-- The errors on the attributes for accessors, spvm_op.c 1265-1267 and 1345-1347: at every attribute after the first. -/
def accErrs (acc : List Acc) : List Err := List.replicate (acc.length - 1) .accessors

/-- A method written by the user. -/
def UserMethod.build (m : UserMethod) : Method :=
  newMethod m.name m.isClass m.native m.required m.ret m.args (if m.hasBlock then .user m.code else .none)

/-- The reduction of one declaration: `SPVM_OP_build_class_var` spvm_op.c 1205-1279, `SPVM_OP_build_field` 1281-1356,
`SPVM_OP_build_method`, `SPVM_OP_build_enumeration` 1093-1145 (it sets the counter to 0, 1142). -/
def parseDecl (cur : Int) : Decl → Out (Op × List Err × Int)
  | .version l => .ok (.version l, [], cur)
  | .classVar n t acc => .ok (.classVar n t acc, (if hasColons n then [.colons] else []) ++ accErrs acc, cur)
  | .field n t acc => .ok (.field n t acc, (if hasColons n then [.colons] else []) ++ accErrs acc, cur)
  | .enum items =>
    match enumItems cur items with
    | .ok (ms, es, _) => .ok (.enum ms, es, 0)
    | .die x => .die x
    | .ub => .ub
  | .method m => .ok (.method m.build, m.build.errs, cur)
  | .init => .ok (.init, [], cur)

def parseDecls : Int → List Decl → Out (List Op × List Err × Int)
  | cur, [] => .ok ([], [], cur)
  | cur, d :: ds =>
    match parseDecl cur d with
    | .ok (o, e, next) =>
      match parseDecls next ds with
      | .ok (os, es, last) => .ok (o :: os, e ++ es, last)
      | .die x => .die x
      | .ub => .ub
    | .die x => .die x
    | .ub => .ub

/-! ## The class -/

/-- The parts of `SPVM_BASIC_TYPE` that hold the members. -/
structure Cls where
  version : Option (List UInt8)
  classVars : List (Name × Ty)
  fields : List (Name × Ty)
  methods : List Method
  errs : List Err
deriving DecidableEq, Repr

/-- `has_getter`, spvm_op.c 1246-1259 and 1326-1339. -/
def hasGetter (acc : List Acc) : Bool := acc.any (fun a => a == .rw || a == .ro)
/-- `has_setter`. -/
def hasSetter (acc : List Acc) : Bool := acc.any (fun a => a == .rw || a == .wo)

/-- The type of the value an accessor takes or returns, spvm_op.c 557-567, 600-610, 678-688, 721-731. -/
def accType : Ty → Ty
  | .byte => .int
  | .short => .int
  | t => t

/-- The accessors of a class variable, spvm_op.c 546-655. -/
def classVarMethods (n : Name) (t : Ty) (acc : List Acc) : List Method :=
  (if hasGetter acc then [newMethod (n.drop 1) true false false (some (accType t)) [] (.gen (.ret (.var n)))] else []) ++
  (if hasSetter acc then
    [newMethod (['S', 'E', 'T', '_'] ++ n.drop 1) true false false none [(valueName, accType t)]
      (.gen (.setVar n (.cast t (.var valueName))))]
   else [])

/-- The accessors of a field, spvm_op.c 666-783. -/
def fieldMethods (n : Name) (t : Ty) (acc : List Acc) : List Method :=
  (if hasGetter acc then [newMethod n false false false (some (accType t)) [] (.gen (.ret (.field n)))] else []) ++
  (if hasSetter acc then
    [newMethod (['s', 'e', 't', '_'] ++ n) false false false none [('$' :: n, accType t)]
      (.gen (.setField n (.cast t (.var ('$' :: n)))))]
   else [])

/-- One declaration in the loop of `SPVM_OP_build_class`, spvm_op.c 419-815; the flag: `break`. -/
def step (cat : Cat) (c : Cls) : Op → Cls × Bool
  | .version l =>
    if c.version.isSome then ({ c with errs := c.errs ++ [.versionTwice] }, true)
    else
      match l with
      | .str s =>
        match checkVersion s with
        | some e => ({ c with errs := c.errs ++ [e] }, true)
        | none => ({ c with version := some s }, false)
      | _ => ({ c with errs := c.errs ++ [.versionType] }, true)
  | .classVar n t acc =>
    ({ c with
        errs := c.errs ++ (if cat = .interface then [.interfaceVar] else []) ++ (classVarMethods n t acc).flatMap Method.errs
        classVars := c.classVars ++ [(n, t)]
        methods := c.methods ++ classVarMethods n t acc }, false)
  | .field n t acc =>
    ({ c with
        errs := c.errs ++ (if cat = .interface then [.interfaceField] else []) ++ (fieldMethods n t acc).flatMap Method.errs
        fields := c.fields ++ [(n, t)]
        methods := c.methods ++ fieldMethods n t acc }, false)
  | .enum ms => ({ c with methods := c.methods ++ ms }, false)
  | .method m => ({ c with methods := c.methods ++ [m] }, false)
  | .init => (c, false)

/-- The loop over the declarations, spvm_op.c 419-815. -/
def loop (cat : Cat) : List Op → Cls → Cls
  | [], c => c
  | o :: os, c => if (step cat c o).2 then (step cat c o).1 else loop cat os (step cat c o).1

/-- The search for redeclarations, spvm_op.c 818-849, 852-868, 970-1001: an error for every name that is in the symbol table
already. -/
def redeclared : List Name → List Name → List Err
  | _, [] => []
  | seen, n :: ns => if n ∈ seen then .redeclaration n :: redeclared seen ns else redeclared (n :: seen) ns

/-- The `INIT` method made for every class, spvm_op.c 871-894. -/
def initMethod : Method := newMethod initName true false false none [] .init

/-- Whether a method must have a block, spvm_op.c 908-925. -/
def mustHaveBlock (cat : Cat) (m : Method) : Bool :=
  if m.native then false
  else if cat = .interface then m.isClass
  else true

/-- The errors of the loop over the methods, spvm_op.c 927-929, 964-968. -/
def methodErrs (cat : Cat) (m : Method) : List Err :=
  (if mustHaveBlock cat m && m.body == .none then [.noBlock] else []) ++
  (if cat = .cls && m.required then [.required] else [])

/-- The errors of a multi-numeric type, spvm_op.c 1006-1025. -/
def mulnumErrs (cat : Cat) (c : Cls) : List Err :=
  if cat = .mulnum then
    (c.methods.flatMap (fun m => if m.isClass then [] else [.mulnumMethod])) ++
    (if c.classVars.length > 0 then [.mulnumVar] else []) ++
    (if c.fields.length = 0 then [.mulnumEmpty] else if c.fields.length > 255 then [.mulnumMany] else [])
  else []

/-! ## The check of the bodies -/

/-- The variables of an expression. -/
def Exp.vars : Exp → List Name
  | .var n => [n]
  | .field _ => [selfVar]
  | .cast _ e => e.vars
  | .int _ => []

def Stmt.vars : Stmt → List Name
  | .ret e => e.vars
  | .setVar n e => n :: e.vars
  | .setField _ e => selfVar :: e.vars

/-- Declaring the arguments (spvm_op.c 1533-1542, spvm_check.c 2978-3005) and finding the variables (spvm_check.c 3014-3068),
in a method with a block. -/
def checkBody (vars : List Name) (m : Method) : List Err :=
  match m.body with
  | .none => []
  | .gen s =>
    redeclared [] (m.args.map (·.1)) ++
    s.vars.flatMap (fun n => if n ∈ m.args.map (·.1) || n ∈ vars then [] else [.varNotFound n])
  | _ => redeclared [] (m.args.map (·.1))

/-- `SPVM_OP_build_class`, spvm_op.c 417-1028, and the check of the method bodies. -/
def buildClass (cat : Cat) (ops : List Op) : Cls :=
  let c := loop cat ops ⟨none, [], [], [], []⟩
  let c := { c with methods := c.methods ++ [initMethod] }
  { c with
    errs := c.errs ++ redeclared [] (c.fields.map (·.1)) ++ redeclared [] (c.classVars.map (·.1)) ++
      c.methods.flatMap (methodErrs cat) ++ redeclared [] (c.methods.map (·.name)) ++ mulnumErrs cat c ++
      c.methods.flatMap (checkBody (c.classVars.map (·.1))) }

/-- A class to compile.  `cut`: the parser meets a syntax error in an enumeration, after these items. -/
structure Source where
  cat : Cat
  decls : List Decl
  cut : Option (List Item)
deriving DecidableEq, Repr

/-- Compiling a class with `current_enum_value = cur` left by the compilations before (nothing else in the code sets it):
the counter after it, and the class if there is no error. -/
def compile (cur : Int) (src : Source) : Out (Int × Option Cls) :=
  match parseDecls cur src.decls with
  | .ok (ops, es, next) =>
    match src.cut with
    | some items =>
      match enumItems next items with
      | .ok (_, _, last) => .ok (last, none)
      | .die x => .die x
      | .ub => .ub
    | none =>
      let c := buildClass src.cat ops
      .ok (next, if es ++ c.errs = [] then some c else none)
  | .die x => .die x
  | .ub => .ub

/-- One compilation after the other with the same compiler. -/
def compileAll : Int → List Source → Out (Int × List (Option Cls))
  | cur, [] => .ok (cur, [])
  | cur, s :: ss =>
    match compile cur s with
    | .ok (next, c) =>
      match compileAll next ss with
      | .ok (last, cs) => .ok (last, c :: cs)
      | .die x => .die x
      | .ub => .ub
    | .die x => .die x
    | .ub => .ub

/-! ## Calls -/

/-- The class variables of the class and the fields of the invocant. -/
structure St where
  vars : Name → V
  fields : Name → V

def update (f : Name → V) (n : Name) (v : V) : Name → V := fun x => if x = n then v else f x

/-- Conversion in a type cast: `(int8_t)` and `(int16_t)`; the other casts of an accessor are casts of a value to its own type. -/
def castTo : Ty → V → V
  | .byte, .num v => .num ((v + 128) % 256 - 128)
  | .short, .num v => .num ((v + 32768) % 65536 - 32768)
  | _, v => v

/-- The value of a variable: an argument (the last one declared first, spvm_check.c 3018-3025), else a class variable. -/
def lookup (n : Name) : List (Name × V) → Option V
  | [] => none
  | (x, v) :: r => match lookup n r with
    | some w => some w
    | none => if x = n then some v else none

def Exp.eval (env : List (Name × V)) (st : St) : Exp → V
  | .var n => (lookup n env).getD (st.vars n)
  | .field n => st.fields n
  | .cast t e => castTo t (e.eval env st)
  | .int v => .num v

/-- Running a generated method: its value and the state after it.  Assigning to an argument is not seen after the call. -/
def Stmt.run (env : List (Name × V)) (st : St) : Stmt → Option V × St
  | .ret e => (some (e.eval env st), st)
  | .setVar n e =>
    if (lookup n env).isSome then (none, st) else (none, { st with vars := update st.vars n (e.eval env st) })
  | .setField n e => (none, { st with fields := update st.fields n (e.eval env st) })

/-- What a call does. -/
inductive Called where
  /-- a generated method: its value (none: void) and the state after it -/
  | gen (v : Option V) (st : St)
  /-- a method written by the user runs -/
  | user (code : Nat)
  /-- no such call compiles -/
  | error

/-- A call by name: the class has one method of the name (`method_symtable`: the first of a name is there, spvm_op.c 970-1001);
`isClass`: the call is `Class->name(...)`, else `$object->name(...)` with the object as the first argument (spvm_check.c 720-790,
the counts of arguments 880-960). -/
def Cls.call (c : Cls) (isClass : Bool) (name : Name) (args : List V) (st : St) : Called :=
  match c.methods.find? (fun m => m.name == name) with
  | none => .error
  | some m =>
    if m.isClass != isClass then .error
    else if m.args.length != (if isClass then args.length else args.length + 1) then .error
    else
      match m.body with
      | .gen s =>
        let r := s.run ((m.args.map (·.1)).zip (if isClass then args else .other 0 :: args)) st
        .gen r.1 r.2
      | .user k => .user k
      | _ => .error

end Decl
end SPVM
