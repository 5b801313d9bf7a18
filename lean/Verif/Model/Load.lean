import Verif.Base
import Verif.Model.VM
/-!
# Loading classes and compiling again and again

Models `SPVM_COMPILER_compile_common` (lib/SPVM/Builder/src/spvm_compiler.c 154-290) with the class files it keeps (316-396), the
work list of `SPVM_TOKE_load_class_file` (spvm_toke.c 2606-2908), the classes and uses the actions of the grammar register
(spvm_op.c 260-345, 1043-1091, 1651-1698, 2383-2395), the resolution of type names (spvm_check.c 904-963) and the choice of the
block of `if (require Foo)` (spvm_check.c 1261-1286).

Simplifications.  A source is given by what the parser (C66, C68) reports about it: the uses, anon methods and errors in the
order of their reductions, then the class, or a syntax error.  The remaining checks of the compiler (C35, C53, C61, C62, C65, C67
and others) are a parameter `chk` of the classes that were there and the new ones.  The directories are keyed by class names
instead of relative file names; `relFile` and the theorem about it show that this is the same.  A file that exists can be read.
The symbol table and the lists are the map and the sequences of C38 and C39.  The table of constant strings is left out (C42).
Error messages are left out: `errs` says whether there is one.
-/
namespace SPVM
namespace Load
open VM (Bytes)

/-! ## Names -/

/-- C `strstr(s, pat) != NULL`. -/
def strstr (pat : Bytes) : Bytes → Bool
  | [] => pat.isEmpty
  | b :: s => pat.isPrefixOf (b :: s) || strstr pat s

/-- The literals of the code as bytes. -/
def lit (s : String) : Bytes := s.toUTF8.toList

/-- `"::anon_method::"`, `"::anon_class::"` and the other strings that are searched for in names (written as bytes). -/
def anonMethodMark : Bytes := [58, 58, 97, 110, 111, 110, 95, 109, 101, 116, 104, 111, 100, 58, 58]
def anonClassMark : Bytes := [58, 58, 97, 110, 111, 110, 95, 99, 108, 97, 115, 115, 58, 58]
def colons : Bytes := [58, 58]
def underscores : Bytes := [95, 95]

/-- `SPVM_TOKE_islower_ascii`, `SPVM_TOKE_isdigit_ascii` (spvm_toke.c). -/
def islower (b : UInt8) : Bool := 97 ≤ b && b ≤ 122
def isdigit (b : UInt8) : Bool := 48 ≤ b && b ≤ 57

/-- spvm_toke.c 2647-2656: does some character after `::` begin with a lower case letter? -/
def lowerPart : Bytes → Bool
  | 58 :: 58 :: c :: s => islower c || lowerPart (58 :: c :: s)
  | _ :: s => lowerPart s
  | [] => false

/-- spvm_toke.c 2637-2683: the class names that cannot be loaded.  Names of generated classes are not checked. -/
def badName (n : Bytes) : Bool :=
  if strstr anonMethodMark n || strstr anonClassMark n then false
  else
    (match n with | c :: _ => islower c | [] => false) || lowerPart n || strstr underscores n ||
    (colons.isPrefixOf n.reverse) || strstr (colons ++ colons) n || colons.isPrefixOf n ||
    (match n with | c :: _ => isdigit c | [] => false)

/-- spvm_toke.c 2691-2711: the relative file name; `::` becomes `/`. -/
def relPath : Bytes → Bytes
  | 58 :: 58 :: s => 47 :: relPath s
  | c :: s => c :: relPath s
  | [] => []
def relFile (n : Bytes) : Bytes := relPath n ++ [46, 115, 112, 118, 109]

/-- `sprintf("%d", n)` for a number that is not negative. -/
def digits (n : Nat) : Bytes := (Nat.toDigits 10 n).map (fun c => c.toNat.toUInt8)

/-! ## Sources -/

/-- What the parser meets inside of a class, in the order of the reductions: a `use`, `interface`, `allow` or (with `require`
set) `require` of a class, an anon method, an error that an action reports. -/
inductive Item where
  | use (name : Bytes) (require : Bool)
  | anon (line column : Nat)
  | err
deriving DecidableEq, Repr

/-- What a source is: only spaces and comments; a class with its name, if given, its parent class and the other class names of
its types (`op_types` that are not `resolved_in_ast`); or a syntax error after some reductions. -/
inductive Body where
  | blank
  | cls (items : List Item) (name parent : Option Bytes) (refs : List Bytes)
  | broken (items : List Item)
deriving DecidableEq, Repr

/-- A source.  `textOk`: it is UTF-8 without control characters and CR (spvm_toke.c 2854-2880).  `decls` stands for everything
else. -/
structure Source where
  textOk : Bool := true
  body : Body
  decls : Nat := 0
deriving DecidableEq, Repr

/-- A basic type: its name and, for a class, the source it comes from. -/
structure Entry where
  name : Bytes
  src : Option Source
deriving DecidableEq, Repr

/-- A class file, `SPVM_CLASS_FILE`.  `content` may not have been set.  `live`: the characters `class_name` points to have not
been freed. -/
structure File where
  name : Bytes
  content : Option Source
  live : Bool := true
deriving DecidableEq, Repr

/-- The include directories in order, each with its class files. -/
abbrev Dirs := List (List (Bytes × Source))

/-! ## State -/

/-- The compiler between two compilations: `basic_types`, `basic_type_symtable`, `class_files` with `class_file_class_names`,
`eval_anon_classes_length` and the basic types of the runtime. -/
structure Comp where
  types : List Entry
  sym : Bytes → Option Nat
  files : List File
  anons : Nat
  runtime : List Entry

/-- `SPVM_COMPILER_new`, spvm_compiler.c 36-100. -/
def Comp.new : Comp := { types := [], sym := fun _ => none, files := [], anons := 0, runtime := [] }

/-- The compiler during a compilation: also `op_use_stack`, `if_require_not_found_basic_type_name_symtable`, `op_types` and
whether there are error messages. -/
structure Run where
  types : List Entry
  sym : Bytes → Option Nat
  files : List File
  queue : List (Bytes × Bool)
  missing : List Bytes
  refs : List Bytes
  errs : Bool

/-- `SPVM_COMPILER_get_class_file`, spvm_compiler.c 377-391. -/
def getFile (fs : List File) (n : Bytes) : Option File := fs.find? (fun f => f.name == n)

/-- `SPVM_COMPILER_add_class_file`, spvm_compiler.c 306-315. -/
def addFile (fs : List File) (n : Bytes) : List File :=
  match getFile fs n with
  | some _ => fs
  | none => fs ++ [{ name := n, content := none }]

/-- `SPVM_CLASS_FILE_set_content`, spvm_class_file.c 97-109, for the file of a class. -/
def setContent (fs : List File) (n : Bytes) (s : Source) : List File :=
  match fs with
  | [] => []
  | f :: fs => if f.name == n then { f with content := some s } :: fs else f :: setContent fs n s

/-- `SPVM_COMPILER_set_class_file_with_members`, spvm_compiler.c 599-606. -/
def setFile (fs : List File) (n : Bytes) (s : Source) : List File := setContent (addFile fs n) n s

/-- `SPVM_COMPILER_delete_class_file`, spvm_compiler.c 317-347. -/
def delFile : List File → Bytes → List File
  | [], _ => []
  | f :: fs, n => if f.name == n then fs else f :: delFile fs n

/-- The loop over the include directories, spvm_toke.c 2722-2745. -/
def search : Dirs → Bytes → Option Source
  | [], _ => none
  | d :: ds, n =>
    match d.find? (fun p => p.1 == n) with
    | some p => some p.2
    | none => search ds n

/-- `SPVM_COMPILER_add_basic_type`, spvm_compiler.c 414-428. -/
def addType (r : Run) (e : Entry) : Run :=
  match r.sym e.name with
  | some _ => r
  | none => { r with types := r.types ++ [e], sym := fun x => if x = e.name then some r.types.length else r.sym x }

/-- `SPVM_COMPILER_error`: a message is added. -/
def Run.error (r : Run) : Run := { r with errs := true }

/-- `SPVM_OP_build_use`, spvm_op.c 1070-1091; the type of the use is one of the `op_types` (spvm_op.c 3575-3590). -/
def pushUse (r : Run) (n : Bytes) (require : Bool) : Run :=
  { r with queue := r.queue ++ [(n, require)], refs := r.refs ++ [n] }

/-- The parent class of a class is used, spvm_op.c 297-309. -/
def pushParent (r : Run) : Option Bytes → Run
  | some p => pushUse r p false
  | none => r

/-- `SPVM_OP_build_class`, spvm_op.c 260-345, the part that registers the class.  `outmost` is `current_outmost_class_name`,
`none` if its characters have been freed. -/
def buildClass (r : Run) (outmost : Option Bytes) (name parent : Option Bytes) (src : Option Source) : Out Run := do
  let outmost ← match outmost with | some o => pure o | none => .ub
  if strstr anonClassMark outmost then
    match name with
    | some _ => return r.error
    | none =>
      let r := addType { r with refs := r.refs ++ [outmost] } { name := outmost, src := src }
      return pushParent r parent
  else
    match name with
    | none => .ub
    | some n =>
      let r := addType { r with refs := r.refs ++ [n] } { name := n, src := src }
      let r := pushParent r parent
      if strstr anonMethodMark n || strstr anonClassMark n then return r
      else if n = outmost then return r
      else return r.error

/-- The name of the class of an anon method, spvm_op.c 1665-1676. -/
def anonName (outmost : Bytes) (line column : Nat) : Bytes :=
  outmost ++ anonMethodMark ++ digits line ++ colons ++ digits column

/-- One reduction: `use` and the like, `SPVM_OP_build_anon_method` (spvm_op.c 1651-1698), an error.  The name of an anon method
is printed into a block of `strlen(outmost) + 31` bytes. -/
def item (outmost : Option Bytes) (r : Run) : Item → Out Run
  | .use n q => .ok (pushUse r n q)
  | .err => .ok r.error
  | .anon line column =>
    match outmost with
    | none => .ub
    | some o =>
      if (anonName o line column).length + 1 ≤ o.length + 31 then
        buildClass r outmost (some (anonName o line column)) none none
      else .ub

/-- The reductions inside of a class. -/
def items (outmost : Option Bytes) (r : Run) : List Item → Out Run
  | [] => .ok r
  | i :: is => do items outmost (← item outmost r i) is

/-- The parser reads a source.  The result says whether `SPVM_yyparse` stops with a syntax error. -/
def parse (r : Run) (outmost : Option Bytes) (s : Source) : Out (Run × Bool) :=
  match s.body with
  | .blank => .ok (r, false)
  | .broken is => do return (← items outmost r is, true)
  | .cls is name parent refs => do
    let r ← items outmost { r with refs := r.refs ++ refs } is
    return (← buildClass r outmost name parent (some s), false)

/-- The class file of a class, loaded from the directories if there is none, spvm_toke.c 2713-2808: the file, and the class
files then. -/
def fetch (fs : List File) (ds : Dirs) (n : Bytes) : Option (File × List File) :=
  match getFile fs n with
  | some f => some (f, fs)
  | none =>
    match search ds n with
    | some s => some ({ name := n, content := some s }, fs ++ [{ name := n, content := some s }])
    | none => none

/-- `SPVM_TOKE_load_class_file` called at the end of every source by the tokenizer, spvm_toke.c 70-95, 2606-2908, and the parser
on the source it finds.  The result says whether `SPVM_yyparse` stops with a syntax error.  Running out of fuel is `ub`. -/
def load (ds : Dirs) : Nat → Run → Out (Run × Bool)
  | 0, _ => .ub
  | k + 1, r =>
    match r.queue with
    | [] => .ok (r, false)
    | (n, require) :: q =>
      let r := { r with queue := q }
      if badName n then .ok (r.error, false)
      else if (r.sym n).isSome then load ds k r
      else
        match fetch r.files ds n with
        | none => if require then load ds k { r with missing := n :: r.missing } else .ok (r.error, false)
        | some (f, files) =>
          let r := { r with files := files }
          match f.content with
          | none => .ok (r.error, false)
          | some s =>
            if !s.textOk then .ok (r.error, false)
            else if r.errs then .ok (r, false)
            else
              match parse r (if f.live then some n else none) s with
              | .ok (r, true) => .ok (r, true)
              | .ok (r, false) => load ds k r
              | .die m => .die m
              | .ub => .ub

/-! ## Compiling -/

/-- The basic types that are not classes, in the order of their ids, spvm_compiler.c 430-443. -/
def coreNames : List Bytes :=
  ["unknown", "undef", "void", "byte", "short", "int", "long", "float", "double", "string", "object"].map lit

/-- The classes that are loaded by default, spvm_compiler.c 476-491. -/
def defaultNames : List Bytes :=
  ["Byte", "Short", "Int", "Long", "Float", "Double", "Bool", "Error", "Error::System", "Error::NotSupported", "CommandInfo",
   "Address", "Error::Compile"].map lit

/-- The sources of the default classes, spvm_compiler.c 493-597. -/
def defaultFiles : List (Bytes × Source) :=
  [("Bool", none), ("Error", none), ("Error::System", some "Error"), ("Error::NotSupported", some "Error"), ("Byte", none),
   ("Short", none), ("Int", none), ("Long", none), ("Float", none), ("Double", none), ("CommandInfo", none), ("Address", none),
   ("Error::Compile", some "Error")].map
    (fun (p : String × Option String) => (lit p.1, { body := .cls [] (some (lit p.1)) (p.2.map lit) [] }))

/-- `SPVM_COMPILER_use`, spvm_compiler.c 457-465: `SPVM_OP_build_use` pushes the use and it is pushed once more. -/
def start (r : Run) (n : Bytes) : Run :=
  let r := pushUse r n false
  { r with queue := r.queue ++ [(n, false)] }

/-- The beginning of `SPVM_COMPILER_compile_common`, spvm_compiler.c 160-212: the basic types and default class files if there
are none, the uses of the default classes and of the class to be compiled. -/
def begin' (c : Comp) (files : List File) (name : Option Bytes) : Run :=
  let r : Run := { types := c.types, sym := c.sym, files := files, queue := [], missing := [], refs := [], errs := false }
  let r :=
    if c.types.length = 0 then
      let r := coreNames.foldl (fun r n => addType r { name := n, src := none }) r
      { r with files := defaultFiles.foldl (fun fs p => setFile fs p.1 p.2) r.files }
    else r
  let r := defaultNames.foldl start r
  match name with | some n => start r n | none => r

/-- `SPVM_CHECK_check_op_type`, spvm_check.c 904-930: the name of a type is a basic type, or was not found by `require`. -/
def resolved (r : Run) (n : Bytes) : Bool := (r.sym n).isSome || r.missing.contains n

/-- The number of uses a source may push. -/
def uses (s : Source) : Nat :=
  match s.body with
  | .cls is _ p _ => is.length + (if p.isSome then 1 else 0)
  | _ => 0

/-- The same for a class file. -/
def fileUses (f : File) : Nat :=
  match f.content with
  | some s => uses s
  | none => 0

/-- Enough steps for `load`: the work list and the uses of every source there is. -/
def fuel (ds : Dirs) (r : Run) : Nat :=
  r.queue.length + (r.files.map fileUses).sum +
  (ds.flatten.map (fun p => uses p.2)).sum + 1

/-- The end of a compilation with errors, spvm_compiler.c 252-277.  `owned`: the name of the class file that points to characters
which belong to this compilation (the anon class) or to the caller, and which are freed now. -/
def rollback (c : Comp) (r : Run) (owned : Option Bytes) : Comp :=
  let new := r.types.drop c.types.length
  let files := new.foldl (fun fs e => delFile fs e.name) r.files
  { types := r.types.take c.types.length
    sym := new.foldl (fun sym e => fun x => if x = e.name then none else sym x) r.sym
    files := files.map (fun f => if some f.name = owned ∧ (getFile c.files f.name).isNone then { f with live := false } else f)
    anons := c.anons
    runtime := c.runtime }

/-- The end of a compilation without errors, spvm_compiler.c 278-288, and `SPVM_COMPILER_build_runtime` (755-): the basic types
from the length of the runtime on are added. -/
def commit (c : Comp) (r : Run) (anons : Nat) : Comp :=
  { types := r.types, sym := r.sym, files := r.files, anons := anons
    runtime := c.runtime ++ r.types.drop c.runtime.length }

/-- `SPVM_COMPILER_compile_common` after its beginning, spvm_compiler.c 221-290.  The result says whether it succeeded. -/
def finish (chk : List Entry → List Entry → Bool) (ds : Dirs) (c : Comp) (r : Run) (anons : Nat) (owned : Option Bytes) :
    Out (Comp × Bool) := do
  let (r, fatal) ← load ds (fuel ds r) r
  if fatal || r.errs || !(r.refs.all (resolved r)) || !(chk c.types (r.types.drop c.types.length)) then
    return (rollback c r owned, false)
  else
    return (commit c r anons, true)

/-- `SPVM_COMPILER_compile`, spvm_compiler.c 150-152.  `keeps`: the caller keeps the characters of the name (the class file of
the class keeps a pointer to them). -/
def compile (chk : List Entry → List Entry → Bool) (ds : Dirs) (c : Comp) (name : Option Bytes) (keeps : Bool) :
    Out (Comp × Bool) :=
  finish chk ds c (begin' c c.files name) c.anons (if keeps then none else name)

/-- `"eval::anon_class::%d"` and `"eval/anon_class/%d.spvm"`. -/
def anonClassName (k : Nat) : Bytes := [101, 118, 97, 108] ++ anonClassMark ++ digits k
def anonClassFile (k : Nat) : Bytes := lit "eval/anon_class/" ++ digits k ++ lit ".spvm"

/-- `SPVM_COMPILER_compile_anon_class`, spvm_compiler.c 146-148, 186-201: both names are printed into blocks of 23 bytes.  The
class file of the anon class is set after the default class files, whose names are others. -/
def compileAnon (chk : List Entry → List Entry → Bool) (ds : Dirs) (c : Comp) (s : Source) : Out (Comp × Bool) :=
  if (anonClassName c.anons).length + 1 ≤ 23 ∧ (anonClassFile (c.anons + 1)).length + 1 ≤ 23 then
    finish chk ds c (begin' c (setFile c.files (anonClassName c.anons) s) (some (anonClassName c.anons))) (c.anons + 1)
      (some (anonClassName c.anons))
  else .ub

/-- The block of `if (require Foo) { } else { }` that is compiled: the first one if the class is there, spvm_check.c 1261-1286. -/
def requireBlock (c : Comp) (n : Bytes) (t f : α) : α := if (c.sym n).isSome then t else f

/-! ## Histories -/

/-- What a program does with a compiler: compile a class or an anon class, with the directories as they are then, set or delete a
class file. -/
inductive Op where
  | compile (ds : Dirs) (name : Option Bytes) (keeps : Bool)
  | anon (ds : Dirs) (s : Source)
  | setFile (n : Bytes) (s : Source)
  | delFile (n : Bytes)

/-- One operation; the result says whether it succeeded. -/
def step (chk : List Entry → List Entry → Bool) (c : Comp) : Op → Out (Comp × Bool)
  | .compile ds n k => compile chk ds c n k
  | .anon ds s => compileAnon chk ds c s
  | .setFile n s => .ok ({ c with files := Load.setFile c.files n s }, true)
  | .delFile n => .ok ({ c with files := Load.delFile c.files n }, true)

/-- A sequence of operations: the results and the compiler then. -/
def run (chk : List Entry → List Entry → Bool) (c : Comp) : List Op → Out (Comp × List Bool)
  | [] => .ok (c, [])
  | o :: os => do
    let (c, b) ← step chk c o
    let (c, bs) ← run chk c os
    return (c, b :: bs)

end Load
end SPVM
