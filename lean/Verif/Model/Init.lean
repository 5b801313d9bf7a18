import Verif.Spec.Init
/-!
# INIT methods

The compiler puts calls of other `INIT` methods before the blocks of a class (spvm_check.c 417-455), and the run time calls
every `INIT` method once (spvm_api.c 357-377, 4834-4844).
-/
namespace SPVM.Init
open Spec.Init

variable {σ : Type}

/-- "Deep recursion occurs. ...", spvm_api.c 4803. -/
def msgDeep : String := "Deep recursion occurs. The depth of a method call must be less than 1000."

/-- A statement of an `INIT` method: a call that the compiler inserted, or a block of the source.
Simplification: the blocks themselves call no `INIT` method, and what they do does not depend on the depth of the call. -/
inductive Stmt (σ : Type) where
  | callInit (c : Nat)
  | block (b : Block σ)

/-- Has the type an `INIT` method?  spvm_op.c 876 (`SPVM_TYPE_is_user_defined_type`, spvm_type.c). -/
def hasInit (k : Cls σ) : Bool := k.kind ≠ .builtin

/-- The `INIT` blocks of a class merged into a block, spvm_op.c 878-892. -/
def merged (k : Cls σ) : List (Stmt σ) := k.blocks.map .block

/-- The loop over the used classes from the last to the first: a call is put before all statements, spvm_check.c 427-442.
Simplification: the classes are numbers instead of names (names are those of C69). -/
def insertUses (P : List (Cls σ)) (uses : List Nat) (stmts : List (Stmt σ)) : List (Stmt σ) :=
  uses.reverse.foldl (fun stmts u =>
    match P[u]? with
    | some k => if k.kind = .class then .callInit u :: stmts else stmts
    | none => stmts) stmts

/-- The statements of the `INIT` method of a class, spvm_check.c 417-455. -/
def initStatements (P : List (Cls σ)) (k : Cls σ) : List (Stmt σ) :=
  let stmts := insertUses P k.uses (merged k)
  match k.parent with
  | some p => .callInit p :: stmts
  | none => stmts

/-- The flags `initialized` of the types (spvm_runtime_basic_type.h) and the rest of the state of the program. -/
structure St (σ : Type) where
  initialized : Nat → Bool
  env : σ

/-- A block of the source works on the rest of the state. -/
def onEnv (p : Prog σ α) : Prog (St σ) α := fun s => ((p s.env).1, { s with env := (p s.env).2 })

/-- `current_basic_type->initialized = 1;`, spvm_api.c 4842. -/
def mark (c : Nat) : Prog (St σ) Unit := fun s => (.ok (), { s with initialized := fun x => decide (x = c) || s.initialized x })

/-- The statements of an `INIT` method are executed in order; a `return` in a block ends the method, an exception ends it with
this exception. -/
def runStmts (callee : Nat → Prog (St σ) Unit) : List (Stmt σ) → Prog (St σ) Unit
  | [] => pure ()
  | .callInit c :: ss => do
    callee c
    runStmts callee ss
  | .block b :: ss => do
    let returned ← onEnv b
    if returned then pure () else runStmts callee ss

/-- `SPVM_API_call_method_common` with an `INIT` method, spvm_api.c 4793-4890.  `left` is the number of nested calls that are
still allowed (1000 at the beginning, 4800-4804). -/
def callInit (P : List (Cls σ)) : Nat → Nat → Prog (St σ) Unit
  | 0, _ => Prog.die msgDeep
  | left + 1, c => do
    let s ← Prog.get
    if s.initialized c then pure ()
    else
      mark c
      match P[c]? with
      | some k => runStmts (callInit P left) (initStatements P k)
      | none => pure ()

/-- The loop of `SPVM_API_call_init_methods` over the ids of the types, spvm_api.c 365-375. -/
def initLoop (P : List (Cls σ)) : List Nat → Prog (St σ) Unit
  | [] => pure ()
  | c :: cs =>
    match P[c]? with
    | some k => if hasInit k then do
        callInit P 1000 c
        initLoop P cs
      else initLoop P cs
    | none => initLoop P cs

/-- `SPVM_API_call_init_methods`, spvm_api.c 357-377. -/
def callInitMethods (P : List (Cls σ)) : Prog (St σ) Unit := initLoop P (List.range P.length)

/-- `Native::API->call_init_methods`, lib/SPVM/Native/API.c 48-67: the error is not looked at. -/
def apiCallInitMethods (P : List (Cls σ)) : Prog (St σ) Unit := fun s => (.ok (), (callInitMethods P s).2)

/-- A history of a runtime: the types that are loaded later get the next numbers, and the flags stay (spvm_compiler.c 759-780). -/
def runHistory (P : List (Cls σ)) : List (Op σ) → St σ → List (Out Unit) × St σ
  | [], s => ([], s)
  | .load new :: ops, s => let r := runHistory (P ++ new) ops s; (.ok () :: r.1, r.2)
  | .initAll :: ops, s =>
    let r := runHistory P ops (callInitMethods P s).2
    ((callInitMethods P s).1 :: r.1, r.2)
  | .initOne c :: ops, s =>
    let r := runHistory P ops (callInit P 1000 c s).2
    ((callInit P 1000 c s).1 :: r.1, r.2)

/-- The state at the beginning of a program. -/
def start (env : σ) : St σ := ⟨fun _ => false, env⟩

end SPVM.Init
