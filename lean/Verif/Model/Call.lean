import Verif.Base
/-!
# Method calls and INIT blocks

`SPVM_API_call_method_common` (lib/SPVM/Builder/src/spvm_api.c 4792-4897), `SPVM_API_call_init_methods` (spvm_api.c 357-377) and
the INIT prologue the compiler inserts (spvm_check.c 418-455).
-/
namespace SPVM
namespace Call

/-- What the code of a method (virtual machine code, a precompiled or a native function) can do, as seen from the call
machinery: return, throw, run own code on the state `σ` of the program (any function of it, then go on depending on it), or
call a method and go on depending on whether it threw (`eval` or propagation).  Every method whose own loops end is such a
tree; a method that loops forever without calling is not modelled.  `note` is a ghost that marks where the user's own INIT
code starts. -/
inductive Body (σ : Type) where
  | ret
  | throw
  | act (f : σ → σ) (k : σ → Body σ)
  | call (m : Nat) (k : Bool → Body σ)
  | note (m : Nat) (k : Body σ)

/-- The parts of `SPVM_RUNTIME_METHOD` the call machinery looks at: `current_basic_type`, `is_init_method`, the outcome of the
run-time check of the object arguments on the value stack (`checkArgs` below; always passed by class methods) and the code. -/
structure Method (σ : Type) where
  cls : Nat
  isInit : Bool
  argsOk : σ → Bool
  body : Body σ

/-- The trace: the code of method `m` starts at a call depth; the code of `m` ends without an exception; the user's part of
the INIT method `m` starts. -/
inductive Event where
  | start (m : Nat) (depth : Int)
  | done (m : Nat)
  | user (m : Nat)
  deriving DecidableEq

/-- The call depth in the stack, the `initialized` flags of the classes, the state of the program, and the trace (latest event
first). -/
structure St (σ : Type) where
  depth : Int
  initialized : Nat → Bool
  user : σ
  trace : List Event

/-- Running the code of a method; `callM` is the call machinery.  The result is whether an exception is thrown. -/
def runBody (callM : Nat → St σ → Out (Bool × St σ)) : Body σ → St σ → Out (Bool × St σ)
  | .ret, st => .ok (false, st)
  | .throw, st => .ok (true, st)
  | .act f k, st => runBody callM (k st.user) { st with user := f st.user }
  | .call m k, st => do
    let r ← callM m st
    runBody callM (k r.1) r.2
  | .note m k, st => runBody callM k { st with trace := .user m :: st.trace }

/-- The trace when the code is left. -/
def finish (m : Nat) (r : Bool × St σ) : Bool × St σ :=
  if r.1 then r else (false, { r.2 with trace := .done m :: r.2.trace })

/-- Lines 4845-4881: run the code. -/
def execute (callM : Nat → St σ → Out (Bool × St σ)) (m : Nat) (b : Body σ) (st : St σ) : Out (Bool × St σ) := do
  let r ← runBody callM b { st with trace := .start m st.depth :: st.trace }
  .ok (finish m r)

/-- Lines 4834-4881: an INIT method of an initialized class is not run; otherwise the class is marked first. -/
def enter (callM : Nat → St σ → Out (Bool × St σ)) (M : Method σ) (m : Nat) (st : St σ) : Out (Bool × St σ) :=
  if M.isInit then
    if st.initialized M.cls then .ok (false, st)
    else execute callM m M.body { st with initialized := fun c => if c = M.cls then true else st.initialized c }
  else execute callM m M.body st

/-- Lines 4800-4892: the depth test and the argument test. -/
def guarded (callM : Nat → St σ → Out (Bool × St σ)) (M : Method σ) (m : Nat) (st : St σ) : Out (Bool × St σ) :=
  if st.depth > 1000 then .ok (true, st)
  else if ¬ M.argsOk st.user then .ok (true, st)
  else enter callM M m st

/-- `SPVM_API_call_method_common`, spvm_api.c 4792-4897, with fuel for the recursion through the code of the methods (`ub` when
it runs out; `c37_calls_end` shows that 1001 is always enough).  `P` is the table of methods.  The exception object, the
return value and the mortal stack are not modelled here. -/
def callMethod (P : Nat → Method σ) : Nat → Nat → St σ → Out (Bool × St σ)
  | 0, _, _ => .ub
  | n + 1, m, st => do
    let r ← guarded (callMethod P n) (P m) m { st with depth := st.depth + 1 }
    .ok (r.1, { r.2 with depth := r.2.depth - 1 })

/-- One step of the loop of `SPVM_API_call_init_methods`. -/
def callInits (P : Nat → Method σ) (n : Nat) : List Nat → St σ → Out (Bool × St σ)
  | [], st => .ok (false, st)
  | m :: ms, st => do
    let r ← callMethod P n m st
    if r.1 then .ok r else callInits P n ms r.2

/-- The code of the INIT method of a class after `SPVM_CHECK_check_methods` has edited it, spvm_check.c 418-455: calls of the
INIT methods `deps` (the parent class, then the classes of the `use` statements in order), then the statements of the user.
An exception in one of the calls leaves the method. -/
def withInits (deps : List Nat) (user : Body σ) : Body σ :=
  deps.foldr (fun d k => .call d (fun e => if e then .throw else k)) user

/-! ## Arguments -/

/-- `SPVM_RUNTIME_ARG`: the type (any representation), whether it is an object type, the slot on the value stack, the default
value. -/
structure Arg (τ ν : Type) where
  ty : τ
  isObject : Bool
  stackIndex : Nat
  default : ν

/-- Reading a slot of the value stack. -/
def slot (stack : List ν) (i : Nat) : Out ν :=
  match stack[i]? with
  | some v => .ok v
  | none => .ub

/-- The check of the object arguments, spvm_api.c 4811-4831 (`false` = the exception is thrown).  `isa v t` is `!v || isa(v, t)`. -/
def checkArgs (isa : ν → τ → Bool) (stack : List ν) (argsWidth : Nat) : List (Arg τ ν) → Out Bool
  | [] => .ok true
  | a :: as =>
    if ¬ a.stackIndex < argsWidth then .ok true
    else if a.isObject then do
      let v ← slot stack a.stackIndex
      if isa v a.ty then checkArgs isa stack argsWidth as else .ok false
    else checkArgs isa stack argsWidth as

/-- The default values of the optional arguments, spvm_api.c 4847-4856, over the arguments from `required_args_length` on. -/
def fillDefaults (argsWidth : Nat) : List (Arg τ ν) → List ν → Out (List ν)
  | [], stack => .ok stack
  | a :: as, stack =>
    if a.stackIndex ≥ argsWidth then
      if a.stackIndex < stack.length then fillDefaults argsWidth as (stack.set a.stackIndex a.default) else .ub
    else fillDefaults argsWidth as stack

end Call
end SPVM
