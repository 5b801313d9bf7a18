import Verif.Base

/-!
# Exceptions and their messages

Models the `die` statement (spvm_op.c 3062-3085, spvm_opcode_builder.c 763-787, spvm_vm.c 1424-1434), the two opcodes that follow every
operation that can throw (spvm_vm.c 211-231), the start of an eval block (spvm_opcode_builder.c 318-329), the call depth
(spvm_api.c 4792-4897), `SPVM_API_new_stack_trace_no_mortal` (spvm_api.c 3130-3197) and `SPVM_API_die` (spvm_api.c 2641-2670).

Simplifications: a program is the tree of what it executes, a call carries the body it runs, so conditions and loops
are already decided; strings are lists of characters without NUL and shorter than 2^31; memory is not exhausted.  Where control goes in
an eval block that follows other statements of an eval block is the subject of `Model/Flow`; here it goes to the end of its own eval block.
-/

namespace SPVM.Except

abbrev Msg := List Char

/-- The names that a stack trace shows. -/
structure Meth where
  cls : Msg
  name : Msg
  file : Msg
deriving DecidableEq

/-- What a method executes. -/
inductive Code where
  | skip
  | seq (a b : Code)
  | die (id : Int) (msg : Option Msg) (line : Int)
  | setExc (v : Option Msg)
  | look
  | evalB (body : Code)
  | call (m : Meth) (body : Code) (line : Int)

/-- The stack (`$@`, call depth), `eval_error_id` of the running method, and what `look` has seen. -/
structure St where
  exc : Option Msg
  evalErr : Int
  log : List (Option Msg × Int)
deriving DecidableEq

/-- The text of `%" PRId32`. -/
def decimal (i : Int) : Msg := (toString i).toList

/-- `SPVM_API_new_stack_trace_no_mortal`, spvm_api.c 3130-3197; `get_chars` and `length` of an undefined exception read through a
null pointer. -/
def stackTrace (depth : Nat) (exc : Option Msg) (m : Meth) (line : Int) : Out (Option Msg) :=
  if depth > 100 then .ok exc
  else
    match exc with
    | none => .ub
    | some e =>
      .ok (some (e ++ ("\n  ".toList ++ m.cls ++ "->".toList ++ m.name ++ " at ".toList ++ m.file ++ " line ".toList ++ decimal line)))

/-- `GOTO_END_OF_EVAL_ON_EXCEPTION` and `GOTO_END_OF_METHOD_ON_EXCEPTION`, spvm_vm.c 211-231: what they do to `$@`.  The result is the
error that is on its way. -/
def onException (depth : Nat) (m : Meth) (line : Int) (err : Int) (s : St) : Out (Int × St) :=
  if err = 0 then .ok (0, s)
  else do
    let e ← stackTrace depth s.exc m line
    .ok (err, { s with exc := e })

/-- The error of `SPVM_API_call_method_common`, spvm_api.c 4800-4804, and `SPVM_NATIVE_C_BASIC_TYPE_ID_ERROR_CLASS`, spvm_native.h 546. -/
def deepMsg : Msg :=
  "Deep recursion occurs. The depth of a method call must be less than 1000.\n    SPVM_API_call_method_common at spvm_api.c line 4803".toList

def errorClass : Int := 18

/-- Execution in method `m` at call depth `depth`; the first component of the result is `error_id`. -/
def exec (m : Meth) (depth : Nat) : Code → St → Out (Int × St)
  | .skip, s => .ok (0, s)
  | .seq a b, s => do
    let r ← exec m depth a s
    if r.1 ≠ 0 then .ok r else exec m depth b r.2
  | .die id msg line, s => onException depth m line id { s with exc := msg }
  | .setExc v, s => .ok (0, { s with exc := v })
  | .look, s => .ok (0, { s with log := s.log ++ [(s.exc, s.evalErr)] })
  | .evalB body, s => do
    let r ← exec m depth body { s with exc := none, evalErr := 0 }
    if r.1 ≠ 0 then .ok (0, { r.2 with evalErr := r.1 }) else .ok r
  | .call m' body line, s => do
    let r ← (if depth + 1 > 1000 then .ok (errorClass, { s with exc := some deepMsg })
      else exec m' (depth + 1) body { s with evalErr := 0 })
    onException depth m line r.1 { r.2 with evalErr := s.evalErr }

/-! ### `env->die` -/

inductive Arg where
  | str (s : Msg)
  | int (i : Int)
deriving DecidableEq

/-- `vsnprintf` for `%s`, `%d`, `%i` and `%%`: the text, and the arguments not used yet.  A conversion without its argument or with one of
another type, and an incomplete conversion, are undefined behaviour. -/
def printf : Msg → List Arg → Out (Msg × List Arg)
  | [], as => .ok ([], as)
  | '%' :: '%' :: r, as => do
    let t ← printf r as
    .ok ('%' :: t.1, t.2)
  | '%' :: 's' :: r, .str s :: as => do
    let t ← printf r as
    .ok (s ++ t.1, t.2)
  | '%' :: 'd' :: r, .int i :: as => do
    let t ← printf r as
    .ok (decimal i ++ t.1, t.2)
  | '%' :: 'i' :: r, .int i :: as => do
    let t ← printf r as
    .ok (decimal i ++ t.1, t.2)
  | c :: r, as =>
    if c = '%' then .ub
    else do
      let t ← printf r as
      .ok (c :: t.1, t.2)

/-- `SPVM_API_die`, spvm_api.c 2641-2670: the exception it sets.  The buffer has 512 bytes. -/
def apiDie (message : Msg) (args : List Arg) (func file : Msg) (line : Int) : Out Msg := do
  let t ← printf (message.take 255 ++ "\n    %s at %s line %d".toList) (args ++ [.str func, .str file, .int line])
  .ok (t.1.take 511)

end SPVM.Except
