import Verif.Spec.Body
import Verif.Model.Logic
import Verif.Model.Flow
/-!
# The compilation of method bodies of numeric statements

The statements of Spec/Body are compiled in three steps, each of which is a model of its own: expressions (Model/Expr) and conditions (Model/Logic) to
operation codes, and the statements around them (Model/Flow) to jumps.  This file joins them: the operation codes of the expressions
are the operators of Model/Flow, with the meaning that Model/Expr and Model/Logic give them.  Only the syntax `Stat` is taken from the specification.

Simplifications: those of the three models.  The stack trace that is added to the message of an exception is left out.  The numbers of the temporary
variables go up in the order of the source.
-/
namespace SPVM
namespace Expr

/-- The operation codes that are not jumps. -/
inductive XInstr (φ : Type) where
  | op (i : Instr φ)
  /-- `CONDITION_EVALUATION_x` -/
  | truth (o : VarId) (i : CVar)
  /-- `MOVE_BYTE_ZERO` and so on -/
  | zero (p : MVar)
  /-- `RETURN_VOID` -/
  | nothing
  /-- `RETURN_BYTE` and so on -/
  | give (p : MVar)
  /-- `SET_STACK_BYTE` and so on -/
  | setStack (i : Nat) (p : MVar)
  /-- `GET_STACK_BYTE` and so on -/
  | getStack (p : MVar) (i : Nat)
  /-- `CALL_CLASS_METHOD` with the method and `args_width` -/
  | invoke (f n : Nat)

/-- The operation codes that have a `GOTO_END_OF_EVAL_ON_EXCEPTION` or `GOTO_END_OF_METHOD_ON_EXCEPTION` behind them, spvm_opcode_builder.c 2217-2223,
2244, 2265, 2300-2306, 2327, 2348; calls, 1334. -/
def XInstr.mayThrow {φ} : XInstr φ → Bool
  | .op (.bin .div t _ _ _) | .op (.bin .mod t _ _ _) => t.isInteger
  | .op (.bin .divUInt t _ _ _) | .op (.bin .divULong t _ _ _) | .op (.bin .modUInt t _ _ _) | .op (.bin .modULong t _ _ _) => t.isInteger
  | .invoke _ _ => true
  | _ => false

/-- Operation codes without jumps, and the jumps behind those that throw (spvm_opcode_builder.c 5115-5156); the first one has the number `n`. -/
def straight {φ} : List (XInstr φ) → Nat → Flow.Stmt
  | [], _ => .skip
  | i :: is, n => .seq (if i.mayThrow then .call n else .act n) (straight is (n + 1))

/-- The number under which Model/Flow knows a variable.  Instead of the index in the memory of its type: different variables have different numbers. -/
def VarId.slot : VarId → Nat
  | .tmp n => 4 * n
  | .user n => 4 * n + 1
  | .old n => 4 * n + 2
  | .flag => 3
def VarId.ofSlot (k : Nat) : VarId :=
  if k % 4 = 0 then .tmp (k / 4) else if k % 4 = 1 then .user (k / 4) else if k % 4 = 2 then .old (k / 4) else .flag

/-- A statement of Model/Flow and the operation codes of its operators, in the order of their numbers. -/
abbrev Piece (φ : Type) := Flow.Stmt × List (XInstr φ)

/-- The condition evaluation and the copy to `$.condition_flag`, spvm_opcode_builder.c 4083-4153.  `assert(0)` for `byte` and `short`. -/
def evalCode {φ} (tmp : VarId) (p : CVar) : Out (List (XInstr φ)) :=
  match p with
  | .num ⟨.byte, _⟩ | .num ⟨.short, _⟩ => .ub
  | p => .ok [.truth tmp p, .op (.move .int .flag tmp)]

/-- The operators of a condition: `&&`, `||` and `!` are `if` statements whose blocks have no scope, spvm_op.c 2822-3029. -/
def condPiece {φ} : LOp φ → Nat → Out (Piece φ)
  | .num e, n => do
    let x ← emit e
    return (straight (x.map .op) n, x.map .op)
  | .obj _ _, _ => .ok (.skip, [])
  | .undef, _ => .ok (.skip, [])
  | .value _ i, n => condPiece i n
  | .ite tmp c t e, n => do
    let x ← condPiece c n
    let p ← condVar c
    match tmp with
    | some (.tmp j) => do
      let w ← evalCode (.tmp j) p
      let y ← condPiece t (n + x.2.length + w.length)
      let z ← condPiece e (n + x.2.length + w.length + y.2.length)
      return (.choose (.seq x.1 (straight w (n + x.2.length))) (VarId.tmp j).slot y.1 z.1, x.2 ++ w ++ y.2 ++ z.2)
    | _ => .ub
  | .setFlag v, n => .ok (straight (φ := φ) [.op (.move .int v.id .flag)] n, [.op (.move .int v.id .flag)])
  | .setConst v c, n => .ok (straight (φ := φ) [.op (.const .int v.id (.i c))] n, [.op (.const .int v.id (.i c))])

/-- How many names and numbers have been given: temporary names of the parser, temporary variables of the checker, operation codes. -/
structure Count where
  old : Nat
  tmp : Nat
  code : Nat

/-- An expression statement, yacc/spvm_yacc.y 677; the operation codes of its operators are appended in order (spvm_opcode_builder.c 149-4400).
The value is not used. -/
def exprPiece {φ} (e : Expr φ) (k : Count) : Out (Piece φ × Count) := do
  let c ← check (build e k.old).1
  let x ← emit (temps false c k.tmp).1
  return ((straight (x.map .op) k.code, x.map .op), ⟨(build e k.old).2, (temps false c k.tmp).2, k.code + x.length⟩)

/-- `for (; ;)` without an initialization or increment part, spvm_op.c 1868-1897 (`DO_NOTHING`). -/
def optionPiece {φ} : Option (Expr φ) → Count → Out (Piece φ × Count)
  | none, k => .ok ((.skip, []), k)
  | some e, k => exprPiece e k

/-- The operand of `if`, `unless` and of a loop, with the variable for its value: spvm_op.c 2035-2045, spvm_check.c 1614-1655 and 3431-3625. -/
def operandPiece {φ} (isUnless : Bool) (c : Cond φ) (k : Count) : Out (Piece φ × Nat × Count) := do
  let l ← checkCond (ifOperand isUnless c k.old).1
  let l' := tempsCond l k.tmp
  let x ← condPiece l'.1 k.code
  let p ← condVar l'.1
  let w ← evalCode (.tmp l'.2) p
  return ((.seq x.1 (straight w (k.code + x.2.length)), x.2 ++ w), (VarId.tmp l'.2).slot, ⟨(ifOperand isUnless c k.old).2, l'.2 + 1, k.code + x.2.length + w.length⟩)

/-- An operator whose value is used, with the variable for its value: spvm_check.c 3431-3625, spvm_opcode_builder.c 5154-5192. -/
def valuePiece {φ} (c : Op φ) (old : Nat) (k : Count) : Out (Piece φ × MVar × Count) := do
  let x ← emit (temps false c k.tmp).1
  let p ← opVar (temps false c k.tmp).1
  return ((straight (x.map .op) k.code, x.map .op), p, ⟨old, (temps false c k.tmp).2, k.code + x.length⟩)

def msgSwitch : String := "The condition of the switch statement must be an integer type within int."
def msgVoid : String := "The void method cannnot return the value."
def msgNonVoid : String := "The non-void method must return a value."

/-- The operand of `switch`, spvm_check.c 1507-1518 (`SPVM_TYPE_is_integer_type_within_int`, spvm_type.c); spvm_opcode_builder.c 587-600. -/
def switchPiece {φ} (e : Expr φ) (k : Count) : Out (Piece φ × MVar × Count) := do
  let c ← check (build e k.old).1
  if (typeOf c).isInteger && decide ((typeOf c).basicTypeId ≤ NT.int.basicTypeId) then valuePiece (promoteOp c) (build e k.old).2 k
  else .die msgSwitch

/-- `return`, spvm_check.c 2408-2432; spvm_opcode_builder.c 638-720. -/
def givePiece {φ} (R : Option NT) (e : Expr φ) (k : Count) : Out (Piece φ × Count) := do
  let c ← check (build e k.old).1
  match R with
  | none => .die msgVoid
  | some t =>
    let c ← checkAssign t c
    let (x, p, k) ← valuePiece c (build e k.old).2 k
    return ((.seq x.1 (.ret k.code), x.2 ++ [.give ⟨t, p.id⟩]), { k with code := k.code + 1 })

def msgMany : String := "Too many arguments are passed"
def msgFew : String := "Too few arguments are passed"
def msgNoMethod : String := "The method must be defined"

/-- The arguments of a call: spvm_check.c 3096-3137; their operation codes, and the variables with their values. -/
def argsCode {φ} : List NT → List (Expr φ) → Count → Out (List (XInstr φ) × List MVar × Count)
  | _, [], k => .ok ([], [], k)
  | [], _ :: _, _ => .die msgMany
  | t :: ts, e :: es, k => do
    let c ← check (build e k.old).1
    let c ← checkAssign t c
    let (x, p, k) ← valuePiece c (build e k.old).2 k
    let (y, ps, k) ← argsCode ts es k
    return (x.2 ++ y, ⟨t, p.id⟩ :: ps, k)

/-- The operation codes that copy the arguments to the stack, spvm_opcode_builder.c 1085-1227; the opcode is chosen by the type of the argument of the method. -/
def setArgs {φ} : List MVar → Nat → List (XInstr φ)
  | [], _ => []
  | p :: ps, i => .setStack i p :: setArgs ps (i + 1)

/-- The return value of a call, spvm_opcode_builder.c 1238-1339, assigned to a variable of its type; if it is converted or not used, a new temporary variable
(spvm_check.c 3431-3625).  The assignment requirement for numeric types: `SPVM_CHECK_check_assign`, spvm_check.c 4214 ff. -/
def resultCode {φ} : Option Var → Option NT → Nat → Out (List (XInstr φ) × Nat)
  | none, none, tmp => .ok ([], tmp)
  | none, some t, tmp => .ok ([.getStack ⟨t, .tmp tmp⟩ 0], tmp + 1)
  | some _, none, _ => .die msgAssign
  | some v, some t, tmp =>
    if t = v.ty then .ok ([.getStack (userVar v) 0], tmp)
    else if v.ty.basicTypeId > t.basicTypeId then .ok ([.getStack ⟨t, .tmp tmp⟩ 0, .op (.conv t v.ty (.user v.id) (.tmp tmp))], tmp + 1)
    else .die msgAssign

/-- A call of a class method as a statement, spvm_check.c 3074-3148, spvm_opcode_builder.c 1055-1341.  The method must be accessible (C36). -/
def callPiece {φ} (S : Nat → Option (Sig φ)) (v : Option Var) (f : Nat) (args : List (Expr φ)) (k : Count) : Out (Piece φ × Count) :=
  match S f with
  | none => .die msgNoMethod
  | some g => do
    let (x, ps, k1) ← argsCode g.params args k
    if args.length + g.defaults.length < g.params.length then .die msgFew
    else do
      let (y, tmp) ← resultCode v g.ret k1.tmp
      let seg := x ++ setArgs ps 0 ++ .invoke f args.length :: y
      return ((straight seg k.code, seg), ⟨k1.old, tmp, k.code + seg.length⟩)

/-- The statements of a method with the return type `R`: declarations, spvm_opcode_builder.c 788-933; `if`, `elsif` and `unless`, spvm_op.c 2047-2092; loops, 1868-1897, 1999-2033;
`switch`, 1772-1805. -/
def statPiece {φ} (R : Option NT) (S : Nat → Option (Sig φ)) : Stat φ → Count → Out (Piece φ × Count)
  | .skip, k => .ok ((.skip, []), k)
  | .seq s t, k => do
    let (x, k) ← statPiece R S s k
    let (y, k) ← statPiece R S t k
    return ((.seq x.1 y.1, x.2 ++ y.2), k)
  | .expr e, k => exprPiece e k
  | .decl v, k => .ok ((straight (φ := φ) [.zero (userVar v)] k.code, [.zero (userVar v)]), { k with code := k.code + 1 })
  | .block s, k => do
    let (x, k) ← statPiece R S s k
    return ((.block x.1, x.2), k)
  | .ifs u c t e, k => do
    let (x, v, k) ← operandPiece u c k
    let (y, k) ← statPiece R S t k
    let (z, k) ← statPiece R S e k
    return ((.ifs x.1 v y.1 z.1, x.2 ++ y.2 ++ z.2), k)
  | .elif c t e, k => do
    let (x, v, k) ← operandPiece false c k
    let (y, k) ← statPiece R S t k
    let (z, k) ← statPiece R S e k
    return ((.elif x.1 v y.1 z.1, x.2 ++ y.2 ++ z.2), k)
  | .loop init c inc body, k => do
    let (i, k) ← optionPiece init k
    let (x, v, k) ← operandPiece false c k
    let (y, k) ← optionPiece inc k
    let (z, k) ← statPiece R S body k
    return ((.loop i.1 x.1 v y.1 z.1, i.2 ++ x.2 ++ y.2 ++ z.2), k)
  | .switch e cs, k => do
    let (x, v, k) ← switchPiece e k
    let (y, k) ← statPiece R S cs k
    return ((.switch x.1 v.id.slot y.1, x.2 ++ y.2), k)
  | .caseFall n rest, k => do
    let (x, k) ← statPiece R S rest k
    return ((.caseFall n x.1, x.2), k)
  | .caseRun n body rest, k => do
    let (x, k) ← statPiece R S body k
    let (y, k) ← statPiece R S rest k
    return ((.caseRun n x.1 y.1, x.2 ++ y.2), k)
  | .dflt body, k => do
    let (x, k) ← statPiece R S body k
    return ((.dflt x.1, x.2), k)
  | .brk, k => .ok ((.brk, []), k)
  | .next, k => .ok ((.next, []), k)
  | .last, k => .ok ((.last, []), k)
  | .ret, k =>
    match R with
    | none => .ok ((.ret k.code, [.nothing]), { k with code := k.code + 1 })
    | some _ => .die msgNonVoid
  | .give e, k => givePiece R e k
  | .call v f args, k => callPiece S v f args k
  | .eval s, k => do
    let (x, k) ← statPiece R S s k
    return ((.eval x.1, x.2), k)

/-- "Add return statement after the last of the statements", spvm_op.c 1553-1573: a new variable `$.return` of the return type is declared and returned. -/
def endPiece {φ} (R : Option NT) (k : Count) : Piece φ :=
  match R with
  | none => (.ret k.code, [.nothing])
  | some t => (.seq (straight (φ := φ) [.zero ⟨t, .tmp k.tmp⟩] k.code) (.ret (k.code + 1)), [.zero ⟨t, .tmp k.tmp⟩, .give ⟨t, .tmp k.tmp⟩])

/-- The arguments are copied to variables at the start, spvm_opcode_builder.c 60-226.  `END_ARGS` comes after them; in Model/Flow it is the first operation code. -/
def enterCode {φ} : List Var → Nat → List (XInstr φ)
  | [], _ => []
  | v :: vs, i => .getStack (userVar v) (i % 256) :: enterCode vs (i + 1)

def msgWidth : String := "The width of the arguments must be less than or equal to 255."

/-- A compiled method: the jumps of Model/Flow and the operation codes that are not jumps.  The check of the arguments: spvm_check.c 739-742. -/
def compileMeth {φ} (S : Nat → Option (Sig φ)) (g : Meth φ) : Out (Flow.Method × List (XInstr φ)) := do
  if g.params.length ≤ 255 then
    let e := enterCode (φ := φ) g.params 0
    let (x, k) ← statPiece g.ret S g.body ⟨0, 0, e.length⟩
    let y := endPiece g.ret k
    match Flow.compile (.seq (straight e 0) (.seq x.1 y.1)) with
    | some M => .ok (M, e ++ (x.2 ++ y.2))
    | none => .ub
  else .die msgWidth

/-! ## Execution -/

/-- The exception variable, and the argument stack; a value on the stack has the type it was written with, `none` is a value of another kind. -/
structure Side (φ : Type) where
  exc : Option String
  stack : Nat → Option (NT × Val φ)

/-- The memory of the numeric variables, and the rest; `none` after an operation that C does not define, or in a call that does not end. -/
abbrev BMem (φ : Type) := Option (Mem φ × Side φ)

/-- What a call does: the method, `args_width` and the rest of the state; the result has `error_id`. -/
abbrev Oracle (φ : Type) := Nat → Nat → Side φ → Option (Side φ × Nat)

/-- `MOVE_BYTE_ZERO` and so on, spvm_implement.h: `0`, converted to the type of the variable. -/
def zeroVal {φ} (F : Fl φ) (t : NT) : Val φ := if t.isInteger then .i 0 else .f (F.ofInt t 0)

/-- The operation codes that work on variables only, spvm_vm.c. -/
def xstep {φ} (F : Fl φ) (O : Objs) (m : Mem φ) : XInstr φ → Res φ
  | .op i => step F m i
  | .truth o i => store m .int o (truthC F O m i)
  | .zero p => .ok (m.set p.ty p.id (zeroVal F p.ty))
  | _ => .ok m

def Side.set {φ} (d : Side φ) (i : Nat) (x : NT × Val φ) : Side φ := { d with stack := fun j => if j = i then some x else d.stack j }

/-- One operation code.  `RETURN_BYTE` and so on set `stack[0]`, spvm_vm.c 2276-2305, spvm_implement.h 2558-2563; `SET_STACK_x`, spvm_vm.c 2206-2229, and
`GET_STACK_x`, 2140-2163, spvm_implement.h 2393-2398, 2439-2444: reading a value of another type is counted as undefined; `CALL_CLASS_METHOD`, 2352-2364.
An exception of a numeric operation sets `error_id` to 1, spvm_implement.h 187-323. -/
def xexec {φ} (F : Fl φ) (O : Objs) (K : Oracle φ) (m : Mem φ) (d : Side φ) : XInstr φ → BMem φ × Nat
  | .give p => (some (m, d.set 0 (p.ty, m p.ty p.id)), 0)
  | .setStack i p => (some (m, d.set i (p.ty, m p.ty p.id)), 0)
  | .getStack p i =>
    match d.stack i with
    | some (t, x) => if t = p.ty then (some (m.set p.ty p.id x, d), 0) else (none, 0)
    | none => (none, 0)
  | .invoke f n =>
    match K f n d with
    | some (d', e) => (some (m, d'), e)
    | none => (none, 0)
  | i =>
    match xstep F O m i with
    | .ok m' => (some (m', d), 0)
    | .die msg m' => (some (m', { d with exc := some msg }), 1)
    | .ub => (none, 0)

/-- Operation code number `k`: the new memory and `error_id`. -/
def execAt {φ} (F : Fl φ) (O : Objs) (K : Oracle φ) (T : List (XInstr φ)) (k : Nat) : BMem φ → BMem φ × Nat
  | none => (none, 0)
  | some (m, d) =>
    match T[k]? with
    | none => (none, 0)
    | some i => xexec F O K m d i

/-- The operators of Model/Flow: the operation codes of the table `T`.  An exception of an operation code without a jump behind it would be missed: it
counts as undefined.  `eval` clears the exception variable (`SET_EXCEPTION_VAR_UNDEF`, spvm_vm.c 1334-1337). -/
def interp {φ} (F : Fl φ) (O : Objs) (K : Oracle φ) (T : List (XInstr φ)) : Flow.Interp (BMem φ) where
  act k s := { s with mem := if (execAt F O K T k s.mem).2 = 0 then (execAt F O K T k s.mem).1 else none }
  call k s := ({ s with mem := (execAt F O K T k s.mem).1 }, (execAt F O K T k s.mem).2)
  ival v s := match s.mem with
    | some (m, _) => (match m .int (.ofSlot v) with | .i n => n | .f _ => 0)
    | none => 0
  trace _ m := m
  enter m := m.map fun x => (x.1, { x.2 with exc := none })
  caught _ m := m

/-- The variables of a method at its start, spvm_vm.c 96-173: the memory is filled with zeros (`SPVM_API_new_memory_block`, spvm_api.c 4361; `calloc`). -/
def zeroMem {φ} (F : Fl φ) : Mem φ := fun t _ => zeroVal F t

/-- The method is executed, and ends after at most `n` operation codes.  There are no object variables to release. -/
def runBody {φ} (F : Fl φ) (O : Objs) (K : Oracle φ) (M : Flow.Method) (T : List (XInstr φ)) (d : Side φ) (n : Nat) : Flow.Step (BMem φ) :=
  (Flow.Vm.start ⟨fun _ => none, some (zeroMem F, d)⟩).run (interp F O K T) M.code M.mortalLength n

/-! ## Programs -/

/-- A method at run time. -/
structure RMeth (φ : Type) where
  params : List NT
  defaults : List (Val φ)
  code : Flow.Method
  table : List (XInstr φ)

/-- All the methods are compiled; the first error is reported. -/
def compileAll {φ} (S : Nat → Option (Sig φ)) : List (Meth φ) → Out (List (RMeth φ))
  | [] => .ok []
  | g :: gs => do
    let x ← compileMeth S g
    let xs ← compileAll S gs
    return ⟨g.params.map Var.ty, g.defaults, x.1, x.2⟩ :: xs

def compileProgram {φ} (P : List (Meth φ)) : Out (List (RMeth φ)) := compileAll (sigs P) P

/-- "Set default values of optional arguments", spvm_api.c 4843-4851. -/
def setDefaults {φ} (g : RMeth φ) (n : Nat) (stack : Nat → Option (NT × Val φ)) : Nat → Option (NT × Val φ) := fun i =>
  if g.params.length - g.defaults.length ≤ i ∧ i < g.params.length ∧ n ≤ i then
    match g.params[i]?, g.defaults[i - (g.params.length - g.defaults.length)]? with
    | some t, some x => some (t, x)
    | _, _ => none
  else stack i

/-- `SPVM_API_call_method_common`, spvm_api.c 4792-4892, for class methods that are neither native nor precompiled and not `INIT` methods; the first argument is
`max_call_depth` minus the depth.  Each method may execute `n` operation codes; a method that takes more counts as one that does not end. -/
def callMethod {φ} (F : Fl φ) (O : Objs) (P : List (RMeth φ)) (n : Nat) : Nat → Oracle φ
  | 0, _, _, d => some ({ d with exc := some msgDeep }, 1)
  | c + 1, f, w, d =>
    match P[f]? with
    | none => none
    | some g =>
      match runBody F O (callMethod F O P n c) g.code g.table { d with stack := setDefaults g w d.stack } n with
      | .done v => v.st.mem.map fun x => (x.2, v.err)
      | _ => none

end Expr
end SPVM
