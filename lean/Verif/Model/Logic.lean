import Verif.Spec.Logic
import Verif.Model.Expr
/-!
# The compilation of logical operators and conditions

The parser turns `&&`, `||` and `!` into `if` statements that assign the value to a new variable (lib/SPVM/Builder/src/spvm_op.c); the checker converts
the operand of a condition and adds temporary variables (spvm_check.c); the opcode builder emits the evaluation of the condition, the
copy to `$.condition_flag` and the jumps (spvm_opcode_builder.c).  Only the syntax `Cond` is taken from the specification.

Simplifications: operands of conditions are numeric expressions (Model/Expr), object variables, reference variables, `undef` and logical operators; other
expressions that give an object are left out.  The
target of a jump is the number of opcodes to skip, instead of an index; Model/Flow has the patching of the indexes.  The declaration
`my $tmp : int` emits nothing for a numeric variable.
-/
namespace SPVM
namespace Expr

/-- The trees. -/
inductive LOp (φ : Type) where
  | num (e : Op φ)
  /-- a variable of an object type or a reference type -/
  | obj (t : ObjTy) (n : Nat)
  | undef
  /-- `SEQUENCE` of the declaration of `v`, an `IF`, and `v` -/
  | value (v : MVar) (i : LOp φ)
  /-- `IF` with a `CONDITION` of a `CONDITION_EVALUATION`; the variable that the condition evaluation is assigned to is added by the checker -/
  | ite (tmp : Option VarId) (c t e : LOp φ)
  /-- `v = $.condition_flag` -/
  | setFlag (v : MVar)
  /-- `v = n` -/
  | setConst (v : MVar) (n : Int)

/-- `SPVM_OP_build_logical_and`, spvm_op.c 2822-2897. -/
def buildAnd {φ} (a b : LOp φ) (v : MVar) : LOp φ := .value v (.ite none a (.ite none b (.setFlag v) (.setFlag v)) (.setFlag v))

/-- `SPVM_OP_build_logical_or`, spvm_op.c 2899-2971. -/
def buildOr {φ} (a b : LOp φ) (v : MVar) : LOp φ := .value v (.ite none a (.setFlag v) (.ite none b (.setFlag v) (.setFlag v)))

/-- `SPVM_OP_build_logical_not`, spvm_op.c 2973-3029. -/
def buildNot {φ} (a : LOp φ) (v : MVar) : LOp φ := .value v (.ite none a (.setConst v 0) (.setConst v 1))

/-- The tree of a condition; `k` is the number of temporary names made so far. -/
def buildCond {φ} : Cond φ → Nat → LOp φ × Nat
  | .num e, k => (.num (build e k).1, (build e k).2)
  | .obj t n, k => (.obj t n, k)
  | .undef, k => (.undef, k)
  | .and a b, k =>
    let x := buildCond a k
    let y := buildCond b x.2
    (buildAnd x.1 y.1 ⟨.int, .old y.2⟩, y.2 + 1)
  | .or a b, k =>
    let x := buildCond a k
    let y := buildCond b x.2
    (buildOr x.1 y.1 ⟨.int, .old y.2⟩, y.2 + 1)
  | .not a, k =>
    let x := buildCond a k
    (buildNot x.1 ⟨.int, .old x.2⟩, x.2 + 1)

/-- The checks, spvm_check.c 1614-1655: the operand of a condition evaluation gets the integer promotional conversion,
`undef` is replaced by the constant 0, objects and references are left as they are.  A logical operator is an `int`
already. -/
def checkCond {φ} : LOp φ → Out (LOp φ)
  | .num e => do
    let e ← check e
    return .num (promoteOp e)
  | .obj t n => .ok (.obj t n)
  | .undef => .ok (.num (.const .int (.i 0)))
  | .value v i => do
    let i ← checkCond i
    return .value v i
  | .ite tmp c t e => do
    let c ← checkCond c
    let t ← checkCond t
    let e ← checkCond e
    return .ite tmp c t e
  | .setFlag v => .ok (.setFlag v)
  | .setConst v n => .ok (.setConst v n)

/-- `SPVM_CHECK_check_ast_assign_unassigned_op_to_var`, spvm_check.c 3431-3625: the condition evaluation is assigned to a new variable. -/
def tempsCond {φ} : LOp φ → Nat → LOp φ × Nat
  | .num e, k => (.num (temps false e k).1, (temps false e k).2)
  | .obj t n, k => (.obj t n, k)
  | .undef, k => (.undef, k)
  | .value v i, k => (.value v (tempsCond i k).1, (tempsCond i k).2)
  | .ite _ c t e, k =>
    let c' := tempsCond c k
    let t' := tempsCond t (c'.2 + 1)
    let e' := tempsCond e t'.2
    (.ite (some (.tmp c'.2)) c'.1 t'.1 e'.1, e'.2)
  | .setFlag v, k => (.setFlag v, k)
  | .setConst v n, k => (.setConst v n, k)

/-! ## Opcodes -/

/-- The input of a condition evaluation: a numeric variable, or an object or reference variable. -/
inductive CVar where
  | num (p : MVar)
  | obj (t : ObjTy) (n : Nat)

/-- The opcodes of Model/Expr and those for conditions. -/
inductive LInstr (φ : Type) where
  | op (i : Instr φ)
  /-- `CONDITION_EVALUATION_x` -/
  | truth (o : VarId) (i : CVar)
  /-- `IF_EQ_ZERO`: skip `n` opcodes if the variable is 0 -/
  | ifZero (v : VarId) (n : Nat)
  /-- `GOTO`: skip `n` opcodes -/
  | goto (n : Nat)

/-- The variable of an operand, spvm_opcode_builder.c 5154-5226, and its type. -/
def condVar {φ} : LOp φ → Out CVar
  | .num e => do
    let p ← opVar e
    return .num p
  | .obj t n => .ok (.obj t n)
  | .value v _ => .ok (.num v)
  | _ => .ub

/-- The opcodes at the end of a condition: the condition evaluation and the copy to `$.condition_flag`, spvm_opcode_builder.c 4083-4153, and
`IF_EQ_ZERO`, 502-537.  `assert(0)` for `byte` and `short`. -/
def condOpcodes {φ} (tmp : VarId) (p : CVar) (skip : Nat) : Out (List (LInstr φ)) :=
  match p with
  | .num ⟨.byte, _⟩ | .num ⟨.short, _⟩ => .ub
  | p => .ok [.truth tmp p, .op (.move .int .flag tmp), .ifZero tmp skip]

/-- The walk over the tree, spvm_opcode_builder.c 366-490 for the blocks of `IF`: the first block ends with `GOTO` to the end of the second. -/
def emitCond {φ} : LOp φ → Out (List (LInstr φ))
  | .num e => do
    let x ← emit e
    return x.map .op
  | .obj _ _ => .ok []
  | .undef => .ok []
  | .value _ i => emitCond i
  | .ite tmp c t e => do
    let x ← emitCond c
    let p ← condVar c
    let y ← emitCond t
    let z ← emitCond e
    match tmp with
    | none => .ub
    | some tmp => do
      let w ← condOpcodes tmp p (y.length + 1)
      return x ++ w ++ y ++ .goto z.length :: z
  | .setFlag v => .ok [.op (.move .int v.id .flag)]
  | .setConst v n => .ok [.op (.const .int v.id (.i n))]

/-- The compilation of a condition as the operand of a statement: the opcodes and the variable with the value. -/
def compileCond {φ} (c : Cond φ) : Out (List (LInstr φ) × CVar) := do
  let l ← checkCond (buildCond c 0).1
  let code ← emitCond (tempsCond l 0).1
  let p ← condVar (tempsCond l 0).1
  return (code, p)

/-- `SPVM_OP_build_if_statement`, spvm_op.c 2047-2092: `unless` is `if` with `!`. -/
def ifOperand {φ} (isUnless : Bool) (c : Cond φ) (k : Nat) : LOp φ × Nat :=
  if isUnless then (buildNot (buildCond c k).1 ⟨.int, .old (buildCond c k).2⟩, (buildCond c k).2 + 1) else buildCond c k

/-- `if (c) { t } else { e }` and `unless (c) { t } else { e }`; `t` and `e` are the opcodes of the blocks. -/
def compileIf {φ} (isUnless : Bool) (c : Cond φ) (t e : List (LInstr φ)) : Out (List (LInstr φ)) := do
  let l ← checkCond (ifOperand isUnless c 0).1
  let code ← emitCond (tempsCond l 0).1
  let p ← condVar (tempsCond l 0).1
  let w ← condOpcodes (.tmp (tempsCond l 0).2) p (t.length + 1)
  return code ++ w ++ t ++ .goto e.length :: e

/-! ## Execution -/

/-- `CONDITION_EVALUATION_x`, spvm_implement.h 438-441. -/
def truthVal {φ} (F : Fl φ) (t : NT) : Val φ → Out (Val φ)
  | .i n => if t = .int then .ok (.i n) else if t = .long then .ok (.i (if n = 0 then 0 else 1)) else .ub
  | .f x => if t = .float ∨ t = .double then .ok (.i (if F.eq t x (F.ofInt t 0) then 0 else 1)) else .ub

/-- `CONDITION_EVALUATION_OBJECT`, `CONDITION_EVALUATION_REF` and `CONDITION_EVALUATION_BOOL_OBJECT`, spvm_implement.h 442-444, with
`SPVM_API_get_bool_object_value`, spvm_api.c 5437-5442, which reads the field without looking whether there is an object. -/
def truthObj {φ} : ObjTy → Held → Out (Val φ)
  | .bool, .bool b => .ok (.i (if b then 1 else 0))
  | .bool, _ => .ub
  | _, .null => .ok (.i 0)
  | _, _ => .ok (.i 1)

/-- The opcode that is chosen by the type of the input, spvm_opcode_builder.c 4083-4135, and its input variable, spvm_vm.c 572-603. -/
def truthC {φ} (F : Fl φ) (O : Objs) (m : Mem φ) : CVar → Out (Val φ)
  | .num p => truthVal F p.ty (m p.ty p.id)
  | .obj t n => truthObj t (O n)

/-- The test of `IF_EQ_ZERO`, spvm_vm.c 197-203. -/
def isZero {φ} : Val φ → Bool
  | .i n => n == 0
  | .f _ => false

/-- The interpreter loop, spvm_vm.c 190-210; `skip` opcodes are jumped over.  A jump behind the last opcode is `ub`. -/
def runL {φ} (F : Fl φ) (O : Objs) : List (LInstr φ) → Nat → Mem φ → Res φ
  | [], 0, m => .ok m
  | [], _ + 1, _ => .ub
  | _ :: is, skip + 1, m => runL F O is skip m
  | i :: is, 0, m =>
    match i with
    | .op i =>
      match step F m i with
      | .ok m => runL F O is 0 m
      | .die msg m => .die msg m
      | .ub => .ub
    | .truth o i =>
      match store m .int o (truthC F O m i) with
      | .ok m => runL F O is 0 m
      | .die msg m => .die msg m
      | .ub => .ub
    | .ifZero v n => if isZero (m .int v) then runL F O is n m else runL F O is 0 m
    | .goto n => runL F O is n m

end Expr
end SPVM
