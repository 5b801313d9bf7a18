import Verif.Spec.Expr
import Verif.Model.VM
/-!
# The compilation of numeric expressions

Models the path of an expression on local variables and literals of the numeric types: the trees built by the parser (lib/SPVM/Builder/src/spvm_op.c), the
conversions inserted by the checker and the temporary variables it adds (spvm_check.c), the choice of the opcodes (spvm_opcode_builder.c), and
the opcodes (lib/SPVM/Builder/include/spvm_implement.h).  Only the syntax (`NT`, `Val`, `Fl`, `UnOp`, `BinOp`, `SpOp`, `Var`, `Expr`) is taken from
the specification.

Simplifications: different variables have different memory (C56 is about that); the memory of one numeric type is a function of the
variable instead of its index.  The file and line in messages of compile errors are left out.  `assert(0)` is `ub`.
-/
namespace SPVM
namespace Expr

/-- The name of a variable: declared by the user, made by `SPVM_OP_new_op_name_tmp_var` while parsing, made by `SPVM_CHECK_new_op_var_tmp`,
or `$.condition_flag`, spvm_op.c 3273-3281. -/
inductive VarId | user (n : Nat) | old (n : Nat) | tmp (n : Nat) | flag
deriving DecidableEq, Repr

structure MVar where
  ty : NT
  id : VarId
deriving DecidableEq, Repr

/-! ## Trees -/

/-- The trees of operators.  The flag of `bin` is `allow_narrowing_conversion`. -/
inductive Op (φ : Type) where
  | var (v : MVar)
  | const (t : NT) (c : Val φ)
  | cast (t : NT) (e : Op φ)
  | un (o : UnOp) (e : Op φ)
  | bin (o : BinOp) (narrow : Bool) (a b : Op φ)
  | assign (v : MVar) (e : Op φ)
  | seq (a b : Op φ)
deriving Repr

def userVar (v : Var) : MVar := ⟨v.ty, .user v.id⟩

/-- `SPVM_OP_build_special_assign` for a local variable, spvm_op.c 2505-2800: `my $old = $var`, `$var = $old OP SRC`.  The type of
`$old` is inferred from `$var`, spvm_check.c 2373-2384. -/
def buildSpecial {φ} (o : BinOp) (v : Var) (src : Op φ) (k : Nat) : Op φ :=
  .seq (.assign ⟨v.ty, .old k⟩ (.var (userVar v)))
    (.assign (userVar v) (.bin o true (.var ⟨v.ty, .old k⟩) src))

/-- The tree of an expression, /repo/yacc/spvm_yacc.y 976-1180 with spvm_op.c 2461-2495, 2802-2820 and 3031-3046; `k` is the number of temporary names made so far. -/
def build {φ} : Expr φ → Nat → Op φ × Nat
  | .var v, k => (.var (userVar v), k)
  | .lit t c, k => (.const t c, k)
  | .cast t e, k => (.cast t (build e k).1, (build e k).2)
  | .un o e, k => (.un o (build e k).1, (build e k).2)
  | .bin o a b, k => (.bin o false (build a k).1 (build b (build a k).2).1, (build b (build a k).2).2)
  | .assign v e, k => (.assign (userVar v) (build e k).1, (build e k).2)
  | .special o v e, k => (buildSpecial o.bin v (build e k).1 (build e k).2, (build e k).2 + 1)
  -- `SPVM_OP_build_inc`, `SPVM_OP_build_dec`
  | .pre up v, k => (buildSpecial (if up then .add else .sub) v (.const .int (.i 1)) k, k + 1)
  | .post up v, k =>
    (.seq (buildSpecial (if up then .add else .sub) v (.const .int (.i 1)) k) (.var ⟨v.ty, .old k⟩), k + 1)
  | .seq a b, k => (.seq (build a k).1 (build b (build a k).2).1, (build b (build a k).2).2)

/-! ## Checking -/

/-- `SPVM_NATIVE_C_BASIC_TYPE_ID_*`, lib/SPVM/Builder/include/spvm_native.h. -/
def NT.basicTypeId : NT → Nat
  | .byte => 3 | .short => 4 | .int => 5 | .long => 6 | .float => 7 | .double => 8

/-- `SPVM_TYPE_is_integer_type`, spvm_type.c. -/
def NT.isInteger (t : NT) : Bool := NT.byte.basicTypeId ≤ t.basicTypeId && t.basicTypeId ≤ NT.long.basicTypeId

/-- `SPVM_CHECK_get_type`, spvm_check.c 4350-4490. -/
def typeOf {φ} : Op φ → NT
  | .var v => v.ty
  | .const t _ => t
  | .cast t _ => t
  | .un _ e => typeOf e
  | .bin o _ a _ =>
    match o with
    | .eq | .ne | .gt | .ge | .lt | .le | .cmp => .int
    | _ => typeOf a
  | .assign v _ => v.ty
  | .seq _ b => typeOf b

/-- Insert a cast if the type differs. -/
def castTo {φ} (t : NT) (e : Op φ) : Op φ := if typeOf e = t then e else .cast t e

/-- `SPVM_CHECK_perform_integer_promotional_conversion`, spvm_check.c 4039-4063. -/
def promoteOp {φ} (e : Op φ) : Op φ :=
  if (typeOf e).basicTypeId ≤ NT.int.basicTypeId then castTo .int e else e

/-- The destination type of `SPVM_CHECK_perform_binary_numeric_conversion`, spvm_check.c 4065-4086. -/
def binaryType (a b : NT) : NT :=
  if a = .double ∨ b = .double then .double
  else if a = .float ∨ b = .float then .float
  else if a = .long ∨ b = .long then .long
  else .int

/-- `SPVM_CHECK_check_allow_narrowing_conversion`, spvm_check.c 4108-4212, for a numeric type. -/
def allowNarrowing {φ} (d : NT) (src : Op φ) : Out Bool :=
  match src with
  | .bin _ true _ _ => .ok true
  | .const s c =>
    if d.basicTypeId < s.basicTypeId then
      if s = .int ∨ s = .long then
        match c with
        | .i n =>
          if d = .byte then .ok (-128 ≤ n && n ≤ 127)
          else if d = .short then .ok (-32768 ≤ n && n ≤ 32767)
          else if d = .int then .ok (-2147483648 ≤ n && n ≤ 2147483647)
          else .ub
        | .f _ => .ub
      else if s = .double then .ok (d = .float)
      else .ok false
    else .ok false
  | _ => .ok false

def msgAssign : String := "type cannot be assigned to the type in assignment operator."

/-- `SPVM_CHECK_check_assign`, spvm_check.c 4214-4266, with the numeric part of `SPVM_TYPE_satisfy_assignment_requirement`, spvm_type.c 903-945. -/
def checkAssign {φ} (d : NT) (src : Op φ) : Out (Op φ) := do
  let narrow ← allowNarrowing d src
  if d.basicTypeId = (typeOf src).basicTypeId then return src
  else if d.basicTypeId > (typeOf src).basicTypeId then return .cast d src
  else if narrow then return .cast d src
  else .die msgAssign

def msgInteger : String := "The type of the operand must be an integer type."
def msgInt : String := "The operand must be int type."
def msgLong : String := "The operand must be long type."

/-- `SPVM_OP_C_ID_ADD` and the other cases with a binary numeric conversion, spvm_check.c 1658-1945, 2178-2194, 2493-2586, 2620-2640, 2675-2720. -/
def checkNumeric {φ} (o : BinOp) (narrow : Bool) (a b : Op φ) : Op φ :=
  let t := binaryType (typeOf a) (typeOf b)
  .bin o narrow (castTo t a) (castTo t b)

/-- The binary operators, spvm_check.c 1658-1945, 2178-2194 and 2493-2825. -/
def checkBin {φ} (o : BinOp) (narrow : Bool) (a b : Op φ) : Out (Op φ) :=
  match o with
  | .add | .sub | .mul | .div | .eq | .ne | .gt | .ge | .lt | .le | .cmp => .ok (checkNumeric o narrow a b)
  | .mod | .bitAnd | .bitOr | .bitXor =>
    if (typeOf a).isInteger = false then .die msgInteger
    else if (typeOf b).isInteger = false then .die msgInteger
    else .ok (checkNumeric o narrow a b)
  | .divUInt | .modUInt =>
    if typeOf a ≠ .int then .die msgInt
    else if typeOf b ≠ .int then .die msgInt
    else .ok (.bin o narrow a b)
  | .divULong | .modULong =>
    if typeOf a ≠ .long then .die msgLong
    else if typeOf b ≠ .long then .die msgLong
    else .ok (.bin o narrow a b)
  | .shl | .sar | .shr =>
    if (typeOf a).isInteger = false then .die msgInteger
    else if (typeOf b).isInteger = false then .die msgInt
    else if (typeOf b).basicTypeId ≥ NT.long.basicTypeId then .die msgInt
    else .ok (.bin o narrow (promoteOp a) (promoteOp b))

/-- The pass over the tree, `SPVM_CHECK_check_ast_syntax`, spvm_check.c 1355-3620, operands first. -/
def check {φ} : Op φ → Out (Op φ)
  | .var v => .ok (.var v)
  | .const t c => .ok (.const t c)
  -- 3363-3400: a cast to the same type is removed
  | .cast t e => do
    let e ← check e
    return if typeOf e = t then e else .cast t e
  -- 2433-2492
  | .un o e => do
    let e ← check e
    if o = .bitNot ∧ (typeOf e).isInteger = false then .die msgInteger
    else return .un o (promoteOp e)
  | .bin o narrow a b => do
    let a ← check a
    let b ← check b
    checkBin o narrow a b
  -- 2367-2393
  | .assign v e => do
    let e ← check e
    let e ← checkAssign v.ty e
    return .assign v e
  | .seq a b => do
    let a ← check a
    let b ← check b
    return .seq a b

/-! ## Temporary variables -/

/-- Store the operator `e` in a new variable, unless it is the source of an assignment already. -/
def toVar {φ} (isAssigned : Bool) (e : Op φ) (k : Nat) : Op φ × Nat :=
  if isAssigned then (e, k) else (.assign ⟨typeOf e, .tmp k⟩ e, k + 1)

/-- `SPVM_CHECK_check_ast_assign_unassigned_op_to_var`, spvm_check.c 3431-3625; `k` is the number of variables made so far. -/
def temps {φ} (isAssigned : Bool) : Op φ → Nat → Op φ × Nat
  | .var v, k => (.var v, k)
  | .const t c, k => toVar isAssigned (.const t c) k
  | .cast t e, k => toVar isAssigned (.cast t (temps false e k).1) (temps false e k).2
  | .un o e, k => toVar isAssigned (.un o (temps false e k).1) (temps false e k).2
  | .bin o n a b, k =>
    toVar isAssigned (.bin o n (temps false a k).1 (temps false b (temps false a k).2).1) (temps false b (temps false a k).2).2
  | .assign v e, k => (.assign v (temps true e k).1, (temps true e k).2)
  | .seq a b, k => (.seq (temps false a k).1 (temps false b (temps false a k).2).1, (temps false b (temps false a k).2).2)

/-! ## Opcodes -/

/-- The opcodes; the type selects the opcode and with it the memory of the operands. -/
inductive Instr (φ : Type) where
  /-- `MOVE_x` -/
  | move (t : NT) (o i : VarId)
  /-- `MOVE_CONSTANT_x` -/
  | const (t : NT) (o : VarId) (c : Val φ)
  /-- `TYPE_CONVERSION_x_TO_y` -/
  | conv (s t : NT) (o i : VarId)
  /-- `NEGATE_x` -/
  | negate (t : NT) (o i : VarId)
  /-- `BIT_NOT_x` -/
  | bitNot (t : NT) (o i : VarId)
  /-- `ADD_x` and so on; `NUMERIC_COMPARISON_x` -/
  | bin (op : BinOp) (t : NT) (o i1 i2 : VarId)
deriving Repr

/-- `SPVM_OPCODE_BUILDER_get_op_var`, spvm_opcode_builder.c 5194-5226; `SPVM_OPCODE_BUILDER_get_typed_var_index`, 5154-5192, does the same. -/
def opVar {φ} : Op φ → Out MVar
  | .var v => .ok v
  | .assign v e =>
    match e with
    | .var w => .ok w
    | .assign w e => opVar (.assign w e)
    | _ => .ok v
  | .seq _ b => opVar b
  | _ => .ub

/-- An opcode for the types `int`, `long`, `float` and `double` only. -/
def wide (t : NT) (i : Instr φ) : Out (List (Instr φ)) :=
  match t with
  | .byte | .short => .ub
  | _ => .ok [i]
/-- An opcode for the types `int` and `long` only. -/
def wideInt (t : NT) (i : Instr φ) : Out (List (Instr φ)) :=
  match t with
  | .int | .long => .ok [i]
  | _ => .ub

/-- The opcode of a binary operator, spvm_opcode_builder.c 2081-2544 and 3642-4025. -/
def opcodeBin {φ} (o : BinOp) (d : MVar) (a b : Op φ) : Out (List (Instr φ)) := do
  let i1 ← opVar a
  let i2 ← opVar b
  match o with
  | .add | .sub | .mul | .div => wide d.ty (.bin o d.ty d.id i1.id i2.id)
  | .divUInt | .modUInt => return [.bin o .int d.id i1.id i2.id]
  | .divULong | .modULong => return [.bin o .long d.id i1.id i2.id]
  | .mod | .bitAnd | .bitOr | .bitXor | .shl | .sar | .shr => wideInt d.ty (.bin o d.ty d.id i1.id i2.id)
  | .eq | .ne | .gt | .ge | .lt | .le | .cmp => wide (typeOf a) (.bin o (typeOf a) d.id i1.id i2.id)

/-- `$var = OPERATOR`, spvm_opcode_builder.c 936-4462.  There is no case for a sequence within a sequence. -/
def opcode {φ} (d : MVar) (src : Op φ) : Out (List (Instr φ)) :=
  match (match src with | .seq _ l => l | s => s) with
  -- 3494-3641
  | .var v => .ok [.move d.ty d.id v.id]
  -- 2665-2710
  | .const t c => if d.ty = .short then .ub else if t = d.ty then .ok [.const d.ty d.id c] else .ub
  -- 2735-3247
  | .cast t e => do
    let i ← opVar e
    if typeOf e = t then return [.move t d.id i.id] else return [.conv (typeOf e) t d.id i.id]
  -- 2544-2664
  | .un o e => do
    let i ← opVar e
    match o with
    | .plus => wide d.ty (.move d.ty d.id i.id)
    | .minus => wide d.ty (.negate d.ty d.id i.id)
    | .bitNot => wideInt d.ty (.bitNot d.ty d.id i.id)
  | .bin o _ a b => opcodeBin o d a b
  -- 4279-4360
  | .assign v e => do
    let i ← opVar (.assign v e)
    return [.move d.ty d.id i.id]
  | .seq _ _ => .ok []

/-- The walk over the tree, spvm_opcode_builder.c 366-5100, operands first. -/
def emit {φ} : Op φ → Out (List (Instr φ))
  | .var _ => .ok []
  | .const _ _ => .ok []
  | .cast _ e => emit e
  | .un _ e => emit e
  | .bin _ _ a b => do
    let x ← emit a
    let y ← emit b
    return x ++ y
  | .assign v e => do
    let x ← emit e
    let y ← opcode v e
    return x ++ y
  | .seq a b => do
    let x ← emit a
    let y ← emit b
    return x ++ y

/-- The compilation of an expression statement: the opcodes and the variable with the value. -/
def compile {φ} (e : Expr φ) : Out (List (Instr φ) × MVar) := do
  let c ← check (build e 0).1
  let code ← emit (temps false c 0).1
  let v ← opVar (temps false c 0).1
  return (code, v)

/-! ## Execution -/

/-- The memory of the local variables: the arrays of the six types. -/
abbrev Mem (φ : Type) := NT → VarId → Val φ
def Mem.set {φ} (m : Mem φ) (t : NT) (v : VarId) (x : Val φ) : Mem φ := fun s w => if s = t ∧ w = v then x else m s w

/-- The state after a list of opcodes; `die` with the memory at that time. -/
inductive Res (φ : Type) where
  | ok (m : Mem φ)
  | die (msg : String) (m : Mem φ)
  | ub

/-- `INT8_MIN` and so on. -/
def NT.lo : NT → Int
  | .byte => -128 | .short => -32768 | .int => -2147483648 | _ => -9223372036854775808
def NT.width : NT → Nat
  | .byte => 8 | .short => 16 | .int => 32 | _ => 64

/-- A signed result; overflow is undefined. -/
def signed {φ} (t : NT) (n : Int) : Out (Val φ) := if t.lo ≤ n ∧ n ≤ -t.lo - 1 then .ok (.i n) else .ub

/-- `TYPE_CONVERSION_x_TO_y`, spvm_implement.h 2018-2072: casts of C.  Conversions to smaller integers wrap, as all supported compilers do. -/
def convVal {φ} (F : Fl φ) (s t : NT) : Val φ → Out (Val φ)
  | .i n => if t.isInteger then .ok (.i (BitVec.ofInt t.width n).toInt) else .ok (.f (F.ofInt t n))
  | .f x =>
    if t.isInteger then
      match F.toInt s x with
      | some n => signed t n
      | none => .ub
    else .ok (.f (F.cast s t x))

def ofBits {φ w} : Out (BitVec w) → Out (Val φ)
  | .ok b => .ok (.i b.toInt)
  | .die msg => .die msg
  | .ub => .ub
def ofInt {φ} : Out Int → Out (Val φ)
  | .ok n => .ok (.i n)
  | .die msg => .die msg
  | .ub => .ub
def ofBool {φ} (b : Bool) : Out (Val φ) := .ok (.i (if b then 1 else 0))

/-- The opcodes on `int` and `long`, spvm_implement.h 187-323 and 446-483. -/
def intOp {φ} (o : BinOp) (t : NT) (a b : Int) : Out (Val φ) :=
  match o with
  | .add => signed t (a + b)
  | .sub => signed t (a - b)
  | .mul => signed t (a * b)
  | .div => ofInt (VM.divide t.lo a b)
  | .mod => ofInt (VM.modulo t.lo a b)
  | .divUInt | .divULong => ofBits (VM.divideUnsigned (BitVec.ofInt t.width a) (BitVec.ofInt t.width b))
  | .modUInt | .modULong => ofBits (VM.moduloUnsigned (BitVec.ofInt t.width a) (BitVec.ofInt t.width b))
  | .bitAnd => .ok (.i (BitVec.ofInt t.width a &&& BitVec.ofInt t.width b).toInt)
  | .bitOr => .ok (.i (BitVec.ofInt t.width a ||| BitVec.ofInt t.width b).toInt)
  | .bitXor => .ok (.i (BitVec.ofInt t.width a ^^^ BitVec.ofInt t.width b).toInt)
  | .shl => ofInt (VM.leftShift t.width a b)
  | .sar => ofInt (VM.rightArithShift t.width a b)
  | .shr => ofBits (VM.rightLogicShift (BitVec.ofInt t.width a) b)
  | .eq => ofBool (a == b)
  | .ne => ofBool (a != b)
  | .gt => ofBool (decide (a > b))
  | .ge => ofBool (decide (a ≥ b))
  | .lt => ofBool (decide (a < b))
  | .le => ofBool (decide (a ≤ b))
  | .cmp => .ok (.i (if a > b then 1 else if a < b then -1 else 0))

/-- The opcodes on `float` and `double`, spvm_implement.h 190-235 and 446-483. -/
def floatOp {φ} (F : Fl φ) (o : BinOp) (t : NT) (a b : φ) : Out (Val φ) :=
  match o with
  | .add => .ok (.f (F.add t a b))
  | .sub => .ok (.f (F.sub t a b))
  | .mul => .ok (.f (F.mul t a b))
  | .div => .ok (.f (F.div t a b))
  | .eq => ofBool (F.eq t a b)
  | .ne => ofBool (!F.eq t a b)
  | .gt => ofBool (F.lt t b a)
  | .ge => ofBool (F.le t b a)
  | .lt => ofBool (F.lt t a b)
  | .le => ofBool (F.le t a b)
  | .cmp => .ok (.i (if F.lt t b a then 1 else if F.lt t a b then -1 else 0))
  | _ => .ub

/-- The opcode for the type `t`; a value of another kind in the memory for `t` is `ub`. -/
def binVal {φ} (F : Fl φ) (o : BinOp) (t : NT) : Val φ → Val φ → Out (Val φ)
  | .i a, .i b => if t.isInteger then intOp o t a b else .ub
  | .f a, .f b => floatOp F o t a b
  | _, _ => .ub

/-- `NEGATE_x`, spvm_implement.h 414-417. -/
def negVal {φ} (F : Fl φ) (t : NT) : Val φ → Out (Val φ)
  | .i n => signed t (-n)
  | .f x => .ok (.f (F.neg t x))

/-- `BIT_NOT_x`, spvm_implement.h 412-413. -/
def notVal {φ} (t : NT) : Val φ → Out (Val φ)
  | .i n => .ok (.i (~~~ BitVec.ofInt t.width n).toInt)
  | .f _ => .ub

/-- The memory the result of a binary opcode is written to: comparisons give an `int`. -/
def outTy (o : BinOp) (t : NT) : NT :=
  match o with
  | .eq | .ne | .gt | .ge | .lt | .le | .cmp => .int
  | _ => t
/-- The memory the second operand is read from: the count of a shift is an `int`, spvm_vm.c 500-523. -/
def in2Ty (o : BinOp) (t : NT) : NT :=
  match o with
  | .shl | .sar | .shr => .int
  | _ => t

def store {φ} (m : Mem φ) (t : NT) (v : VarId) : Out (Val φ) → Res φ
  | .ok x => .ok (m.set t v x)
  | .die msg => .die msg m
  | .ub => .ub

/-- One opcode, spvm_vm.c. -/
def step {φ} (F : Fl φ) (m : Mem φ) : Instr φ → Res φ
  | .move t o i => .ok (m.set t o (m t i))
  | .const t o c => .ok (m.set t o c)
  | .conv s t o i => store m t o (convVal F s t (m s i))
  | .negate t o i => store m t o (negVal F t (m t i))
  | .bitNot t o i => store m t o (notVal t (m t i))
  | .bin op t o i1 i2 => store m (outTy op t) o (binVal F op t (m t i1) (m (in2Ty op t) i2))

/-- A list of opcodes; after an exception the rest is skipped. -/
def run {φ} (F : Fl φ) : List (Instr φ) → Mem φ → Res φ
  | [], m => .ok m
  | i :: is, m =>
    match step F m i with
    | .ok m => run F is m
    | .die msg m => .die msg m
    | .ub => .ub

end Expr
end SPVM
