import Verif.Model.PrecompName

/-
What the interpreter (lib/SPVM/Builder/src/spvm_vm.c) does for each operation code and what the code generator
(lib/SPVM/Builder/src/spvm_precompile.c) writes for it.  The functions and macros of include/spvm_implement.h, which both use, have the
name of an operation code.
-/

namespace SPVM.Precomp

/-- The operation codes, include/spvm_opcode.h. -/
inductive OpId where
  | END_ARGS | END_METHOD | GOTO | IF_EQ_ZERO | IF_NE_ZERO | LOOKUP_SWITCH | CASE_INFO | PUSH_MORTAL | LEAVE_SCOPE
  | MOVE_CONSTANT_BYTE | MOVE_CONSTANT_INT | MOVE_CONSTANT_LONG | MOVE_CONSTANT_FLOAT | MOVE_CONSTANT_DOUBLE | MOVE_BYTE
  | MOVE_BYTE_ZERO | MOVE_SHORT | MOVE_SHORT_ZERO | MOVE_INT | MOVE_INT_ZERO | MOVE_LONG | MOVE_LONG_ZERO | MOVE_FLOAT
  | MOVE_FLOAT_ZERO | MOVE_DOUBLE | MOVE_DOUBLE_ZERO | MOVE_OBJECT | MOVE_OBJECT_UNDEF | MOVE_OBJECT_WITH_TYPE_CHECK
  | MOVE_OBJECT_CHECK_READ_ONLY_STRING | MOVE_REF | ADD_INT | ADD_LONG | ADD_FLOAT | ADD_DOUBLE | SUBTRACT_INT | SUBTRACT_LONG
  | SUBTRACT_FLOAT | SUBTRACT_DOUBLE | MULTIPLY_INT | MULTIPLY_LONG | MULTIPLY_FLOAT | MULTIPLY_DOUBLE | DIVIDE_INT
  | DIVIDE_LONG | DIVIDE_FLOAT | DIVIDE_DOUBLE | DIVIDE_UNSIGNED_INT | DIVIDE_UNSIGNED_LONG | MODULO_INT | MODULO_LONG
  | MODULO_UNSIGNED_INT | MODULO_UNSIGNED_LONG | LEFT_SHIFT_INT | LEFT_SHIFT_LONG | RIGHT_ARITHMETIC_SHIFT_INT
  | RIGHT_ARITHMETIC_SHIFT_LONG | RIGHT_LOGICAL_SHIFT_INT | RIGHT_LOGICAL_SHIFT_LONG | BIT_AND_INT | BIT_AND_LONG | BIT_OR_INT
  | BIT_OR_LONG | BIT_XOR_INT | BIT_XOR_LONG | BIT_NOT_INT | BIT_NOT_LONG | NEGATE_INT | NEGATE_LONG | NEGATE_FLOAT
  | NEGATE_DOUBLE | STRING_CONCAT | CONDITION_EVALUATION_INT | CONDITION_EVALUATION_LONG | CONDITION_EVALUATION_FLOAT
  | CONDITION_EVALUATION_DOUBLE | CONDITION_EVALUATION_OBJECT | CONDITION_EVALUATION_REF | CONDITION_EVALUATION_BOOL_OBJECT
  | NUMERIC_COMPARISON_EQ_INT | NUMERIC_COMPARISON_EQ_LONG | NUMERIC_COMPARISON_EQ_FLOAT | NUMERIC_COMPARISON_EQ_DOUBLE
  | NUMERIC_COMPARISON_EQ_OBJECT | NUMERIC_COMPARISON_EQ_REF | NUMERIC_COMPARISON_NE_INT | NUMERIC_COMPARISON_NE_LONG
  | NUMERIC_COMPARISON_NE_FLOAT | NUMERIC_COMPARISON_NE_DOUBLE | NUMERIC_COMPARISON_NE_OBJECT | NUMERIC_COMPARISON_NE_REF
  | NUMERIC_COMPARISON_GT_INT | NUMERIC_COMPARISON_GT_LONG | NUMERIC_COMPARISON_GT_FLOAT | NUMERIC_COMPARISON_GT_DOUBLE
  | NUMERIC_COMPARISON_GE_INT | NUMERIC_COMPARISON_GE_LONG | NUMERIC_COMPARISON_GE_FLOAT | NUMERIC_COMPARISON_GE_DOUBLE
  | NUMERIC_COMPARISON_LT_INT | NUMERIC_COMPARISON_LT_LONG | NUMERIC_COMPARISON_LT_FLOAT | NUMERIC_COMPARISON_LT_DOUBLE
  | NUMERIC_COMPARISON_LE_INT | NUMERIC_COMPARISON_LE_LONG | NUMERIC_COMPARISON_LE_FLOAT | NUMERIC_COMPARISON_LE_DOUBLE
  | NUMERIC_COMPARISON_CMP_INT | NUMERIC_COMPARISON_CMP_LONG | NUMERIC_COMPARISON_CMP_FLOAT | NUMERIC_COMPARISON_CMP_DOUBLE
  | IS_UNDEF | IS_NOT_UNDEF | STRING_COMPARISON_EQ | STRING_COMPARISON_NE | STRING_COMPARISON_GT | STRING_COMPARISON_GE
  | STRING_COMPARISON_LT | STRING_COMPARISON_LE | STRING_COMPARISON_CMP | NEW_OBJECT | NEW_OBJECT_ARRAY | NEW_MULDIM_ARRAY
  | NEW_MULNUM_ARRAY | NEW_BYTE_ARRAY | NEW_SHORT_ARRAY | NEW_INT_ARRAY | NEW_LONG_ARRAY | NEW_FLOAT_ARRAY | NEW_DOUBLE_ARRAY
  | NEW_STRING | NEW_STRING_LEN | IS_READ_ONLY | MAKE_READ_ONLY | GET_ARRAY_ELEMENT_BYTE | GET_ARRAY_ELEMENT_SHORT
  | GET_ARRAY_ELEMENT_INT | GET_ARRAY_ELEMENT_LONG | GET_ARRAY_ELEMENT_FLOAT | GET_ARRAY_ELEMENT_DOUBLE
  | GET_ARRAY_ELEMENT_OBJECT | SET_ARRAY_ELEMENT_BYTE | SET_ARRAY_ELEMENT_SHORT | SET_ARRAY_ELEMENT_INT
  | SET_ARRAY_ELEMENT_LONG | SET_ARRAY_ELEMENT_FLOAT | SET_ARRAY_ELEMENT_DOUBLE | SET_ARRAY_ELEMENT_OBJECT
  | SET_ARRAY_ELEMENT_OBJECT_CHECK_TYPE | SET_ARRAY_ELEMENT_UNDEF | ARRAY_LENGTH | STRING_LENGTH | GET_FIELD_BYTE
  | GET_FIELD_SHORT | GET_FIELD_INT | GET_FIELD_LONG | GET_FIELD_FLOAT | GET_FIELD_DOUBLE | GET_FIELD_OBJECT | SET_FIELD_BYTE
  | SET_FIELD_SHORT | SET_FIELD_INT | SET_FIELD_LONG | SET_FIELD_FLOAT | SET_FIELD_DOUBLE | SET_FIELD_OBJECT | SET_FIELD_UNDEF
  | GET_CLASS_VAR_BYTE | GET_CLASS_VAR_SHORT | GET_CLASS_VAR_INT | GET_CLASS_VAR_LONG | GET_CLASS_VAR_FLOAT
  | GET_CLASS_VAR_DOUBLE | GET_CLASS_VAR_OBJECT | SET_CLASS_VAR_BYTE | SET_CLASS_VAR_SHORT | SET_CLASS_VAR_INT
  | SET_CLASS_VAR_LONG | SET_CLASS_VAR_FLOAT | SET_CLASS_VAR_DOUBLE | SET_CLASS_VAR_OBJECT | SET_CLASS_VAR_UNDEF
  | GET_EXCEPTION_VAR | SET_EXCEPTION_VAR | SET_EXCEPTION_VAR_UNDEF | GOTO_END_OF_EVAL_ON_EXCEPTION
  | GOTO_END_OF_METHOD_ON_EXCEPTION | ISA | ISA_ERROR | IS_TYPE | IS_ERROR | CAN | PRINT | SAY | WARN | CLEAR_EVAL_ERROR_ID
  | GET_EVAL_ERROR_ID | GET_BASIC_TYPE_ID | SET_ERROR_ID_BY_TYPE | SET_ERROR_ID | TYPE_NAME | DUMP | COPY | REF_BYTE
  | REF_SHORT | REF_INT | REF_LONG | REF_FLOAT | REF_DOUBLE | GET_DEREF_BYTE | GET_DEREF_SHORT | GET_DEREF_INT | GET_DEREF_LONG
  | GET_DEREF_FLOAT | GET_DEREF_DOUBLE | SET_DEREF_BYTE | SET_DEREF_SHORT | SET_DEREF_INT | SET_DEREF_LONG | SET_DEREF_FLOAT
  | SET_DEREF_DOUBLE | GET_MULNUM_FIELD_BYTE | GET_MULNUM_FIELD_SHORT | GET_MULNUM_FIELD_INT | GET_MULNUM_FIELD_LONG
  | GET_MULNUM_FIELD_FLOAT | GET_MULNUM_FIELD_DOUBLE | SET_MULNUM_FIELD_BYTE | SET_MULNUM_FIELD_SHORT | SET_MULNUM_FIELD_INT
  | SET_MULNUM_FIELD_LONG | SET_MULNUM_FIELD_FLOAT | SET_MULNUM_FIELD_DOUBLE | MOVE_MULNUM_BYTE | MOVE_MULNUM_BYTE_ZERO
  | MOVE_MULNUM_SHORT | MOVE_MULNUM_SHORT_ZERO | MOVE_MULNUM_INT | MOVE_MULNUM_INT_ZERO | MOVE_MULNUM_LONG
  | MOVE_MULNUM_LONG_ZERO | MOVE_MULNUM_FLOAT | MOVE_MULNUM_FLOAT_ZERO | MOVE_MULNUM_DOUBLE | MOVE_MULNUM_DOUBLE_ZERO
  | GET_MULNUM_ARRAY_BYTE | GET_MULNUM_ARRAY_SHORT | GET_MULNUM_ARRAY_INT | GET_MULNUM_ARRAY_LONG | GET_MULNUM_ARRAY_FLOAT
  | GET_MULNUM_ARRAY_DOUBLE | SET_MULNUM_ARRAY_BYTE | SET_MULNUM_ARRAY_SHORT | SET_MULNUM_ARRAY_INT | SET_MULNUM_ARRAY_LONG
  | SET_MULNUM_ARRAY_FLOAT | SET_MULNUM_ARRAY_DOUBLE | GET_MULNUM_ARRAY_FIELD_BYTE | GET_MULNUM_ARRAY_FIELD_SHORT
  | GET_MULNUM_ARRAY_FIELD_INT | GET_MULNUM_ARRAY_FIELD_LONG | GET_MULNUM_ARRAY_FIELD_FLOAT | GET_MULNUM_ARRAY_FIELD_DOUBLE
  | SET_MULNUM_ARRAY_FIELD_BYTE | SET_MULNUM_ARRAY_FIELD_SHORT | SET_MULNUM_ARRAY_FIELD_INT | SET_MULNUM_ARRAY_FIELD_LONG
  | SET_MULNUM_ARRAY_FIELD_FLOAT | SET_MULNUM_ARRAY_FIELD_DOUBLE | DEREF_MULNUM_BYTE | DEREF_MULNUM_SHORT | DEREF_MULNUM_INT
  | DEREF_MULNUM_LONG | DEREF_MULNUM_FLOAT | DEREF_MULNUM_DOUBLE | GET_MULNUM_FIELD_DEREF_BYTE | GET_MULNUM_FIELD_DEREF_SHORT
  | GET_MULNUM_FIELD_DEREF_INT | GET_MULNUM_FIELD_DEREF_LONG | GET_MULNUM_FIELD_DEREF_FLOAT | GET_MULNUM_FIELD_DEREF_DOUBLE
  | SET_MULNUM_FIELD_DEREF_BYTE | SET_MULNUM_FIELD_DEREF_SHORT | SET_MULNUM_FIELD_DEREF_INT | SET_MULNUM_FIELD_DEREF_LONG
  | SET_MULNUM_FIELD_DEREF_FLOAT | SET_MULNUM_FIELD_DEREF_DOUBLE | WEAKEN_FIELD | UNWEAKEN_FIELD | ISWEAK_FIELD
  | TYPE_CONVERSION_BYTE_TO_SHORT | TYPE_CONVERSION_BYTE_TO_INT | TYPE_CONVERSION_BYTE_TO_LONG | TYPE_CONVERSION_BYTE_TO_FLOAT
  | TYPE_CONVERSION_BYTE_TO_DOUBLE | TYPE_CONVERSION_SHORT_TO_BYTE | TYPE_CONVERSION_SHORT_TO_INT
  | TYPE_CONVERSION_SHORT_TO_LONG | TYPE_CONVERSION_SHORT_TO_FLOAT | TYPE_CONVERSION_SHORT_TO_DOUBLE
  | TYPE_CONVERSION_INT_TO_BYTE | TYPE_CONVERSION_INT_TO_SHORT | TYPE_CONVERSION_INT_TO_LONG | TYPE_CONVERSION_INT_TO_FLOAT
  | TYPE_CONVERSION_INT_TO_DOUBLE | TYPE_CONVERSION_LONG_TO_BYTE | TYPE_CONVERSION_LONG_TO_SHORT | TYPE_CONVERSION_LONG_TO_INT
  | TYPE_CONVERSION_LONG_TO_FLOAT | TYPE_CONVERSION_LONG_TO_DOUBLE | TYPE_CONVERSION_FLOAT_TO_BYTE
  | TYPE_CONVERSION_FLOAT_TO_SHORT | TYPE_CONVERSION_FLOAT_TO_INT | TYPE_CONVERSION_FLOAT_TO_LONG
  | TYPE_CONVERSION_FLOAT_TO_DOUBLE | TYPE_CONVERSION_DOUBLE_TO_BYTE | TYPE_CONVERSION_DOUBLE_TO_SHORT
  | TYPE_CONVERSION_DOUBLE_TO_INT | TYPE_CONVERSION_DOUBLE_TO_LONG | TYPE_CONVERSION_DOUBLE_TO_FLOAT
  | TYPE_CONVERSION_BYTE_TO_STRING | TYPE_CONVERSION_SHORT_TO_STRING | TYPE_CONVERSION_INT_TO_STRING
  | TYPE_CONVERSION_LONG_TO_STRING | TYPE_CONVERSION_FLOAT_TO_STRING | TYPE_CONVERSION_DOUBLE_TO_STRING
  | TYPE_CONVERSION_STRING_TO_BYTE | TYPE_CONVERSION_STRING_TO_SHORT | TYPE_CONVERSION_STRING_TO_INT
  | TYPE_CONVERSION_STRING_TO_LONG | TYPE_CONVERSION_STRING_TO_FLOAT | TYPE_CONVERSION_STRING_TO_DOUBLE
  | TYPE_CONVERSION_STRING_TO_BYTE_ARRAY | TYPE_CONVERSION_BYTE_ARRAY_TO_STRING | TYPE_CONVERSION_BYTE_TO_BYTE_OBJECT
  | TYPE_CONVERSION_SHORT_TO_SHORT_OBJECT | TYPE_CONVERSION_INT_TO_INT_OBJECT | TYPE_CONVERSION_LONG_TO_LONG_OBJECT
  | TYPE_CONVERSION_FLOAT_TO_FLOAT_OBJECT | TYPE_CONVERSION_DOUBLE_TO_DOUBLE_OBJECT | TYPE_CONVERSION_BYTE_OBJECT_TO_BYTE
  | TYPE_CONVERSION_SHORT_OBJECT_TO_SHORT | TYPE_CONVERSION_INT_OBJECT_TO_INT | TYPE_CONVERSION_LONG_OBJECT_TO_LONG
  | TYPE_CONVERSION_FLOAT_OBJECT_TO_FLOAT | TYPE_CONVERSION_DOUBLE_OBJECT_TO_DOUBLE | GET_STACK_BYTE | GET_STACK_SHORT
  | GET_STACK_INT | GET_STACK_LONG | GET_STACK_FLOAT | GET_STACK_DOUBLE | GET_STACK_OBJECT | GET_STACK_REF
  | GET_STACK_MULNUM_BYTE | GET_STACK_MULNUM_SHORT | GET_STACK_MULNUM_INT | GET_STACK_MULNUM_LONG | GET_STACK_MULNUM_FLOAT
  | GET_STACK_MULNUM_DOUBLE | SET_STACK_BYTE | SET_STACK_SHORT | SET_STACK_INT | SET_STACK_LONG | SET_STACK_FLOAT
  | SET_STACK_DOUBLE | SET_STACK_OBJECT | SET_STACK_REF | SET_STACK_UNDEF | SET_STACK_MULNUM_BYTE | SET_STACK_MULNUM_SHORT
  | SET_STACK_MULNUM_INT | SET_STACK_MULNUM_LONG | SET_STACK_MULNUM_FLOAT | SET_STACK_MULNUM_DOUBLE | RETURN_VOID | RETURN_BYTE
  | RETURN_SHORT | RETURN_INT | RETURN_LONG | RETURN_FLOAT | RETURN_DOUBLE | RETURN_OBJECT | RETURN_UNDEF | RETURN_MULNUM_BYTE
  | RETURN_MULNUM_SHORT | RETURN_MULNUM_INT | RETURN_MULNUM_LONG | RETURN_MULNUM_FLOAT | RETURN_MULNUM_DOUBLE | ARGS_WIDTH
  | CALL_CLASS_METHOD | CALL_INSTANCE_METHOD_STATIC | CALL_INSTANCE_METHOD
deriving DecidableEq, Repr

/-- The arrays of local variables, spvm_vm.c 76-98, spvm_precompile.c 147-222. -/
inductive Bank where
  | byte | short | int | long | float | double | object | ref
deriving DecidableEq, Repr

/-- The operands of an operation code, include/spvm_opcode.h `struct spvm_opcode`. -/
inductive Opd where
  | o0 | o1 | o2 | o3
deriving DecidableEq, Repr

/-- Numbers made from an operand: itself, `>> 8`, `& 0xFF` and `(… & 0xFF) + 1`. -/
inductive Num where
  | opd (k : Opd) | shr8 (k : Opd) | low8 (k : Opd) | low8p1 (k : Opd)
deriving DecidableEq, Repr

/-- Variables of the functions which are passed on as they are, spvm_vm.c 40-180, spvm_precompile.c 194-318. -/
inductive Sym where
  | env | stack | errorId | addrErrorId | evalErrorId | mortalStack | mortalTop | addrMortalTop | objectVars | objectDataOffset
  | objectHeaderSize | objectLengthOffset
deriving DecidableEq, Repr

/-- The arguments in the interpreter: `int_vars[opcode->operandK]`, `&int_vars[opcode->operandK]`, numbers, constants in operands 1 and 2,
things found by id and index in the runtime (`get_basic_type_by_id`, `get_field_by_index`, ...), constant strings of the class, names. -/
inductive VArg where
  | sym (s : Sym)
  | var (b : Bank) (k : Opd)
  | addr (b : Bank) (k : Opd)
  | num (e : Num)
  | typeId (k : Opd)
  | byteConst (k : Opd)
  | longConst
  | floatConst (k : Opd)
  | doubleConst
  | basicType (k : Opd)
  | typeOfVar (k : Opd)
  | classVar (c k : Opd)
  | fieldOffset (c k : Opd)
  | method (c k : Opd)
  | methodName (c k : Opd)
  | methodClassName (c k : Opd)
  | constData (k : Opd)
  | constLength (k : Opd)
  | constText (k : Opd)
  | currentClass
  | currentMethod
  | currentFile
deriving DecidableEq, Repr

/-- The statements of the cases of the interpreter: a call of a function or macro, `opcode_rel_index = …; continue;`, tests of an int
variable, the two tests of `error_id` (with a stack trace for the line), the binary search and `goto label_END_OF_METHOD`. -/
inductive VStmt where
  | call (f : OpId) (args : List VArg)
  | jump (k : Opd)
  | ifZero (v k : Opd)
  | ifNonzero (v k : Opd)
  | catchError (line k : Opd)
  | leaveOnError (line k : Opd)
  | switch (v len dflt : Opd)
  | finish
deriving DecidableEq, Repr

/-- The arguments the code generator writes: `SPVM_PRECOMPILE_add_operand`, `_add_operand_address`, `SPVM_STRING_BUFFER_add_int`, ...,
identifiers (`SPVM_PRECOMPILE_add_basic_type`, ...), names between quotes, and the bytes of a constant string as `\xHH`. -/
inductive PArg where
  | sym (s : Sym)
  | var (b : Bank) (k : Opd)
  | addr (b : Bank) (k : Opd)
  | int (e : Num)
  | byte (k : Opd)
  | long
  | float (k : Opd)
  | double
  | basicType (k : Opd)
  | typeId (k : Opd)
  | typeOfVar (k : Opd)
  | classVar (c k : Opd)
  | fieldOffset (c k : Opd)
  | method (c k : Opd)
  | quotedType (k : Opd)
  | quotedMethod (c k : Opd)
  | quotedConst (k : Opd)
  | hexConst (k : Opd)
  | constLength (k : Opd)
  | quotedCurrentClass
  | quotedCurrentMethod
  | quotedFile
deriving DecidableEq, Repr

/-- The statements the code generator writes; `callIfMortal` is written only for methods with a mortal stack. -/
inductive PStmt where
  | call (f : OpId) (args : List PArg)
  | callIfMortal (f : OpId) (args : List PArg)
  | goto (k : Opd)
  | ifZero (v k : Opd)
  | ifNonzero (v k : Opd)
  | catchError (line k : Opd)
  | leaveOnError (line k : Opd)
  | switch (v len dflt : Opd)
deriving DecidableEq, Repr

/-- What the first loop of the code generator looks up: by the operands with the id of the basic type and the index in it. -/
inductive MEnt where
  | basicType (c : Opd)
  | classVar (c k : Opd)
  | fieldOffset (c k : Opd)
  | method (c k : Opd)
deriving DecidableEq, Repr

/-- The cases of `SPVM_VM_call_method`, spvm_vm.c 190-2391; the number behind each case is its line.  A case which the file does not
have (`CASE_INFO`) does nothing.  The local variables of a case are replaced with their definitions. -/
def vmCase : OpId → List VStmt
  | .END_ARGS => [] -- 2202
  | .END_METHOD => [.finish] -- 190
  | .GOTO => [.jump .o0] -- 193
  | .IF_EQ_ZERO => [.ifZero .o1 .o0] -- 197
  | .IF_NE_ZERO => [.ifNonzero .o1 .o0] -- 204
  | .LOOKUP_SWITCH => [.switch .o0 .o2 .o1] -- 231
  | .CASE_INFO => [] -- no case
  | .PUSH_MORTAL => [.call .PUSH_MORTAL [.sym .mortalStack, .sym .mortalTop, .num (.opd .o0)]] -- 284
  | .LEAVE_SCOPE => [.call .LEAVE_SCOPE [.sym .env, .sym .stack, .sym .objectVars, .sym .mortalStack, .sym .addrMortalTop, .num (.opd .o0)]] -- 288
  | .MOVE_CONSTANT_BYTE => [.call .MOVE_CONSTANT_BYTE [.var .byte .o0, .byteConst .o1]] -- 345
  | .MOVE_CONSTANT_INT => [.call .MOVE_CONSTANT_INT [.var .int .o0, .num (.opd .o1)]] -- 349
  | .MOVE_CONSTANT_LONG => [.call .MOVE_CONSTANT_LONG [.var .long .o0, .longConst]] -- 353
  | .MOVE_CONSTANT_FLOAT => [.call .MOVE_CONSTANT_FLOAT [.var .float .o0, .floatConst .o1]] -- 357
  | .MOVE_CONSTANT_DOUBLE => [.call .MOVE_CONSTANT_DOUBLE [.var .double .o0, .doubleConst]] -- 363
  | .MOVE_BYTE => [.call .MOVE_BYTE [.var .byte .o0, .var .byte .o1]] -- 367
  | .MOVE_BYTE_ZERO => [.call .MOVE_BYTE_ZERO [.var .byte .o0]] -- 293
  | .MOVE_SHORT => [.call .MOVE_SHORT [.var .short .o0, .var .short .o1]] -- 371
  | .MOVE_SHORT_ZERO => [.call .MOVE_SHORT_ZERO [.var .short .o0]] -- 297
  | .MOVE_INT => [.call .MOVE_INT [.var .int .o0, .var .int .o1]] -- 375
  | .MOVE_INT_ZERO => [.call .MOVE_INT_ZERO [.var .int .o0]] -- 301
  | .MOVE_LONG => [.call .MOVE_LONG [.var .long .o0, .var .long .o1]] -- 379
  | .MOVE_LONG_ZERO => [.call .MOVE_LONG_ZERO [.var .long .o0]] -- 305
  | .MOVE_FLOAT => [.call .MOVE_FLOAT [.var .float .o0, .var .float .o1]] -- 383
  | .MOVE_FLOAT_ZERO => [.call .MOVE_FLOAT_ZERO [.var .float .o0]] -- 309
  | .MOVE_DOUBLE => [.call .MOVE_DOUBLE [.var .double .o0, .var .double .o1]] -- 387
  | .MOVE_DOUBLE_ZERO => [.call .MOVE_DOUBLE_ZERO [.var .double .o0]] -- 313
  | .MOVE_OBJECT => [.call .MOVE_OBJECT [.sym .env, .sym .stack, .addr .object .o0, .var .object .o1]] -- 391
  | .MOVE_OBJECT_UNDEF => [.call .MOVE_OBJECT_UNDEF [.sym .env, .sym .stack, .addr .object .o0]] -- 317
  | .MOVE_OBJECT_WITH_TYPE_CHECK => [.call .MOVE_OBJECT_WITH_TYPE_CHECK [.sym .env, .sym .stack, .addr .object .o0, .var .object .o1, .basicType .o2, .num (.opd .o3), .sym .addrErrorId]] -- 395
  | .MOVE_OBJECT_CHECK_READ_ONLY_STRING => [.call .MOVE_OBJECT_CHECK_READ_ONLY_STRING [.sym .env, .sym .stack, .addr .object .o0, .var .object .o1, .sym .addrErrorId]] -- 404
  | .MOVE_REF => [.call .MOVE_REF [.var .ref .o0, .var .ref .o1]] -- 408
  | .ADD_INT => [.call .ADD_INT [.var .int .o0, .var .int .o1, .var .int .o2]] -- 412
  | .ADD_LONG => [.call .ADD_LONG [.var .long .o0, .var .long .o1, .var .long .o2]] -- 416
  | .ADD_FLOAT => [.call .ADD_FLOAT [.var .float .o0, .var .float .o1, .var .float .o2]] -- 420
  | .ADD_DOUBLE => [.call .ADD_DOUBLE [.var .double .o0, .var .double .o1, .var .double .o2]] -- 424
  | .SUBTRACT_INT => [.call .SUBTRACT_INT [.var .int .o0, .var .int .o1, .var .int .o2]] -- 428
  | .SUBTRACT_LONG => [.call .SUBTRACT_LONG [.var .long .o0, .var .long .o1, .var .long .o2]] -- 432
  | .SUBTRACT_FLOAT => [.call .SUBTRACT_FLOAT [.var .float .o0, .var .float .o1, .var .float .o2]] -- 436
  | .SUBTRACT_DOUBLE => [.call .SUBTRACT_DOUBLE [.var .double .o0, .var .double .o1, .var .double .o2]] -- 440
  | .MULTIPLY_INT => [.call .MULTIPLY_INT [.var .int .o0, .var .int .o1, .var .int .o2]] -- 444
  | .MULTIPLY_LONG => [.call .MULTIPLY_LONG [.var .long .o0, .var .long .o1, .var .long .o2]] -- 448
  | .MULTIPLY_FLOAT => [.call .MULTIPLY_FLOAT [.var .float .o0, .var .float .o1, .var .float .o2]] -- 452
  | .MULTIPLY_DOUBLE => [.call .MULTIPLY_DOUBLE [.var .double .o0, .var .double .o1, .var .double .o2]] -- 456
  | .DIVIDE_INT => [.call .DIVIDE_INT [.sym .env, .sym .stack, .addr .int .o0, .var .int .o1, .var .int .o2, .sym .addrErrorId]] -- 460
  | .DIVIDE_LONG => [.call .DIVIDE_LONG [.sym .env, .sym .stack, .addr .long .o0, .var .long .o1, .var .long .o2, .sym .addrErrorId]] -- 464
  | .DIVIDE_FLOAT => [.call .DIVIDE_FLOAT [.var .float .o0, .var .float .o1, .var .float .o2]] -- 468
  | .DIVIDE_DOUBLE => [.call .DIVIDE_DOUBLE [.var .double .o0, .var .double .o1, .var .double .o2]] -- 472
  | .DIVIDE_UNSIGNED_INT => [.call .DIVIDE_UNSIGNED_INT [.sym .env, .sym .stack, .addr .int .o0, .var .int .o1, .var .int .o2, .sym .addrErrorId]] -- 476
  | .DIVIDE_UNSIGNED_LONG => [.call .DIVIDE_UNSIGNED_LONG [.sym .env, .sym .stack, .addr .long .o0, .var .long .o1, .var .long .o2, .sym .addrErrorId]] -- 480
  | .MODULO_INT => [.call .MODULO_INT [.sym .env, .sym .stack, .addr .int .o0, .var .int .o1, .var .int .o2, .sym .addrErrorId]] -- 484
  | .MODULO_LONG => [.call .MODULO_LONG [.sym .env, .sym .stack, .addr .long .o0, .var .long .o1, .var .long .o2, .sym .addrErrorId]] -- 488
  | .MODULO_UNSIGNED_INT => [.call .MODULO_UNSIGNED_INT [.sym .env, .sym .stack, .addr .int .o0, .var .int .o1, .var .int .o2, .sym .addrErrorId]] -- 492
  | .MODULO_UNSIGNED_LONG => [.call .MODULO_UNSIGNED_LONG [.sym .env, .sym .stack, .addr .long .o0, .var .long .o1, .var .long .o2, .sym .addrErrorId]] -- 496
  | .LEFT_SHIFT_INT => [.call .LEFT_SHIFT_INT [.var .int .o0, .var .int .o1, .var .int .o2]] -- 500
  | .LEFT_SHIFT_LONG => [.call .LEFT_SHIFT_LONG [.var .long .o0, .var .long .o1, .var .int .o2]] -- 504
  | .RIGHT_ARITHMETIC_SHIFT_INT => [.call .RIGHT_ARITHMETIC_SHIFT_INT [.var .int .o0, .var .int .o1, .var .int .o2]] -- 508
  | .RIGHT_ARITHMETIC_SHIFT_LONG => [.call .RIGHT_ARITHMETIC_SHIFT_LONG [.var .long .o0, .var .long .o1, .var .int .o2]] -- 512
  | .RIGHT_LOGICAL_SHIFT_INT => [.call .RIGHT_LOGICAL_SHIFT_INT [.var .int .o0, .var .int .o1, .var .int .o2]] -- 516
  | .RIGHT_LOGICAL_SHIFT_LONG => [.call .RIGHT_LOGICAL_SHIFT_LONG [.var .long .o0, .var .long .o1, .var .int .o2]] -- 520
  | .BIT_AND_INT => [.call .BIT_AND_INT [.var .int .o0, .var .int .o1, .var .int .o2]] -- 524
  | .BIT_AND_LONG => [.call .BIT_AND_LONG [.var .long .o0, .var .long .o1, .var .long .o2]] -- 528
  | .BIT_OR_INT => [.call .BIT_OR_INT [.var .int .o0, .var .int .o1, .var .int .o2]] -- 532
  | .BIT_OR_LONG => [.call .BIT_OR_LONG [.var .long .o0, .var .long .o1, .var .long .o2]] -- 536
  | .BIT_XOR_INT => [.call .BIT_XOR_INT [.var .int .o0, .var .int .o1, .var .int .o2]] -- 540
  | .BIT_XOR_LONG => [.call .BIT_XOR_LONG [.var .long .o0, .var .long .o1, .var .long .o2]] -- 544
  | .BIT_NOT_INT => [.call .BIT_NOT_INT [.var .int .o0, .var .int .o1]] -- 548
  | .BIT_NOT_LONG => [.call .BIT_NOT_LONG [.var .long .o0, .var .long .o1]] -- 552
  | .NEGATE_INT => [.call .NEGATE_INT [.var .int .o0, .var .int .o1]] -- 556
  | .NEGATE_LONG => [.call .NEGATE_LONG [.var .long .o0, .var .long .o1]] -- 560
  | .NEGATE_FLOAT => [.call .NEGATE_FLOAT [.var .float .o0, .var .float .o1]] -- 564
  | .NEGATE_DOUBLE => [.call .NEGATE_DOUBLE [.var .double .o0, .var .double .o1]] -- 568
  | .STRING_CONCAT => [.call .STRING_CONCAT [.sym .env, .sym .stack, .addr .object .o0, .var .object .o1, .var .object .o2, .sym .addrErrorId]] -- 572
  | .CONDITION_EVALUATION_INT => [.call .CONDITION_EVALUATION_INT [.var .int .o0, .var .int .o1]] -- 576
  | .CONDITION_EVALUATION_LONG => [.call .CONDITION_EVALUATION_LONG [.var .int .o0, .var .long .o1]] -- 580
  | .CONDITION_EVALUATION_FLOAT => [.call .CONDITION_EVALUATION_FLOAT [.var .int .o0, .var .float .o1]] -- 584
  | .CONDITION_EVALUATION_DOUBLE => [.call .CONDITION_EVALUATION_DOUBLE [.var .int .o0, .var .double .o1]] -- 588
  | .CONDITION_EVALUATION_OBJECT => [.call .CONDITION_EVALUATION_OBJECT [.var .int .o0, .var .object .o1]] -- 592
  | .CONDITION_EVALUATION_REF => [.call .CONDITION_EVALUATION_REF [.var .int .o0, .var .ref .o1]] -- 596
  | .CONDITION_EVALUATION_BOOL_OBJECT => [.call .CONDITION_EVALUATION_BOOL_OBJECT [.sym .env, .sym .stack, .var .int .o0, .var .object .o1]] -- 600
  | .NUMERIC_COMPARISON_EQ_INT => [.call .NUMERIC_COMPARISON_EQ_INT [.var .int .o0, .var .int .o1, .var .int .o2]] -- 604
  | .NUMERIC_COMPARISON_EQ_LONG => [.call .NUMERIC_COMPARISON_EQ_LONG [.var .int .o0, .var .long .o1, .var .long .o2]] -- 608
  | .NUMERIC_COMPARISON_EQ_FLOAT => [.call .NUMERIC_COMPARISON_EQ_FLOAT [.var .int .o0, .var .float .o1, .var .float .o2]] -- 612
  | .NUMERIC_COMPARISON_EQ_DOUBLE => [.call .NUMERIC_COMPARISON_EQ_DOUBLE [.var .int .o0, .var .double .o1, .var .double .o2]] -- 616
  | .NUMERIC_COMPARISON_EQ_OBJECT => [.call .NUMERIC_COMPARISON_EQ_OBJECT [.var .int .o0, .var .object .o1, .var .object .o2]] -- 620
  | .NUMERIC_COMPARISON_EQ_REF => [.call .NUMERIC_COMPARISON_EQ_REF [.var .int .o0, .var .ref .o1, .var .ref .o2]] -- 624
  | .NUMERIC_COMPARISON_NE_INT => [.call .NUMERIC_COMPARISON_NE_INT [.var .int .o0, .var .int .o1, .var .int .o2]] -- 628
  | .NUMERIC_COMPARISON_NE_LONG => [.call .NUMERIC_COMPARISON_NE_LONG [.var .int .o0, .var .long .o1, .var .long .o2]] -- 632
  | .NUMERIC_COMPARISON_NE_FLOAT => [.call .NUMERIC_COMPARISON_NE_FLOAT [.var .int .o0, .var .float .o1, .var .float .o2]] -- 636
  | .NUMERIC_COMPARISON_NE_DOUBLE => [.call .NUMERIC_COMPARISON_NE_DOUBLE [.var .int .o0, .var .double .o1, .var .double .o2]] -- 640
  | .NUMERIC_COMPARISON_NE_OBJECT => [.call .NUMERIC_COMPARISON_NE_OBJECT [.var .int .o0, .var .object .o1, .var .object .o2]] -- 644
  | .NUMERIC_COMPARISON_NE_REF => [.call .NUMERIC_COMPARISON_NE_REF [.var .int .o0, .var .ref .o1, .var .ref .o2]] -- 648
  | .NUMERIC_COMPARISON_GT_INT => [.call .NUMERIC_COMPARISON_GT_INT [.var .int .o0, .var .int .o1, .var .int .o2]] -- 652
  | .NUMERIC_COMPARISON_GT_LONG => [.call .NUMERIC_COMPARISON_GT_LONG [.var .int .o0, .var .long .o1, .var .long .o2]] -- 656
  | .NUMERIC_COMPARISON_GT_FLOAT => [.call .NUMERIC_COMPARISON_GT_FLOAT [.var .int .o0, .var .float .o1, .var .float .o2]] -- 660
  | .NUMERIC_COMPARISON_GT_DOUBLE => [.call .NUMERIC_COMPARISON_GT_DOUBLE [.var .int .o0, .var .double .o1, .var .double .o2]] -- 664
  | .NUMERIC_COMPARISON_GE_INT => [.call .NUMERIC_COMPARISON_GE_INT [.var .int .o0, .var .int .o1, .var .int .o2]] -- 668
  | .NUMERIC_COMPARISON_GE_LONG => [.call .NUMERIC_COMPARISON_GE_LONG [.var .int .o0, .var .long .o1, .var .long .o2]] -- 672
  | .NUMERIC_COMPARISON_GE_FLOAT => [.call .NUMERIC_COMPARISON_GE_FLOAT [.var .int .o0, .var .float .o1, .var .float .o2]] -- 676
  | .NUMERIC_COMPARISON_GE_DOUBLE => [.call .NUMERIC_COMPARISON_GE_DOUBLE [.var .int .o0, .var .double .o1, .var .double .o2]] -- 680
  | .NUMERIC_COMPARISON_LT_INT => [.call .NUMERIC_COMPARISON_LT_INT [.var .int .o0, .var .int .o1, .var .int .o2]] -- 684
  | .NUMERIC_COMPARISON_LT_LONG => [.call .NUMERIC_COMPARISON_LT_LONG [.var .int .o0, .var .long .o1, .var .long .o2]] -- 688
  | .NUMERIC_COMPARISON_LT_FLOAT => [.call .NUMERIC_COMPARISON_LT_FLOAT [.var .int .o0, .var .float .o1, .var .float .o2]] -- 692
  | .NUMERIC_COMPARISON_LT_DOUBLE => [.call .NUMERIC_COMPARISON_LT_DOUBLE [.var .int .o0, .var .double .o1, .var .double .o2]] -- 696
  | .NUMERIC_COMPARISON_LE_INT => [.call .NUMERIC_COMPARISON_LE_INT [.var .int .o0, .var .int .o1, .var .int .o2]] -- 700
  | .NUMERIC_COMPARISON_LE_LONG => [.call .NUMERIC_COMPARISON_LE_LONG [.var .int .o0, .var .long .o1, .var .long .o2]] -- 704
  | .NUMERIC_COMPARISON_LE_FLOAT => [.call .NUMERIC_COMPARISON_LE_FLOAT [.var .int .o0, .var .float .o1, .var .float .o2]] -- 708
  | .NUMERIC_COMPARISON_LE_DOUBLE => [.call .NUMERIC_COMPARISON_LE_DOUBLE [.var .int .o0, .var .double .o1, .var .double .o2]] -- 712
  | .NUMERIC_COMPARISON_CMP_INT => [.call .NUMERIC_COMPARISON_CMP_INT [.var .int .o0, .var .int .o1, .var .int .o2]] -- 716
  | .NUMERIC_COMPARISON_CMP_LONG => [.call .NUMERIC_COMPARISON_CMP_LONG [.var .int .o0, .var .long .o1, .var .long .o2]] -- 720
  | .NUMERIC_COMPARISON_CMP_FLOAT => [.call .NUMERIC_COMPARISON_CMP_FLOAT [.var .int .o0, .var .float .o1, .var .float .o2]] -- 724
  | .NUMERIC_COMPARISON_CMP_DOUBLE => [.call .NUMERIC_COMPARISON_CMP_DOUBLE [.var .int .o0, .var .double .o1, .var .double .o2]] -- 728
  | .IS_UNDEF => [.call .IS_UNDEF [.var .int .o0, .var .object .o1]] -- 732
  | .IS_NOT_UNDEF => [.call .IS_NOT_UNDEF [.var .int .o0, .var .object .o1]] -- 736
  | .STRING_COMPARISON_EQ => [.call .STRING_COMPARISON_EQ [.sym .env, .sym .stack, .addr .int .o0, .var .object .o1, .var .object .o2]] -- 740
  | .STRING_COMPARISON_NE => [.call .STRING_COMPARISON_NE [.sym .env, .sym .stack, .addr .int .o0, .var .object .o1, .var .object .o2]] -- 744
  | .STRING_COMPARISON_GT => [.call .STRING_COMPARISON_GT [.sym .env, .sym .stack, .addr .int .o0, .var .object .o1, .var .object .o2]] -- 748
  | .STRING_COMPARISON_GE => [.call .STRING_COMPARISON_GE [.sym .env, .sym .stack, .addr .int .o0, .var .object .o1, .var .object .o2]] -- 752
  | .STRING_COMPARISON_LT => [.call .STRING_COMPARISON_LT [.sym .env, .sym .stack, .addr .int .o0, .var .object .o1, .var .object .o2]] -- 756
  | .STRING_COMPARISON_LE => [.call .STRING_COMPARISON_LE [.sym .env, .sym .stack, .addr .int .o0, .var .object .o1, .var .object .o2]] -- 760
  | .STRING_COMPARISON_CMP => [.call .STRING_COMPARISON_CMP [.sym .env, .sym .stack, .addr .int .o0, .var .object .o1, .var .object .o2]] -- 764
  | .NEW_OBJECT => [.call .NEW_OBJECT [.sym .env, .sym .stack, .addr .object .o0, .basicType .o1, .sym .addrErrorId]] -- 768
  | .NEW_OBJECT_ARRAY => [.call .NEW_OBJECT_ARRAY [.sym .env, .sym .stack, .addr .object .o0, .basicType .o1, .var .int .o2, .sym .addrErrorId]] -- 776
  | .NEW_MULDIM_ARRAY => [.call .NEW_MULDIM_ARRAY [.sym .env, .sym .stack, .addr .object .o0, .basicType .o1, .num (.opd .o3), .var .int .o2, .sym .addrErrorId]] -- 785
  | .NEW_MULNUM_ARRAY => [.call .NEW_MULNUM_ARRAY [.sym .env, .sym .stack, .addr .object .o0, .basicType .o1, .var .int .o2, .sym .addrErrorId]] -- 795
  | .NEW_BYTE_ARRAY => [.call .NEW_BYTE_ARRAY [.sym .env, .sym .stack, .addr .object .o0, .var .int .o1, .sym .addrErrorId]] -- 804
  | .NEW_SHORT_ARRAY => [.call .NEW_SHORT_ARRAY [.sym .env, .sym .stack, .addr .object .o0, .var .int .o1, .sym .addrErrorId]] -- 809
  | .NEW_INT_ARRAY => [.call .NEW_INT_ARRAY [.sym .env, .sym .stack, .addr .object .o0, .var .int .o1, .sym .addrErrorId]] -- 814
  | .NEW_LONG_ARRAY => [.call .NEW_LONG_ARRAY [.sym .env, .sym .stack, .addr .object .o0, .var .int .o1, .sym .addrErrorId]] -- 819
  | .NEW_FLOAT_ARRAY => [.call .NEW_FLOAT_ARRAY [.sym .env, .sym .stack, .addr .object .o0, .var .int .o1, .sym .addrErrorId]] -- 824
  | .NEW_DOUBLE_ARRAY => [.call .NEW_DOUBLE_ARRAY [.sym .env, .sym .stack, .addr .object .o0, .var .int .o1, .sym .addrErrorId]] -- 829
  | .NEW_STRING => [.call .NEW_STRING [.sym .env, .sym .stack, .addr .object .o0, .constData .o1, .constLength .o1, .sym .addrErrorId]] -- 834
  | .NEW_STRING_LEN => [.call .NEW_STRING_LEN [.sym .env, .sym .stack, .addr .object .o0, .var .int .o1, .sym .addrErrorId]] -- 842
  | .IS_READ_ONLY => [.call .IS_READ_ONLY [.sym .env, .sym .stack, .var .int .o0, .var .object .o1]] -- 847
  | .MAKE_READ_ONLY => [.call .MAKE_READ_ONLY [.sym .env, .sym .stack, .var .object .o0]] -- 851
  | .GET_ARRAY_ELEMENT_BYTE => [.call .GET_ARRAY_ELEMENT_BYTE [.sym .env, .sym .stack, .addr .byte .o0, .var .object .o1, .var .int .o2, .sym .addrErrorId, .sym .objectDataOffset, .sym .objectLengthOffset]] -- 855
  | .GET_ARRAY_ELEMENT_SHORT => [.call .GET_ARRAY_ELEMENT_SHORT [.sym .env, .sym .stack, .addr .short .o0, .var .object .o1, .var .int .o2, .sym .addrErrorId, .sym .objectDataOffset, .sym .objectLengthOffset]] -- 861
  | .GET_ARRAY_ELEMENT_INT => [.call .GET_ARRAY_ELEMENT_INT [.sym .env, .sym .stack, .addr .int .o0, .var .object .o1, .var .int .o2, .sym .addrErrorId, .sym .objectDataOffset, .sym .objectLengthOffset]] -- 867
  | .GET_ARRAY_ELEMENT_LONG => [.call .GET_ARRAY_ELEMENT_LONG [.sym .env, .sym .stack, .addr .long .o0, .var .object .o1, .var .int .o2, .sym .addrErrorId, .sym .objectDataOffset, .sym .objectLengthOffset]] -- 873
  | .GET_ARRAY_ELEMENT_FLOAT => [.call .GET_ARRAY_ELEMENT_FLOAT [.sym .env, .sym .stack, .addr .float .o0, .var .object .o1, .var .int .o2, .sym .addrErrorId, .sym .objectDataOffset, .sym .objectLengthOffset]] -- 879
  | .GET_ARRAY_ELEMENT_DOUBLE => [.call .GET_ARRAY_ELEMENT_DOUBLE [.sym .env, .sym .stack, .addr .double .o0, .var .object .o1, .var .int .o2, .sym .addrErrorId, .sym .objectDataOffset, .sym .objectLengthOffset]] -- 885
  | .GET_ARRAY_ELEMENT_OBJECT => [.call .GET_ARRAY_ELEMENT_OBJECT [.sym .env, .sym .stack, .addr .object .o0, .var .object .o1, .var .int .o2, .sym .addrErrorId, .sym .objectDataOffset, .sym .objectLengthOffset]] -- 891
  | .SET_ARRAY_ELEMENT_BYTE => [.call .SET_ARRAY_ELEMENT_BYTE [.sym .env, .sym .stack, .var .object .o0, .var .int .o1, .var .byte .o2, .sym .addrErrorId, .sym .objectDataOffset, .sym .objectLengthOffset]] -- 897
  | .SET_ARRAY_ELEMENT_SHORT => [.call .SET_ARRAY_ELEMENT_SHORT [.sym .env, .sym .stack, .var .object .o0, .var .int .o1, .var .short .o2, .sym .addrErrorId, .sym .objectDataOffset, .sym .objectLengthOffset]] -- 903
  | .SET_ARRAY_ELEMENT_INT => [.call .SET_ARRAY_ELEMENT_INT [.sym .env, .sym .stack, .var .object .o0, .var .int .o1, .var .int .o2, .sym .addrErrorId, .sym .objectDataOffset, .sym .objectLengthOffset]] -- 909
  | .SET_ARRAY_ELEMENT_LONG => [.call .SET_ARRAY_ELEMENT_LONG [.sym .env, .sym .stack, .var .object .o0, .var .int .o1, .var .long .o2, .sym .addrErrorId, .sym .objectDataOffset, .sym .objectLengthOffset]] -- 915
  | .SET_ARRAY_ELEMENT_FLOAT => [.call .SET_ARRAY_ELEMENT_FLOAT [.sym .env, .sym .stack, .var .object .o0, .var .int .o1, .var .float .o2, .sym .addrErrorId, .sym .objectDataOffset, .sym .objectLengthOffset]] -- 921
  | .SET_ARRAY_ELEMENT_DOUBLE => [.call .SET_ARRAY_ELEMENT_DOUBLE [.sym .env, .sym .stack, .var .object .o0, .var .int .o1, .var .double .o2, .sym .addrErrorId, .sym .objectDataOffset, .sym .objectLengthOffset]] -- 927
  | .SET_ARRAY_ELEMENT_OBJECT => [.call .SET_ARRAY_ELEMENT_OBJECT [.sym .env, .sym .stack, .var .object .o0, .var .int .o1, .var .object .o2, .sym .addrErrorId, .sym .objectDataOffset, .sym .objectLengthOffset]] -- 933
  | .SET_ARRAY_ELEMENT_OBJECT_CHECK_TYPE => [.call .SET_ARRAY_ELEMENT_OBJECT_CHECK_TYPE [.sym .env, .sym .stack, .var .object .o0, .var .int .o1, .var .object .o2, .sym .addrErrorId, .sym .objectDataOffset, .sym .objectLengthOffset]] -- 939
  | .SET_ARRAY_ELEMENT_UNDEF => [.call .SET_ARRAY_ELEMENT_UNDEF [.sym .env, .sym .stack, .var .object .o0, .var .int .o1, .sym .addrErrorId, .sym .objectDataOffset, .sym .objectLengthOffset]] -- 945
  | .ARRAY_LENGTH => [.call .ARRAY_LENGTH [.sym .env, .sym .stack, .addr .int .o0, .var .object .o1, .sym .addrErrorId, .sym .objectLengthOffset]] -- 951
  | .STRING_LENGTH => [.call .STRING_LENGTH [.sym .env, .sym .stack, .addr .int .o0, .var .object .o1, .sym .objectLengthOffset]] -- 955
  | .GET_FIELD_BYTE => [.call .GET_FIELD_BYTE [.sym .env, .sym .stack, .addr .byte .o0, .var .object .o1, .fieldOffset .o2 .o3, .sym .addrErrorId, .sym .objectDataOffset]] -- 959
  | .GET_FIELD_SHORT => [.call .GET_FIELD_SHORT [.sym .env, .sym .stack, .addr .short .o0, .var .object .o1, .fieldOffset .o2 .o3, .sym .addrErrorId, .sym .objectDataOffset]] -- 971
  | .GET_FIELD_INT => [.call .GET_FIELD_INT [.sym .env, .sym .stack, .addr .int .o0, .var .object .o1, .fieldOffset .o2 .o3, .sym .addrErrorId, .sym .objectDataOffset]] -- 983
  | .GET_FIELD_LONG => [.call .GET_FIELD_LONG [.sym .env, .sym .stack, .addr .long .o0, .var .object .o1, .fieldOffset .o2 .o3, .sym .addrErrorId, .sym .objectDataOffset]] -- 996
  | .GET_FIELD_FLOAT => [.call .GET_FIELD_FLOAT [.sym .env, .sym .stack, .addr .float .o0, .var .object .o1, .fieldOffset .o2 .o3, .sym .addrErrorId, .sym .objectDataOffset]] -- 1008
  | .GET_FIELD_DOUBLE => [.call .GET_FIELD_DOUBLE [.sym .env, .sym .stack, .addr .double .o0, .var .object .o1, .fieldOffset .o2 .o3, .sym .addrErrorId, .sym .objectDataOffset]] -- 1020
  | .GET_FIELD_OBJECT => [.call .GET_FIELD_OBJECT [.sym .env, .sym .stack, .addr .object .o0, .var .object .o1, .fieldOffset .o2 .o3, .sym .addrErrorId, .sym .objectDataOffset]] -- 1032
  | .SET_FIELD_BYTE => [.call .SET_FIELD_BYTE [.sym .env, .sym .stack, .var .object .o0, .fieldOffset .o2 .o3, .var .byte .o1, .sym .addrErrorId, .sym .objectDataOffset]] -- 1044
  | .SET_FIELD_SHORT => [.call .SET_FIELD_SHORT [.sym .env, .sym .stack, .var .object .o0, .fieldOffset .o2 .o3, .var .short .o1, .sym .addrErrorId, .sym .objectDataOffset]] -- 1056
  | .SET_FIELD_INT => [.call .SET_FIELD_INT [.sym .env, .sym .stack, .var .object .o0, .fieldOffset .o2 .o3, .var .int .o1, .sym .addrErrorId, .sym .objectDataOffset]] -- 1068
  | .SET_FIELD_LONG => [.call .SET_FIELD_LONG [.sym .env, .sym .stack, .var .object .o0, .fieldOffset .o2 .o3, .var .long .o1, .sym .addrErrorId, .sym .objectDataOffset]] -- 1080
  | .SET_FIELD_FLOAT => [.call .SET_FIELD_FLOAT [.sym .env, .sym .stack, .var .object .o0, .fieldOffset .o2 .o3, .var .float .o1, .sym .addrErrorId, .sym .objectDataOffset]] -- 1092
  | .SET_FIELD_DOUBLE => [.call .SET_FIELD_DOUBLE [.sym .env, .sym .stack, .var .object .o0, .fieldOffset .o2 .o3, .var .double .o1, .sym .addrErrorId, .sym .objectDataOffset]] -- 1104
  | .SET_FIELD_OBJECT => [.call .SET_FIELD_OBJECT [.sym .env, .sym .stack, .var .object .o0, .fieldOffset .o2 .o3, .var .object .o1, .sym .addrErrorId, .sym .objectDataOffset]] -- 1116
  | .SET_FIELD_UNDEF => [.call .SET_FIELD_UNDEF [.sym .env, .sym .stack, .var .object .o0, .fieldOffset .o2 .o3, .sym .addrErrorId, .sym .objectDataOffset]] -- 1128
  | .GET_CLASS_VAR_BYTE => [.call .GET_CLASS_VAR_BYTE [.sym .env, .sym .stack, .var .byte .o0, .classVar .o1 .o2]] -- 1176
  | .GET_CLASS_VAR_SHORT => [.call .GET_CLASS_VAR_SHORT [.sym .env, .sym .stack, .var .short .o0, .classVar .o1 .o2]] -- 1186
  | .GET_CLASS_VAR_INT => [.call .GET_CLASS_VAR_INT [.sym .env, .sym .stack, .var .int .o0, .classVar .o1 .o2]] -- 1196
  | .GET_CLASS_VAR_LONG => [.call .GET_CLASS_VAR_LONG [.sym .env, .sym .stack, .var .long .o0, .classVar .o1 .o2]] -- 1206
  | .GET_CLASS_VAR_FLOAT => [.call .GET_CLASS_VAR_FLOAT [.sym .env, .sym .stack, .var .float .o0, .classVar .o1 .o2]] -- 1216
  | .GET_CLASS_VAR_DOUBLE => [.call .GET_CLASS_VAR_DOUBLE [.sym .env, .sym .stack, .var .double .o0, .classVar .o1 .o2]] -- 1226
  | .GET_CLASS_VAR_OBJECT => [.call .GET_CLASS_VAR_OBJECT [.sym .env, .sym .stack, .addr .object .o0, .classVar .o1 .o2]] -- 1236
  | .SET_CLASS_VAR_BYTE => [.call .SET_CLASS_VAR_BYTE [.sym .env, .sym .stack, .classVar .o0 .o1, .var .byte .o2]] -- 1246
  | .SET_CLASS_VAR_SHORT => [.call .SET_CLASS_VAR_SHORT [.sym .env, .sym .stack, .classVar .o0 .o1, .var .short .o2]] -- 1256
  | .SET_CLASS_VAR_INT => [.call .SET_CLASS_VAR_INT [.sym .env, .sym .stack, .classVar .o0 .o1, .var .int .o2]] -- 1266
  | .SET_CLASS_VAR_LONG => [.call .SET_CLASS_VAR_LONG [.sym .env, .sym .stack, .classVar .o0 .o1, .var .long .o2]] -- 1276
  | .SET_CLASS_VAR_FLOAT => [.call .SET_CLASS_VAR_FLOAT [.sym .env, .sym .stack, .classVar .o0 .o1, .var .float .o2]] -- 1286
  | .SET_CLASS_VAR_DOUBLE => [.call .SET_CLASS_VAR_DOUBLE [.sym .env, .sym .stack, .classVar .o0 .o1, .var .double .o2]] -- 1296
  | .SET_CLASS_VAR_OBJECT => [.call .SET_CLASS_VAR_OBJECT [.sym .env, .sym .stack, .classVar .o0 .o1, .var .object .o2]] -- 1306
  | .SET_CLASS_VAR_UNDEF => [.call .SET_CLASS_VAR_UNDEF [.sym .env, .sym .stack, .classVar .o0 .o1]] -- 1316
  | .GET_EXCEPTION_VAR => [.call .GET_EXCEPTION_VAR [.sym .env, .sym .stack, .addr .object .o0]] -- 1326
  | .SET_EXCEPTION_VAR => [.call .SET_EXCEPTION_VAR [.sym .env, .sym .stack, .var .object .o0]] -- 1330
  | .SET_EXCEPTION_VAR_UNDEF => [.call .SET_EXCEPTION_VAR_UNDEF [.sym .env, .sym .stack]] -- 1334
  | .GOTO_END_OF_EVAL_ON_EXCEPTION => [.catchError .o2 .o0] -- 211
  | .GOTO_END_OF_METHOD_ON_EXCEPTION => [.leaveOnError .o2 .o0] -- 222
  | .ISA => [.call .ISA [.sym .env, .sym .stack, .addr .int .o0, .var .object .o1, .basicType .o2, .num (.opd .o3)]] -- 1338
  | .ISA_ERROR => [.call .ISA_ERROR [.sym .env, .sym .stack, .addr .int .o0, .typeOfVar .o1, .basicType .o2, .num (.opd .o3)]] -- 1348
  | .IS_TYPE => [.call .IS_TYPE [.sym .env, .sym .stack, .addr .int .o0, .var .object .o1, .basicType .o2, .num (.opd .o3)]] -- 1360
  | .IS_ERROR => [.call .IS_ERROR [.sym .env, .sym .stack, .addr .int .o0, .typeOfVar .o1, .basicType .o2, .num (.opd .o3)]] -- 1370
  | .CAN => [.call .CAN [.sym .env, .sym .stack, .var .int .o0, .var .object .o1, .constText .o2]] -- 1382
  | .PRINT => [.call .PRINT [.sym .env, .sym .stack, .var .object .o0]] -- 1392
  | .SAY => [.call .SAY [.sym .env, .sym .stack, .var .object .o0]] -- 1397
  | .WARN => [.call .WARN [.sym .env, .sym .stack, .var .object .o0, .currentClass, .currentMethod, .currentFile, .num (.opd .o1)]] -- 1402
  | .CLEAR_EVAL_ERROR_ID => [.call .CLEAR_EVAL_ERROR_ID [.sym .evalErrorId]] -- 1416
  | .GET_EVAL_ERROR_ID => [.call .GET_EVAL_ERROR_ID [.var .int .o0, .sym .evalErrorId]] -- 1420
  | .GET_BASIC_TYPE_ID => [.call .GET_BASIC_TYPE_ID [.sym .env, .sym .stack, .var .int .o0, .basicType .o1]] -- 1436
  | .SET_ERROR_ID_BY_TYPE => [.call .SET_ERROR_ID [.sym .errorId, .typeId .o0]] -- 1424
  | .SET_ERROR_ID => [.call .SET_ERROR_ID [.sym .errorId, .var .int .o0]] -- 1430
  | .TYPE_NAME => [.call .TYPE_NAME [.sym .env, .sym .stack, .addr .object .o0, .var .object .o1]] -- 1449
  | .DUMP => [.call .DUMP [.sym .env, .sym .stack, .addr .object .o0, .var .object .o1]] -- 1454
  | .COPY => [.call .COPY [.sym .env, .sym .stack, .addr .object .o0, .var .object .o1, .sym .addrErrorId]] -- 1459
  | .REF_BYTE => [.call .REF_BYTE [.var .ref .o0, .addr .byte .o1]] -- 1464
  | .REF_SHORT => [.call .REF_SHORT [.var .ref .o0, .addr .short .o1]] -- 1468
  | .REF_INT => [.call .REF_INT [.var .ref .o0, .addr .int .o1]] -- 1472
  | .REF_LONG => [.call .REF_LONG [.var .ref .o0, .addr .long .o1]] -- 1476
  | .REF_FLOAT => [.call .REF_FLOAT [.var .ref .o0, .addr .float .o1]] -- 1480
  | .REF_DOUBLE => [.call .REF_DOUBLE [.var .ref .o0, .addr .double .o1]] -- 1484
  | .GET_DEREF_BYTE => [.call .GET_DEREF_BYTE [.var .byte .o0, .addr .ref .o1]] -- 1488
  | .GET_DEREF_SHORT => [.call .GET_DEREF_SHORT [.var .short .o0, .addr .ref .o1]] -- 1492
  | .GET_DEREF_INT => [.call .GET_DEREF_INT [.var .int .o0, .addr .ref .o1]] -- 1496
  | .GET_DEREF_LONG => [.call .GET_DEREF_LONG [.var .long .o0, .addr .ref .o1]] -- 1500
  | .GET_DEREF_FLOAT => [.call .GET_DEREF_FLOAT [.var .float .o0, .addr .ref .o1]] -- 1504
  | .GET_DEREF_DOUBLE => [.call .GET_DEREF_DOUBLE [.var .double .o0, .addr .ref .o1]] -- 1508
  | .SET_DEREF_BYTE => [.call .SET_DEREF_BYTE [.addr .ref .o0, .var .byte .o1]] -- 1512
  | .SET_DEREF_SHORT => [.call .SET_DEREF_SHORT [.addr .ref .o0, .var .short .o1]] -- 1516
  | .SET_DEREF_INT => [.call .SET_DEREF_INT [.addr .ref .o0, .var .int .o1]] -- 1520
  | .SET_DEREF_LONG => [.call .SET_DEREF_LONG [.addr .ref .o0, .var .long .o1]] -- 1524
  | .SET_DEREF_FLOAT => [.call .SET_DEREF_FLOAT [.addr .ref .o0, .var .float .o1]] -- 1528
  | .SET_DEREF_DOUBLE => [.call .SET_DEREF_DOUBLE [.addr .ref .o0, .var .double .o1]] -- 1532
  | .GET_MULNUM_FIELD_BYTE => [.call .GET_MULNUM_FIELD_BYTE [.var .byte .o0, .addr .byte .o1, .num (.opd .o2)]] -- 1536
  | .GET_MULNUM_FIELD_SHORT => [.call .GET_MULNUM_FIELD_SHORT [.var .short .o0, .addr .short .o1, .num (.opd .o2)]] -- 1541
  | .GET_MULNUM_FIELD_INT => [.call .GET_MULNUM_FIELD_INT [.var .int .o0, .addr .int .o1, .num (.opd .o2)]] -- 1546
  | .GET_MULNUM_FIELD_LONG => [.call .GET_MULNUM_FIELD_LONG [.var .long .o0, .addr .long .o1, .num (.opd .o2)]] -- 1551
  | .GET_MULNUM_FIELD_FLOAT => [.call .GET_MULNUM_FIELD_FLOAT [.var .float .o0, .addr .float .o1, .num (.opd .o2)]] -- 1556
  | .GET_MULNUM_FIELD_DOUBLE => [.call .GET_MULNUM_FIELD_DOUBLE [.var .double .o0, .addr .double .o1, .num (.opd .o2)]] -- 1561
  | .SET_MULNUM_FIELD_BYTE => [.call .SET_MULNUM_FIELD_BYTE [.addr .byte .o0, .num (.opd .o2), .var .byte .o1]] -- 1566
  | .SET_MULNUM_FIELD_SHORT => [.call .SET_MULNUM_FIELD_SHORT [.addr .short .o0, .num (.opd .o2), .var .short .o1]] -- 1571
  | .SET_MULNUM_FIELD_INT => [.call .SET_MULNUM_FIELD_INT [.addr .int .o0, .num (.opd .o2), .var .int .o1]] -- 1576
  | .SET_MULNUM_FIELD_LONG => [.call .SET_MULNUM_FIELD_LONG [.addr .long .o0, .num (.opd .o2), .var .long .o1]] -- 1581
  | .SET_MULNUM_FIELD_FLOAT => [.call .SET_MULNUM_FIELD_FLOAT [.addr .float .o0, .num (.opd .o2), .var .float .o1]] -- 1586
  | .SET_MULNUM_FIELD_DOUBLE => [.call .SET_MULNUM_FIELD_DOUBLE [.addr .double .o0, .num (.opd .o2), .var .double .o1]] -- 1591
  | .MOVE_MULNUM_BYTE => [.call .MOVE_MULNUM_BYTE [.sym .env, .sym .stack, .addr .byte .o0, .addr .byte .o1, .num (.opd .o2)]] -- 1596
  | .MOVE_MULNUM_BYTE_ZERO => [.call .MOVE_MULNUM_BYTE_ZERO [.sym .env, .sym .stack, .addr .byte .o0, .num (.opd .o2)]] -- 321
  | .MOVE_MULNUM_SHORT => [.call .MOVE_MULNUM_SHORT [.sym .env, .sym .stack, .addr .short .o0, .addr .short .o1, .num (.opd .o2)]] -- 1601
  | .MOVE_MULNUM_SHORT_ZERO => [.call .MOVE_MULNUM_SHORT_ZERO [.sym .env, .sym .stack, .addr .short .o0, .num (.opd .o2)]] -- 325
  | .MOVE_MULNUM_INT => [.call .MOVE_MULNUM_INT [.sym .env, .sym .stack, .addr .int .o0, .addr .int .o1, .num (.opd .o2)]] -- 1606
  | .MOVE_MULNUM_INT_ZERO => [.call .MOVE_MULNUM_INT_ZERO [.sym .env, .sym .stack, .addr .int .o0, .num (.opd .o2)]] -- 329
  | .MOVE_MULNUM_LONG => [.call .MOVE_MULNUM_LONG [.sym .env, .sym .stack, .addr .long .o0, .addr .long .o1, .num (.opd .o2)]] -- 1611
  | .MOVE_MULNUM_LONG_ZERO => [.call .MOVE_MULNUM_LONG_ZERO [.sym .env, .sym .stack, .addr .long .o0, .num (.opd .o2)]] -- 333
  | .MOVE_MULNUM_FLOAT => [.call .MOVE_MULNUM_FLOAT [.sym .env, .sym .stack, .addr .float .o0, .addr .float .o1, .num (.opd .o2)]] -- 1616
  | .MOVE_MULNUM_FLOAT_ZERO => [.call .MOVE_MULNUM_FLOAT_ZERO [.sym .env, .sym .stack, .addr .float .o0, .num (.opd .o2)]] -- 337
  | .MOVE_MULNUM_DOUBLE => [.call .MOVE_MULNUM_DOUBLE [.sym .env, .sym .stack, .addr .double .o0, .addr .double .o1, .num (.opd .o2)]] -- 1621
  | .MOVE_MULNUM_DOUBLE_ZERO => [.call .MOVE_MULNUM_DOUBLE_ZERO [.sym .env, .sym .stack, .addr .double .o0, .num (.opd .o2)]] -- 341
  | .GET_MULNUM_ARRAY_BYTE => [.call .GET_MULNUM_ARRAY_BYTE [.sym .env, .sym .stack, .addr .byte .o0, .var .object .o1, .var .int .o2, .num (.opd .o3), .sym .addrErrorId, .sym .objectDataOffset, .sym .objectLengthOffset]] -- 1626
  | .GET_MULNUM_ARRAY_SHORT => [.call .GET_MULNUM_ARRAY_SHORT [.sym .env, .sym .stack, .addr .short .o0, .var .object .o1, .var .int .o2, .num (.opd .o3), .sym .addrErrorId, .sym .objectDataOffset, .sym .objectLengthOffset]] -- 1633
  | .GET_MULNUM_ARRAY_INT => [.call .GET_MULNUM_ARRAY_INT [.sym .env, .sym .stack, .addr .int .o0, .var .object .o1, .var .int .o2, .num (.opd .o3), .sym .addrErrorId, .sym .objectDataOffset, .sym .objectLengthOffset]] -- 1640
  | .GET_MULNUM_ARRAY_LONG => [.call .GET_MULNUM_ARRAY_LONG [.sym .env, .sym .stack, .addr .long .o0, .var .object .o1, .var .int .o2, .num (.opd .o3), .sym .addrErrorId, .sym .objectDataOffset, .sym .objectLengthOffset]] -- 1647
  | .GET_MULNUM_ARRAY_FLOAT => [.call .GET_MULNUM_ARRAY_FLOAT [.sym .env, .sym .stack, .addr .float .o0, .var .object .o1, .var .int .o2, .num (.opd .o3), .sym .addrErrorId, .sym .objectDataOffset, .sym .objectLengthOffset]] -- 1654
  | .GET_MULNUM_ARRAY_DOUBLE => [.call .GET_MULNUM_ARRAY_DOUBLE [.sym .env, .sym .stack, .addr .double .o0, .var .object .o1, .var .int .o2, .num (.opd .o3), .sym .addrErrorId, .sym .objectDataOffset, .sym .objectLengthOffset]] -- 1661
  | .SET_MULNUM_ARRAY_BYTE => [.call .SET_MULNUM_ARRAY_BYTE [.sym .env, .sym .stack, .var .object .o0, .var .int .o1, .num (.opd .o3), .addr .byte .o2, .sym .addrErrorId, .sym .objectDataOffset, .sym .objectLengthOffset]] -- 1668
  | .SET_MULNUM_ARRAY_SHORT => [.call .SET_MULNUM_ARRAY_SHORT [.sym .env, .sym .stack, .var .object .o0, .var .int .o1, .num (.opd .o3), .addr .short .o2, .sym .addrErrorId, .sym .objectDataOffset, .sym .objectLengthOffset]] -- 1675
  | .SET_MULNUM_ARRAY_INT => [.call .SET_MULNUM_ARRAY_INT [.sym .env, .sym .stack, .var .object .o0, .var .int .o1, .num (.opd .o3), .addr .int .o2, .sym .addrErrorId, .sym .objectDataOffset, .sym .objectLengthOffset]] -- 1682
  | .SET_MULNUM_ARRAY_LONG => [.call .SET_MULNUM_ARRAY_LONG [.sym .env, .sym .stack, .var .object .o0, .var .int .o1, .num (.opd .o3), .addr .long .o2, .sym .addrErrorId, .sym .objectDataOffset, .sym .objectLengthOffset]] -- 1689
  | .SET_MULNUM_ARRAY_FLOAT => [.call .SET_MULNUM_ARRAY_FLOAT [.sym .env, .sym .stack, .var .object .o0, .var .int .o1, .num (.opd .o3), .addr .float .o2, .sym .addrErrorId, .sym .objectDataOffset, .sym .objectLengthOffset]] -- 1696
  | .SET_MULNUM_ARRAY_DOUBLE => [.call .SET_MULNUM_ARRAY_DOUBLE [.sym .env, .sym .stack, .var .object .o0, .var .int .o1, .num (.opd .o3), .addr .double .o2, .sym .addrErrorId, .sym .objectDataOffset, .sym .objectLengthOffset]] -- 1703
  | .GET_MULNUM_ARRAY_FIELD_BYTE => [.call .GET_MULNUM_ARRAY_FIELD_BYTE [.sym .env, .sym .stack, .addr .byte .o0, .var .object .o1, .var .int .o2, .num (.shr8 .o3), .num (.low8p1 .o3), .sym .addrErrorId, .sym .objectDataOffset, .sym .objectLengthOffset]] -- 1710
  | .GET_MULNUM_ARRAY_FIELD_SHORT => [.call .GET_MULNUM_ARRAY_FIELD_SHORT [.sym .env, .sym .stack, .addr .short .o0, .var .object .o1, .var .int .o2, .num (.shr8 .o3), .num (.low8p1 .o3), .sym .addrErrorId, .sym .objectDataOffset, .sym .objectLengthOffset]] -- 1718
  | .GET_MULNUM_ARRAY_FIELD_INT => [.call .GET_MULNUM_ARRAY_FIELD_INT [.sym .env, .sym .stack, .addr .int .o0, .var .object .o1, .var .int .o2, .num (.shr8 .o3), .num (.low8p1 .o3), .sym .addrErrorId, .sym .objectDataOffset, .sym .objectLengthOffset]] -- 1726
  | .GET_MULNUM_ARRAY_FIELD_LONG => [.call .GET_MULNUM_ARRAY_FIELD_LONG [.sym .env, .sym .stack, .addr .long .o0, .var .object .o1, .var .int .o2, .num (.shr8 .o3), .num (.low8p1 .o3), .sym .addrErrorId, .sym .objectDataOffset, .sym .objectLengthOffset]] -- 1734
  | .GET_MULNUM_ARRAY_FIELD_FLOAT => [.call .GET_MULNUM_ARRAY_FIELD_FLOAT [.sym .env, .sym .stack, .addr .float .o0, .var .object .o1, .var .int .o2, .num (.shr8 .o3), .num (.low8p1 .o3), .sym .addrErrorId, .sym .objectDataOffset, .sym .objectLengthOffset]] -- 1742
  | .GET_MULNUM_ARRAY_FIELD_DOUBLE => [.call .GET_MULNUM_ARRAY_FIELD_DOUBLE [.sym .env, .sym .stack, .addr .double .o0, .var .object .o1, .var .int .o2, .num (.shr8 .o3), .num (.low8p1 .o3), .sym .addrErrorId, .sym .objectDataOffset, .sym .objectLengthOffset]] -- 1750
  | .SET_MULNUM_ARRAY_FIELD_BYTE => [.call .SET_MULNUM_ARRAY_FIELD_BYTE [.sym .env, .sym .stack, .var .object .o0, .var .int .o1, .num (.shr8 .o3), .num (.low8p1 .o3), .var .byte .o2, .sym .addrErrorId, .sym .objectDataOffset, .sym .objectLengthOffset]] -- 1758
  | .SET_MULNUM_ARRAY_FIELD_SHORT => [.call .SET_MULNUM_ARRAY_FIELD_SHORT [.sym .env, .sym .stack, .var .object .o0, .var .int .o1, .num (.shr8 .o3), .num (.low8p1 .o3), .var .short .o2, .sym .addrErrorId, .sym .objectDataOffset, .sym .objectLengthOffset]] -- 1766
  | .SET_MULNUM_ARRAY_FIELD_INT => [.call .SET_MULNUM_ARRAY_FIELD_INT [.sym .env, .sym .stack, .var .object .o0, .var .int .o1, .num (.shr8 .o3), .num (.low8p1 .o3), .var .int .o2, .sym .addrErrorId, .sym .objectDataOffset, .sym .objectLengthOffset]] -- 1774
  | .SET_MULNUM_ARRAY_FIELD_LONG => [.call .SET_MULNUM_ARRAY_FIELD_LONG [.sym .env, .sym .stack, .var .object .o0, .var .int .o1, .num (.shr8 .o3), .num (.low8p1 .o3), .var .long .o2, .sym .addrErrorId, .sym .objectDataOffset, .sym .objectLengthOffset]] -- 1782
  | .SET_MULNUM_ARRAY_FIELD_FLOAT => [.call .SET_MULNUM_ARRAY_FIELD_FLOAT [.sym .env, .sym .stack, .var .object .o0, .var .int .o1, .num (.shr8 .o3), .num (.low8p1 .o3), .var .float .o2, .sym .addrErrorId, .sym .objectDataOffset, .sym .objectLengthOffset]] -- 1790
  | .SET_MULNUM_ARRAY_FIELD_DOUBLE => [.call .SET_MULNUM_ARRAY_FIELD_DOUBLE [.sym .env, .sym .stack, .var .object .o0, .var .int .o1, .num (.shr8 .o3), .num (.low8p1 .o3), .var .double .o2, .sym .addrErrorId, .sym .objectDataOffset, .sym .objectLengthOffset]] -- 1798
  | .DEREF_MULNUM_BYTE => [.call .DEREF_MULNUM_BYTE [.sym .env, .sym .stack, .addr .byte .o0, .var .ref .o1, .num (.opd .o3)]] -- 1806
  | .DEREF_MULNUM_SHORT => [.call .DEREF_MULNUM_SHORT [.sym .env, .sym .stack, .addr .short .o0, .var .ref .o1, .num (.opd .o3)]] -- 1811
  | .DEREF_MULNUM_INT => [.call .DEREF_MULNUM_INT [.sym .env, .sym .stack, .addr .int .o0, .var .ref .o1, .num (.opd .o3)]] -- 1816
  | .DEREF_MULNUM_LONG => [.call .DEREF_MULNUM_LONG [.sym .env, .sym .stack, .addr .long .o0, .var .ref .o1, .num (.opd .o3)]] -- 1821
  | .DEREF_MULNUM_FLOAT => [.call .DEREF_MULNUM_FLOAT [.sym .env, .sym .stack, .addr .float .o0, .var .ref .o1, .num (.opd .o3)]] -- 1826
  | .DEREF_MULNUM_DOUBLE => [.call .DEREF_MULNUM_DOUBLE [.sym .env, .sym .stack, .addr .double .o0, .var .ref .o1, .num (.opd .o3)]] -- 1831
  | .GET_MULNUM_FIELD_DEREF_BYTE => [.call .GET_MULNUM_FIELD_DEREF_BYTE [.var .byte .o0, .var .ref .o1, .num (.opd .o2)]] -- 1836
  | .GET_MULNUM_FIELD_DEREF_SHORT => [.call .GET_MULNUM_FIELD_DEREF_SHORT [.var .short .o0, .var .ref .o1, .num (.opd .o2)]] -- 1841
  | .GET_MULNUM_FIELD_DEREF_INT => [.call .GET_MULNUM_FIELD_DEREF_INT [.var .int .o0, .var .ref .o1, .num (.opd .o2)]] -- 1846
  | .GET_MULNUM_FIELD_DEREF_LONG => [.call .GET_MULNUM_FIELD_DEREF_LONG [.var .long .o0, .var .ref .o1, .num (.opd .o2)]] -- 1851
  | .GET_MULNUM_FIELD_DEREF_FLOAT => [.call .GET_MULNUM_FIELD_DEREF_FLOAT [.var .float .o0, .var .ref .o1, .num (.opd .o2)]] -- 1856
  | .GET_MULNUM_FIELD_DEREF_DOUBLE => [.call .GET_MULNUM_FIELD_DEREF_DOUBLE [.var .double .o0, .var .ref .o1, .num (.opd .o2)]] -- 1861
  | .SET_MULNUM_FIELD_DEREF_BYTE => [.call .SET_MULNUM_FIELD_DEREF_BYTE [.var .ref .o0, .num (.opd .o2), .var .byte .o1]] -- 1866
  | .SET_MULNUM_FIELD_DEREF_SHORT => [.call .SET_MULNUM_FIELD_DEREF_SHORT [.var .ref .o0, .num (.opd .o2), .var .short .o1]] -- 1871
  | .SET_MULNUM_FIELD_DEREF_INT => [.call .SET_MULNUM_FIELD_DEREF_INT [.var .ref .o0, .num (.opd .o2), .var .int .o1]] -- 1876
  | .SET_MULNUM_FIELD_DEREF_LONG => [.call .SET_MULNUM_FIELD_DEREF_LONG [.var .ref .o0, .num (.opd .o2), .var .long .o1]] -- 1881
  | .SET_MULNUM_FIELD_DEREF_FLOAT => [.call .SET_MULNUM_FIELD_DEREF_FLOAT [.var .ref .o0, .num (.opd .o2), .var .float .o1]] -- 1886
  | .SET_MULNUM_FIELD_DEREF_DOUBLE => [.call .SET_MULNUM_FIELD_DEREF_DOUBLE [.var .ref .o0, .num (.opd .o2), .var .double .o1]] -- 1891
  | .WEAKEN_FIELD => [.call .WEAKEN_FIELD [.sym .env, .sym .stack, .var .object .o0, .fieldOffset .o2 .o3, .sym .addrErrorId, .sym .objectDataOffset]] -- 1140
  | .UNWEAKEN_FIELD => [.call .UNWEAKEN_FIELD [.sym .env, .sym .stack, .var .object .o0, .fieldOffset .o2 .o3, .sym .addrErrorId, .sym .objectDataOffset]] -- 1152
  | .ISWEAK_FIELD => [.call .ISWEAK_FIELD [.sym .env, .sym .stack, .addr .int .o0, .var .object .o1, .fieldOffset .o2 .o3, .sym .addrErrorId, .sym .objectDataOffset]] -- 1164
  | .TYPE_CONVERSION_BYTE_TO_SHORT => [.call .TYPE_CONVERSION_BYTE_TO_SHORT [.var .short .o0, .var .byte .o1]] -- 1896
  | .TYPE_CONVERSION_BYTE_TO_INT => [.call .TYPE_CONVERSION_BYTE_TO_INT [.var .int .o0, .var .byte .o1]] -- 1900
  | .TYPE_CONVERSION_BYTE_TO_LONG => [.call .TYPE_CONVERSION_BYTE_TO_LONG [.var .long .o0, .var .byte .o1]] -- 1904
  | .TYPE_CONVERSION_BYTE_TO_FLOAT => [.call .TYPE_CONVERSION_BYTE_TO_FLOAT [.var .float .o0, .var .byte .o1]] -- 1908
  | .TYPE_CONVERSION_BYTE_TO_DOUBLE => [.call .TYPE_CONVERSION_BYTE_TO_DOUBLE [.var .double .o0, .var .byte .o1]] -- 1912
  | .TYPE_CONVERSION_SHORT_TO_BYTE => [.call .TYPE_CONVERSION_SHORT_TO_BYTE [.var .byte .o0, .var .short .o1]] -- 1916
  | .TYPE_CONVERSION_SHORT_TO_INT => [.call .TYPE_CONVERSION_SHORT_TO_INT [.var .int .o0, .var .short .o1]] -- 1920
  | .TYPE_CONVERSION_SHORT_TO_LONG => [.call .TYPE_CONVERSION_SHORT_TO_LONG [.var .long .o0, .var .short .o1]] -- 1924
  | .TYPE_CONVERSION_SHORT_TO_FLOAT => [.call .TYPE_CONVERSION_SHORT_TO_FLOAT [.var .float .o0, .var .short .o1]] -- 1928
  | .TYPE_CONVERSION_SHORT_TO_DOUBLE => [.call .TYPE_CONVERSION_SHORT_TO_DOUBLE [.var .double .o0, .var .short .o1]] -- 1932
  | .TYPE_CONVERSION_INT_TO_BYTE => [.call .TYPE_CONVERSION_INT_TO_BYTE [.var .byte .o0, .var .int .o1]] -- 1936
  | .TYPE_CONVERSION_INT_TO_SHORT => [.call .TYPE_CONVERSION_INT_TO_SHORT [.var .short .o0, .var .int .o1]] -- 1940
  | .TYPE_CONVERSION_INT_TO_LONG => [.call .TYPE_CONVERSION_INT_TO_LONG [.var .long .o0, .var .int .o1]] -- 1944
  | .TYPE_CONVERSION_INT_TO_FLOAT => [.call .TYPE_CONVERSION_INT_TO_FLOAT [.var .float .o0, .var .int .o1]] -- 1948
  | .TYPE_CONVERSION_INT_TO_DOUBLE => [.call .TYPE_CONVERSION_INT_TO_DOUBLE [.var .double .o0, .var .int .o1]] -- 1952
  | .TYPE_CONVERSION_LONG_TO_BYTE => [.call .TYPE_CONVERSION_LONG_TO_BYTE [.var .byte .o0, .var .long .o1]] -- 1956
  | .TYPE_CONVERSION_LONG_TO_SHORT => [.call .TYPE_CONVERSION_LONG_TO_SHORT [.var .short .o0, .var .long .o1]] -- 1960
  | .TYPE_CONVERSION_LONG_TO_INT => [.call .TYPE_CONVERSION_LONG_TO_INT [.var .int .o0, .var .long .o1]] -- 1964
  | .TYPE_CONVERSION_LONG_TO_FLOAT => [.call .TYPE_CONVERSION_LONG_TO_FLOAT [.var .float .o0, .var .long .o1]] -- 1968
  | .TYPE_CONVERSION_LONG_TO_DOUBLE => [.call .TYPE_CONVERSION_LONG_TO_DOUBLE [.var .double .o0, .var .long .o1]] -- 1972
  | .TYPE_CONVERSION_FLOAT_TO_BYTE => [.call .TYPE_CONVERSION_FLOAT_TO_BYTE [.var .byte .o0, .var .float .o1]] -- 1976
  | .TYPE_CONVERSION_FLOAT_TO_SHORT => [.call .TYPE_CONVERSION_FLOAT_TO_SHORT [.var .short .o0, .var .float .o1]] -- 1980
  | .TYPE_CONVERSION_FLOAT_TO_INT => [.call .TYPE_CONVERSION_FLOAT_TO_INT [.var .int .o0, .var .float .o1]] -- 1984
  | .TYPE_CONVERSION_FLOAT_TO_LONG => [.call .TYPE_CONVERSION_FLOAT_TO_LONG [.var .long .o0, .var .float .o1]] -- 1988
  | .TYPE_CONVERSION_FLOAT_TO_DOUBLE => [.call .TYPE_CONVERSION_FLOAT_TO_DOUBLE [.var .double .o0, .var .float .o1]] -- 1992
  | .TYPE_CONVERSION_DOUBLE_TO_BYTE => [.call .TYPE_CONVERSION_DOUBLE_TO_BYTE [.var .byte .o0, .var .double .o1]] -- 1996
  | .TYPE_CONVERSION_DOUBLE_TO_SHORT => [.call .TYPE_CONVERSION_DOUBLE_TO_SHORT [.var .short .o0, .var .double .o1]] -- 2000
  | .TYPE_CONVERSION_DOUBLE_TO_INT => [.call .TYPE_CONVERSION_DOUBLE_TO_INT [.var .int .o0, .var .double .o1]] -- 2004
  | .TYPE_CONVERSION_DOUBLE_TO_LONG => [.call .TYPE_CONVERSION_DOUBLE_TO_LONG [.var .long .o0, .var .double .o1]] -- 2008
  | .TYPE_CONVERSION_DOUBLE_TO_FLOAT => [.call .TYPE_CONVERSION_DOUBLE_TO_FLOAT [.var .float .o0, .var .double .o1]] -- 2012
  | .TYPE_CONVERSION_BYTE_TO_STRING => [.call .TYPE_CONVERSION_BYTE_TO_STRING [.sym .env, .sym .stack, .addr .object .o0, .var .byte .o1]] -- 2016
  | .TYPE_CONVERSION_SHORT_TO_STRING => [.call .TYPE_CONVERSION_SHORT_TO_STRING [.sym .env, .sym .stack, .addr .object .o0, .var .short .o1]] -- 2020
  | .TYPE_CONVERSION_INT_TO_STRING => [.call .TYPE_CONVERSION_INT_TO_STRING [.sym .env, .sym .stack, .addr .object .o0, .var .int .o1]] -- 2024
  | .TYPE_CONVERSION_LONG_TO_STRING => [.call .TYPE_CONVERSION_LONG_TO_STRING [.sym .env, .sym .stack, .addr .object .o0, .var .long .o1]] -- 2028
  | .TYPE_CONVERSION_FLOAT_TO_STRING => [.call .TYPE_CONVERSION_FLOAT_TO_STRING [.sym .env, .sym .stack, .addr .object .o0, .var .float .o1]] -- 2032
  | .TYPE_CONVERSION_DOUBLE_TO_STRING => [.call .TYPE_CONVERSION_DOUBLE_TO_STRING [.sym .env, .sym .stack, .addr .object .o0, .var .double .o1]] -- 2036
  | .TYPE_CONVERSION_STRING_TO_BYTE => [.call .TYPE_CONVERSION_STRING_TO_BYTE [.sym .env, .sym .stack, .addr .byte .o0, .var .object .o1]] -- 2040
  | .TYPE_CONVERSION_STRING_TO_SHORT => [.call .TYPE_CONVERSION_STRING_TO_SHORT [.sym .env, .sym .stack, .addr .short .o0, .var .object .o1]] -- 2045
  | .TYPE_CONVERSION_STRING_TO_INT => [.call .TYPE_CONVERSION_STRING_TO_INT [.sym .env, .sym .stack, .addr .int .o0, .var .object .o1]] -- 2050
  | .TYPE_CONVERSION_STRING_TO_LONG => [.call .TYPE_CONVERSION_STRING_TO_LONG [.sym .env, .sym .stack, .addr .long .o0, .var .object .o1]] -- 2055
  | .TYPE_CONVERSION_STRING_TO_FLOAT => [.call .TYPE_CONVERSION_STRING_TO_FLOAT [.sym .env, .sym .stack, .addr .float .o0, .var .object .o1]] -- 2060
  | .TYPE_CONVERSION_STRING_TO_DOUBLE => [.call .TYPE_CONVERSION_STRING_TO_DOUBLE [.sym .env, .sym .stack, .addr .double .o0, .var .object .o1]] -- 2065
  | .TYPE_CONVERSION_STRING_TO_BYTE_ARRAY => [.call .TYPE_CONVERSION_STRING_TO_BYTE_ARRAY [.sym .env, .sym .stack, .addr .object .o0, .var .object .o1]] -- 2070
  | .TYPE_CONVERSION_BYTE_ARRAY_TO_STRING => [.call .TYPE_CONVERSION_BYTE_ARRAY_TO_STRING [.sym .env, .sym .stack, .addr .object .o0, .var .object .o1]] -- 2075
  | .TYPE_CONVERSION_BYTE_TO_BYTE_OBJECT => [.call .TYPE_CONVERSION_BYTE_TO_BYTE_OBJECT [.sym .env, .sym .stack, .addr .object .o0, .var .byte .o1, .sym .objectDataOffset]] -- 2080
  | .TYPE_CONVERSION_SHORT_TO_SHORT_OBJECT => [.call .TYPE_CONVERSION_SHORT_TO_SHORT_OBJECT [.sym .env, .sym .stack, .addr .object .o0, .var .short .o1, .sym .objectDataOffset]] -- 2085
  | .TYPE_CONVERSION_INT_TO_INT_OBJECT => [.call .TYPE_CONVERSION_INT_TO_INT_OBJECT [.sym .env, .sym .stack, .addr .object .o0, .var .int .o1, .sym .objectDataOffset]] -- 2090
  | .TYPE_CONVERSION_LONG_TO_LONG_OBJECT => [.call .TYPE_CONVERSION_LONG_TO_LONG_OBJECT [.sym .env, .sym .stack, .addr .object .o0, .var .long .o1, .sym .objectDataOffset]] -- 2095
  | .TYPE_CONVERSION_FLOAT_TO_FLOAT_OBJECT => [.call .TYPE_CONVERSION_FLOAT_TO_FLOAT_OBJECT [.sym .env, .sym .stack, .addr .object .o0, .var .float .o1, .sym .objectDataOffset]] -- 2100
  | .TYPE_CONVERSION_DOUBLE_TO_DOUBLE_OBJECT => [.call .TYPE_CONVERSION_DOUBLE_TO_DOUBLE_OBJECT [.sym .env, .sym .stack, .addr .object .o0, .var .double .o1, .sym .objectDataOffset]] -- 2105
  | .TYPE_CONVERSION_BYTE_OBJECT_TO_BYTE => [.call .TYPE_CONVERSION_BYTE_OBJECT_TO_BYTE [.sym .env, .sym .stack, .addr .byte .o0, .var .object .o1, .sym .addrErrorId, .sym .objectDataOffset]] -- 2110
  | .TYPE_CONVERSION_SHORT_OBJECT_TO_SHORT => [.call .TYPE_CONVERSION_SHORT_OBJECT_TO_SHORT [.sym .env, .sym .stack, .addr .short .o0, .var .object .o1, .sym .addrErrorId, .sym .objectDataOffset]] -- 2115
  | .TYPE_CONVERSION_INT_OBJECT_TO_INT => [.call .TYPE_CONVERSION_INT_OBJECT_TO_INT [.sym .env, .sym .stack, .addr .int .o0, .var .object .o1, .sym .addrErrorId, .sym .objectDataOffset]] -- 2120
  | .TYPE_CONVERSION_LONG_OBJECT_TO_LONG => [.call .TYPE_CONVERSION_LONG_OBJECT_TO_LONG [.sym .env, .sym .stack, .addr .long .o0, .var .object .o1, .sym .addrErrorId, .sym .objectDataOffset]] -- 2125
  | .TYPE_CONVERSION_FLOAT_OBJECT_TO_FLOAT => [.call .TYPE_CONVERSION_FLOAT_OBJECT_TO_FLOAT [.sym .env, .sym .stack, .addr .float .o0, .var .object .o1, .sym .addrErrorId, .sym .objectDataOffset]] -- 2130
  | .TYPE_CONVERSION_DOUBLE_OBJECT_TO_DOUBLE => [.call .TYPE_CONVERSION_DOUBLE_OBJECT_TO_DOUBLE [.sym .env, .sym .stack, .addr .double .o0, .var .object .o1, .sym .addrErrorId, .sym .objectDataOffset]] -- 2135
  | .GET_STACK_BYTE => [.call .GET_STACK_BYTE [.var .byte .o0, .sym .stack, .num (.low8 .o3)]] -- 2140
  | .GET_STACK_SHORT => [.call .GET_STACK_SHORT [.var .short .o0, .sym .stack, .num (.low8 .o3)]] -- 2144
  | .GET_STACK_INT => [.call .GET_STACK_INT [.var .int .o0, .sym .stack, .num (.low8 .o3)]] -- 2148
  | .GET_STACK_LONG => [.call .GET_STACK_LONG [.var .long .o0, .sym .stack, .num (.low8 .o3)]] -- 2152
  | .GET_STACK_FLOAT => [.call .GET_STACK_FLOAT [.var .float .o0, .sym .stack, .num (.low8 .o3)]] -- 2156
  | .GET_STACK_DOUBLE => [.call .GET_STACK_DOUBLE [.var .double .o0, .sym .stack, .num (.low8 .o3)]] -- 2160
  | .GET_STACK_OBJECT => [.call .GET_STACK_OBJECT [.sym .env, .addr .object .o0, .sym .stack, .num (.low8 .o3)]] -- 2164
  | .GET_STACK_REF => [.call .GET_STACK_REF [.var .ref .o0, .sym .stack, .num (.low8 .o3)]] -- 2168
  | .GET_STACK_MULNUM_BYTE => [.call .GET_STACK_MULNUM_BYTE [.sym .env, .addr .byte .o0, .sym .stack, .num (.low8 .o3), .num (.shr8 .o3)]] -- 2172
  | .GET_STACK_MULNUM_SHORT => [.call .GET_STACK_MULNUM_SHORT [.sym .env, .addr .short .o0, .sym .stack, .num (.low8 .o3), .num (.shr8 .o3)]] -- 2177
  | .GET_STACK_MULNUM_INT => [.call .GET_STACK_MULNUM_INT [.sym .env, .addr .int .o0, .sym .stack, .num (.low8 .o3), .num (.shr8 .o3)]] -- 2182
  | .GET_STACK_MULNUM_LONG => [.call .GET_STACK_MULNUM_LONG [.sym .env, .addr .long .o0, .sym .stack, .num (.low8 .o3), .num (.shr8 .o3)]] -- 2187
  | .GET_STACK_MULNUM_FLOAT => [.call .GET_STACK_MULNUM_FLOAT [.sym .env, .addr .float .o0, .sym .stack, .num (.low8 .o3), .num (.shr8 .o3)]] -- 2192
  | .GET_STACK_MULNUM_DOUBLE => [.call .GET_STACK_MULNUM_DOUBLE [.sym .env, .addr .double .o0, .sym .stack, .num (.low8 .o3), .num (.shr8 .o3)]] -- 2197
  | .SET_STACK_BYTE => [.call .SET_STACK_BYTE [.sym .stack, .num (.opd .o3), .var .byte .o0]] -- 2206
  | .SET_STACK_SHORT => [.call .SET_STACK_SHORT [.sym .stack, .num (.opd .o3), .var .short .o0]] -- 2210
  | .SET_STACK_INT => [.call .SET_STACK_INT [.sym .stack, .num (.opd .o3), .var .int .o0]] -- 2214
  | .SET_STACK_LONG => [.call .SET_STACK_LONG [.sym .stack, .num (.opd .o3), .var .long .o0]] -- 2218
  | .SET_STACK_FLOAT => [.call .SET_STACK_FLOAT [.sym .stack, .num (.opd .o3), .var .float .o0]] -- 2222
  | .SET_STACK_DOUBLE => [.call .SET_STACK_DOUBLE [.sym .stack, .num (.opd .o3), .var .double .o0]] -- 2226
  | .SET_STACK_OBJECT => [.call .SET_STACK_OBJECT [.sym .stack, .num (.opd .o3), .var .object .o0]] -- 2230
  | .SET_STACK_REF => [.call .SET_STACK_REF [.sym .stack, .num (.opd .o3), .var .ref .o0]] -- 2234
  | .SET_STACK_UNDEF => [.call .SET_STACK_UNDEF [.sym .stack, .num (.opd .o3)]] -- 2238
  | .SET_STACK_MULNUM_BYTE => [.call .SET_STACK_MULNUM_BYTE [.sym .env, .sym .stack, .num (.opd .o3), .num (.opd .o1), .addr .byte .o0]] -- 2242
  | .SET_STACK_MULNUM_SHORT => [.call .SET_STACK_MULNUM_SHORT [.sym .env, .sym .stack, .num (.opd .o3), .num (.opd .o1), .addr .short .o0]] -- 2247
  | .SET_STACK_MULNUM_INT => [.call .SET_STACK_MULNUM_INT [.sym .env, .sym .stack, .num (.opd .o3), .num (.opd .o1), .addr .int .o0]] -- 2252
  | .SET_STACK_MULNUM_LONG => [.call .SET_STACK_MULNUM_LONG [.sym .env, .sym .stack, .num (.opd .o3), .num (.opd .o1), .addr .long .o0]] -- 2257
  | .SET_STACK_MULNUM_FLOAT => [.call .SET_STACK_MULNUM_FLOAT [.sym .env, .sym .stack, .num (.opd .o3), .num (.opd .o1), .addr .float .o0]] -- 2262
  | .SET_STACK_MULNUM_DOUBLE => [.call .SET_STACK_MULNUM_DOUBLE [.sym .env, .sym .stack, .num (.opd .o3), .num (.opd .o1), .addr .double .o0]] -- 2267
  | .RETURN_VOID => [.jump .o1] -- 2272
  | .RETURN_BYTE => [.call .RETURN_BYTE [.sym .stack, .var .byte .o0], .jump .o1] -- 2276
  | .RETURN_SHORT => [.call .RETURN_SHORT [.sym .stack, .var .short .o0], .jump .o1] -- 2281
  | .RETURN_INT => [.call .RETURN_INT [.sym .stack, .var .int .o0], .jump .o1] -- 2286
  | .RETURN_LONG => [.call .RETURN_LONG [.sym .stack, .var .long .o0], .jump .o1] -- 2291
  | .RETURN_FLOAT => [.call .RETURN_FLOAT [.sym .stack, .var .float .o0], .jump .o1] -- 2296
  | .RETURN_DOUBLE => [.call .RETURN_DOUBLE [.sym .stack, .var .double .o0], .jump .o1] -- 2301
  | .RETURN_OBJECT => [.call .RETURN_OBJECT [.sym .env, .sym .stack, .var .object .o0], .jump .o1] -- 2306
  | .RETURN_UNDEF => [.call .RETURN_UNDEF [.sym .stack], .jump .o1] -- 2311
  | .RETURN_MULNUM_BYTE => [.call .RETURN_MULNUM_BYTE [.sym .env, .sym .stack, .addr .byte .o0, .num (.opd .o2)], .jump .o1] -- 2316
  | .RETURN_MULNUM_SHORT => [.call .RETURN_MULNUM_SHORT [.sym .env, .sym .stack, .addr .short .o0, .num (.opd .o2)], .jump .o1] -- 2322
  | .RETURN_MULNUM_INT => [.call .RETURN_MULNUM_INT [.sym .env, .sym .stack, .addr .int .o0, .num (.opd .o2)], .jump .o1] -- 2328
  | .RETURN_MULNUM_LONG => [.call .RETURN_MULNUM_LONG [.sym .env, .sym .stack, .addr .long .o0, .num (.opd .o2)], .jump .o1] -- 2334
  | .RETURN_MULNUM_FLOAT => [.call .RETURN_MULNUM_FLOAT [.sym .env, .sym .stack, .addr .float .o0, .num (.opd .o2)], .jump .o1] -- 2340
  | .RETURN_MULNUM_DOUBLE => [.call .RETURN_MULNUM_DOUBLE [.sym .env, .sym .stack, .addr .double .o0, .num (.opd .o2)], .jump .o1] -- 2346
  | .ARGS_WIDTH => [.call .ARGS_WIDTH [.sym .env, .sym .stack, .var .int .o0]] -- 1445
  | .CALL_CLASS_METHOD => [.call .CALL_CLASS_METHOD [.sym .env, .sym .stack, .sym .errorId, .method .o0 .o1, .num (.opd .o2)]] -- 2352
  | .CALL_INSTANCE_METHOD_STATIC => [.call .CALL_INSTANCE_METHOD_STATIC [.sym .env, .sym .stack, .sym .errorId, .method .o0 .o1, .num (.opd .o2)]] -- 2365
  | .CALL_INSTANCE_METHOD => [.call .CALL_INSTANCE_METHOD [.sym .env, .sym .stack, .methodClassName .o0 .o1, .methodName .o0 .o1, .num (.opd .o2), .sym .addrErrorId]] -- 2377

/-- The cases of the second loop of `SPVM_PRECOMPILE_build_method_source`, spvm_precompile.c 594-5020; the number behind each case is its
line.  The variables of the generated code which hold an argument for one statement (`object`, `basic_type_name`, ...) and casts of
the kind `*(int32_t*)&int_vars[i]` are replaced with what they stand for. -/
def pcCase : OpId → List PStmt
  | .END_ARGS => [] -- 4609
  | .END_METHOD => [] -- 596
  | .GOTO => [.goto .o0] -- 599
  | .IF_EQ_ZERO => [.ifZero .o1 .o0] -- 605
  | .IF_NE_ZERO => [.ifNonzero .o1 .o0] -- 613
  | .LOOKUP_SWITCH => [.switch .o0 .o2 .o1] -- 650
  | .CASE_INFO => [] -- 679
  | .PUSH_MORTAL => [.call .PUSH_MORTAL [.sym .mortalStack, .sym .mortalTop, .int (.opd .o0)]] -- 682
  | .LEAVE_SCOPE => [.callIfMortal .LEAVE_SCOPE [.sym .env, .sym .stack, .sym .objectVars, .sym .mortalStack, .sym .addrMortalTop, .int (.opd .o0)]] -- 688
  | .MOVE_CONSTANT_BYTE => [.call .MOVE_CONSTANT_BYTE [.var .byte .o0, .byte .o1]] -- 787
  | .MOVE_CONSTANT_INT => [.call .MOVE_CONSTANT_INT [.var .int .o0, .int (.opd .o1)]] -- 795
  | .MOVE_CONSTANT_LONG => [.call .MOVE_CONSTANT_LONG [.var .long .o0, .long]] -- 803
  | .MOVE_CONSTANT_FLOAT => [.call .MOVE_CONSTANT_FLOAT [.var .float .o0, .float .o1]] -- 813
  | .MOVE_CONSTANT_DOUBLE => [.call .MOVE_CONSTANT_DOUBLE [.var .double .o0, .double]] -- 824
  | .MOVE_BYTE => [.call .MOVE_BYTE [.var .byte .o0, .var .byte .o1]] -- 836
  | .MOVE_BYTE_ZERO => [.call .MOVE_BYTE_ZERO [.var .byte .o0]] -- 697
  | .MOVE_SHORT => [.call .MOVE_SHORT [.var .short .o0, .var .short .o1]] -- 844
  | .MOVE_SHORT_ZERO => [.call .MOVE_SHORT_ZERO [.var .short .o0]] -- 703
  | .MOVE_INT => [.call .MOVE_INT [.var .int .o0, .var .int .o1]] -- 852
  | .MOVE_INT_ZERO => [.call .MOVE_INT_ZERO [.var .int .o0]] -- 709
  | .MOVE_LONG => [.call .MOVE_LONG [.var .long .o0, .var .long .o1]] -- 860
  | .MOVE_LONG_ZERO => [.call .MOVE_LONG_ZERO [.var .long .o0]] -- 715
  | .MOVE_FLOAT => [.call .MOVE_FLOAT [.var .float .o0, .var .float .o1]] -- 868
  | .MOVE_FLOAT_ZERO => [.call .MOVE_FLOAT_ZERO [.var .float .o0]] -- 721
  | .MOVE_DOUBLE => [.call .MOVE_DOUBLE [.var .double .o0, .var .double .o1]] -- 876
  | .MOVE_DOUBLE_ZERO => [.call .MOVE_DOUBLE_ZERO [.var .double .o0]] -- 727
  | .MOVE_OBJECT => [.call .MOVE_OBJECT [.sym .env, .sym .stack, .addr .object .o0, .var .object .o1]] -- 884
  | .MOVE_OBJECT_UNDEF => [.call .MOVE_OBJECT_UNDEF [.sym .env, .sym .stack, .addr .object .o0]] -- 733
  | .MOVE_OBJECT_WITH_TYPE_CHECK => [.call .MOVE_OBJECT_WITH_TYPE_CHECK [.sym .env, .sym .stack, .addr .object .o0, .var .object .o1, .basicType .o2, .int (.opd .o3), .sym .addrErrorId]] -- 892
  | .MOVE_OBJECT_CHECK_READ_ONLY_STRING => [.call .MOVE_OBJECT_CHECK_READ_ONLY_STRING [.sym .env, .sym .stack, .addr .object .o0, .var .object .o1, .sym .addrErrorId]] -- 918
  | .MOVE_REF => [.call .MOVE_REF [.var .ref .o0, .var .ref .o1]] -- 926
  | .ADD_INT => [.call .ADD_INT [.var .int .o0, .var .int .o1, .var .int .o2]] -- 934
  | .ADD_LONG => [.call .ADD_LONG [.var .long .o0, .var .long .o1, .var .long .o2]] -- 944
  | .ADD_FLOAT => [.call .ADD_FLOAT [.var .float .o0, .var .float .o1, .var .float .o2]] -- 954
  | .ADD_DOUBLE => [.call .ADD_DOUBLE [.var .double .o0, .var .double .o1, .var .double .o2]] -- 964
  | .SUBTRACT_INT => [.call .SUBTRACT_INT [.var .int .o0, .var .int .o1, .var .int .o2]] -- 974
  | .SUBTRACT_LONG => [.call .SUBTRACT_LONG [.var .long .o0, .var .long .o1, .var .long .o2]] -- 984
  | .SUBTRACT_FLOAT => [.call .SUBTRACT_FLOAT [.var .float .o0, .var .float .o1, .var .float .o2]] -- 994
  | .SUBTRACT_DOUBLE => [.call .SUBTRACT_DOUBLE [.var .double .o0, .var .double .o1, .var .double .o2]] -- 1004
  | .MULTIPLY_INT => [.call .MULTIPLY_INT [.var .int .o0, .var .int .o1, .var .int .o2]] -- 1014
  | .MULTIPLY_LONG => [.call .MULTIPLY_LONG [.var .long .o0, .var .long .o1, .var .long .o2]] -- 1024
  | .MULTIPLY_FLOAT => [.call .MULTIPLY_FLOAT [.var .float .o0, .var .float .o1, .var .float .o2]] -- 1034
  | .MULTIPLY_DOUBLE => [.call .MULTIPLY_DOUBLE [.var .double .o0, .var .double .o1, .var .double .o2]] -- 1044
  | .DIVIDE_INT => [.call .DIVIDE_INT [.sym .env, .sym .stack, .addr .int .o0, .var .int .o1, .var .int .o2, .sym .addrErrorId]] -- 1054
  | .DIVIDE_LONG => [.call .DIVIDE_LONG [.sym .env, .sym .stack, .addr .long .o0, .var .long .o1, .var .long .o2, .sym .addrErrorId]] -- 1064
  | .DIVIDE_FLOAT => [.call .DIVIDE_FLOAT [.var .float .o0, .var .float .o1, .var .float .o2]] -- 1074
  | .DIVIDE_DOUBLE => [.call .DIVIDE_DOUBLE [.var .double .o0, .var .double .o1, .var .double .o2]] -- 1084
  | .DIVIDE_UNSIGNED_INT => [.call .DIVIDE_UNSIGNED_INT [.sym .env, .sym .stack, .addr .int .o0, .var .int .o1, .var .int .o2, .sym .addrErrorId]] -- 1094
  | .DIVIDE_UNSIGNED_LONG => [.call .DIVIDE_UNSIGNED_LONG [.sym .env, .sym .stack, .addr .long .o0, .var .long .o1, .var .long .o2, .sym .addrErrorId]] -- 1104
  | .MODULO_INT => [.call .MODULO_INT [.sym .env, .sym .stack, .addr .int .o0, .var .int .o1, .var .int .o2, .sym .addrErrorId]] -- 1114
  | .MODULO_LONG => [.call .MODULO_LONG [.sym .env, .sym .stack, .addr .long .o0, .var .long .o1, .var .long .o2, .sym .addrErrorId]] -- 1124
  | .MODULO_UNSIGNED_INT => [.call .MODULO_UNSIGNED_INT [.sym .env, .sym .stack, .addr .int .o0, .var .int .o1, .var .int .o2, .sym .addrErrorId]] -- 1134
  | .MODULO_UNSIGNED_LONG => [.call .MODULO_UNSIGNED_LONG [.sym .env, .sym .stack, .addr .long .o0, .var .long .o1, .var .long .o2, .sym .addrErrorId]] -- 1144
  | .LEFT_SHIFT_INT => [.call .LEFT_SHIFT_INT [.var .int .o0, .var .int .o1, .var .int .o2]] -- 1154
  | .LEFT_SHIFT_LONG => [.call .LEFT_SHIFT_LONG [.var .long .o0, .var .long .o1, .var .int .o2]] -- 1164
  | .RIGHT_ARITHMETIC_SHIFT_INT => [.call .RIGHT_ARITHMETIC_SHIFT_INT [.var .int .o0, .var .int .o1, .var .int .o2]] -- 1174
  | .RIGHT_ARITHMETIC_SHIFT_LONG => [.call .RIGHT_ARITHMETIC_SHIFT_LONG [.var .long .o0, .var .long .o1, .var .int .o2]] -- 1184
  | .RIGHT_LOGICAL_SHIFT_INT => [.call .RIGHT_LOGICAL_SHIFT_INT [.var .int .o0, .var .int .o1, .var .int .o2]] -- 1194
  | .RIGHT_LOGICAL_SHIFT_LONG => [.call .RIGHT_LOGICAL_SHIFT_LONG [.var .long .o0, .var .long .o1, .var .int .o2]] -- 1204
  | .BIT_AND_INT => [.call .BIT_AND_INT [.var .int .o0, .var .int .o1, .var .int .o2]] -- 1214
  | .BIT_AND_LONG => [.call .BIT_AND_LONG [.var .long .o0, .var .long .o1, .var .long .o2]] -- 1224
  | .BIT_OR_INT => [.call .BIT_OR_INT [.var .int .o0, .var .int .o1, .var .int .o2]] -- 1234
  | .BIT_OR_LONG => [.call .BIT_OR_LONG [.var .long .o0, .var .long .o1, .var .long .o2]] -- 1244
  | .BIT_XOR_INT => [.call .BIT_XOR_INT [.var .int .o0, .var .int .o1, .var .int .o2]] -- 1254
  | .BIT_XOR_LONG => [.call .BIT_XOR_LONG [.var .long .o0, .var .long .o1, .var .long .o2]] -- 1264
  | .BIT_NOT_INT => [.call .BIT_NOT_INT [.var .int .o0, .var .int .o1]] -- 1274
  | .BIT_NOT_LONG => [.call .BIT_NOT_LONG [.var .long .o0, .var .long .o1]] -- 1282
  | .NEGATE_INT => [.call .NEGATE_INT [.var .int .o0, .var .int .o1]] -- 1290
  | .NEGATE_LONG => [.call .NEGATE_LONG [.var .long .o0, .var .long .o1]] -- 1298
  | .NEGATE_FLOAT => [.call .NEGATE_FLOAT [.var .float .o0, .var .float .o1]] -- 1306
  | .NEGATE_DOUBLE => [.call .NEGATE_DOUBLE [.var .double .o0, .var .double .o1]] -- 1314
  | .STRING_CONCAT => [.call .STRING_CONCAT [.sym .env, .sym .stack, .addr .object .o0, .var .object .o1, .var .object .o2, .sym .addrErrorId]] -- 1322
  | .CONDITION_EVALUATION_INT => [.call .CONDITION_EVALUATION_INT [.var .int .o0, .var .int .o1]] -- 1332
  | .CONDITION_EVALUATION_LONG => [.call .CONDITION_EVALUATION_LONG [.var .int .o0, .var .long .o1]] -- 1341
  | .CONDITION_EVALUATION_FLOAT => [.call .CONDITION_EVALUATION_FLOAT [.var .int .o0, .var .float .o1]] -- 1350
  | .CONDITION_EVALUATION_DOUBLE => [.call .CONDITION_EVALUATION_DOUBLE [.var .int .o0, .var .double .o1]] -- 1359
  | .CONDITION_EVALUATION_OBJECT => [.call .CONDITION_EVALUATION_OBJECT [.var .int .o0, .var .object .o1]] -- 1368
  | .CONDITION_EVALUATION_REF => [.call .CONDITION_EVALUATION_REF [.var .int .o0, .var .ref .o1]] -- 1377
  | .CONDITION_EVALUATION_BOOL_OBJECT => [.call .CONDITION_EVALUATION_BOOL_OBJECT [.sym .env, .sym .stack, .var .int .o0, .var .object .o1]] -- 1386
  | .NUMERIC_COMPARISON_EQ_INT => [.call .NUMERIC_COMPARISON_EQ_INT [.var .int .o0, .var .int .o1, .var .int .o2]] -- 1395
  | .NUMERIC_COMPARISON_EQ_LONG => [.call .NUMERIC_COMPARISON_EQ_LONG [.var .int .o0, .var .long .o1, .var .long .o2]] -- 1405
  | .NUMERIC_COMPARISON_EQ_FLOAT => [.call .NUMERIC_COMPARISON_EQ_FLOAT [.var .int .o0, .var .float .o1, .var .float .o2]] -- 1415
  | .NUMERIC_COMPARISON_EQ_DOUBLE => [.call .NUMERIC_COMPARISON_EQ_DOUBLE [.var .int .o0, .var .double .o1, .var .double .o2]] -- 1425
  | .NUMERIC_COMPARISON_EQ_OBJECT => [.call .NUMERIC_COMPARISON_EQ_OBJECT [.var .int .o0, .var .object .o1, .var .object .o2]] -- 1435
  | .NUMERIC_COMPARISON_EQ_REF => [.call .NUMERIC_COMPARISON_EQ_REF [.var .int .o0, .var .ref .o1, .var .ref .o2]] -- 1445
  | .NUMERIC_COMPARISON_NE_INT => [.call .NUMERIC_COMPARISON_NE_INT [.var .int .o0, .var .int .o1, .var .int .o2]] -- 1455
  | .NUMERIC_COMPARISON_NE_LONG => [.call .NUMERIC_COMPARISON_NE_LONG [.var .int .o0, .var .long .o1, .var .long .o2]] -- 1465
  | .NUMERIC_COMPARISON_NE_FLOAT => [.call .NUMERIC_COMPARISON_NE_FLOAT [.var .int .o0, .var .float .o1, .var .float .o2]] -- 1475
  | .NUMERIC_COMPARISON_NE_DOUBLE => [.call .NUMERIC_COMPARISON_NE_DOUBLE [.var .int .o0, .var .double .o1, .var .double .o2]] -- 1485
  | .NUMERIC_COMPARISON_NE_OBJECT => [.call .NUMERIC_COMPARISON_NE_OBJECT [.var .int .o0, .var .object .o1, .var .object .o2]] -- 1495
  | .NUMERIC_COMPARISON_NE_REF => [.call .NUMERIC_COMPARISON_NE_REF [.var .int .o0, .var .ref .o1, .var .ref .o2]] -- 1505
  | .NUMERIC_COMPARISON_GT_INT => [.call .NUMERIC_COMPARISON_GT_INT [.var .int .o0, .var .int .o1, .var .int .o2]] -- 1515
  | .NUMERIC_COMPARISON_GT_LONG => [.call .NUMERIC_COMPARISON_GT_LONG [.var .int .o0, .var .long .o1, .var .long .o2]] -- 1525
  | .NUMERIC_COMPARISON_GT_FLOAT => [.call .NUMERIC_COMPARISON_GT_FLOAT [.var .int .o0, .var .float .o1, .var .float .o2]] -- 1535
  | .NUMERIC_COMPARISON_GT_DOUBLE => [.call .NUMERIC_COMPARISON_GT_DOUBLE [.var .int .o0, .var .double .o1, .var .double .o2]] -- 1545
  | .NUMERIC_COMPARISON_GE_INT => [.call .NUMERIC_COMPARISON_GE_INT [.var .int .o0, .var .int .o1, .var .int .o2]] -- 1555
  | .NUMERIC_COMPARISON_GE_LONG => [.call .NUMERIC_COMPARISON_GE_LONG [.var .int .o0, .var .long .o1, .var .long .o2]] -- 1565
  | .NUMERIC_COMPARISON_GE_FLOAT => [.call .NUMERIC_COMPARISON_GE_FLOAT [.var .int .o0, .var .float .o1, .var .float .o2]] -- 1575
  | .NUMERIC_COMPARISON_GE_DOUBLE => [.call .NUMERIC_COMPARISON_GE_DOUBLE [.var .int .o0, .var .double .o1, .var .double .o2]] -- 1585
  | .NUMERIC_COMPARISON_LT_INT => [.call .NUMERIC_COMPARISON_LT_INT [.var .int .o0, .var .int .o1, .var .int .o2]] -- 1595
  | .NUMERIC_COMPARISON_LT_LONG => [.call .NUMERIC_COMPARISON_LT_LONG [.var .int .o0, .var .long .o1, .var .long .o2]] -- 1605
  | .NUMERIC_COMPARISON_LT_FLOAT => [.call .NUMERIC_COMPARISON_LT_FLOAT [.var .int .o0, .var .float .o1, .var .float .o2]] -- 1615
  | .NUMERIC_COMPARISON_LT_DOUBLE => [.call .NUMERIC_COMPARISON_LT_DOUBLE [.var .int .o0, .var .double .o1, .var .double .o2]] -- 1625
  | .NUMERIC_COMPARISON_LE_INT => [.call .NUMERIC_COMPARISON_LE_INT [.var .int .o0, .var .int .o1, .var .int .o2]] -- 1635
  | .NUMERIC_COMPARISON_LE_LONG => [.call .NUMERIC_COMPARISON_LE_LONG [.var .int .o0, .var .long .o1, .var .long .o2]] -- 1645
  | .NUMERIC_COMPARISON_LE_FLOAT => [.call .NUMERIC_COMPARISON_LE_FLOAT [.var .int .o0, .var .float .o1, .var .float .o2]] -- 1655
  | .NUMERIC_COMPARISON_LE_DOUBLE => [.call .NUMERIC_COMPARISON_LE_DOUBLE [.var .int .o0, .var .double .o1, .var .double .o2]] -- 1665
  | .NUMERIC_COMPARISON_CMP_INT => [.call .NUMERIC_COMPARISON_CMP_INT [.var .int .o0, .var .int .o1, .var .int .o2]] -- 1675
  | .NUMERIC_COMPARISON_CMP_LONG => [.call .NUMERIC_COMPARISON_CMP_LONG [.var .int .o0, .var .long .o1, .var .long .o2]] -- 1685
  | .NUMERIC_COMPARISON_CMP_FLOAT => [.call .NUMERIC_COMPARISON_CMP_FLOAT [.var .int .o0, .var .float .o1, .var .float .o2]] -- 1695
  | .NUMERIC_COMPARISON_CMP_DOUBLE => [.call .NUMERIC_COMPARISON_CMP_DOUBLE [.var .int .o0, .var .double .o1, .var .double .o2]] -- 1705
  | .IS_UNDEF => [.call .IS_UNDEF [.var .int .o0, .var .object .o1]] -- 1715
  | .IS_NOT_UNDEF => [.call .IS_NOT_UNDEF [.var .int .o0, .var .object .o1]] -- 1723
  | .STRING_COMPARISON_EQ => [.call .STRING_COMPARISON_EQ [.sym .env, .sym .stack, .addr .int .o0, .var .object .o1, .var .object .o2]] -- 1731
  | .STRING_COMPARISON_NE => [.call .STRING_COMPARISON_NE [.sym .env, .sym .stack, .addr .int .o0, .var .object .o1, .var .object .o2]] -- 1741
  | .STRING_COMPARISON_GT => [.call .STRING_COMPARISON_GT [.sym .env, .sym .stack, .addr .int .o0, .var .object .o1, .var .object .o2]] -- 1751
  | .STRING_COMPARISON_GE => [.call .STRING_COMPARISON_GE [.sym .env, .sym .stack, .addr .int .o0, .var .object .o1, .var .object .o2]] -- 1761
  | .STRING_COMPARISON_LT => [.call .STRING_COMPARISON_LT [.sym .env, .sym .stack, .addr .int .o0, .var .object .o1, .var .object .o2]] -- 1771
  | .STRING_COMPARISON_LE => [.call .STRING_COMPARISON_LE [.sym .env, .sym .stack, .addr .int .o0, .var .object .o1, .var .object .o2]] -- 1781
  | .STRING_COMPARISON_CMP => [.call .STRING_COMPARISON_CMP [.sym .env, .sym .stack, .addr .int .o0, .var .object .o1, .var .object .o2]] -- 1791
  | .NEW_OBJECT => [.call .NEW_OBJECT [.sym .env, .sym .stack, .addr .object .o0, .basicType .o1, .sym .addrErrorId]] -- 1801
  | .NEW_OBJECT_ARRAY => [.call .NEW_OBJECT_ARRAY [.sym .env, .sym .stack, .addr .object .o0, .basicType .o1, .var .int .o2, .sym .addrErrorId]] -- 1820
  | .NEW_MULDIM_ARRAY => [.call .NEW_MULDIM_ARRAY [.sym .env, .sym .stack, .addr .object .o0, .basicType .o1, .int (.opd .o3), .var .int .o2, .sym .addrErrorId]] -- 1842
  | .NEW_MULNUM_ARRAY => [.call .NEW_MULNUM_ARRAY [.sym .env, .sym .stack, .addr .object .o0, .basicType .o1, .var .int .o2, .sym .addrErrorId]] -- 1870
  | .NEW_BYTE_ARRAY => [.call .NEW_BYTE_ARRAY [.sym .env, .sym .stack, .addr .object .o0, .var .int .o1, .sym .addrErrorId]] -- 1893
  | .NEW_SHORT_ARRAY => [.call .NEW_SHORT_ARRAY [.sym .env, .sym .stack, .addr .object .o0, .var .int .o1, .sym .addrErrorId]] -- 1902
  | .NEW_INT_ARRAY => [.call .NEW_INT_ARRAY [.sym .env, .sym .stack, .addr .object .o0, .var .int .o1, .sym .addrErrorId]] -- 1911
  | .NEW_LONG_ARRAY => [.call .NEW_LONG_ARRAY [.sym .env, .sym .stack, .addr .object .o0, .var .int .o1, .sym .addrErrorId]] -- 1920
  | .NEW_FLOAT_ARRAY => [.call .NEW_FLOAT_ARRAY [.sym .env, .sym .stack, .addr .object .o0, .var .int .o1, .sym .addrErrorId]] -- 1929
  | .NEW_DOUBLE_ARRAY => [.call .NEW_DOUBLE_ARRAY [.sym .env, .sym .stack, .addr .object .o0, .var .int .o1, .sym .addrErrorId]] -- 1938
  | .NEW_STRING => [.call .NEW_STRING [.sym .env, .sym .stack, .addr .object .o0, .hexConst .o1, .constLength .o1, .sym .addrErrorId]] -- 1947
  | .NEW_STRING_LEN => [.call .NEW_STRING_LEN [.sym .env, .sym .stack, .addr .object .o0, .var .int .o1, .sym .addrErrorId]] -- 1970
  | .IS_READ_ONLY => [.call .IS_READ_ONLY [.sym .env, .sym .stack, .var .int .o0, .var .object .o1]] -- 1980
  | .MAKE_READ_ONLY => [.call .MAKE_READ_ONLY [.sym .env, .sym .stack, .var .object .o0]] -- 1988
  | .GET_ARRAY_ELEMENT_BYTE => [.call .GET_ARRAY_ELEMENT_BYTE [.sym .env, .sym .stack, .addr .byte .o0, .var .object .o1, .var .int .o2, .sym .addrErrorId, .sym .objectHeaderSize, .sym .objectLengthOffset]] -- 1994
  | .GET_ARRAY_ELEMENT_SHORT => [.call .GET_ARRAY_ELEMENT_SHORT [.sym .env, .sym .stack, .addr .short .o0, .var .object .o1, .var .int .o2, .sym .addrErrorId, .sym .objectHeaderSize, .sym .objectLengthOffset]] -- 2008
  | .GET_ARRAY_ELEMENT_INT => [.call .GET_ARRAY_ELEMENT_INT [.sym .env, .sym .stack, .addr .int .o0, .var .object .o1, .var .int .o2, .sym .addrErrorId, .sym .objectHeaderSize, .sym .objectLengthOffset]] -- 2022
  | .GET_ARRAY_ELEMENT_LONG => [.call .GET_ARRAY_ELEMENT_LONG [.sym .env, .sym .stack, .addr .long .o0, .var .object .o1, .var .int .o2, .sym .addrErrorId, .sym .objectHeaderSize, .sym .objectLengthOffset]] -- 2036
  | .GET_ARRAY_ELEMENT_FLOAT => [.call .GET_ARRAY_ELEMENT_FLOAT [.sym .env, .sym .stack, .addr .float .o0, .var .object .o1, .var .int .o2, .sym .addrErrorId, .sym .objectHeaderSize, .sym .objectLengthOffset]] -- 2050
  | .GET_ARRAY_ELEMENT_DOUBLE => [.call .GET_ARRAY_ELEMENT_DOUBLE [.sym .env, .sym .stack, .addr .double .o0, .var .object .o1, .var .int .o2, .sym .addrErrorId, .sym .objectHeaderSize, .sym .objectLengthOffset]] -- 2064
  | .GET_ARRAY_ELEMENT_OBJECT => [.call .GET_ARRAY_ELEMENT_OBJECT [.sym .env, .sym .stack, .addr .object .o0, .var .object .o1, .var .int .o2, .sym .addrErrorId, .sym .objectHeaderSize, .sym .objectLengthOffset]] -- 2078
  | .SET_ARRAY_ELEMENT_BYTE => [.call .SET_ARRAY_ELEMENT_BYTE [.sym .env, .sym .stack, .var .object .o0, .var .int .o1, .var .byte .o2, .sym .addrErrorId, .sym .objectHeaderSize, .sym .objectLengthOffset]] -- 2093
  | .SET_ARRAY_ELEMENT_SHORT => [.call .SET_ARRAY_ELEMENT_SHORT [.sym .env, .sym .stack, .var .object .o0, .var .int .o1, .var .short .o2, .sym .addrErrorId, .sym .objectHeaderSize, .sym .objectLengthOffset]] -- 2107
  | .SET_ARRAY_ELEMENT_INT => [.call .SET_ARRAY_ELEMENT_INT [.sym .env, .sym .stack, .var .object .o0, .var .int .o1, .var .int .o2, .sym .addrErrorId, .sym .objectHeaderSize, .sym .objectLengthOffset]] -- 2121
  | .SET_ARRAY_ELEMENT_LONG => [.call .SET_ARRAY_ELEMENT_LONG [.sym .env, .sym .stack, .var .object .o0, .var .int .o1, .var .long .o2, .sym .addrErrorId, .sym .objectHeaderSize, .sym .objectLengthOffset]] -- 2135
  | .SET_ARRAY_ELEMENT_FLOAT => [.call .SET_ARRAY_ELEMENT_FLOAT [.sym .env, .sym .stack, .var .object .o0, .var .int .o1, .var .float .o2, .sym .addrErrorId, .sym .objectHeaderSize, .sym .objectLengthOffset]] -- 2149
  | .SET_ARRAY_ELEMENT_DOUBLE => [.call .SET_ARRAY_ELEMENT_DOUBLE [.sym .env, .sym .stack, .var .object .o0, .var .int .o1, .var .double .o2, .sym .addrErrorId, .sym .objectHeaderSize, .sym .objectLengthOffset]] -- 2163
  | .SET_ARRAY_ELEMENT_OBJECT => [.call .SET_ARRAY_ELEMENT_OBJECT [.sym .env, .sym .stack, .var .object .o0, .var .int .o1, .var .object .o2, .sym .addrErrorId, .sym .objectHeaderSize, .sym .objectLengthOffset]] -- 2177
  | .SET_ARRAY_ELEMENT_OBJECT_CHECK_TYPE => [.call .SET_ARRAY_ELEMENT_OBJECT_CHECK_TYPE [.sym .env, .sym .stack, .var .object .o0, .var .int .o1, .var .object .o2, .sym .addrErrorId, .sym .objectHeaderSize, .sym .objectLengthOffset]] -- 2191
  | .SET_ARRAY_ELEMENT_UNDEF => [.call .SET_ARRAY_ELEMENT_UNDEF [.sym .env, .sym .stack, .var .object .o0, .var .int .o1, .sym .addrErrorId, .sym .objectHeaderSize, .sym .objectLengthOffset]] -- 2205
  | .ARRAY_LENGTH => [.call .ARRAY_LENGTH [.sym .env, .sym .stack, .addr .int .o0, .var .object .o1, .sym .addrErrorId, .sym .objectLengthOffset]] -- 2215
  | .STRING_LENGTH => [.call .STRING_LENGTH [.sym .env, .sym .stack, .addr .int .o0, .var .object .o1, .sym .objectLengthOffset]] -- 2225
  | .GET_FIELD_BYTE => [.call .GET_FIELD_BYTE [.sym .env, .sym .stack, .addr .byte .o0, .var .object .o1, .fieldOffset .o2 .o3, .sym .addrErrorId, .sym .objectHeaderSize]] -- 2241
  | .GET_FIELD_SHORT => [.call .GET_FIELD_SHORT [.sym .env, .sym .stack, .addr .short .o0, .var .object .o1, .fieldOffset .o2 .o3, .sym .addrErrorId, .sym .objectHeaderSize]] -- 2241
  | .GET_FIELD_INT => [.call .GET_FIELD_INT [.sym .env, .sym .stack, .addr .int .o0, .var .object .o1, .fieldOffset .o2 .o3, .sym .addrErrorId, .sym .objectHeaderSize]] -- 2241
  | .GET_FIELD_LONG => [.call .GET_FIELD_LONG [.sym .env, .sym .stack, .addr .long .o0, .var .object .o1, .fieldOffset .o2 .o3, .sym .addrErrorId, .sym .objectHeaderSize]] -- 2241
  | .GET_FIELD_FLOAT => [.call .GET_FIELD_FLOAT [.sym .env, .sym .stack, .addr .float .o0, .var .object .o1, .fieldOffset .o2 .o3, .sym .addrErrorId, .sym .objectHeaderSize]] -- 2241
  | .GET_FIELD_DOUBLE => [.call .GET_FIELD_DOUBLE [.sym .env, .sym .stack, .addr .double .o0, .var .object .o1, .fieldOffset .o2 .o3, .sym .addrErrorId, .sym .objectHeaderSize]] -- 2241
  | .GET_FIELD_OBJECT => [.call .GET_FIELD_OBJECT [.sym .env, .sym .stack, .addr .object .o0, .var .object .o1, .fieldOffset .o2 .o3, .sym .addrErrorId, .sym .objectHeaderSize]] -- 2241
  | .SET_FIELD_BYTE => [.call .SET_FIELD_BYTE [.sym .env, .sym .stack, .var .object .o0, .fieldOffset .o2 .o3, .var .byte .o1, .sym .addrErrorId, .sym .objectHeaderSize]] -- 2323
  | .SET_FIELD_SHORT => [.call .SET_FIELD_SHORT [.sym .env, .sym .stack, .var .object .o0, .fieldOffset .o2 .o3, .var .short .o1, .sym .addrErrorId, .sym .objectHeaderSize]] -- 2323
  | .SET_FIELD_INT => [.call .SET_FIELD_INT [.sym .env, .sym .stack, .var .object .o0, .fieldOffset .o2 .o3, .var .int .o1, .sym .addrErrorId, .sym .objectHeaderSize]] -- 2323
  | .SET_FIELD_LONG => [.call .SET_FIELD_LONG [.sym .env, .sym .stack, .var .object .o0, .fieldOffset .o2 .o3, .var .long .o1, .sym .addrErrorId, .sym .objectHeaderSize]] -- 2323
  | .SET_FIELD_FLOAT => [.call .SET_FIELD_FLOAT [.sym .env, .sym .stack, .var .object .o0, .fieldOffset .o2 .o3, .var .float .o1, .sym .addrErrorId, .sym .objectHeaderSize]] -- 2323
  | .SET_FIELD_DOUBLE => [.call .SET_FIELD_DOUBLE [.sym .env, .sym .stack, .var .object .o0, .fieldOffset .o2 .o3, .var .double .o1, .sym .addrErrorId, .sym .objectHeaderSize]] -- 2323
  | .SET_FIELD_OBJECT => [.call .SET_FIELD_OBJECT [.sym .env, .sym .stack, .var .object .o0, .fieldOffset .o2 .o3, .var .object .o1, .sym .addrErrorId, .sym .objectHeaderSize]] -- 2323
  | .SET_FIELD_UNDEF => [.call .SET_FIELD_UNDEF [.sym .env, .sym .stack, .var .object .o0, .fieldOffset .o2 .o3, .sym .addrErrorId, .sym .objectHeaderSize]] -- 2323
  | .GET_CLASS_VAR_BYTE => [.call .GET_CLASS_VAR_BYTE [.sym .env, .sym .stack, .var .byte .o0, .classVar .o1 .o2]] -- 2497
  | .GET_CLASS_VAR_SHORT => [.call .GET_CLASS_VAR_SHORT [.sym .env, .sym .stack, .var .short .o0, .classVar .o1 .o2]] -- 2497
  | .GET_CLASS_VAR_INT => [.call .GET_CLASS_VAR_INT [.sym .env, .sym .stack, .var .int .o0, .classVar .o1 .o2]] -- 2497
  | .GET_CLASS_VAR_LONG => [.call .GET_CLASS_VAR_LONG [.sym .env, .sym .stack, .var .long .o0, .classVar .o1 .o2]] -- 2497
  | .GET_CLASS_VAR_FLOAT => [.call .GET_CLASS_VAR_FLOAT [.sym .env, .sym .stack, .var .float .o0, .classVar .o1 .o2]] -- 2497
  | .GET_CLASS_VAR_DOUBLE => [.call .GET_CLASS_VAR_DOUBLE [.sym .env, .sym .stack, .var .double .o0, .classVar .o1 .o2]] -- 2497
  | .GET_CLASS_VAR_OBJECT => [.call .GET_CLASS_VAR_OBJECT [.sym .env, .sym .stack, .addr .object .o0, .classVar .o1 .o2]] -- 2497
  | .SET_CLASS_VAR_BYTE => [.call .SET_CLASS_VAR_BYTE [.sym .env, .sym .stack, .classVar .o0 .o1, .var .byte .o2]] -- 2576
  | .SET_CLASS_VAR_SHORT => [.call .SET_CLASS_VAR_SHORT [.sym .env, .sym .stack, .classVar .o0 .o1, .var .short .o2]] -- 2576
  | .SET_CLASS_VAR_INT => [.call .SET_CLASS_VAR_INT [.sym .env, .sym .stack, .classVar .o0 .o1, .var .int .o2]] -- 2576
  | .SET_CLASS_VAR_LONG => [.call .SET_CLASS_VAR_LONG [.sym .env, .sym .stack, .classVar .o0 .o1, .var .long .o2]] -- 2576
  | .SET_CLASS_VAR_FLOAT => [.call .SET_CLASS_VAR_FLOAT [.sym .env, .sym .stack, .classVar .o0 .o1, .var .float .o2]] -- 2576
  | .SET_CLASS_VAR_DOUBLE => [.call .SET_CLASS_VAR_DOUBLE [.sym .env, .sym .stack, .classVar .o0 .o1, .var .double .o2]] -- 2576
  | .SET_CLASS_VAR_OBJECT => [.call .SET_CLASS_VAR_OBJECT [.sym .env, .sym .stack, .classVar .o0 .o1, .var .object .o2]] -- 2576
  | .SET_CLASS_VAR_UNDEF => [.call .SET_CLASS_VAR_UNDEF [.sym .env, .sym .stack, .classVar .o0 .o1]] -- 2576
  | .GET_EXCEPTION_VAR => [.call .GET_EXCEPTION_VAR [.sym .env, .sym .stack, .addr .object .o0]] -- 2652
  | .SET_EXCEPTION_VAR => [.call .SET_EXCEPTION_VAR [.sym .env, .sym .stack, .var .object .o0]] -- 2658
  | .SET_EXCEPTION_VAR_UNDEF => [.call .SET_EXCEPTION_VAR_UNDEF [.sym .env, .sym .stack]] -- 2664
  | .GOTO_END_OF_EVAL_ON_EXCEPTION => [.catchError .o2 .o0] -- 621
  | .GOTO_END_OF_METHOD_ON_EXCEPTION => [.leaveOnError .o2 .o0] -- 637
  | .ISA => [.call .ISA [.sym .env, .sym .stack, .addr .int .o0, .var .object .o1, .basicType .o2, .int (.opd .o3)]] -- 2668
  | .ISA_ERROR => [.call .ISA_ERROR [.sym .env, .sym .stack, .addr .int .o0, .typeOfVar .o1, .basicType .o2, .int (.opd .o3)]] -- 2693
  | .IS_TYPE => [.call .IS_TYPE [.sym .env, .sym .stack, .addr .int .o0, .var .object .o1, .basicType .o2, .int (.opd .o3)]] -- 2720
  | .IS_ERROR => [.call .IS_ERROR [.sym .env, .sym .stack, .addr .int .o0, .typeOfVar .o1, .basicType .o2, .int (.opd .o3)]] -- 2745
  | .CAN => [.call .CAN [.sym .env, .sym .stack, .var .int .o0, .var .object .o1, .quotedConst .o2]] -- 2772
  | .PRINT => [.call .PRINT [.sym .env, .sym .stack, .var .object .o0]] -- 2791
  | .SAY => [.call .SAY [.sym .env, .sym .stack, .var .object .o0]] -- 2799
  | .WARN => [.call .WARN [.sym .env, .sym .stack, .var .object .o0, .quotedCurrentClass, .quotedCurrentMethod, .quotedFile, .int (.opd .o1)]] -- 2807
  | .CLEAR_EVAL_ERROR_ID => [.call .CLEAR_EVAL_ERROR_ID [.sym .evalErrorId]] -- 2835
  | .GET_EVAL_ERROR_ID => [.call .GET_EVAL_ERROR_ID [.var .int .o0, .sym .evalErrorId]] -- 2839
  | .GET_BASIC_TYPE_ID => [.call .GET_BASIC_TYPE_ID [.sym .env, .sym .stack, .var .int .o0, .basicType .o1]] -- 2878
  | .SET_ERROR_ID_BY_TYPE => [.call .SET_ERROR_ID [.sym .errorId, .typeId .o0]] -- 2846
  | .SET_ERROR_ID => [.call .SET_ERROR_ID [.sym .errorId, .var .int .o0]] -- 2864
  | .TYPE_NAME => [.call .TYPE_NAME [.sym .env, .sym .stack, .addr .object .o0, .var .object .o1]] -- 2897
  | .DUMP => [.call .DUMP [.sym .env, .sym .stack, .addr .object .o0, .var .object .o1]] -- 2908
  | .COPY => [.call .COPY [.sym .env, .sym .stack, .addr .object .o0, .var .object .o1, .sym .addrErrorId]] -- 2918
  | .REF_BYTE => [.call .REF_BYTE [.var .ref .o0, .addr .byte .o1]] -- 2928
  | .REF_SHORT => [.call .REF_SHORT [.var .ref .o0, .addr .short .o1]] -- 2936
  | .REF_INT => [.call .REF_INT [.var .ref .o0, .addr .int .o1]] -- 2944
  | .REF_LONG => [.call .REF_LONG [.var .ref .o0, .addr .long .o1]] -- 2952
  | .REF_FLOAT => [.call .REF_FLOAT [.var .ref .o0, .addr .float .o1]] -- 2960
  | .REF_DOUBLE => [.call .REF_DOUBLE [.var .ref .o0, .addr .double .o1]] -- 2968
  | .GET_DEREF_BYTE => [.call .GET_DEREF_BYTE [.var .byte .o0, .addr .ref .o1]] -- 2976
  | .GET_DEREF_SHORT => [.call .GET_DEREF_SHORT [.var .short .o0, .addr .ref .o1]] -- 2984
  | .GET_DEREF_INT => [.call .GET_DEREF_INT [.var .int .o0, .addr .ref .o1]] -- 2992
  | .GET_DEREF_LONG => [.call .GET_DEREF_LONG [.var .long .o0, .addr .ref .o1]] -- 3000
  | .GET_DEREF_FLOAT => [.call .GET_DEREF_FLOAT [.var .float .o0, .addr .ref .o1]] -- 3008
  | .GET_DEREF_DOUBLE => [.call .GET_DEREF_DOUBLE [.var .double .o0, .addr .ref .o1]] -- 3016
  | .SET_DEREF_BYTE => [.call .SET_DEREF_BYTE [.addr .ref .o0, .var .byte .o1]] -- 3024
  | .SET_DEREF_SHORT => [.call .SET_DEREF_SHORT [.addr .ref .o0, .var .short .o1]] -- 3032
  | .SET_DEREF_INT => [.call .SET_DEREF_INT [.addr .ref .o0, .var .int .o1]] -- 3040
  | .SET_DEREF_LONG => [.call .SET_DEREF_LONG [.addr .ref .o0, .var .long .o1]] -- 3048
  | .SET_DEREF_FLOAT => [.call .SET_DEREF_FLOAT [.addr .ref .o0, .var .float .o1]] -- 3056
  | .SET_DEREF_DOUBLE => [.call .SET_DEREF_DOUBLE [.addr .ref .o0, .var .double .o1]] -- 3064
  | .GET_MULNUM_FIELD_BYTE => [.call .GET_MULNUM_FIELD_BYTE [.var .byte .o0, .addr .byte .o1, .int (.opd .o2)]] -- 3072
  | .GET_MULNUM_FIELD_SHORT => [.call .GET_MULNUM_FIELD_SHORT [.var .short .o0, .addr .short .o1, .int (.opd .o2)]] -- 3084
  | .GET_MULNUM_FIELD_INT => [.call .GET_MULNUM_FIELD_INT [.var .int .o0, .addr .int .o1, .int (.opd .o2)]] -- 3096
  | .GET_MULNUM_FIELD_LONG => [.call .GET_MULNUM_FIELD_LONG [.var .long .o0, .addr .long .o1, .int (.opd .o2)]] -- 3108
  | .GET_MULNUM_FIELD_FLOAT => [.call .GET_MULNUM_FIELD_FLOAT [.var .float .o0, .addr .float .o1, .int (.opd .o2)]] -- 3120
  | .GET_MULNUM_FIELD_DOUBLE => [.call .GET_MULNUM_FIELD_DOUBLE [.var .double .o0, .addr .double .o1, .int (.opd .o2)]] -- 3132
  | .SET_MULNUM_FIELD_BYTE => [.call .SET_MULNUM_FIELD_BYTE [.addr .byte .o0, .int (.opd .o2), .var .byte .o1]] -- 3144
  | .SET_MULNUM_FIELD_SHORT => [.call .SET_MULNUM_FIELD_SHORT [.addr .short .o0, .int (.opd .o2), .var .short .o1]] -- 3156
  | .SET_MULNUM_FIELD_INT => [.call .SET_MULNUM_FIELD_INT [.addr .int .o0, .int (.opd .o2), .var .int .o1]] -- 3168
  | .SET_MULNUM_FIELD_LONG => [.call .SET_MULNUM_FIELD_LONG [.addr .long .o0, .int (.opd .o2), .var .long .o1]] -- 3180
  | .SET_MULNUM_FIELD_FLOAT => [.call .SET_MULNUM_FIELD_FLOAT [.addr .float .o0, .int (.opd .o2), .var .float .o1]] -- 3192
  | .SET_MULNUM_FIELD_DOUBLE => [.call .SET_MULNUM_FIELD_DOUBLE [.addr .double .o0, .int (.opd .o2), .var .double .o1]] -- 3204
  | .MOVE_MULNUM_BYTE => [.call .MOVE_MULNUM_BYTE [.sym .env, .sym .stack, .addr .byte .o0, .addr .byte .o1, .int (.opd .o2)]] -- 3216
  | .MOVE_MULNUM_BYTE_ZERO => [.call .MOVE_MULNUM_BYTE_ZERO [.sym .env, .sym .stack, .addr .byte .o0, .int (.opd .o2)]] -- 739
  | .MOVE_MULNUM_SHORT => [.call .MOVE_MULNUM_SHORT [.sym .env, .sym .stack, .addr .short .o0, .addr .short .o1, .int (.opd .o2)]] -- 3228
  | .MOVE_MULNUM_SHORT_ZERO => [.call .MOVE_MULNUM_SHORT_ZERO [.sym .env, .sym .stack, .addr .short .o0, .int (.opd .o2)]] -- 747
  | .MOVE_MULNUM_INT => [.call .MOVE_MULNUM_INT [.sym .env, .sym .stack, .addr .int .o0, .addr .int .o1, .int (.opd .o2)]] -- 3240
  | .MOVE_MULNUM_INT_ZERO => [.call .MOVE_MULNUM_INT_ZERO [.sym .env, .sym .stack, .addr .int .o0, .int (.opd .o2)]] -- 755
  | .MOVE_MULNUM_LONG => [.call .MOVE_MULNUM_LONG [.sym .env, .sym .stack, .addr .long .o0, .addr .long .o1, .int (.opd .o2)]] -- 3252
  | .MOVE_MULNUM_LONG_ZERO => [.call .MOVE_MULNUM_LONG_ZERO [.sym .env, .sym .stack, .addr .long .o0, .int (.opd .o2)]] -- 763
  | .MOVE_MULNUM_FLOAT => [.call .MOVE_MULNUM_FLOAT [.sym .env, .sym .stack, .addr .float .o0, .addr .float .o1, .int (.opd .o2)]] -- 3264
  | .MOVE_MULNUM_FLOAT_ZERO => [.call .MOVE_MULNUM_FLOAT_ZERO [.sym .env, .sym .stack, .addr .float .o0, .int (.opd .o2)]] -- 771
  | .MOVE_MULNUM_DOUBLE => [.call .MOVE_MULNUM_DOUBLE [.sym .env, .sym .stack, .addr .double .o0, .addr .double .o1, .int (.opd .o2)]] -- 3276
  | .MOVE_MULNUM_DOUBLE_ZERO => [.call .MOVE_MULNUM_DOUBLE_ZERO [.sym .env, .sym .stack, .addr .double .o0, .int (.opd .o2)]] -- 779
  | .GET_MULNUM_ARRAY_BYTE => [.call .GET_MULNUM_ARRAY_BYTE [.sym .env, .sym .stack, .addr .byte .o0, .var .object .o1, .var .int .o2, .int (.opd .o3), .sym .addrErrorId, .sym .objectHeaderSize, .sym .objectLengthOffset]] -- 3288
  | .GET_MULNUM_ARRAY_SHORT => [.call .GET_MULNUM_ARRAY_SHORT [.sym .env, .sym .stack, .addr .short .o0, .var .object .o1, .var .int .o2, .int (.opd .o3), .sym .addrErrorId, .sym .objectHeaderSize, .sym .objectLengthOffset]] -- 3307
  | .GET_MULNUM_ARRAY_INT => [.call .GET_MULNUM_ARRAY_INT [.sym .env, .sym .stack, .addr .int .o0, .var .object .o1, .var .int .o2, .int (.opd .o3), .sym .addrErrorId, .sym .objectHeaderSize, .sym .objectLengthOffset]] -- 3325
  | .GET_MULNUM_ARRAY_LONG => [.call .GET_MULNUM_ARRAY_LONG [.sym .env, .sym .stack, .addr .long .o0, .var .object .o1, .var .int .o2, .int (.opd .o3), .sym .addrErrorId, .sym .objectHeaderSize, .sym .objectLengthOffset]] -- 3343
  | .GET_MULNUM_ARRAY_FLOAT => [.call .GET_MULNUM_ARRAY_FLOAT [.sym .env, .sym .stack, .addr .float .o0, .var .object .o1, .var .int .o2, .int (.opd .o3), .sym .addrErrorId, .sym .objectHeaderSize, .sym .objectLengthOffset]] -- 3361
  | .GET_MULNUM_ARRAY_DOUBLE => [.call .GET_MULNUM_ARRAY_DOUBLE [.sym .env, .sym .stack, .addr .double .o0, .var .object .o1, .var .int .o2, .int (.opd .o3), .sym .addrErrorId, .sym .objectHeaderSize, .sym .objectLengthOffset]] -- 3379
  | .SET_MULNUM_ARRAY_BYTE => [.call .SET_MULNUM_ARRAY_BYTE [.sym .env, .sym .stack, .var .object .o0, .var .int .o1, .int (.opd .o3), .addr .byte .o2, .sym .addrErrorId, .sym .objectHeaderSize, .sym .objectLengthOffset]] -- 3397
  | .SET_MULNUM_ARRAY_SHORT => [.call .SET_MULNUM_ARRAY_SHORT [.sym .env, .sym .stack, .var .object .o0, .var .int .o1, .int (.opd .o3), .addr .short .o2, .sym .addrErrorId, .sym .objectHeaderSize, .sym .objectLengthOffset]] -- 3415
  | .SET_MULNUM_ARRAY_INT => [.call .SET_MULNUM_ARRAY_INT [.sym .env, .sym .stack, .var .object .o0, .var .int .o1, .int (.opd .o3), .addr .int .o2, .sym .addrErrorId, .sym .objectHeaderSize, .sym .objectLengthOffset]] -- 3433
  | .SET_MULNUM_ARRAY_LONG => [.call .SET_MULNUM_ARRAY_LONG [.sym .env, .sym .stack, .var .object .o0, .var .int .o1, .int (.opd .o3), .addr .long .o2, .sym .addrErrorId, .sym .objectHeaderSize, .sym .objectLengthOffset]] -- 3451
  | .SET_MULNUM_ARRAY_FLOAT => [.call .SET_MULNUM_ARRAY_FLOAT [.sym .env, .sym .stack, .var .object .o0, .var .int .o1, .int (.opd .o3), .addr .float .o2, .sym .addrErrorId, .sym .objectHeaderSize, .sym .objectLengthOffset]] -- 3469
  | .SET_MULNUM_ARRAY_DOUBLE => [.call .SET_MULNUM_ARRAY_DOUBLE [.sym .env, .sym .stack, .var .object .o0, .var .int .o1, .int (.opd .o3), .addr .double .o2, .sym .addrErrorId, .sym .objectHeaderSize, .sym .objectLengthOffset]] -- 3487
  | .GET_MULNUM_ARRAY_FIELD_BYTE => [.call .GET_MULNUM_ARRAY_FIELD_BYTE [.sym .env, .sym .stack, .addr .byte .o0, .var .object .o1, .var .int .o2, .int (.shr8 .o3), .int (.low8p1 .o3), .sym .addrErrorId, .sym .objectHeaderSize, .sym .objectLengthOffset]] -- 3505
  | .GET_MULNUM_ARRAY_FIELD_SHORT => [.call .GET_MULNUM_ARRAY_FIELD_SHORT [.sym .env, .sym .stack, .addr .short .o0, .var .object .o1, .var .int .o2, .int (.shr8 .o3), .int (.low8p1 .o3), .sym .addrErrorId, .sym .objectHeaderSize, .sym .objectLengthOffset]] -- 3527
  | .GET_MULNUM_ARRAY_FIELD_INT => [.call .GET_MULNUM_ARRAY_FIELD_INT [.sym .env, .sym .stack, .addr .int .o0, .var .object .o1, .var .int .o2, .int (.shr8 .o3), .int (.low8p1 .o3), .sym .addrErrorId, .sym .objectHeaderSize, .sym .objectLengthOffset]] -- 3549
  | .GET_MULNUM_ARRAY_FIELD_LONG => [.call .GET_MULNUM_ARRAY_FIELD_LONG [.sym .env, .sym .stack, .addr .long .o0, .var .object .o1, .var .int .o2, .int (.shr8 .o3), .int (.low8p1 .o3), .sym .addrErrorId, .sym .objectHeaderSize, .sym .objectLengthOffset]] -- 3571
  | .GET_MULNUM_ARRAY_FIELD_FLOAT => [.call .GET_MULNUM_ARRAY_FIELD_FLOAT [.sym .env, .sym .stack, .addr .float .o0, .var .object .o1, .var .int .o2, .int (.shr8 .o3), .int (.low8p1 .o3), .sym .addrErrorId, .sym .objectHeaderSize, .sym .objectLengthOffset]] -- 3593
  | .GET_MULNUM_ARRAY_FIELD_DOUBLE => [.call .GET_MULNUM_ARRAY_FIELD_DOUBLE [.sym .env, .sym .stack, .addr .double .o0, .var .object .o1, .var .int .o2, .int (.shr8 .o3), .int (.low8p1 .o3), .sym .addrErrorId, .sym .objectHeaderSize, .sym .objectLengthOffset]] -- 3615
  | .SET_MULNUM_ARRAY_FIELD_BYTE => [.call .SET_MULNUM_ARRAY_FIELD_BYTE [.sym .env, .sym .stack, .var .object .o0, .var .int .o1, .int (.shr8 .o3), .int (.low8p1 .o3), .var .byte .o2, .sym .addrErrorId, .sym .objectHeaderSize, .sym .objectLengthOffset]] -- 3637
  | .SET_MULNUM_ARRAY_FIELD_SHORT => [.call .SET_MULNUM_ARRAY_FIELD_SHORT [.sym .env, .sym .stack, .var .object .o0, .var .int .o1, .int (.shr8 .o3), .int (.low8p1 .o3), .var .short .o2, .sym .addrErrorId, .sym .objectHeaderSize, .sym .objectLengthOffset]] -- 3659
  | .SET_MULNUM_ARRAY_FIELD_INT => [.call .SET_MULNUM_ARRAY_FIELD_INT [.sym .env, .sym .stack, .var .object .o0, .var .int .o1, .int (.shr8 .o3), .int (.low8p1 .o3), .var .int .o2, .sym .addrErrorId, .sym .objectHeaderSize, .sym .objectLengthOffset]] -- 3681
  | .SET_MULNUM_ARRAY_FIELD_LONG => [.call .SET_MULNUM_ARRAY_FIELD_LONG [.sym .env, .sym .stack, .var .object .o0, .var .int .o1, .int (.shr8 .o3), .int (.low8p1 .o3), .var .long .o2, .sym .addrErrorId, .sym .objectHeaderSize, .sym .objectLengthOffset]] -- 3703
  | .SET_MULNUM_ARRAY_FIELD_FLOAT => [.call .SET_MULNUM_ARRAY_FIELD_FLOAT [.sym .env, .sym .stack, .var .object .o0, .var .int .o1, .int (.shr8 .o3), .int (.low8p1 .o3), .var .float .o2, .sym .addrErrorId, .sym .objectHeaderSize, .sym .objectLengthOffset]] -- 3725
  | .SET_MULNUM_ARRAY_FIELD_DOUBLE => [.call .SET_MULNUM_ARRAY_FIELD_DOUBLE [.sym .env, .sym .stack, .var .object .o0, .var .int .o1, .int (.shr8 .o3), .int (.low8p1 .o3), .var .double .o2, .sym .addrErrorId, .sym .objectHeaderSize, .sym .objectLengthOffset]] -- 3747
  | .DEREF_MULNUM_BYTE => [.call .DEREF_MULNUM_BYTE [.sym .env, .sym .stack, .addr .byte .o0, .var .ref .o1, .int (.opd .o3)]] -- 3769
  | .DEREF_MULNUM_SHORT => [.call .DEREF_MULNUM_SHORT [.sym .env, .sym .stack, .addr .short .o0, .var .ref .o1, .int (.opd .o3)]] -- 3781
  | .DEREF_MULNUM_INT => [.call .DEREF_MULNUM_INT [.sym .env, .sym .stack, .addr .int .o0, .var .ref .o1, .int (.opd .o3)]] -- 3793
  | .DEREF_MULNUM_LONG => [.call .DEREF_MULNUM_LONG [.sym .env, .sym .stack, .addr .long .o0, .var .ref .o1, .int (.opd .o3)]] -- 3805
  | .DEREF_MULNUM_FLOAT => [.call .DEREF_MULNUM_FLOAT [.sym .env, .sym .stack, .addr .float .o0, .var .ref .o1, .int (.opd .o3)]] -- 3817
  | .DEREF_MULNUM_DOUBLE => [.call .DEREF_MULNUM_DOUBLE [.sym .env, .sym .stack, .addr .double .o0, .var .ref .o1, .int (.opd .o3)]] -- 3829
  | .GET_MULNUM_FIELD_DEREF_BYTE => [.call .GET_MULNUM_FIELD_DEREF_BYTE [.var .byte .o0, .var .ref .o1, .int (.opd .o2)]] -- 3841
  | .GET_MULNUM_FIELD_DEREF_SHORT => [.call .GET_MULNUM_FIELD_DEREF_SHORT [.var .short .o0, .var .ref .o1, .int (.opd .o2)]] -- 3853
  | .GET_MULNUM_FIELD_DEREF_INT => [.call .GET_MULNUM_FIELD_DEREF_INT [.var .int .o0, .var .ref .o1, .int (.opd .o2)]] -- 3865
  | .GET_MULNUM_FIELD_DEREF_LONG => [.call .GET_MULNUM_FIELD_DEREF_LONG [.var .long .o0, .var .ref .o1, .int (.opd .o2)]] -- 3877
  | .GET_MULNUM_FIELD_DEREF_FLOAT => [.call .GET_MULNUM_FIELD_DEREF_FLOAT [.var .float .o0, .var .ref .o1, .int (.opd .o2)]] -- 3889
  | .GET_MULNUM_FIELD_DEREF_DOUBLE => [.call .GET_MULNUM_FIELD_DEREF_DOUBLE [.var .double .o0, .var .ref .o1, .int (.opd .o2)]] -- 3901
  | .SET_MULNUM_FIELD_DEREF_BYTE => [.call .SET_MULNUM_FIELD_DEREF_BYTE [.var .ref .o0, .int (.opd .o2), .var .byte .o1]] -- 3913
  | .SET_MULNUM_FIELD_DEREF_SHORT => [.call .SET_MULNUM_FIELD_DEREF_SHORT [.var .ref .o0, .int (.opd .o2), .var .short .o1]] -- 3925
  | .SET_MULNUM_FIELD_DEREF_INT => [.call .SET_MULNUM_FIELD_DEREF_INT [.var .ref .o0, .int (.opd .o2), .var .int .o1]] -- 3937
  | .SET_MULNUM_FIELD_DEREF_LONG => [.call .SET_MULNUM_FIELD_DEREF_LONG [.var .ref .o0, .int (.opd .o2), .var .long .o1]] -- 3949
  | .SET_MULNUM_FIELD_DEREF_FLOAT => [.call .SET_MULNUM_FIELD_DEREF_FLOAT [.var .ref .o0, .int (.opd .o2), .var .float .o1]] -- 3961
  | .SET_MULNUM_FIELD_DEREF_DOUBLE => [.call .SET_MULNUM_FIELD_DEREF_DOUBLE [.var .ref .o0, .int (.opd .o2), .var .double .o1]] -- 3973
  | .WEAKEN_FIELD => [.call .WEAKEN_FIELD [.sym .env, .sym .stack, .var .object .o0, .fieldOffset .o2 .o3, .sym .addrErrorId, .sym .objectHeaderSize]] -- 2402
  | .UNWEAKEN_FIELD => [.call .UNWEAKEN_FIELD [.sym .env, .sym .stack, .var .object .o0, .fieldOffset .o2 .o3, .sym .addrErrorId, .sym .objectHeaderSize]] -- 2431
  | .ISWEAK_FIELD => [.call .ISWEAK_FIELD [.sym .env, .sym .stack, .addr .int .o0, .var .object .o1, .fieldOffset .o2 .o3, .sym .addrErrorId, .sym .objectHeaderSize]] -- 2460
  | .TYPE_CONVERSION_BYTE_TO_SHORT => [.call .TYPE_CONVERSION_BYTE_TO_SHORT [.var .short .o0, .var .byte .o1]] -- 3985
  | .TYPE_CONVERSION_BYTE_TO_INT => [.call .TYPE_CONVERSION_BYTE_TO_INT [.var .int .o0, .var .byte .o1]] -- 3993
  | .TYPE_CONVERSION_BYTE_TO_LONG => [.call .TYPE_CONVERSION_BYTE_TO_LONG [.var .long .o0, .var .byte .o1]] -- 4001
  | .TYPE_CONVERSION_BYTE_TO_FLOAT => [.call .TYPE_CONVERSION_BYTE_TO_FLOAT [.var .float .o0, .var .byte .o1]] -- 4009
  | .TYPE_CONVERSION_BYTE_TO_DOUBLE => [.call .TYPE_CONVERSION_BYTE_TO_DOUBLE [.var .double .o0, .var .byte .o1]] -- 4017
  | .TYPE_CONVERSION_SHORT_TO_BYTE => [.call .TYPE_CONVERSION_SHORT_TO_BYTE [.var .byte .o0, .var .short .o1]] -- 4025
  | .TYPE_CONVERSION_SHORT_TO_INT => [.call .TYPE_CONVERSION_SHORT_TO_INT [.var .int .o0, .var .short .o1]] -- 4033
  | .TYPE_CONVERSION_SHORT_TO_LONG => [.call .TYPE_CONVERSION_SHORT_TO_LONG [.var .long .o0, .var .short .o1]] -- 4041
  | .TYPE_CONVERSION_SHORT_TO_FLOAT => [.call .TYPE_CONVERSION_SHORT_TO_FLOAT [.var .float .o0, .var .short .o1]] -- 4049
  | .TYPE_CONVERSION_SHORT_TO_DOUBLE => [.call .TYPE_CONVERSION_SHORT_TO_DOUBLE [.var .double .o0, .var .short .o1]] -- 4057
  | .TYPE_CONVERSION_INT_TO_BYTE => [.call .TYPE_CONVERSION_INT_TO_BYTE [.var .byte .o0, .var .int .o1]] -- 4065
  | .TYPE_CONVERSION_INT_TO_SHORT => [.call .TYPE_CONVERSION_INT_TO_SHORT [.var .short .o0, .var .int .o1]] -- 4073
  | .TYPE_CONVERSION_INT_TO_LONG => [.call .TYPE_CONVERSION_INT_TO_LONG [.var .long .o0, .var .int .o1]] -- 4081
  | .TYPE_CONVERSION_INT_TO_FLOAT => [.call .TYPE_CONVERSION_INT_TO_FLOAT [.var .float .o0, .var .int .o1]] -- 4089
  | .TYPE_CONVERSION_INT_TO_DOUBLE => [.call .TYPE_CONVERSION_INT_TO_DOUBLE [.var .double .o0, .var .int .o1]] -- 4097
  | .TYPE_CONVERSION_LONG_TO_BYTE => [.call .TYPE_CONVERSION_LONG_TO_BYTE [.var .byte .o0, .var .long .o1]] -- 4105
  | .TYPE_CONVERSION_LONG_TO_SHORT => [.call .TYPE_CONVERSION_LONG_TO_SHORT [.var .short .o0, .var .long .o1]] -- 4113
  | .TYPE_CONVERSION_LONG_TO_INT => [.call .TYPE_CONVERSION_LONG_TO_INT [.var .int .o0, .var .long .o1]] -- 4121
  | .TYPE_CONVERSION_LONG_TO_FLOAT => [.call .TYPE_CONVERSION_LONG_TO_FLOAT [.var .float .o0, .var .long .o1]] -- 4129
  | .TYPE_CONVERSION_LONG_TO_DOUBLE => [.call .TYPE_CONVERSION_LONG_TO_DOUBLE [.var .double .o0, .var .long .o1]] -- 4137
  | .TYPE_CONVERSION_FLOAT_TO_BYTE => [.call .TYPE_CONVERSION_FLOAT_TO_BYTE [.var .byte .o0, .var .float .o1]] -- 4145
  | .TYPE_CONVERSION_FLOAT_TO_SHORT => [.call .TYPE_CONVERSION_FLOAT_TO_SHORT [.var .short .o0, .var .float .o1]] -- 4153
  | .TYPE_CONVERSION_FLOAT_TO_INT => [.call .TYPE_CONVERSION_FLOAT_TO_INT [.var .int .o0, .var .float .o1]] -- 4161
  | .TYPE_CONVERSION_FLOAT_TO_LONG => [.call .TYPE_CONVERSION_FLOAT_TO_LONG [.var .long .o0, .var .float .o1]] -- 4169
  | .TYPE_CONVERSION_FLOAT_TO_DOUBLE => [.call .TYPE_CONVERSION_FLOAT_TO_DOUBLE [.var .double .o0, .var .float .o1]] -- 4177
  | .TYPE_CONVERSION_DOUBLE_TO_BYTE => [.call .TYPE_CONVERSION_DOUBLE_TO_BYTE [.var .byte .o0, .var .double .o1]] -- 4185
  | .TYPE_CONVERSION_DOUBLE_TO_SHORT => [.call .TYPE_CONVERSION_DOUBLE_TO_SHORT [.var .short .o0, .var .double .o1]] -- 4193
  | .TYPE_CONVERSION_DOUBLE_TO_INT => [.call .TYPE_CONVERSION_DOUBLE_TO_INT [.var .int .o0, .var .double .o1]] -- 4201
  | .TYPE_CONVERSION_DOUBLE_TO_LONG => [.call .TYPE_CONVERSION_DOUBLE_TO_LONG [.var .long .o0, .var .double .o1]] -- 4209
  | .TYPE_CONVERSION_DOUBLE_TO_FLOAT => [.call .TYPE_CONVERSION_DOUBLE_TO_FLOAT [.var .float .o0, .var .double .o1]] -- 4217
  | .TYPE_CONVERSION_BYTE_TO_STRING => [.call .TYPE_CONVERSION_BYTE_TO_STRING [.sym .env, .sym .stack, .addr .object .o0, .var .byte .o1]] -- 4225
  | .TYPE_CONVERSION_SHORT_TO_STRING => [.call .TYPE_CONVERSION_SHORT_TO_STRING [.sym .env, .sym .stack, .addr .object .o0, .var .short .o1]] -- 4233
  | .TYPE_CONVERSION_INT_TO_STRING => [.call .TYPE_CONVERSION_INT_TO_STRING [.sym .env, .sym .stack, .addr .object .o0, .var .int .o1]] -- 4241
  | .TYPE_CONVERSION_LONG_TO_STRING => [.call .TYPE_CONVERSION_LONG_TO_STRING [.sym .env, .sym .stack, .addr .object .o0, .var .long .o1]] -- 4249
  | .TYPE_CONVERSION_FLOAT_TO_STRING => [.call .TYPE_CONVERSION_FLOAT_TO_STRING [.sym .env, .sym .stack, .addr .object .o0, .var .float .o1]] -- 4257
  | .TYPE_CONVERSION_DOUBLE_TO_STRING => [.call .TYPE_CONVERSION_DOUBLE_TO_STRING [.sym .env, .sym .stack, .addr .object .o0, .var .double .o1]] -- 4265
  | .TYPE_CONVERSION_STRING_TO_BYTE => [.call .TYPE_CONVERSION_STRING_TO_BYTE [.sym .env, .sym .stack, .addr .byte .o0, .var .object .o1]] -- 4273
  | .TYPE_CONVERSION_STRING_TO_SHORT => [.call .TYPE_CONVERSION_STRING_TO_SHORT [.sym .env, .sym .stack, .addr .short .o0, .var .object .o1]] -- 4283
  | .TYPE_CONVERSION_STRING_TO_INT => [.call .TYPE_CONVERSION_STRING_TO_INT [.sym .env, .sym .stack, .addr .int .o0, .var .object .o1]] -- 4293
  | .TYPE_CONVERSION_STRING_TO_LONG => [.call .TYPE_CONVERSION_STRING_TO_LONG [.sym .env, .sym .stack, .addr .long .o0, .var .object .o1]] -- 4303
  | .TYPE_CONVERSION_STRING_TO_FLOAT => [.call .TYPE_CONVERSION_STRING_TO_FLOAT [.sym .env, .sym .stack, .addr .float .o0, .var .object .o1]] -- 4313
  | .TYPE_CONVERSION_STRING_TO_DOUBLE => [.call .TYPE_CONVERSION_STRING_TO_DOUBLE [.sym .env, .sym .stack, .addr .double .o0, .var .object .o1]] -- 4323
  | .TYPE_CONVERSION_STRING_TO_BYTE_ARRAY => [.call .TYPE_CONVERSION_STRING_TO_BYTE_ARRAY [.sym .env, .sym .stack, .addr .object .o0, .var .object .o1]] -- 4333
  | .TYPE_CONVERSION_BYTE_ARRAY_TO_STRING => [.call .TYPE_CONVERSION_BYTE_ARRAY_TO_STRING [.sym .env, .sym .stack, .addr .object .o0, .var .object .o1]] -- 4343
  | .TYPE_CONVERSION_BYTE_TO_BYTE_OBJECT => [.call .TYPE_CONVERSION_BYTE_TO_BYTE_OBJECT [.sym .env, .sym .stack, .addr .object .o0, .var .byte .o1, .sym .objectHeaderSize]] -- 4353
  | .TYPE_CONVERSION_SHORT_TO_SHORT_OBJECT => [.call .TYPE_CONVERSION_SHORT_TO_SHORT_OBJECT [.sym .env, .sym .stack, .addr .object .o0, .var .short .o1, .sym .objectHeaderSize]] -- 4363
  | .TYPE_CONVERSION_INT_TO_INT_OBJECT => [.call .TYPE_CONVERSION_INT_TO_INT_OBJECT [.sym .env, .sym .stack, .addr .object .o0, .var .int .o1, .sym .objectHeaderSize]] -- 4373
  | .TYPE_CONVERSION_LONG_TO_LONG_OBJECT => [.call .TYPE_CONVERSION_LONG_TO_LONG_OBJECT [.sym .env, .sym .stack, .addr .object .o0, .var .long .o1, .sym .objectHeaderSize]] -- 4383
  | .TYPE_CONVERSION_FLOAT_TO_FLOAT_OBJECT => [.call .TYPE_CONVERSION_FLOAT_TO_FLOAT_OBJECT [.sym .env, .sym .stack, .addr .object .o0, .var .float .o1, .sym .objectHeaderSize]] -- 4393
  | .TYPE_CONVERSION_DOUBLE_TO_DOUBLE_OBJECT => [.call .TYPE_CONVERSION_DOUBLE_TO_DOUBLE_OBJECT [.sym .env, .sym .stack, .addr .object .o0, .var .double .o1, .sym .objectHeaderSize]] -- 4403
  | .TYPE_CONVERSION_BYTE_OBJECT_TO_BYTE => [.call .TYPE_CONVERSION_BYTE_OBJECT_TO_BYTE [.sym .env, .sym .stack, .addr .byte .o0, .var .object .o1, .sym .addrErrorId, .sym .objectHeaderSize]] -- 4413
  | .TYPE_CONVERSION_SHORT_OBJECT_TO_SHORT => [.call .TYPE_CONVERSION_SHORT_OBJECT_TO_SHORT [.sym .env, .sym .stack, .addr .short .o0, .var .object .o1, .sym .addrErrorId, .sym .objectHeaderSize]] -- 4423
  | .TYPE_CONVERSION_INT_OBJECT_TO_INT => [.call .TYPE_CONVERSION_INT_OBJECT_TO_INT [.sym .env, .sym .stack, .addr .int .o0, .var .object .o1, .sym .addrErrorId, .sym .objectHeaderSize]] -- 4433
  | .TYPE_CONVERSION_LONG_OBJECT_TO_LONG => [.call .TYPE_CONVERSION_LONG_OBJECT_TO_LONG [.sym .env, .sym .stack, .addr .long .o0, .var .object .o1, .sym .addrErrorId, .sym .objectHeaderSize]] -- 4443
  | .TYPE_CONVERSION_FLOAT_OBJECT_TO_FLOAT => [.call .TYPE_CONVERSION_FLOAT_OBJECT_TO_FLOAT [.sym .env, .sym .stack, .addr .float .o0, .var .object .o1, .sym .addrErrorId, .sym .objectHeaderSize]] -- 4453
  | .TYPE_CONVERSION_DOUBLE_OBJECT_TO_DOUBLE => [.call .TYPE_CONVERSION_DOUBLE_OBJECT_TO_DOUBLE [.sym .env, .sym .stack, .addr .double .o0, .var .object .o1, .sym .addrErrorId, .sym .objectHeaderSize]] -- 4463
  | .GET_STACK_BYTE => [.call .GET_STACK_BYTE [.var .byte .o0, .sym .stack, .int (.low8 .o3)]] -- 4473
  | .GET_STACK_SHORT => [.call .GET_STACK_SHORT [.var .short .o0, .sym .stack, .int (.low8 .o3)]] -- 4481
  | .GET_STACK_INT => [.call .GET_STACK_INT [.var .int .o0, .sym .stack, .int (.low8 .o3)]] -- 4489
  | .GET_STACK_LONG => [.call .GET_STACK_LONG [.var .long .o0, .sym .stack, .int (.low8 .o3)]] -- 4497
  | .GET_STACK_FLOAT => [.call .GET_STACK_FLOAT [.var .float .o0, .sym .stack, .int (.low8 .o3)]] -- 4505
  | .GET_STACK_DOUBLE => [.call .GET_STACK_DOUBLE [.var .double .o0, .sym .stack, .int (.low8 .o3)]] -- 4513
  | .GET_STACK_OBJECT => [.call .GET_STACK_OBJECT [.sym .env, .addr .object .o0, .sym .stack, .int (.low8 .o3)]] -- 4521
  | .GET_STACK_REF => [.call .GET_STACK_REF [.var .ref .o0, .sym .stack, .int (.low8 .o3)]] -- 4529
  | .GET_STACK_MULNUM_BYTE => [.call .GET_STACK_MULNUM_BYTE [.sym .env, .addr .byte .o0, .sym .stack, .int (.low8 .o3), .int (.shr8 .o3)]] -- 4537
  | .GET_STACK_MULNUM_SHORT => [.call .GET_STACK_MULNUM_SHORT [.sym .env, .addr .short .o0, .sym .stack, .int (.low8 .o3), .int (.shr8 .o3)]] -- 4549
  | .GET_STACK_MULNUM_INT => [.call .GET_STACK_MULNUM_INT [.sym .env, .addr .int .o0, .sym .stack, .int (.low8 .o3), .int (.shr8 .o3)]] -- 4561
  | .GET_STACK_MULNUM_LONG => [.call .GET_STACK_MULNUM_LONG [.sym .env, .addr .long .o0, .sym .stack, .int (.low8 .o3), .int (.shr8 .o3)]] -- 4573
  | .GET_STACK_MULNUM_FLOAT => [.call .GET_STACK_MULNUM_FLOAT [.sym .env, .addr .float .o0, .sym .stack, .int (.low8 .o3), .int (.shr8 .o3)]] -- 4585
  | .GET_STACK_MULNUM_DOUBLE => [.call .GET_STACK_MULNUM_DOUBLE [.sym .env, .addr .double .o0, .sym .stack, .int (.low8 .o3), .int (.shr8 .o3)]] -- 4597
  | .SET_STACK_BYTE => [.call .SET_STACK_BYTE [.sym .stack, .int (.opd .o3), .var .byte .o0]] -- 4613
  | .SET_STACK_SHORT => [.call .SET_STACK_SHORT [.sym .stack, .int (.opd .o3), .var .short .o0]] -- 4622
  | .SET_STACK_INT => [.call .SET_STACK_INT [.sym .stack, .int (.opd .o3), .var .int .o0]] -- 4631
  | .SET_STACK_LONG => [.call .SET_STACK_LONG [.sym .stack, .int (.opd .o3), .var .long .o0]] -- 4640
  | .SET_STACK_FLOAT => [.call .SET_STACK_FLOAT [.sym .stack, .int (.opd .o3), .var .float .o0]] -- 4649
  | .SET_STACK_DOUBLE => [.call .SET_STACK_DOUBLE [.sym .stack, .int (.opd .o3), .var .double .o0]] -- 4658
  | .SET_STACK_OBJECT => [.call .SET_STACK_OBJECT [.sym .stack, .int (.opd .o3), .var .object .o0]] -- 4667
  | .SET_STACK_REF => [.call .SET_STACK_REF [.sym .stack, .int (.opd .o3), .var .ref .o0]] -- 4676
  | .SET_STACK_UNDEF => [.call .SET_STACK_UNDEF [.sym .stack, .int (.opd .o3)]] -- 4685
  | .SET_STACK_MULNUM_BYTE => [.call .SET_STACK_MULNUM_BYTE [.sym .env, .sym .stack, .int (.opd .o3), .int (.opd .o1), .addr .byte .o0]] -- 4692
  | .SET_STACK_MULNUM_SHORT => [.call .SET_STACK_MULNUM_SHORT [.sym .env, .sym .stack, .int (.opd .o3), .int (.opd .o1), .addr .short .o0]] -- 4704
  | .SET_STACK_MULNUM_INT => [.call .SET_STACK_MULNUM_INT [.sym .env, .sym .stack, .int (.opd .o3), .int (.opd .o1), .addr .int .o0]] -- 4716
  | .SET_STACK_MULNUM_LONG => [.call .SET_STACK_MULNUM_LONG [.sym .env, .sym .stack, .int (.opd .o3), .int (.opd .o1), .addr .long .o0]] -- 4728
  | .SET_STACK_MULNUM_FLOAT => [.call .SET_STACK_MULNUM_FLOAT [.sym .env, .sym .stack, .int (.opd .o3), .int (.opd .o1), .addr .float .o0]] -- 4740
  | .SET_STACK_MULNUM_DOUBLE => [.call .SET_STACK_MULNUM_DOUBLE [.sym .env, .sym .stack, .int (.opd .o3), .int (.opd .o1), .addr .double .o0]] -- 4752
  | .RETURN_VOID => [.goto .o1] -- 4764
  | .RETURN_BYTE => [.call .RETURN_BYTE [.sym .stack, .var .byte .o0], .goto .o1] -- 4771
  | .RETURN_SHORT => [.call .RETURN_SHORT [.sym .stack, .var .short .o0], .goto .o1] -- 4781
  | .RETURN_INT => [.call .RETURN_INT [.sym .stack, .var .int .o0], .goto .o1] -- 4791
  | .RETURN_LONG => [.call .RETURN_LONG [.sym .stack, .var .long .o0], .goto .o1] -- 4801
  | .RETURN_FLOAT => [.call .RETURN_FLOAT [.sym .stack, .var .float .o0], .goto .o1] -- 4811
  | .RETURN_DOUBLE => [.call .RETURN_DOUBLE [.sym .stack, .var .double .o0], .goto .o1] -- 4821
  | .RETURN_OBJECT => [.call .RETURN_OBJECT [.sym .env, .sym .stack, .var .object .o0], .goto .o1] -- 4831
  | .RETURN_UNDEF => [.call .RETURN_UNDEF [.sym .stack], .goto .o1] -- 4841
  | .RETURN_MULNUM_BYTE => [.call .RETURN_MULNUM_BYTE [.sym .env, .sym .stack, .addr .byte .o0, .int (.opd .o2)], .goto .o1] -- 4849
  | .RETURN_MULNUM_SHORT => [.call .RETURN_MULNUM_SHORT [.sym .env, .sym .stack, .addr .short .o0, .int (.opd .o2)], .goto .o1] -- 4863
  | .RETURN_MULNUM_INT => [.call .RETURN_MULNUM_INT [.sym .env, .sym .stack, .addr .int .o0, .int (.opd .o2)], .goto .o1] -- 4877
  | .RETURN_MULNUM_LONG => [.call .RETURN_MULNUM_LONG [.sym .env, .sym .stack, .addr .long .o0, .int (.opd .o2)], .goto .o1] -- 4891
  | .RETURN_MULNUM_FLOAT => [.call .RETURN_MULNUM_FLOAT [.sym .env, .sym .stack, .addr .float .o0, .int (.opd .o2)], .goto .o1] -- 4905
  | .RETURN_MULNUM_DOUBLE => [.call .RETURN_MULNUM_DOUBLE [.sym .env, .sym .stack, .addr .double .o0, .int (.opd .o2)], .goto .o1] -- 4919
  | .ARGS_WIDTH => [.call .ARGS_WIDTH [.sym .env, .sym .stack, .var .int .o0]] -- 2872
  | .CALL_CLASS_METHOD => [.call .CALL_CLASS_METHOD [.sym .env, .sym .stack, .sym .errorId, .method .o0 .o1, .int (.opd .o2)]] -- 4933
  | .CALL_INSTANCE_METHOD_STATIC => [.call .CALL_INSTANCE_METHOD_STATIC [.sym .env, .sym .stack, .sym .errorId, .method .o0 .o1, .int (.opd .o2)]] -- 4963
  | .CALL_INSTANCE_METHOD => [.call .CALL_INSTANCE_METHOD [.sym .env, .sym .stack, .quotedType .o0, .quotedMethod .o0 .o1, .int (.opd .o2), .sym .addrErrorId]] -- 4994

/-- What the first loop of `SPVM_PRECOMPILE_build_method_source` looks up for an operation code, spvm_precompile.c 336-452, in the order
of 455-572. -/
def mentionCase : OpId → List MEnt
  | .MOVE_OBJECT_WITH_TYPE_CHECK => [.basicType .o2]
  | .NEW_OBJECT => [.basicType .o1]
  | .NEW_OBJECT_ARRAY => [.basicType .o1]
  | .NEW_MULDIM_ARRAY => [.basicType .o1]
  | .NEW_MULNUM_ARRAY => [.basicType .o1]
  | .GET_FIELD_BYTE => [.basicType .o2, .fieldOffset .o2 .o3]
  | .GET_FIELD_SHORT => [.basicType .o2, .fieldOffset .o2 .o3]
  | .GET_FIELD_INT => [.basicType .o2, .fieldOffset .o2 .o3]
  | .GET_FIELD_LONG => [.basicType .o2, .fieldOffset .o2 .o3]
  | .GET_FIELD_FLOAT => [.basicType .o2, .fieldOffset .o2 .o3]
  | .GET_FIELD_DOUBLE => [.basicType .o2, .fieldOffset .o2 .o3]
  | .GET_FIELD_OBJECT => [.basicType .o2, .fieldOffset .o2 .o3]
  | .SET_FIELD_BYTE => [.basicType .o2, .fieldOffset .o2 .o3]
  | .SET_FIELD_SHORT => [.basicType .o2, .fieldOffset .o2 .o3]
  | .SET_FIELD_INT => [.basicType .o2, .fieldOffset .o2 .o3]
  | .SET_FIELD_LONG => [.basicType .o2, .fieldOffset .o2 .o3]
  | .SET_FIELD_FLOAT => [.basicType .o2, .fieldOffset .o2 .o3]
  | .SET_FIELD_DOUBLE => [.basicType .o2, .fieldOffset .o2 .o3]
  | .SET_FIELD_OBJECT => [.basicType .o2, .fieldOffset .o2 .o3]
  | .SET_FIELD_UNDEF => [.basicType .o2, .fieldOffset .o2 .o3]
  | .GET_CLASS_VAR_BYTE => [.basicType .o1, .classVar .o1 .o2]
  | .GET_CLASS_VAR_SHORT => [.basicType .o1, .classVar .o1 .o2]
  | .GET_CLASS_VAR_INT => [.basicType .o1, .classVar .o1 .o2]
  | .GET_CLASS_VAR_LONG => [.basicType .o1, .classVar .o1 .o2]
  | .GET_CLASS_VAR_FLOAT => [.basicType .o1, .classVar .o1 .o2]
  | .GET_CLASS_VAR_DOUBLE => [.basicType .o1, .classVar .o1 .o2]
  | .GET_CLASS_VAR_OBJECT => [.basicType .o1, .classVar .o1 .o2]
  | .SET_CLASS_VAR_BYTE => [.basicType .o0, .classVar .o0 .o1]
  | .SET_CLASS_VAR_SHORT => [.basicType .o0, .classVar .o0 .o1]
  | .SET_CLASS_VAR_INT => [.basicType .o0, .classVar .o0 .o1]
  | .SET_CLASS_VAR_LONG => [.basicType .o0, .classVar .o0 .o1]
  | .SET_CLASS_VAR_FLOAT => [.basicType .o0, .classVar .o0 .o1]
  | .SET_CLASS_VAR_DOUBLE => [.basicType .o0, .classVar .o0 .o1]
  | .SET_CLASS_VAR_OBJECT => [.basicType .o0, .classVar .o0 .o1]
  | .SET_CLASS_VAR_UNDEF => [.basicType .o0, .classVar .o0 .o1]
  | .ISA => [.basicType .o2]
  | .ISA_ERROR => [.basicType .o2]
  | .IS_TYPE => [.basicType .o2]
  | .IS_ERROR => [.basicType .o2]
  | .GET_BASIC_TYPE_ID => [.basicType .o1]
  | .SET_ERROR_ID_BY_TYPE => [.basicType .o0]
  | .WEAKEN_FIELD => [.basicType .o2, .fieldOffset .o2 .o3]
  | .UNWEAKEN_FIELD => [.basicType .o2, .fieldOffset .o2 .o3]
  | .ISWEAK_FIELD => [.basicType .o2, .fieldOffset .o2 .o3]
  | .CALL_CLASS_METHOD => [.basicType .o0, .method .o0 .o1]
  | .CALL_INSTANCE_METHOD_STATIC => [.basicType .o0, .method .o0 .o1]
  | _ => []

/-- The names which are macros in include/spvm_implement.h: their arguments are texts and can be assigned.  The others are functions. -/
def isMacro : OpId → Bool
  | .PUSH_MORTAL => true
  | .MOVE_CONSTANT_BYTE => true
  | .MOVE_CONSTANT_INT => true
  | .MOVE_CONSTANT_LONG => true
  | .MOVE_CONSTANT_FLOAT => true
  | .MOVE_CONSTANT_DOUBLE => true
  | .MOVE_BYTE => true
  | .MOVE_BYTE_ZERO => true
  | .MOVE_SHORT => true
  | .MOVE_SHORT_ZERO => true
  | .MOVE_INT => true
  | .MOVE_INT_ZERO => true
  | .MOVE_LONG => true
  | .MOVE_LONG_ZERO => true
  | .MOVE_FLOAT => true
  | .MOVE_FLOAT_ZERO => true
  | .MOVE_DOUBLE => true
  | .MOVE_DOUBLE_ZERO => true
  | .MOVE_OBJECT => true
  | .MOVE_REF => true
  | .ADD_INT => true
  | .ADD_LONG => true
  | .ADD_FLOAT => true
  | .ADD_DOUBLE => true
  | .SUBTRACT_INT => true
  | .SUBTRACT_LONG => true
  | .SUBTRACT_FLOAT => true
  | .SUBTRACT_DOUBLE => true
  | .MULTIPLY_INT => true
  | .MULTIPLY_LONG => true
  | .MULTIPLY_FLOAT => true
  | .MULTIPLY_DOUBLE => true
  | .DIVIDE_FLOAT => true
  | .DIVIDE_DOUBLE => true
  | .LEFT_SHIFT_INT => true
  | .LEFT_SHIFT_LONG => true
  | .RIGHT_ARITHMETIC_SHIFT_INT => true
  | .RIGHT_ARITHMETIC_SHIFT_LONG => true
  | .RIGHT_LOGICAL_SHIFT_INT => true
  | .RIGHT_LOGICAL_SHIFT_LONG => true
  | .BIT_AND_INT => true
  | .BIT_AND_LONG => true
  | .BIT_OR_INT => true
  | .BIT_OR_LONG => true
  | .BIT_XOR_INT => true
  | .BIT_XOR_LONG => true
  | .BIT_NOT_INT => true
  | .BIT_NOT_LONG => true
  | .NEGATE_INT => true
  | .NEGATE_LONG => true
  | .NEGATE_FLOAT => true
  | .NEGATE_DOUBLE => true
  | .CONDITION_EVALUATION_INT => true
  | .CONDITION_EVALUATION_LONG => true
  | .CONDITION_EVALUATION_FLOAT => true
  | .CONDITION_EVALUATION_DOUBLE => true
  | .CONDITION_EVALUATION_OBJECT => true
  | .CONDITION_EVALUATION_REF => true
  | .CONDITION_EVALUATION_BOOL_OBJECT => true
  | .NUMERIC_COMPARISON_EQ_INT => true
  | .NUMERIC_COMPARISON_EQ_LONG => true
  | .NUMERIC_COMPARISON_EQ_FLOAT => true
  | .NUMERIC_COMPARISON_EQ_DOUBLE => true
  | .NUMERIC_COMPARISON_EQ_OBJECT => true
  | .NUMERIC_COMPARISON_EQ_REF => true
  | .NUMERIC_COMPARISON_NE_INT => true
  | .NUMERIC_COMPARISON_NE_LONG => true
  | .NUMERIC_COMPARISON_NE_FLOAT => true
  | .NUMERIC_COMPARISON_NE_DOUBLE => true
  | .NUMERIC_COMPARISON_NE_OBJECT => true
  | .NUMERIC_COMPARISON_NE_REF => true
  | .NUMERIC_COMPARISON_GT_INT => true
  | .NUMERIC_COMPARISON_GT_LONG => true
  | .NUMERIC_COMPARISON_GT_FLOAT => true
  | .NUMERIC_COMPARISON_GT_DOUBLE => true
  | .NUMERIC_COMPARISON_GE_INT => true
  | .NUMERIC_COMPARISON_GE_LONG => true
  | .NUMERIC_COMPARISON_GE_FLOAT => true
  | .NUMERIC_COMPARISON_GE_DOUBLE => true
  | .NUMERIC_COMPARISON_LT_INT => true
  | .NUMERIC_COMPARISON_LT_LONG => true
  | .NUMERIC_COMPARISON_LT_FLOAT => true
  | .NUMERIC_COMPARISON_LT_DOUBLE => true
  | .NUMERIC_COMPARISON_LE_INT => true
  | .NUMERIC_COMPARISON_LE_LONG => true
  | .NUMERIC_COMPARISON_LE_FLOAT => true
  | .NUMERIC_COMPARISON_LE_DOUBLE => true
  | .NUMERIC_COMPARISON_CMP_INT => true
  | .NUMERIC_COMPARISON_CMP_LONG => true
  | .NUMERIC_COMPARISON_CMP_FLOAT => true
  | .NUMERIC_COMPARISON_CMP_DOUBLE => true
  | .IS_UNDEF => true
  | .IS_NOT_UNDEF => true
  | .STRING_COMPARISON_EQ => true
  | .STRING_COMPARISON_NE => true
  | .STRING_COMPARISON_GT => true
  | .STRING_COMPARISON_GE => true
  | .STRING_COMPARISON_LT => true
  | .STRING_COMPARISON_LE => true
  | .STRING_COMPARISON_CMP => true
  | .IS_READ_ONLY => true
  | .MAKE_READ_ONLY => true
  | .GET_CLASS_VAR_BYTE => true
  | .GET_CLASS_VAR_SHORT => true
  | .GET_CLASS_VAR_INT => true
  | .GET_CLASS_VAR_LONG => true
  | .GET_CLASS_VAR_FLOAT => true
  | .GET_CLASS_VAR_DOUBLE => true
  | .GET_CLASS_VAR_OBJECT => true
  | .SET_CLASS_VAR_BYTE => true
  | .SET_CLASS_VAR_SHORT => true
  | .SET_CLASS_VAR_INT => true
  | .SET_CLASS_VAR_LONG => true
  | .SET_CLASS_VAR_FLOAT => true
  | .SET_CLASS_VAR_DOUBLE => true
  | .SET_CLASS_VAR_OBJECT => true
  | .SET_CLASS_VAR_UNDEF => true
  | .GET_EXCEPTION_VAR => true
  | .SET_EXCEPTION_VAR => true
  | .SET_EXCEPTION_VAR_UNDEF => true
  | .CAN => true
  | .CLEAR_EVAL_ERROR_ID => true
  | .GET_EVAL_ERROR_ID => true
  | .GET_BASIC_TYPE_ID => true
  | .SET_ERROR_ID => true
  | .REF_BYTE => true
  | .REF_SHORT => true
  | .REF_INT => true
  | .REF_LONG => true
  | .REF_FLOAT => true
  | .REF_DOUBLE => true
  | .GET_DEREF_BYTE => true
  | .GET_DEREF_SHORT => true
  | .GET_DEREF_INT => true
  | .GET_DEREF_LONG => true
  | .GET_DEREF_FLOAT => true
  | .GET_DEREF_DOUBLE => true
  | .SET_DEREF_BYTE => true
  | .SET_DEREF_SHORT => true
  | .SET_DEREF_INT => true
  | .SET_DEREF_LONG => true
  | .SET_DEREF_FLOAT => true
  | .SET_DEREF_DOUBLE => true
  | .GET_MULNUM_FIELD_BYTE => true
  | .GET_MULNUM_FIELD_SHORT => true
  | .GET_MULNUM_FIELD_INT => true
  | .GET_MULNUM_FIELD_LONG => true
  | .GET_MULNUM_FIELD_FLOAT => true
  | .GET_MULNUM_FIELD_DOUBLE => true
  | .SET_MULNUM_FIELD_BYTE => true
  | .SET_MULNUM_FIELD_SHORT => true
  | .SET_MULNUM_FIELD_INT => true
  | .SET_MULNUM_FIELD_LONG => true
  | .SET_MULNUM_FIELD_FLOAT => true
  | .SET_MULNUM_FIELD_DOUBLE => true
  | .GET_MULNUM_FIELD_DEREF_BYTE => true
  | .GET_MULNUM_FIELD_DEREF_SHORT => true
  | .GET_MULNUM_FIELD_DEREF_INT => true
  | .GET_MULNUM_FIELD_DEREF_LONG => true
  | .GET_MULNUM_FIELD_DEREF_FLOAT => true
  | .GET_MULNUM_FIELD_DEREF_DOUBLE => true
  | .SET_MULNUM_FIELD_DEREF_BYTE => true
  | .SET_MULNUM_FIELD_DEREF_SHORT => true
  | .SET_MULNUM_FIELD_DEREF_INT => true
  | .SET_MULNUM_FIELD_DEREF_LONG => true
  | .SET_MULNUM_FIELD_DEREF_FLOAT => true
  | .SET_MULNUM_FIELD_DEREF_DOUBLE => true
  | .TYPE_CONVERSION_BYTE_TO_SHORT => true
  | .TYPE_CONVERSION_BYTE_TO_INT => true
  | .TYPE_CONVERSION_BYTE_TO_LONG => true
  | .TYPE_CONVERSION_BYTE_TO_FLOAT => true
  | .TYPE_CONVERSION_BYTE_TO_DOUBLE => true
  | .TYPE_CONVERSION_SHORT_TO_BYTE => true
  | .TYPE_CONVERSION_SHORT_TO_INT => true
  | .TYPE_CONVERSION_SHORT_TO_LONG => true
  | .TYPE_CONVERSION_SHORT_TO_FLOAT => true
  | .TYPE_CONVERSION_SHORT_TO_DOUBLE => true
  | .TYPE_CONVERSION_INT_TO_BYTE => true
  | .TYPE_CONVERSION_INT_TO_SHORT => true
  | .TYPE_CONVERSION_INT_TO_LONG => true
  | .TYPE_CONVERSION_INT_TO_FLOAT => true
  | .TYPE_CONVERSION_INT_TO_DOUBLE => true
  | .TYPE_CONVERSION_LONG_TO_BYTE => true
  | .TYPE_CONVERSION_LONG_TO_SHORT => true
  | .TYPE_CONVERSION_LONG_TO_INT => true
  | .TYPE_CONVERSION_LONG_TO_FLOAT => true
  | .TYPE_CONVERSION_LONG_TO_DOUBLE => true
  | .TYPE_CONVERSION_FLOAT_TO_BYTE => true
  | .TYPE_CONVERSION_FLOAT_TO_SHORT => true
  | .TYPE_CONVERSION_FLOAT_TO_INT => true
  | .TYPE_CONVERSION_FLOAT_TO_LONG => true
  | .TYPE_CONVERSION_FLOAT_TO_DOUBLE => true
  | .TYPE_CONVERSION_DOUBLE_TO_BYTE => true
  | .TYPE_CONVERSION_DOUBLE_TO_SHORT => true
  | .TYPE_CONVERSION_DOUBLE_TO_INT => true
  | .TYPE_CONVERSION_DOUBLE_TO_LONG => true
  | .TYPE_CONVERSION_DOUBLE_TO_FLOAT => true
  | .GET_STACK_BYTE => true
  | .GET_STACK_SHORT => true
  | .GET_STACK_INT => true
  | .GET_STACK_LONG => true
  | .GET_STACK_FLOAT => true
  | .GET_STACK_DOUBLE => true
  | .GET_STACK_REF => true
  | .SET_STACK_BYTE => true
  | .SET_STACK_SHORT => true
  | .SET_STACK_INT => true
  | .SET_STACK_LONG => true
  | .SET_STACK_FLOAT => true
  | .SET_STACK_DOUBLE => true
  | .SET_STACK_OBJECT => true
  | .SET_STACK_REF => true
  | .SET_STACK_UNDEF => true
  | .RETURN_BYTE => true
  | .RETURN_SHORT => true
  | .RETURN_INT => true
  | .RETURN_LONG => true
  | .RETURN_FLOAT => true
  | .RETURN_DOUBLE => true
  | .RETURN_UNDEF => true
  | .ARGS_WIDTH => true
  | .CALL_CLASS_METHOD => true
  | .CALL_INSTANCE_METHOD_STATIC => true
  | _ => false

end SPVM.Precomp
