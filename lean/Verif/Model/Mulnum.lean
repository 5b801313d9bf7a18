import Verif.Base
import Verif.Spec.Decimal

/-!
# The checks of multi-numeric types

`SPVM_OP_build_class` (spvm_op.c 1005-1024) and the multi-numeric part of `SPVM_CHECK_check_fields` (spvm_check.c 258-310).  Names are bytes
without NUL.  `sprintf` with `%d` writes decimal digits (`Spec.digits`).
-/

namespace SPVM.Mulnum

abbrev Bytes := List UInt8

/-- The numeric types. -/
inductive Num where
  | byte | short | int | long | float | double
deriving DecidableEq

/-- A basic type: a numeric type or another one, by its ID. -/
inductive Base where
  | num (t : Num)
  | other (id : Nat)
deriving DecidableEq

structure Ty where
  base : Base
  dim : Nat
deriving DecidableEq

/-- What the checks read of a class with the attribute `mulnum_t`; `methods` says of each method whether it is a class method. -/
structure Cls where
  name : Bytes
  fields : List Ty
  methods : List Bool
  classVars : Nat
deriving DecidableEq

inductive Verdict where
  | accepted
  | rejected
deriving DecidableEq

/-- `SPVM_TYPE_is_numeric_type` for types that are not references (spvm_type.c 96-105): a numeric basic type and no dimension. -/
def Ty.numeric (t : Ty) : Option Num :=
  match t.base with
  | .num n => if t.dim = 0 then some n else none
  | .other _ => none

/-- spvm_op.c 1005-1024: the class is rejected if one of the checks reports an error. -/
def buildClass (c : Cls) : Verdict :=
  if c.methods.any (fun isClassMethod => !isClassMethod) then .rejected
  else if c.classVars > 0 then .rejected
  else if c.fields.length = 0 then .rejected
  else if c.fields.length > 255 then .rejected
  else .accepted

/-- The last byte of `tail_name`, spvm_check.c 279-298. -/
def letter : Num → UInt8
  | .byte => 98
  | .short => 115
  | .int => 105
  | .long => 108
  | .float => 102
  | .double => 100

/-- `tail_name`, spvm_check.c 279-298. -/
def tailName (t : Num) (n : Nat) : Bytes := 95 :: (Spec.digits n ++ [letter t])

/-- `strstr(haystack, needle) != NULL`. -/
def strstr (needle : Bytes) : Bytes → Bool
  | [] => needle.isEmpty
  | c :: r => needle.isPrefixOf (c :: r) || strstr needle r

/-- spvm_check.c 258-310.  The message about fields of different types has a string for `%d` (line 273), and a name shorter than the tail
gives a pointer before the name (line 305): both are undefined. -/
def checkFields (c : Cls) : Out Verdict :=
  match c.fields with
  | [] => .ub
  | first :: _ =>
    match first.numeric with
    | none => .ok .rejected
    | some t =>
      if c.fields.any (fun f => !(f.base == first.base && f.dim == first.dim)) then .ub
      else
        let tail := tailName t c.fields.length
        if tail.length > c.name.length then .ub
        else if strstr tail (c.name.drop (c.name.length - tail.length)) then .ok .accepted
        else .ok .rejected

/-- Both; after an error of the first the second is not reached (spvm_compiler.c: the checks follow a parse without errors). -/
def check (c : Cls) : Out Verdict :=
  match buildClass c with
  | .rejected => .ok .rejected
  | .accepted => checkFields c

end SPVM.Mulnum
