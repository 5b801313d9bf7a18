import Verif.Model.Types
import Verif.Model.Vars
import Verif.Model.Expr
import Verif.Model.Call
/-!
# Arguments and return values of method calls

How the compiler checks a parameter list (lib/SPVM/Builder/src/spvm_check.c 455-742) and the arguments of a call (3074-3171), the
opcodes it makes for them on both sides of the call (spvm_opcode_builder.c 56-223, 638-740, 1056-1330), what the virtual machine
does with these (lib/SPVM/Builder/include/spvm_implement.h 2393-2487, 2558-2609), and the part of `SPVM_API_call_method_common`
between them (spvm_api.c 4792-4860; its two loops are modelled in Model/Call.lean).

Simplifications: the local variables of a call are arrays, one for each kind of variable (their places in memory are in
Model/Vars.lean).  A cell of the value stack, a C union, remembers as what it was written; reading it as something else is `ub`.
Reference counts and the scope of the objects are in Model/Own.lean.  Error messages are not modelled.
-/
namespace SPVM
namespace Args
open Types (World Ty Cat cat isNumeric isMulnum isObject isUndef isVoid assign)
open Vars (VarKind Decl)
open Expr (NT Val Fl)

/-- What the compiler knows about the types: the basic types, the fuel of the walks over them (Model/Types.lean), and for the
multi-numeric types the type of the first field and the number of the fields. -/
structure Env where
  w : World
  n : Nat
  mul : Nat → VarKind × Nat

/-- The value in a variable: a number, an object (or `undef`) or the address of a variable. -/
inductive V (φ : Type) where
  | num (x : Val φ)
  | obj (o : Option Nat)
  | ref (a : Nat)
deriving DecidableEq, Repr

/-- A cell of the value stack (`SPVM_VALUE`) and the member of the union it was written as. -/
abbrev Cell (φ : Type) := VarKind × V φ

/-- `byte_vars`, ..., `object_vars`, `ref_vars`. -/
abbrev Mem (φ : Type) := VarKind → Nat → V φ
def Mem.set {φ} (m : Mem φ) (k : VarKind) (i : Nat) (v : V φ) : Mem φ := fun k' i' => if k' = k ∧ i' = i then v else m k' i'

/-- The kind of the variables of the numeric type with a basic type id. -/
def numKind : Nat → VarKind
  | 3 => .byte | 4 => .short | 5 => .int | 6 => .long | 7 => .float | 8 => .double | _ => .void
def numType : Nat → NT
  | 3 => .byte | 4 => .short | 5 => .int | 6 => .long | 7 => .float | _ => .double

/-- `SPVM_TYPE_get_type_width`, spvm_type.c 861-878. -/
def width (E : Env) (t : Ty) : Nat := if isMulnum E.w t then (E.mul t.bt).2 else 1

/-- The array of variables for a type, spvm_check.c 3778-3880. -/
def varKind (E : Env) (t : Ty) : VarKind :=
  if isObject E.w t then .object
  else if t.ref then .ref
  else if isMulnum E.w t then (E.mul t.bt).1
  else if isNumeric t then numKind t.bt
  else .void

/-! ## Parameter lists -/

/-- The default value of an optional parameter: a constant, `undef`, or anything else. -/
inductive Dflt (φ : Type) where
  | const (t : NT) (x : Val φ)
  | undef
  | other

structure Param (φ : Type) where
  ty : Ty
  dflt : Option (Dflt φ) := none

/-- A method.  The first parameter of an instance method is `$self`, spvm_op.c 1455-1468. -/
structure Meth (φ : Type) where
  isClass : Bool := false
  params : List (Param φ)
  ret : Ty

/-- `required_args_length`, spvm_op.c 1470-1489. -/
def required {φ} : List (Param φ) → Nat
  | [] => 0
  | p :: ps => if p.dflt.isSome then 0 else required ps + 1

def msgConst : String := "The default value of the optional argument must be a constant value."
def msgDefault : String := "The default value of the optional argument must be able to be assigned to the argument."
def msgUndef : String := "The default value of the optional argument must be undef."
def msgOptional : String := "The types other than the numeric type and the object type cannnot be used in the optional argument."
def msgAfter : String := "Arguments after optional arguments must be optional arguments."
def msgWidth : String := "The width of the arguments must be less than or equal to 255."

/-- `arg_default_value`, spvm_check.c 505-705: a C cast of the constant to the type of the parameter. -/
def constTo {φ} (F : Fl φ) (s t : NT) (x : Val φ) : Out (Val φ) := if s = t then .ok x else Expr.convVal F s t x

/-- The default value of a parameter, spvm_check.c 474-718.  `SPVM_CHECK_check_allow_narrowing_conversion` and the assignability
of the constant are `Expr.checkAssign` of Model/Expr.lean. -/
def dfltCell {φ} (E : Env) (F : Fl φ) (t : Ty) : Dflt φ → Out (Cell φ)
  | .const s x =>
    if isNumeric t then
      match Expr.checkAssign (numType t.bt) (.const s x) with
      | .ok _ => do
        let y ← constTo F s (numType t.bt) x
        .ok (numKind t.bt, .num y)
      | .die _ => .die msgDefault
      | .ub => .ub
    else if isObject E.w t then .die msgUndef
    else .die msgOptional
  | .undef =>
    if isNumeric t then .die msgConst
    else if isObject E.w t then .ok (.object, .obj none)
    else .die msgOptional
  | .other =>
    if isNumeric t then .die msgConst
    else if isObject E.w t then .die msgUndef
    else .die msgOptional

/-- The loop over the parameters, spvm_check.c 465-737: `found` is `found_optional_arg`, `wd` is `args_width`.  The result has the
`SPVM_RUNTIME_ARG`s (spvm_compiler.c 880-902); the unused default value of a required parameter is a cell that was never written. -/
def checkParams {φ} (E : Env) (F : Fl φ) : List (Param φ) → Bool → Nat → Out (List (Call.Arg Ty (Cell φ)) × Nat)
  | [], _, wd => .ok ([], wd)
  | p :: ps, found, wd =>
    match p.dflt with
    | some d => do
      let c ← dfltCell E F p.ty d
      let r ← checkParams E F ps true (wd + width E p.ty)
      .ok (⟨p.ty, isObject E.w p.ty, wd, c⟩ :: r.1, r.2)
    | none =>
      if found then .die msgAfter
      else do
        let r ← checkParams E F ps false (wd + width E p.ty)
        .ok (⟨p.ty, isObject E.w p.ty, wd, (.void, .obj none)⟩ :: r.1, r.2)

/-- The check of the parameters of a method, spvm_check.c 455-742. -/
def checkMeth {φ} (E : Env) (F : Fl φ) (ps : List (Param φ)) : Out (List (Call.Arg Ty (Cell φ))) := do
  let r ← checkParams E F ps false 0
  if r.2 ≤ 255 then .ok r.1 else .die msgWidth

/-! ## The check of a call -/

def msgMany : String := "Too many arguments are passed"
def msgFew : String := "Too few arguments are passed"
def msgAssign : String := "type cannot be assigned to type"
def msgVoid : String := "The void type cannnot be assigned"

/-- `SPVM_CHECK_check_assign`, spvm_check.c 4214-4266: the type of the operand afterwards (a type cast to `d` is inserted when the data
must be converted).  `narrow` is the answer of `SPVM_CHECK_check_allow_narrowing_conversion` for the operand. -/
def checkAssign (E : Env) (d : Ty) (s : Ty) (narrow : Bool) : Out Ty :=
  if isVoid s then .die msgVoid
  else do
    let a ← assign E.w E.n narrow false d s
    match a with
    | .no => .die msgAssign
    | .yes => .ok s
    | .conv => .ok d

/-- The loop over the arguments of a call, spvm_check.c 3101-3150, over the parameters that are left; it gives the types of the
operands afterwards. -/
def checkTerms {φ} (E : Env) : List (Param φ) → List (Ty × Bool) → Out (List Ty)
  | _, [] => .ok []
  | [], _ :: _ => .die msgMany
  | p :: ps, t :: ts => do
    let t' ← checkAssign E p.ty t.1 t.2
    let r ← checkTerms E ps ts
    .ok (t' :: r)

/-- The check of the arguments of a call, spvm_check.c 3096-3165. -/
def checkCall {φ} (E : Env) (m : Meth φ) (ts : List (Ty × Bool)) : Out (List Ty) := do
  let r ← checkTerms E m.params ts
  if ts.length < required m.params then .die msgFew else .ok r

/-! ## The opcodes -/

/-- `SET_STACK_BYTE`, ..., `SET_STACK_OBJECT`, `SET_STACK_REF` (`set`), `SET_STACK_MULNUM_*` and `SET_STACK_UNDEF`. -/
inductive SetOp where
  | set (k : VarKind) (op0 op3 : Nat)
  | mul (k : VarKind) (op0 op1 op3 : Nat)
  | undef (op3 : Nat)

/-- `GET_STACK_BYTE`, ... (`get`), `GET_STACK_MULNUM_*`. -/
inductive GetOp where
  | get (k : VarKind) (op0 op3 : Nat)
  | mul (k : VarKind) (op0 op3 : Nat)

/-- An operand of a call after the check: its type and its `typed_var_index`. -/
structure Term where
  ty : Ty
  var : Nat

/-- The opcode for one argument, spvm_opcode_builder.c 1097-1228; `idx` is `args_type_width`.  `operand3` has 16 bits
(spvm_opcode.h 507-513). -/
def setOp (E : Env) (t : Ty) (a : Term) (idx : Nat) : Out SetOp :=
  if isUndef a.ty then .ok (.undef (idx % 65536))
  else if t.ref then .ok (.set .ref a.var (idx % 65536))
  else if isMulnum E.w t then .ok (.mul (E.mul t.bt).1 a.var (E.mul t.bt).2 (idx % 65536))
  else if isObject E.w t then .ok (.set .object a.var (idx % 65536))
  else if isNumeric t then .ok (.set (numKind t.bt) a.var (idx % 65536))
  else .ub

/-- The loop over the parameters of the called method, spvm_opcode_builder.c 1084-1231: it ends when there are no more arguments.  The
second result is `operand2` of the call. -/
def setCode {φ} (E : Env) : List (Param φ) → List Term → Nat → Out (List SetOp × Nat)
  | [], _, idx => .ok ([], idx)
  | _ :: _, [], idx => .ok ([], idx)
  | p :: ps, a :: as, idx => do
    let o ← setOp E p.ty a idx
    let r ← setCode E ps as (idx + width E p.ty)
    .ok (o :: r.1, r.2)

/-- The opcode that stores a parameter in its variable, spvm_opcode_builder.c 72-220. -/
def getOp (E : Env) (t : Ty) (var idx : Nat) : Out GetOp :=
  if t.dim = 0 then
    if t.ref then
      if cat E.w t.bt = .numeric ∨ cat E.w t.bt = .mulnum then .ok (.get .ref var (idx % 256)) else .ub
    else
      match cat E.w t.bt with
      | .numeric => if numKind t.bt = .void then .ub else .ok (.get (numKind t.bt) var (idx % 256))
      | .mulnum => .ok (.mul (E.mul t.bt).1 var (((E.mul t.bt).2 * 256 + idx % 256) % 65536))
      | .string | .cls | .iface | .anyObject => .ok (.get .object var (idx % 256))
      | _ => .ub
  else if t.dim = 1 then
    match cat E.w t.bt with
    | .numeric | .mulnum | .string | .cls | .iface | .anyObject => .ok (.get .object var (idx % 256))
    | _ => .ub
  else if t.dim = 2 then .ok (.get .object var (idx % 256))
  else .ub

/-- The loop over the parameters at the start of a method, spvm_opcode_builder.c 59-223; `vars` are the `typed_var_index`es. -/
def getCode {φ} (E : Env) : List (Param φ) → List Nat → Nat → Out (List GetOp)
  | [], _, _ => .ok []
  | _ :: _, [], _ => .ub
  | p :: ps, v :: vs, idx => do
    let o ← getOp E p.ty v idx
    let r ← getCode E ps vs (idx + width E p.ty)
    .ok (o :: r)

/-! ## Execution -/

/-- Writing a cell of the value stack. -/
def put {φ} (s : List (Cell φ)) (i : Nat) (c : Cell φ) : Out (List (Cell φ)) := if i < s.length then .ok (s.set i c) else .ub

/-- `SPVM_IMPLEMENT_SET_STACK_MULNUM_*`, spvm_implement.h 2403-2437; also `SPVM_IMPLEMENT_RETURN_MULNUM_*`, 2574-2608. -/
def putMul {φ} (m : Mem φ) (k : VarKind) (var : Nat) (base : Nat) : Nat → List (Cell φ) → Out (List (Cell φ))
  | 0, s => .ok s
  | n + 1, s => do
    let s ← putMul m k var base n s
    put s (base + n) (k, m k (var + n))

/-- `SPVM_IMPLEMENT_SET_STACK_*`, spvm_implement.h 2393-2438, and spvm_vm.c 2206-2275. -/
def execSet {φ} (m : Mem φ) (s : List (Cell φ)) : SetOp → Out (List (Cell φ))
  | .set k op0 op3 => put s op3 (k, m k op0)
  | .mul k op0 op1 op3 => putMul m k op0 op3 op1 s
  | .undef op3 => put s op3 (.object, .obj none)

def execSets {φ} (m : Mem φ) : List SetOp → List (Cell φ) → Out (List (Cell φ))
  | [], s => .ok s
  | o :: os, s => do
    let s ← execSet m s o
    execSets m os s

/-- Reading a cell of the value stack as the kind `k`. -/
def read {φ} (s : List (Cell φ)) (i : Nat) (k : VarKind) : Out (V φ) := do
  let c ← Call.slot s i
  if c.1 = k then .ok c.2 else .ub

/-- `SPVM_IMPLEMENT_GET_STACK_MULNUM_*`, spvm_implement.h 2452-2486. -/
def getMul {φ} (s : List (Cell φ)) (k : VarKind) (var base : Nat) : Nat → Mem φ → Out (Mem φ)
  | 0, m => .ok m
  | n + 1, m => do
    let m ← getMul s k var base n m
    let v ← read s (base + n) k
    .ok (m.set k (var + n) v)

/-- `SPVM_IMPLEMENT_GET_STACK_*`, spvm_implement.h 2439-2487, and spvm_vm.c 2140-2200: the lower byte of `operand3` is the index and
the upper byte the number of fields. -/
def execGet {φ} (s : List (Cell φ)) (m : Mem φ) : GetOp → Out (Mem φ)
  | .get k op0 op3 => do
    let v ← read s (op3 % 256) k
    .ok (m.set k op0 v)
  | .mul k op0 op3 => getMul s k op0 (op3 % 256) (op3 / 256) m

def execGets {φ} (s : List (Cell φ)) : List GetOp → Mem φ → Out (Mem φ)
  | [], m => .ok m
  | o :: os, m => do
    let m ← execGet s m o
    execGets s os m

def msgArg : String := "The object given in the argument must be assigned to the type of the argument"

/-- `!obj_arg || isa(obj_arg, type)` for the object in a cell, spvm_api.c 4823-4826. -/
def cellFits {φ} (fits : Nat → Ty → Bool) (c : Cell φ) (t : Ty) : Bool :=
  match c.2 with
  | .obj (some o) => fits o t
  | _ => true

/-- `SPVM_API_call_method_common`, spvm_api.c 4792-4860, from the check of the arguments of an instance method to the default
values.  The call depth and INIT methods are in Model/Call.lean. -/
def enter {φ} (fits : Nat → Ty → Bool) (m : Meth φ) (ra : List (Call.Arg Ty (Cell φ))) (s : List (Cell φ)) (wd : Nat) :
    Out (List (Cell φ)) := do
  let ok ← if m.isClass then .ok true else Call.checkArgs (cellFits fits) s wd ra
  if ok then Call.fillDefaults wd (ra.drop (required m.params)) s else .die msgArg

/-- A call: the caller was compiled for the method `dm`, the method `sm` is run.  `as` are the operands, `cm` the variables of the
caller, `m` those of the new frame, `s` the value stack. -/
def call {φ} (E : Env) (F : Fl φ) (fits : Nat → Ty → Bool) (dm sm : Meth φ) (vars : List Nat) (as : List Term) (cm m : Mem φ)
    (s : List (Cell φ)) : Out (Mem φ × List (Cell φ)) := do
  let ra ← checkMeth E F sm.params
  let sc ← setCode E dm.params as 0
  let gc ← getCode E sm.params vars 0
  let s ← execSets cm sc.1 s
  let s ← enter fits sm ra s sc.2
  let m ← execGets s gc m
  .ok (m, s)

/-- The variables of the parameters: the first declarations of the method, spvm_check.c 3726-3912. -/
def paramVars {φ} (E : Env) (ps : List (Param φ)) (others : List Decl) : List Nat :=
  (Vars.allocVars (ps.map (fun p => ⟨"", varKind E p.ty, width E p.ty⟩) ++ others) 0 (fun _ => [])).1.take ps.length

/-! ## Return values -/

/-- `RETURN_*`, spvm_opcode_builder.c 638-752, and spvm_implement.h 2558-2609.  `a` is the operand after the check. -/
def execReturn {φ} (E : Env) (t : Ty) (a : Term) (m : Mem φ) (s : List (Cell φ)) : Out (List (Cell φ)) :=
  if isUndef a.ty then put s 0 (.object, .obj none)
  else if isNumeric t then put s 0 (numKind t.bt, m (numKind t.bt) a.var)
  else if isObject E.w t then put s 0 (.object, m .object a.var)
  else if isMulnum E.w t then putMul m (E.mul a.ty.bt).1 a.var 0 (width E t) s
  else .ub

/-- The opcode after a call that stores the return value in the variable `var`, spvm_opcode_builder.c 1240-1325.  Nothing for `void`. -/
def retOp (E : Env) (t : Ty) (var : Nat) : Out (Option GetOp) :=
  if isNumeric t then .ok (some (.get (numKind t.bt) var 0))
  else if isVoid t then .ok none
  else if isObject E.w t then .ok (some (.get .object var 0))
  else if isMulnum E.w t then .ok (some (.mul (E.mul t.bt).1 var ((width E t * 256) % 65536)))
  else .ub

/-- `return a` in the method `sm`, called as `var = dm(...)`: `m` are the variables of the callee, `cm` those of the caller. -/
def callReturn {φ} (E : Env) (dm sm : Meth φ) (a : Term) (var : Nat) (m cm : Mem φ) (s : List (Cell φ)) : Out (Mem φ) := do
  let o ← retOp E dm.ret var
  let s ← execReturn E sm.ret a m s
  match o with
  | some o => execGet s cm o
  | none => .ok cm

end Args
end SPVM
