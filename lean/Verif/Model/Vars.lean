import Verif.Spec.Vars
/-!
# Local variables in the compiler and in the call frame

The part of `SPVM_CHECK_check_ast_syntax` (lib/SPVM/Builder/src/spvm_check.c) that finds the declaration of a variable,
`SPVM_CHECK_check_ast_typed_var_indexs`, which gives memory to the variables, and the layout of the call frame in
`SPVM_VM_call_method` (spvm_vm.c).

Simplifications: only blocks, declarations and uses of variables are kept of the op tree, in the order of the postorder walk.
Names are `String` (bytes ended by `\0` in the code).  The class variables of the class are a predicate on names; access control
of class variables is left out.  The list lengths are natural numbers (`int32_t` in the code).
-/
namespace SPVM
namespace Vars

/-- The op tree, as far as variables are concerned.  `noScope`: `SPVM_BLOCK::no_scope`. -/
inductive Body where
  | done
  | decl (d : Decl) (rest : Body)
  | use (name : String) (rest : Body)
  | block (noScope : Bool) (inner rest : Body)
deriving Repr

/-- What a body does, in the order of evaluation: a block without scope is not seen. -/
def Body.events : Body → List Ev
  | .done => []
  | .decl d rest => .decl d :: rest.events
  | .use n rest => .use n :: rest.events
  | .block true inner rest => inner.events ++ rest.events
  | .block false inner rest => .enter :: (inner.events ++ .leave :: rest.events)

/-- What a variable op means: a local variable (`var_decl->index`), or a class variable. -/
inductive Ref where
  | loc (index : Nat)
  | classVar
deriving DecidableEq, Repr

/-- Compile errors. -/
inductive Err where
  | redeclaration (name : String)
  | notFound (name : String)
  /-- a pop below an empty stack (undefined behaviour in the code) -/
  | ub
deriving DecidableEq, Repr

/-- `var_decl_stack` (the top is the head; with `var_decl->index`), `var_decl_scope_base_stack`, the length of
`method->var_decls`, the variables declared so far, and the meaning of the variable ops so far (latest first). -/
structure St where
  stack : List (String × Nat)
  bases : List Nat
  count : Nat
  decls : List Decl
  refs : List Ref
deriving Repr

/-- The name of a variable the compiler makes, spvm_check.c 2990. -/
def isTmp (name : String) : Bool := name.toList.take 2 == ['$', '.']

/-- The scan for a redeclaration, spvm_check.c 2985-2995, from the bottom of the scope upwards. -/
def redeclared (name : String) : List (String × Nat) → Bool
  | [] => false
  | e :: es => if e.1 = name then !isTmp name else redeclared name es

/-- The search from the top of the stack, spvm_check.c 3018-3025. -/
def search (name : String) : List (String × Nat) → Option Nat
  | [] => none
  | e :: es => if e.1 = name then some e.2 else search name es

/-- The search for a variable and then for a class variable, spvm_check.c 3014-3068. -/
def St.refer (classVar : String → Bool) (s : St) (name : String) : Except Err St :=
  match search name s.stack with
  | some i => .ok { s with refs := .loc i :: s.refs }
  | none => if classVar name then .ok { s with refs := .classVar :: s.refs } else .error (.notFound name)

/-- The start of a scope, spvm_check.c 1372-1379. -/
def St.enter (s : St) : St := { s with bases := s.stack.length :: s.bases }

/-- The end of a scope, spvm_check.c 2930-2940. -/
def St.leave (s : St) : Except Err St :=
  match s.bases with
  | [] => .error .ub
  | base :: rest => .ok { s with stack := s.stack.drop (s.stack.length - base), bases := rest }

/-- A declaration, spvm_check.c 2978-3005; it goes on as a use of the variable. -/
def St.declare (classVar : String → Bool) (s : St) (d : Decl) : Except Err St :=
  match s.bases with
  | [] => .error .ub
  | base :: _ =>
    if redeclared d.name (s.stack.take (s.stack.length - base)).reverse then .error (.redeclaration d.name)
    else
      { s with stack := (d.name, s.count) :: s.stack, count := s.count + 1, decls := s.decls ++ [d] }.refer classVar d.name

/-- The walk over the op tree, spvm_check.c 1365-3620. -/
def Body.check (classVar : String → Bool) : Body → St → Except Err St
  | .done, s => .ok s
  | .decl d rest, s =>
    match s.declare classVar d with
    | .error e => .error e
    | .ok s1 => rest.check classVar s1
  | .use n rest, s =>
    match s.refer classVar n with
    | .error e => .error e
    | .ok s1 => rest.check classVar s1
  | .block noScope inner rest, s =>
    match inner.check classVar (if noScope then s else s.enter) with
    | .error e => .error e
    | .ok s1 =>
      match (if noScope then .ok s1 else s1.leave) with
      | .error e => .error e
      | .ok s2 => rest.check classVar s2

/-- The check of a method whose body is a block.  `args`: the variables of the arguments are in `method->var_decls` already
(spvm_op.c 1493-1496), their declarations are the first of the body (spvm_op.c 1533-1542). -/
def checkMethod (classVar : String → Bool) (args : Nat) (body : Body) : Except Err St :=
  (Body.block false body .done).check classVar ⟨[], [], args, [], []⟩

/-! ## Memory of variables -/

/-- Whether a slot is in use, spvm_check.c 4283-4287. -/
def anyUsed (slots : List Int) (start width : Nat) : Bool := ((slots.drop start).take width).any (fun x => 0 ≤ x)

/-- Writing `id` into `width` slots, spvm_check.c 4291-4293. -/
def fill (slots : List Int) (start width : Nat) (id : Nat) : List Int :=
  slots.take start ++ List.replicate width (id : Int) ++ slots.drop (start + width)

/-- The loop of `SPVM_CHECK_get_typed_var_index`, spvm_check.c 4278-4301. -/
def findFree (slots : List Int) (width : Nat) : List Nat → Option Nat
  | [] => none
  | i :: is => if i + width ≤ slots.length ∧ anyUsed slots i width = false then some i else findFree slots width is

/-- `SPVM_CHECK_get_typed_var_index`, spvm_check.c 4268-4311. -/
def getIndex (slots : List Int) (width id : Nat) : Nat × List Int :=
  match findFree slots width (List.range slots.length) with
  | some i => (i, fill slots i width id)
  | none => (slots.length, slots ++ List.replicate width (id : Int))

/-- `runtime_vars_byte` and so on, spvm_check.c 3730-3737. -/
abbrev Slots := VarKind → List Int

/-- `SPVM_CHECK_check_ast_typed_var_indexs`, spvm_check.c 3726-3912, for the declarations in the order of the walk; `id` is the
index of the first.  The result has the `typed_var_index` of each. -/
def allocVars : List Decl → Nat → Slots → List Nat × Slots
  | [], _, s => ([], s)
  | d :: ds, id, s =>
    if d.kind = .void then
      let (is, s1) := allocVars ds (id + 1) s
      (0 :: is, s1)
    else
      let (i, l) := getIndex (s d.kind) d.width id
      let (is, s1) := allocVars ds (id + 1) (fun k => if k = d.kind then l else s k)
      (i :: is, s1)

/-- `byte_vars_width` and so on, and `mortal_stack_length`. -/
structure Frame where
  width : VarKind → Nat
  mortal : Nat

/-- `numeric_vars_size` before it is rounded up, spvm_vm.c 106-112. -/
def Frame.numeric (f : Frame) : Nat :=
  f.width .long * 8 + f.width .double * 8 + f.width .int * 4 + f.width .float * 4 + f.mortal * 4 + f.width .short * 2
    + f.width .byte * 1

/-- `numeric_vars_size`, spvm_vm.c 114-116. -/
def Frame.numericSize (f : Frame) : Nat := if f.numeric % 8 ≠ 0 then f.numeric + (8 - f.numeric % 8) else f.numeric

/-- `total_vars_size`, spvm_vm.c 118-124. -/
def Frame.total (f : Frame) : Nat := f.numericSize + (f.width .object * 8 + f.width .ref * 8)

/-- The bytes allocated, spvm_vm.c 126: `none` if the `int32_t` arithmetic overflows. -/
def Frame.alloc (f : Frame) : Option Nat := if f.total + 1 < 2 ^ 31 then some (f.total + 1) else none

/-- Where `double_vars` and so on begin, spvm_vm.c 134-173. -/
def Frame.area (f : Frame) : VarKind → Nat
  | .double => 0
  | .long => f.width .double * 8
  | .float => f.width .double * 8 + f.width .long * 8
  | .int => f.width .double * 8 + f.width .long * 8 + f.width .float * 4
  | .short => f.width .double * 8 + f.width .long * 8 + f.width .float * 4 + f.width .int * 4 + f.mortal * 4
  | .byte => f.width .double * 8 + f.width .long * 8 + f.width .float * 4 + f.width .int * 4 + f.mortal * 4 + f.width .short * 2
  | .object => f.numericSize
  | .ref => f.numericSize + f.width .object * 8
  | .void => 0

/-- Where `mortal_stack` begins, spvm_vm.c 151-152. -/
def Frame.mortalArea (f : Frame) : Nat := f.width .double * 8 + f.width .long * 8 + f.width .float * 4 + f.width .int * 4

/-- The address of a variable in the frame: `int_vars[i]` and so on. -/
def Frame.addr (f : Frame) (k : VarKind) (i : Nat) : Nat := f.area k + i * k.size

/-- The frame of a method: the widths that `SPVM_CHECK_check_ast_typed_var_indexs` sets (spvm_check.c 3893-3900) and
`mortal_stack_length` (spvm_opcode_builder.c 5096-5099). -/
def frameOf (decls : List Decl) (id mortal : Nat) : Frame :=
  { width := fun k => ((allocVars decls id (fun _ => [])).2 k).length, mortal := mortal }

end Vars
end SPVM
