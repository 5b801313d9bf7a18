import Verif.Spec.MethodCall

/-!
# Model of `Native::MethodCall` (lib/SPVM/Native/MethodCall.c, lib/SPVM/Native/MethodCall.spvm)

The object and its fields, the pointers wrapped in `Address` objects and `get_exception`/`set_exception` are left out.  The
method that is called is a parameter (`self_env->call_method`).  Only one runtime environment is modelled, so every object is
binary compatible.  The messages are shortened to their fixed part.
-/

namespace SPVM.MethodCall

open SPVM.Exch (NumK BT Cell Arg Method Obj Heap World Runtime X deref alloc crash readAll cellAt)

/-- `is_object_type`, lib/SPVM/Builder/src/spvm_api_type.c. -/
def isObject (ty : BT) (dim : Nat) : Bool :=
  dim != 0 || match ty with
    | .string | .any | .cls _ => true
    | .num _ | .mul _ _ => false

/-- `env->get_elems_byte` and its siblings on an object: its numbers, if it holds numbers of the type. -/
def elemsOf (k : NumK) (ob : Obj) : Out (List (Cell k)) :=
  match ob.body with
  | .nums k' cs => if e : k' = k then .ok (e ▸ cs) else .ub
  | _ => .ub

/-- The conversion of one argument, MethodCall.c 225-626: the words put on the stack.  In line 239 the dimension of the
parameter is passed instead of the dimension of the argument. -/
def convertArg (W : World) (a : Arg) (o : Option Nat) : X (List Word) :=
  if a.ref = false ∧ isObject a.ty a.dim = true then
    match o with
    | none => pure [.obj none]
    | some x => do
      let ob ← deref (some x)
      if W.isa ob.ty a.dim a.ty a.dim then pure [.obj (some x)]
      else Prog.die "The argument cannot be assigned"
  else
    match o with
    | none => Prog.die "The argument must be defined"
    | some x => do
      let ob ← deref (some x)
      if a.ref then
        match a.ty with
        | .num k =>
          if ob.len ≠ 1 then Prog.die "The array length of the argument must be 1"
          else if ob.ty = .num k ∧ ob.dim = 1 then pure [.elems x]
          else Prog.die "The type of the argument must be the array type"
        | .mul fs k =>
          if ob.len ≠ fs.length then Prog.die "The array length of the argument is wrong"
          else if ob.ty = .num k ∧ ob.dim = 1 then pure [.elems x]
          else Prog.die "The type of the argument must be the array type"
        | _ => crash
      else
        match a.ty with
        | .num k =>
          if ob.ty = .cls (boxClass k) ∧ ob.dim = 0 then do
            let cs ← Prog.lift (elemsOf k ob)
            let c ← Prog.lift (cellAt cs 0)
            pure [.num k c]
          else Prog.die "The type of the argument must be the class"
        | .mul fs k =>
          if ob.len ≠ fs.length then Prog.die "The array length of the argument is wrong"
          else if ob.ty = .num k ∧ ob.dim = 1 then do
            let cs ← Prog.lift (elemsOf k ob)
            let vs ← Prog.lift (readAll (cellAt cs) fs.length 0)
            pure (vs.map (.num k))
          else Prog.die "The type of the argument must be the array type"
        | _ => crash

/-- The loop over the arguments, MethodCall.c 225-628.  The stack is written from the bottom, so it is the list of the words. -/
def convertArgs (W : World) : List Arg → List (Option Nat) → X (List Word)
  | _, [] => pure []
  | [], _ :: _ => crash
  | a :: as, o :: os => do
    let w ← convertArg W a o
    let ws ← convertArgs W as os
    pure (w ++ ws)

/-- What a method does: it returns with its stack, or throws an exception with an error id. -/
inductive CallRes
  | ret (st : Nat → Word)
  | throw (id : Int) (text : List UInt8)

/-- A method called with the number of words on the stack and the stack (`self_env->call_method`). -/
abbrev Callee : Type := Nat → (Nat → Word) → Heap → CallRes × Heap

/-- What `call` yields: a value, or the exception of the method with its text. -/
inductive Res
  | value (o : Option Nat)
  | exception (text : List UInt8)

/-- A number on the stack. -/
def wordNum (k : NumK) : Word → Out (Cell k)
  | .num k' c => if e : k' = k then .ok (e ▸ c) else .ub
  | _ => .ub

/-- An object on the stack. -/
def wordObj : Word → Out (Option Nat)
  | .obj o => .ok o
  | _ => .ub

/-- The number handed to the constructor of the numeric class: a `byte` or `short` is widened to `int` (MethodCall.c 670, 678)
and narrowed again by `Byte->new` and `Short->new`. -/
def boxArg : (k : NumK) → Cell k → Cell k
  | .byte, c => BitVec.setWidth 8 (BitVec.signExtend 32 (show BitVec 8 from c))
  | .short, c => BitVec.setWidth 16 (BitVec.signExtend 32 (show BitVec 16 from c))
  | .int, c => c
  | .long, c => c
  | .float, c => c
  | .double, c => c

/-- The caller's own stack, if the call was made for another stack: its first word still is the `Native::MethodCall` object, and
read as a number it is `bits`. -/
structure OwnStack where
  call : Nat
  bits : (k : NumK) → Cell k

/-- The return value, MethodCall.c 645-819.  `is_binary_compatible_object` (lib/SPVM/Builder/src/spvm_api.c 5406-5435) follows
the pointer to the returned object.  The results are written to `self_stack[0]`, and the numeric constructors are called on
`stack`; what the caller gets is `stack[0]`.  `own` is `none` if both are the same stack. -/
def giveBack (own : Option OwnStack) (ret : Option (BT × Nat)) (st : Nat → Word) : X (Option Nat) :=
  let result (o : Option Nat) : Option Nat := match own with
    | none => o
    | some s => some s.call
  match ret with
  | none => pure (result none)
  | some (ty, dim) =>
    if isObject ty dim then do
      let o ← Prog.lift (wordObj (st 0))
      let _ ← deref o
      pure (result o)
    else
      match ty with
      | .num k => do
        let c ← Prog.lift (wordNum k (st 0))
        let c := match own with
          | none => boxArg k c
          | some s => s.bits k
        let x ← alloc (boxOf k c)
        pure (some x)
      | .mul fs k => do
        let cs ← Prog.lift (readAll (fun i => wordNum k (st i)) fs.length 0)
        let x ← alloc (arrayOf k cs)
        pure (result (some x))
      | _ => crash

/-- `*error_id_ref = self_error_id`, MethodCall.c 634-637. -/
def storeId (id : Int) (errRef : Option Nat) : X Unit :=
  match errRef with
  | none => pure ()
  | some e => fun h =>
    match h[e]? with
    | some ob => (.ok (), h.set e { ob with body := .nums .int [BitVec.ofInt 32 id] })
    | none => (.ub, h)

/-- The check of `$error_id_ref`, MethodCall.c 179-185. -/
def checkErrRef (errRef : Option Nat) : X Unit :=
  match errRef with
  | none => pure ()
  | some e => do
    let ob ← deref (some e)
    if ob.len = 1 then pure ()
    else Prog.die "If the reference to an error id $error_id_ref exists, the length of it must be 1."

/-- What follows the call of the method, MethodCall.c 634-821. -/
def afterCall (own : Option OwnStack) (ret : Option (BT × Nat)) (errRef : Option Nat) (r : CallRes) : X Res :=
  match r with
  | .throw id text => do
    storeId id errRef
    pure (.exception text)
  | .ret st => do
    storeId 0 errRef
    let o ← giveBack own ret st
    pure (.value o)

/-- `Native::MethodCall#call`, MethodCall.c 169-822.  `stale` is what the stack held before. -/
def call (W : World) (own : Option OwnStack) (C : Callee) (stale : Nat → Word) (m : Method) (args : Option (List (Option Nat)))
    (errRef : Option Nat) : X Res := do
  checkErrRef errRef
  if (args.getD []).length < m.required then Prog.die "Too few arguments"
  else if m.args.length < (args.getD []).length then Prog.die "Too many arguments"
  else do
    let ws ← convertArgs W m.args (args.getD [])
    let h ← Prog.get
    let r := C ws.length (fun i => (ws[i]?).getD (stale i)) h
    Prog.set r.2
    afterCall own m.ret errRef r.1

/-- `new_class_method`, MethodCall.c 69-86 with `SPVM_API_get_class_method`, spvm_api.c 4298-4309. -/
def newClassMethod (R : Runtime) (cls name : Option (List UInt8)) : Out Method :=
  match cls with
  | none => .die "The basic type name $basic_type_name must be defined."
  | some cls =>
    match name with
    | none => .die "The method name $method_name must be defined."
    | some name =>
      match R.basicType cls with
      | none => .die "The class method cannot be found"
      | some t =>
        match R.method t name with
        | none => .die "The class method cannot be found"
        | some m => if m.static then .ok m else .die "The class method cannot be found"

/-- `new_instance_method_static`, MethodCall.c 87-104 with `SPVM_API_get_instance_method_static`, spvm_api.c 4311-4322. -/
def newInstanceMethodStatic (R : Runtime) (cls name : Option (List UInt8)) : Out Method :=
  match cls with
  | none => .die "The basic type name $basic_type_name must be defined."
  | some cls =>
    match name with
    | none => .die "The method name $method_name must be defined."
    | some name =>
      match R.basicType cls with
      | none => .die "The instance method cannot be found"
      | some t =>
        match R.method t name with
        | none => .die "The instance method cannot be found"
        | some m => if m.static then .die "The instance method cannot be found" else .ok m

/-- `new_instance_method`, MethodCall.c 105-121 with `SPVM_API_get_instance_method`, spvm_api.c 4324-4358. -/
def newInstanceMethod (R : Runtime) (inst : Option Nat) (name : Option (List UInt8)) : X Method :=
  match inst with
  | none => Prog.die "The instance $instance must be defined."
  | some x =>
    match name with
    | none => Prog.die "The method name $method_name must be defined."
    | some name => do
      let ob ← deref (some x)
      match R.dispatch ob.ty name with
      | none => Prog.die "The instance method cannot be found"
      | some m => if m.static then Prog.die "The instance method cannot be found" else pure m

/-- `call_class_method`, MethodCall.spvm 42-49. -/
def callClassMethod (R : Runtime) (C : Method → Callee) (stale : Nat → Word) (cls name : Option (List UInt8))
    (args : Option (List (Option Nat))) (errRef : Option Nat) : X Res := do
  let m ← Prog.lift (newClassMethod R cls name)
  call R.toWorld none (C m) stale m args errRef

/-- `call_instance_method_static`, MethodCall.spvm 51-58. -/
def callInstanceMethodStatic (R : Runtime) (C : Method → Callee) (stale : Nat → Word) (cls name : Option (List UInt8))
    (args : Option (List (Option Nat))) (errRef : Option Nat) : X Res := do
  let m ← Prog.lift (newInstanceMethodStatic R cls name)
  call R.toWorld none (C m) stale m args errRef

/-- `call_instance_method`, MethodCall.spvm 60-67: `$args->[0]` is the instance. -/
def callInstanceMethod (R : Runtime) (C : Method → Callee) (stale : Nat → Word) (name : Option (List UInt8))
    (args : Option (List (Option Nat))) (errRef : Option Nat) : X Res := do
  match args with
  | none => Prog.die "The array must be defined."
  | some os =>
    match os with
    | [] => Prog.die "The index of the array access must be within the range of the array."
    | o :: os => do
      let m ← newInstanceMethod R o name
      call R.toWorld none (C m) stale m (some (o :: os)) errRef

end SPVM.MethodCall
