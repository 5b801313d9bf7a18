import Verif.Model.PrecompTable

/-
A method run by the interpreter (lib/SPVM/Builder/src/spvm_vm.c) and the C function written for it
(lib/SPVM/Builder/src/spvm_precompile.c), both on the functions and macros of include/spvm_implement.h.  These are a parameter: a
`Machine` says what each of them does to the state, given its arguments.
-/

namespace SPVM.Precomp

/-! ## What is in the runtime -/

/-- include/spvm_runtime_field.h: name and offset. -/
structure Field where
  name : Name
  offset : Nat
deriving DecidableEq, Repr

/-- include/spvm_runtime_method.h: name and `current_basic_type`. -/
structure Method where
  name : Name
  owner : Nat
deriving DecidableEq, Repr

/-- include/spvm_runtime_basic_type.h: name, file, fields, class variables, methods and constant strings. -/
structure Class where
  name : Name
  file : Name
  fields : List Field
  classVars : List Name
  methods : List Method
  consts : List (List UInt8)
deriving DecidableEq, Repr

/-- The basic types of a runtime; the id of a basic type is its position, include/spvm_runtime.h. -/
abbrev Runtime := List Class

/-- `SPVM_API_RUNTIME_get_basic_type_by_id`, `SPVM_API_BASIC_TYPE_get_field_by_index` and their like, spvm_api_runtime.c 147-162,
spvm_api_basic_type.c 111-124, 148-161, 185-198: NULL (`none`) for an index below 0 or not below the length. -/
def byIndex {α} (l : List α) (i : BitVec 32) : Option α := if i.toInt < 0 then none else l[i.toNat]?

/-- The position of the first entry with a name: `SPVM_API_RUNTIME_get_basic_type_by_name`, `SPVM_API_BASIC_TYPE_get_class_var_by_name`,
`_get_field_by_name`, `_get_method_by_name`, spvm_api_runtime.c 164-180, spvm_api_basic_type.c 126-232.  The hash and the binary search
there are taken for a search from the beginning: the names are different (`Spec.Precomp.Distinct`). -/
def findName {α} (name : α → Name) (n : Name) : List α → Option (Nat × α)
  | [] => none
  | a :: l => if name a = n then some (0, a) else (findName name n l).map fun p => (p.1 + 1, p.2)

/-- An operation code, include/spvm_opcode.h: three operands of 32 bits and one of 16 bits. -/
structure Op where
  id : OpId
  o0 : BitVec 32
  o1 : BitVec 32
  o2 : BitVec 32
  o3 : BitVec 16
deriving DecidableEq, Repr

/-- `opcode->operandK`; the uint16_t `operand3` becomes an int32_t. -/
def Op.get (op : Op) : Opd → BitVec 32
  | .o0 => op.o0
  | .o1 => op.o1
  | .o2 => op.o2
  | .o3 => op.o3.setWidth 32

/-- Numbers made from operands. -/
def Op.num (op : Op) : Num → BitVec 32
  | .opd k => op.get k
  | .shr8 k => (op.get k).sshiftRight 8
  | .low8 k => op.get k &&& 0xFF#32
  | .low8p1 k => (op.get k &&& 0xFF#32) + 1#32

/-- `*(int64_t*)&opcode->operand1`: operand 1 is the lower half (little endian). -/
def Op.wide (op : Op) : BitVec 64 := op.o2 ++ op.o1

/-- A loaded method: the basic type and the index in it, the operation codes and `mortal_stack_length`, include/spvm_runtime_method.h. -/
structure Code where
  cls : BitVec 32
  meth : BitVec 32
  ops : List Op
  mortalLen : Nat
deriving DecidableEq, Repr

/-! ## The functions and macros -/

/-- The arguments a function or macro gets: a variable of the calling function, a place (for macros, which can assign it), the address of a
place, numbers, things in the runtime (the class or the address of one, here its position), and the bytes of a C string. -/
inductive Val where
  | sym (s : Sym)
  | place (b : Bank) (i : BitVec 32)
  | addr (b : Bank) (i : BitVec 32)
  | content (v : BitVec 64)
  | num (w : BitVec 32)
  | byte (w : BitVec 8)
  | long (w : BitVec 64)
  | float (bits : BitVec 32)
  | double (bits : BitVec 64)
  | basicType (i : Nat)
  | null
  | typeOfVar (i : BitVec 32)
  | classVar (c i : Nat)
  | offset (n : Nat)
  | method (c i : Nat)
  | str (bs : List UInt8)
deriving DecidableEq, Repr

/-- What the functions and macros do: `call` for each, given the arguments, the contents of a variable, an int variable, `error_id`, what
`eval_error_id = error_id; error_id = 0` does, what `set_exception(new_stack_trace_no_mortal(get_exception(), method, line))` does, and
`mortal_stack_top`. -/
structure Machine (σ : Type) where
  call : OpId → List Val → σ → σ
  content : Bank → BitVec 32 → σ → BitVec 64
  int : BitVec 32 → σ → BitVec 32
  errorId : σ → BitVec 32
  catchError : σ → σ
  addTrace : Option Val → BitVec 32 → σ → σ
  mortalTop : σ → BitVec 32

/-- Whether an argument is a place.  The arguments of macros are; `SPVM_IMPLEMENT_CAN` (spvm_implement.h 1387) reads its object only. -/
def byPlace (f : OpId) (i : Nat) : Bool := isMacro f && !(decide (f = .CAN) && i == 3)

/-- An argument when the call happens.  `get_basic_type_by_id(env->runtime, int_vars[i])`: spvm_vm.c 1348-1380,
spvm_precompile.c 2693-2770. -/
def pass1 {σ} (M : Machine σ) (rt : Runtime) (f : OpId) (s : σ) (i : Nat) : Val → Val
  | .place b k => if byPlace f i then .place b k else .content (M.content b k s)
  | .typeOfVar k => match byIndex rt (M.int k s) with
    | some _ => .basicType (M.int k s).toNat
    | none => .null
  | v => v

/-- The arguments when the call happens. -/
def pass {σ} (M : Machine σ) (rt : Runtime) (f : OpId) (s : σ) (vs : List Val) : List Val := vs.mapIdx (pass1 M rt f s)

/-- What comes after a statement. -/
inductive Next (σ : Type) where
  | fall (s : σ)
  | jump (t : BitVec 32) (s : σ)
  | done (s : σ)
  | bad

/-- Statements one after another. -/
def runStmts {α σ} (f : α → σ → Next σ) : List α → σ → Next σ
  | [], s => .fall s
  | a :: as, s =>
    match f a s with
    | .fall s' => runStmts f as s'
    | r => r

/-- The state of a run: still running at a place, at the end of the method, stopped because a name was not found, or `bad` (undefined
behaviour, or C code which does not compile). -/
inductive Res (σ : Type) where
  | running (pc : Nat) (s : σ)
  | finished (s : σ)
  | notFound
  | bad
deriving DecidableEq

/-- A run of at most `n` blocks out of `len`; `atEnd` is what happens behind the last. -/
def go {σ} (len : Nat) (block : Nat → σ → Next σ) (atEnd : σ → Res σ) : Nat → Nat → σ → Res σ
  | 0, pc, s => .running pc s
  | n + 1, pc, s =>
    match block pc s with
    | .fall s' => if pc + 1 < len then go len block atEnd n (pc + 1) s' else atEnd s'
    | .jump t s' => if t.toNat < len then go len block atEnd n t.toNat s' else .bad
    | .done s' => .finished s'
    | .bad => .bad

/-! ## The interpreter -/

/-- The bytes of a name. -/
def bytesOf (n : Name) : List UInt8 := n.map fun c => c.toNat.toUInt8

/-- The method of an id and an index. -/
def methodAt (rt : Runtime) (c k : BitVec 32) : Option Method := (byIndex rt c).bind fun b => byIndex b.methods k

/-- `object_data_offset` of the interpreter (spvm_vm.c 176) and `object_header_size` of the C code (spvm_precompile.c 313) are two names of
the number `get_object_data_offset` gives. -/
def symValue : Sym → Sym
  | .objectHeaderSize => .objectDataOffset
  | s => s

/-- An argument in the interpreter; `none`: a NULL pointer is followed.  spvm_vm.c 190-2391, the functions `SPVM_API_RUNTIME_get_basic_type_by_id`,
`SPVM_API_BASIC_TYPE_get_field_by_index`, ... . -/
def vArg (rt : Runtime) (m : Code) (op : Op) : VArg → Option Val
  | .sym s => some (.sym (symValue s))
  | .var b k => some (.place b (op.get k))
  | .addr b k => some (.addr b (op.get k))
  | .num e => some (.num (op.num e))
  | .typeId k => some (.num (op.get k))
  | .byteConst k => some (.byte ((op.get k).setWidth 8))
  | .longConst => some (.long op.wide)
  | .floatConst k => some (.float (op.get k))
  | .doubleConst => some (.double op.wide)
  | .basicType k => (byIndex rt (op.get k)).map fun _ => .basicType (op.get k).toNat
  | .typeOfVar k => some (.typeOfVar (op.get k))
  | .classVar c k => (byIndex rt (op.get c)).bind fun b =>
      (byIndex b.classVars (op.get k)).map fun _ => .classVar (op.get c).toNat (op.get k).toNat
  | .fieldOffset c k => (byIndex rt (op.get c)).bind fun b => (byIndex b.fields (op.get k)).map fun f => .offset f.offset
  | .method c k => (methodAt rt (op.get c) (op.get k)).map fun _ => .method (op.get c).toNat (op.get k).toNat
  | .methodName c k => (methodAt rt (op.get c) (op.get k)).map fun x => .str (bytesOf x.name)
  | .methodClassName c k => (methodAt rt (op.get c) (op.get k)).bind fun x => rt[x.owner]?.map fun b => .str (bytesOf b.name)
  | .constData k => (byIndex rt m.cls).bind fun b => (byIndex b.consts (op.get k)).map .str
  | .constLength k => (byIndex rt m.cls).bind fun b => (byIndex b.consts (op.get k)).map fun bs => .num (BitVec.ofNat 32 bs.length)
  | .constText k => (byIndex rt m.cls).bind fun b => (byIndex b.consts (op.get k)).map .str
  | .currentClass => (byIndex rt m.cls).map fun b => .str (bytesOf b.name)
  | .currentMethod => (methodAt rt m.cls m.meth).map fun x => .str (bytesOf x.name)
  | .currentFile => (byIndex rt m.cls).map fun b => .str (bytesOf b.file)

/-- The search of `LOOKUP_SWITCH`, spvm_vm.c 249-276.  `none`: an operation code behind the end is read. -/
def search (ops : List Op) (base : Nat) (x : Int) (dflt : BitVec 32) : Nat → Int → Int → Option (BitVec 32)
  | 0, _, _ => none
  | fuel + 1, lo, hi =>
    if hi < lo then some dflt
    else
      let mid := lo + (hi - lo) / 2
      match ops[base + mid.toNat]? with
      | none => none
      | some op =>
        if op.o1.toInt < x then search ops base x dflt fuel (mid + 1) hi
        else if x < op.o1.toInt then search ops base x dflt fuel lo (mid - 1)
        else some op.o2

/-- `LOOKUP_SWITCH`, spvm_vm.c 231-282. -/
def lookupSwitch (ops : List Op) (pc : Nat) (x : Int) (len : Int) (dflt : BitVec 32) : Option (BitVec 32) :=
  if len > 0 then
    match ops[pc + 1]?, ops[pc + 1 + (len.toNat - 1)]? with
    | some a, some b =>
      if a.o1.toInt ≤ x ∧ x ≤ b.o1.toInt then search ops (pc + 1) x dflt (len.toNat + 1) 0 (len - 1) else some dflt
    | _, _ => none
  else some dflt

/-- `current_method`, the method run. -/
def currentMethod (rt : Runtime) (m : Code) : Option Val :=
  (methodAt rt m.cls m.meth).map fun _ => .method m.cls.toNat m.meth.toNat

/-- A statement of a case.  `catchError` and `leaveOnError`: spvm_vm.c 211-230. -/
def vStmt {σ} (M : Machine σ) (rt : Runtime) (m : Code) (pc : Nat) (op : Op) : VStmt → σ → Next σ
  | .call f args, s =>
    match args.mapM (vArg rt m op) with
    | some vs => .fall (M.call f (pass M rt f s vs) s)
    | none => .bad
  | .jump k, s => .jump (op.get k) s
  | .ifZero v k, s => if M.int (op.get v) s = 0#32 then .jump (op.get k) s else .fall s
  | .ifNonzero v k, s => if M.int (op.get v) s ≠ 0#32 then .jump (op.get k) s else .fall s
  | .catchError l k, s =>
    if M.errorId s ≠ 0#32 then .jump (op.get k) (M.addTrace (currentMethod rt m) (op.get l) (M.catchError s)) else .fall s
  | .leaveOnError l k, s =>
    if M.errorId s ≠ 0#32 then .jump (op.get k) (M.addTrace (currentMethod rt m) (op.get l) s) else .fall s
  | .switch v len d, s =>
    match lookupSwitch m.ops pc (M.int (op.get v) s).toInt (op.get len).toInt (op.get d) with
    | some t => .jump t s
    | none => .bad
  | .finish, s => .done s

/-- One round of the loop of `SPVM_VM_call_method`, spvm_vm.c 184-2394. -/
def vBlock {σ} (M : Machine σ) (rt : Runtime) (m : Code) (pc : Nat) (s : σ) : Next σ :=
  match m.ops[pc]? with
  | some op => runStmts (vStmt M rt m pc op) (vmCase op.id) s
  | none => .bad

/-- `SPVM_VM_call_method` between the set-up of the variables and `label_END_OF_METHOD`, spvm_vm.c 182-2395. -/
def runV {σ} (M : Machine σ) (rt : Runtime) (m : Code) (n : Nat) (s : σ) : Res σ :=
  go m.ops.length (vBlock M rt m) (fun _ => .bad) n 0 s

/-! ## The C code -/

/-- The arguments in the C code.  Numbers are values: `SPVM_STRING_BUFFER_add_int`, `_add_long` (spvm_string_buffer.c 160-244) write them
in decimal.  `ident`: an identifier of `ident`; `getId`: `env->api->basic_type->get_id(env->runtime, …)` of one; `lit`: the text
between the quotes of a string literal. -/
inductive CArg where
  | sym (s : Sym)
  | var (b : Bank) (i : BitVec 32)
  | addr (b : Bank) (i : BitVec 32)
  | int (w : BitVec 32)
  | byte (w : BitVec 8)
  | long (w : BitVec 64)
  | float (bits : BitVec 32)
  | double (bits : BitVec 64)
  | ident (t : Name)
  | getId (t : Name)
  | typeOfVar (i : BitVec 32)
  | lit (t : Name)
deriving DecidableEq, Repr

/-- The statements in the C code; targets are the numbers of the labels. -/
inductive CStmt where
  | call (f : OpId) (args : List CArg)
  | goto (t : BitVec 32)
  | ifZero (v t : BitVec 32)
  | ifNonzero (v t : BitVec 32)
  | catchError (line t : BitVec 32)
  | leaveOnError (line t : BitVec 32)
  | switch (v : BitVec 32) (cases : List (BitVec 32 × BitVec 32)) (dflt : BitVec 32)
deriving DecidableEq, Repr

/-- A C function: the names of the class and the method (`current_basic_type_name`, `current_method_name`), the lookups at the head, and
the statements behind each label `L0`, `L1`, ... . -/
structure CFun where
  cls : Name
  meth : Name
  decls : List Ent
  blocks : List (List CStmt)
deriving DecidableEq, Repr

/-- A digit of `%02X`. -/
def hexDigit (n : Nat) : Char := if n < 10 then Char.ofNat (48 + n) else Char.ofNat (55 + n)

/-- `SPVM_STRING_BUFFER_add_hex_char` for each byte, spvm_string_buffer.c 146-161, spvm_precompile.c 1947-1975. -/
def hexText (bs : List UInt8) : Name := bs.flatMap fun b => ['\\', 'x', hexDigit (b.toNat / 16), hexDigit (b.toNat % 16)]

/-- `SPVM_STRING_BUFFER_add` of the bytes of a C string: they end at the first 0. -/
def cText (bs : List UInt8) : Name := (bs.takeWhile (· ≠ 0)).map fun b => Char.ofNat b.toNat

/-- An argument as it is written, spvm_precompile.c 594-5020; `none`: the code generator follows a NULL pointer. -/
def genArg (rt : Runtime) (m : Code) (op : Op) : PArg → Option CArg
  | .sym s => some (.sym s)
  | .var b k => some (.var b (op.get k))
  | .addr b k => some (.addr b (op.get k))
  | .int e => some (.int (op.num e))
  | .byte k => some (.byte ((op.get k).setWidth 8))
  | .long => some (.long op.wide)
  | .float k => some (.float (op.get k))
  | .double => some (.double op.wide)
  | .basicType k => (byIndex rt (op.get k)).map fun b => .ident (ident (.basicType b.name))
  | .typeId k => (byIndex rt (op.get k)).map fun b => .getId (ident (.basicType b.name))
  | .typeOfVar k => some (.typeOfVar (op.get k))
  | .classVar c k => (byIndex rt (op.get c)).bind fun b =>
      (byIndex b.classVars (op.get k)).map fun v => .ident (ident (.classVar b.name v))
  | .fieldOffset c k => (byIndex rt (op.get c)).bind fun b =>
      (byIndex b.fields (op.get k)).map fun f => .ident (ident (.fieldOffset b.name f.name))
  | .method c k => (byIndex rt (op.get c)).bind fun b =>
      (byIndex b.methods (op.get k)).map fun x => .ident (ident (.method b.name x.name))
  | .quotedType k => (byIndex rt (op.get k)).map fun b => .lit b.name
  | .quotedMethod c k => (methodAt rt (op.get c) (op.get k)).map fun x => .lit x.name
  | .quotedConst k => (byIndex rt m.cls).bind fun b => (byIndex b.consts (op.get k)).map fun bs => .lit (cText bs)
  | .hexConst k => (byIndex rt m.cls).bind fun b => (byIndex b.consts (op.get k)).map fun bs => .lit (hexText bs)
  | .constLength k => (byIndex rt m.cls).bind fun b => (byIndex b.consts (op.get k)).map fun bs => .int (BitVec.ofNat 32 bs.length)
  | .quotedCurrentClass => (byIndex rt m.cls).map fun b => .lit b.name
  | .quotedCurrentMethod => (methodAt rt m.cls m.meth).map fun x => .lit x.name
  | .quotedFile => (byIndex rt m.cls).map fun b => .lit b.file

/-- The cases of a switch: `n` operation codes behind `pc`, spvm_precompile.c 661-673. -/
def casesOf (ops : List Op) (pc n : Nat) : Option (List (BitVec 32 × BitVec 32)) :=
  if pc + 1 + n ≤ ops.length then some (((ops.drop (pc + 1)).take n).map fun op => (op.o1, op.o2)) else none

/-- A statement as it is written, spvm_precompile.c 594-5020. -/
def genStmt (rt : Runtime) (m : Code) (pc : Nat) (op : Op) : PStmt → Option (List CStmt)
  | .call f args => (args.mapM (genArg rt m op)).map fun as => [.call f as]
  | .callIfMortal f args => (args.mapM (genArg rt m op)).map fun as => if m.mortalLen > 0 then [.call f as] else []
  | .goto k => some [.goto (op.get k)]
  | .ifZero v k => some [.ifZero (op.get v) (op.get k)]
  | .ifNonzero v k => some [.ifNonzero (op.get v) (op.get k)]
  | .catchError l k => some [.catchError (op.get l) (op.get k)]
  | .leaveOnError l k => some [.leaveOnError (op.get l) (op.get k)]
  | .switch v len d => (casesOf m.ops pc (op.get len).toInt.toNat).map fun cs => [.switch (op.get v) cs (op.get d)]

/-- What is written behind a label, spvm_precompile.c 578-5025. -/
def genBlock (rt : Runtime) (m : Code) (pc : Nat) (op : Op) : Option (List CStmt) :=
  ((pcCase op.id).mapM (genStmt rt m pc op)).map List.flatten

/-- The blocks from an operation code on. -/
def genBlocks (rt : Runtime) (m : Code) : Nat → List Op → Option (List (List CStmt))
  | _, [] => some []
  | pc, op :: ops => (genBlock rt m pc op).bind fun b => (genBlocks rt m (pc + 1) ops).map fun bs => b :: bs

/-- An entity the first loop finds in the operands, spvm_precompile.c 336-456, 484, 515, 546. -/
def mentioned (rt : Runtime) (op : Op) : MEnt → Option Ent
  | .basicType c => (byIndex rt (op.get c)).map fun b => .basicType b.name
  | .classVar c k => (byIndex rt (op.get c)).bind fun b => (byIndex b.classVars (op.get k)).map fun v => .classVar b.name v
  | .fieldOffset c k => (byIndex rt (op.get c)).bind fun b => (byIndex b.fields (op.get k)).map fun f => .fieldOffset b.name f.name
  | .method c k => (byIndex rt (op.get c)).bind fun b => (byIndex b.methods (op.get k)).map fun x => .method b.name x.name

/-- The mentions of a method, the first loop, spvm_precompile.c 321-575. -/
def mentionsOf (rt : Runtime) (m : Code) : Option (List Mention) := m.ops.mapM fun op => (mentionCase op.id).mapM (mentioned rt op)

/-- `SPVM_PRECOMPILE_build_method_source`, spvm_precompile.c 117-5048. -/
def generate (rt : Runtime) (m : Code) : Option CFun :=
  (byIndex rt m.cls).bind fun b => (byIndex b.methods m.meth).bind fun x => (mentionsOf rt m).bind fun ms =>
    (genBlocks rt m 0 m.ops).map fun bs => { cls := b.name, meth := x.name, decls := decls ms, blocks := bs }

/-! ## What the C code means -/

/-- A lookup by name, `SPVM_IMPLEMENT_GET_BASIC_TYPE_BY_NAME` and the others, spvm_implement.h 96-177. -/
def byName (rt : Runtime) : Ent → Option Val
  | .basicType c => (findName Class.name c rt).map fun p => .basicType p.1
  | .classVar c v => (findName Class.name c rt).bind fun p => (findName id v p.2.classVars).map fun q => .classVar p.1 q.1
  | .fieldOffset c f => (findName Class.name c rt).bind fun p => (findName Field.name f p.2.fields).map fun q => .offset q.2.offset
  | .method c x => (findName Class.name c rt).bind fun p => (findName Method.name x p.2.methods).map fun q => .method p.1 q.1

/-- Where a reader of a string literal is: in the text, behind a backslash, behind `\x`, in the digits of `\x`. -/
inductive LitState where
  | plain | escape | hex0 | hex (v : Nat)

/-- The value of a hexadecimal digit. -/
def hexValue (c : Char) : Option Nat :=
  if '0' ≤ c ∧ c ≤ '9' then some (c.toNat - 48)
  else if 'A' ≤ c ∧ c ≤ 'F' then some (c.toNat - 55)
  else if 'a' ≤ c ∧ c ≤ 'f' then some (c.toNat - 87)
  else none

/-- The characters of the escapes of one character, C99 6.4.4.4 (without octal escapes). -/
def escapeValue (c : Char) : Option UInt8 :=
  if c = 'n' then some 10 else if c = 't' then some 9 else if c = 'r' then some 13 else if c = 'a' then some 7
  else if c = 'b' then some 8 else if c = 'f' then some 12 else if c = 'v' then some 11 else if c = '\\' then some 92
  else if c = '"' then some 34 else if c = '\'' then some 39 else if c = '?' then some 63 else none

/-- The bytes of a string literal with a text between its quotes, C99 6.4.5: `\x` takes all the digits behind it.  `none`: a quote or a
line feed ends the literal, or an escape is not known. -/
def readLit : LitState → Name → Option (List UInt8)
  | .plain, [] => some []
  | .escape, [] => none
  | .hex0, [] => none
  | .hex v, [] => if v < 256 then some [v.toUInt8] else none
  | .plain, c :: t =>
    if c = '\\' then readLit .escape t
    else if c = '"' ∨ c = '\n' then none
    else (readLit .plain t).map fun bs => c.toNat.toUInt8 :: bs
  | .escape, c :: t =>
    if c = 'x' then readLit .hex0 t
    else (escapeValue c).bind fun b => (readLit .plain t).map fun bs => b :: bs
  | .hex0, c :: t => (hexValue c).bind fun d => readLit (.hex d) t
  | .hex v, c :: t =>
    match hexValue c with
    | some d => readLit (.hex (v * 16 + d)) t
    | none =>
      if v < 256 then
        (if c = '\\' then readLit .escape t
         else if c = '"' ∨ c = '\n' then none
         else (readLit .plain t).map fun bs => c.toNat.toUInt8 :: bs).map fun bs => v.toUInt8 :: bs
      else none

/-- What an identifier stands for: the entity of its declaration, looked up by name in the runtime. -/
def identValue (rt : Runtime) (ds : List Ent) (t : Name) : Option Val := (ds.find? fun d => ident d == t).bind (byName rt)

/-- An argument in the C code; `none`: the C code does not compile. -/
def cArg (rt : Runtime) (ds : List Ent) : CArg → Option Val
  | .sym s => some (.sym (symValue s))
  | .var b i => some (.place b i)
  | .addr b i => some (.addr b i)
  | .int w => some (.num w)
  | .byte w => some (.byte w)
  | .long w => some (.long w)
  | .float w => some (.float w)
  | .double w => some (.double w)
  | .ident t => identValue rt ds t
  | .getId t => (identValue rt ds t).bind fun v => match v with
    | .basicType i => some (.num (BitVec.ofNat 32 i))
    | _ => none
  | .typeOfVar i => some (.typeOfVar i)
  | .lit t => (readLit .plain t).map .str

/-- A statement of the C code. -/
def cStmt {σ} (M : Machine σ) (rt : Runtime) (fn : CFun) : CStmt → σ → Next σ
  | .call f args, s =>
    match args.mapM (cArg rt fn.decls) with
    | some vs => .fall (M.call f (pass M rt f s vs) s)
    | none => .bad
  | .goto t, s => .jump t s
  | .ifZero v t, s => if M.int v s = 0#32 then .jump t s else .fall s
  | .ifNonzero v t, s => if M.int v s ≠ 0#32 then .jump t s else .fall s
  | .catchError l t, s =>
    if M.errorId s ≠ 0#32 then .jump t (M.addTrace (byName rt (.method fn.cls fn.meth)) l (M.catchError s)) else .fall s
  | .leaveOnError l t, s =>
    if M.errorId s ≠ 0#32 then .jump t (M.addTrace (byName rt (.method fn.cls fn.meth)) l s) else .fall s
  | .switch v cs d, s =>
    match cs.find? fun c => c.1 == M.int v s with
    | some c => .jump c.2 s
    | none => .jump d s

/-- The statements behind a label. -/
def cBlock {σ} (M : Machine σ) (rt : Runtime) (fn : CFun) (pc : Nat) (s : σ) : Next σ :=
  match fn.blocks[pc]? with
  | some b => runStmts (cStmt M rt fn) b s
  | none => .bad

/-- The C function between the set-up of the variables and `END_OF_METHOD`: first the lookups, then the statements; behind the last it is
at `END_OF_METHOD`. -/
def runC {σ} (M : Machine σ) (rt : Runtime) (fn : CFun) (n : Nat) (s : σ) : Res σ :=
  if fn.decls.all fun d => (byName rt d).isSome then go fn.blocks.length (cBlock M rt fn) .finished n 0 s else .notFound

end SPVM.Precomp
