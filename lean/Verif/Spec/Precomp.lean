import Verif.Model.Precomp
import Verif.Spec.PrecompName

/-
What a method says, without ids and indexes: instructions whose classes, fields, class variables, methods and strings are given by their
names and contents.  Two runtimes which number their classes differently have loaded the same method when both loads say the same.
-/

namespace SPVM.Spec.Precomp

open SPVM.Precomp
open Spec.PrecompName

/-- An argument: `name` is the text of a name, `text` a constant string used as a name, `data` the bytes of a constant string. -/
inductive NArg where
  | sym (s : Sym)
  | var (b : Bank) (i : BitVec 32)
  | addr (b : Bank) (i : BitVec 32)
  | num (w : BitVec 32)
  | byte (w : BitVec 8)
  | long (w : BitVec 64)
  | float (bits : BitVec 32)
  | double (bits : BitVec 64)
  | entity (e : Ent)
  | typeId (c : Name)
  | typeOfVar (i : BitVec 32)
  | name (n : Name)
  | text (bs : List UInt8)
  | data (bs : List UInt8)
deriving DecidableEq, Repr

/-- An instruction. -/
inductive NStmt where
  | call (f : OpId) (args : List NArg)
  | jump (t : BitVec 32)
  | ifZero (v t : BitVec 32)
  | ifNonzero (v t : BitVec 32)
  | catchError (line t : BitVec 32)
  | leaveOnError (line t : BitVec 32)
  | switch (v : BitVec 32) (cases : List (BitVec 32 × BitVec 32)) (dflt : BitVec 32)
  | finish
deriving DecidableEq, Repr

/-- A method: its class and name, and the instructions at each position. -/
structure NProg where
  cls : Name
  meth : Name
  blocks : List (List NStmt)
deriving DecidableEq, Repr

/-! ## What a loaded method says -/

/-- An argument of the interpreter, by names. -/
def sayArg (rt : Runtime) (m : Code) (op : Op) : VArg → Option NArg
  | .sym s => some (.sym s)
  | .var b k => some (.var b (op.get k))
  | .addr b k => some (.addr b (op.get k))
  | .num e => some (.num (op.num e))
  | .typeId k => (byIndex rt (op.get k)).map fun b => .typeId b.name
  | .byteConst k => some (.byte ((op.get k).setWidth 8))
  | .longConst => some (.long op.wide)
  | .floatConst k => some (.float (op.get k))
  | .doubleConst => some (.double op.wide)
  | .basicType k => (byIndex rt (op.get k)).map fun b => .entity (.basicType b.name)
  | .typeOfVar k => some (.typeOfVar (op.get k))
  | .classVar c k => (byIndex rt (op.get c)).bind fun b =>
      (byIndex b.classVars (op.get k)).map fun v => .entity (.classVar b.name v)
  | .fieldOffset c k => (byIndex rt (op.get c)).bind fun b =>
      (byIndex b.fields (op.get k)).map fun f => .entity (.fieldOffset b.name f.name)
  | .method c k => (byIndex rt (op.get c)).bind fun b =>
      (byIndex b.methods (op.get k)).map fun x => .entity (.method b.name x.name)
  | .methodName c k => (methodAt rt (op.get c) (op.get k)).map fun x => .name x.name
  | .methodClassName c k => (methodAt rt (op.get c) (op.get k)).bind fun x => rt[x.owner]?.map fun b => .name b.name
  | .constData k => (byIndex rt m.cls).bind fun b => (byIndex b.consts (op.get k)).map .data
  | .constLength k => (byIndex rt m.cls).bind fun b => (byIndex b.consts (op.get k)).map fun bs => .num (BitVec.ofNat 32 bs.length)
  | .constText k => (byIndex rt m.cls).bind fun b => (byIndex b.consts (op.get k)).map .text
  | .currentClass => (byIndex rt m.cls).map fun b => .name b.name
  | .currentMethod => (methodAt rt m.cls m.meth).map fun x => .name x.name
  | .currentFile => (byIndex rt m.cls).map fun b => .name b.file

/-- A statement of the interpreter, by names. -/
def sayStmt (rt : Runtime) (m : Code) (pc : Nat) (op : Op) : VStmt → Option NStmt
  | .call f args => (args.mapM (sayArg rt m op)).map (.call f)
  | .jump k => some (.jump (op.get k))
  | .ifZero v k => some (.ifZero (op.get v) (op.get k))
  | .ifNonzero v k => some (.ifNonzero (op.get v) (op.get k))
  | .catchError l k => some (.catchError (op.get l) (op.get k))
  | .leaveOnError l k => some (.leaveOnError (op.get l) (op.get k))
  | .switch v len d => (casesOf m.ops pc (op.get len).toInt.toNat).map fun cs => .switch (op.get v) cs (op.get d)
  | .finish => some .finish

/-- The instructions from an operation code on. -/
def sayBlocks (rt : Runtime) (m : Code) : Nat → List Op → Option (List (List NStmt))
  | _, [] => some []
  | pc, op :: ops => ((vmCase op.id).mapM (sayStmt rt m pc op)).bind fun b => (sayBlocks rt m (pc + 1) ops).map fun bs => b :: bs

/-- What a loaded method says; `none` when an id or an index in it is out of range. -/
def says (rt : Runtime) (m : Code) : Option NProg :=
  (byIndex rt m.cls).bind fun b => (byIndex b.methods m.meth).bind fun x =>
    (sayBlocks rt m 0 m.ops).map fun bs => { cls := b.name, meth := x.name, blocks := bs }

/-! ## What the instructions do in a runtime -/

/-- The thing with a name in the runtime. -/
def NArg.value (rt : Runtime) : NArg → Option Val
  | .sym s => some (.sym (symValue s))
  | .var b i => some (.place b i)
  | .addr b i => some (.addr b i)
  | .num w => some (.num w)
  | .byte w => some (.byte w)
  | .long w => some (.long w)
  | .float w => some (.float w)
  | .double w => some (.double w)
  | .entity e => byName rt e
  | .typeId c => (findName Class.name c rt).map fun p => .num (BitVec.ofNat 32 p.1)
  | .typeOfVar i => some (.typeOfVar i)
  | .name n => some (.str (bytesOf n))
  | .text bs => some (.str bs)
  | .data bs => some (.str bs)

/-- An instruction.  A switch goes to the case with the number, or to the default. -/
def nStmt {σ} (M : Machine σ) (rt : Runtime) (p : NProg) : NStmt → σ → Next σ
  | .call f args, s =>
    match args.mapM (NArg.value rt) with
    | some vs => .fall (M.call f (pass M rt f s vs) s)
    | none => .bad
  | .jump t, s => .jump t s
  | .ifZero v t, s => if M.int v s = 0#32 then .jump t s else .fall s
  | .ifNonzero v t, s => if M.int v s ≠ 0#32 then .jump t s else .fall s
  | .catchError l t, s =>
    if M.errorId s ≠ 0#32 then .jump t (M.addTrace (byName rt (.method p.cls p.meth)) l (M.catchError s)) else .fall s
  | .leaveOnError l t, s =>
    if M.errorId s ≠ 0#32 then .jump t (M.addTrace (byName rt (.method p.cls p.meth)) l s) else .fall s
  | .switch v cs d, s =>
    match cs.find? fun c => c.1 == M.int v s with
    | some c => .jump c.2 s
    | none => .jump d s
  | .finish, s => .done s

/-- The instructions at a position. -/
def nBlock {σ} (M : Machine σ) (rt : Runtime) (p : NProg) (pc : Nat) (s : σ) : Next σ :=
  match p.blocks[pc]? with
  | some b => runStmts (nStmt M rt p) b s
  | none => .bad

/-- A run of the instructions. -/
def runN {σ} (M : Machine σ) (rt : Runtime) (p : NProg) (n : Nat) (s : σ) : Res σ :=
  go p.blocks.length (nBlock M rt p) (fun _ => .bad) n 0 s

/-! ## Conditions -/

/-- In a runtime the names of the classes are different, and so are those of the fields, of the class variables and of the methods of each
class; a method belongs to the class it is in. -/
structure Distinct (rt : Runtime) : Prop where
  classes : (rt.map Class.name).Nodup
  fields : ∀ b ∈ rt, (b.fields.map Field.name).Nodup
  classVars : ∀ b ∈ rt, b.classVars.Nodup
  methods : ∀ b ∈ rt, (b.methods.map Method.name).Nodup
  owner : ∀ (i : Nat) b, rt[i]? = some b → ∀ x ∈ b.methods, x.owner = i

/-- The entities an argument needs. -/
def NArg.entities : NArg → List Ent
  | .entity (.basicType c) => [.basicType c]
  | .entity (.classVar c v) => [.basicType c, .classVar c v]
  | .entity (.fieldOffset c f) => [.basicType c, .fieldOffset c f]
  | .entity (.method c x) => [.basicType c, .method c x]
  | .typeId c => [.basicType c]
  | _ => []

/-- Texts which can be written between quotes in C as they are: no quote, no backslash, no line feed; a constant string used as a name
has no 0 either. -/
def NArg.Quotable : NArg → Prop
  | .name n => ∀ c ∈ n, c ≠ '"' ∧ c ≠ '\\' ∧ c ≠ '\n'
  | .text bs => ∀ b ∈ bs, b ≠ 34 ∧ b ≠ 92 ∧ b ≠ 10 ∧ b ≠ 0
  | _ => True

/-- The arguments of an instruction. -/
def NStmt.args : NStmt → List NArg
  | .call _ as => as
  | _ => []

/-- A statement which occurs in a program. -/
def NProg.Has (p : NProg) (i : NStmt) : Prop := ∃ b ∈ p.blocks, i ∈ b

/-- What the compiler gives: the last position, and it alone, is the end of the method, the numbers of the cases of a switch ascend, and a
method without mortal stack neither pushes to it nor leaves a scope with something on it. -/
structure Shaped (p : NProg) (mortalLen : Nat) : Prop where
  ends : ∃ bs, p.blocks = bs ++ [[.finish]] ∧ ∀ b ∈ bs, NStmt.finish ∉ b
  sorted : ∀ v cs d, p.Has (.switch v cs d) → (cs.map fun c => c.1.toInt).Pairwise (· < ·)
  noPush : mortalLen = 0 → ∀ as, ¬ p.Has (.call .PUSH_MORTAL as)
  leaves : mortalLen = 0 → ∀ as, p.Has (.call .LEAVE_SCOPE as) →
    as = [.sym .env, .sym .stack, .sym .objectVars, .sym .mortalStack, .sym .addrMortalTop, .num 0#32]

/-- What `PUSH_MORTAL` and `LEAVE_SCOPE` are: nothing else changes the top of the mortal stack, and leaving a scope at the top does
nothing (`SPVM_API_leave_scope_local`, spvm_api.c 4946-4957). -/
structure MortalLaws {σ} (M : Machine σ) : Prop where
  call : ∀ f as s, f ≠ .PUSH_MORTAL → f ≠ .LEAVE_SCOPE → M.mortalTop (M.call f as s) = M.mortalTop s
  catchError : ∀ s, M.mortalTop (M.catchError s) = M.mortalTop s
  addTrace : ∀ x l s, M.mortalTop (M.addTrace x l s) = M.mortalTop s
  leave : ∀ s, M.call .LEAVE_SCOPE [.sym .env, .sym .stack, .sym .objectVars, .sym .mortalStack, .sym .addrMortalTop, .num (M.mortalTop s)] s = s

end SPVM.Spec.Precomp
