import Verif.Spec.Flow
/-!
# From statements to operation codes, and the virtual machine's control flow

The op tree that the grammar and lib/SPVM/Builder/src/spvm_op.c build for the statements, the passes of spvm_check.c that
matter for control flow (the sort of the cases, the test for double cases, which blocks need `LEAVE_SCOPE`, the move of the loop
condition), the walk of spvm_opcode_builder.c that emits the operation codes and patches the jumps, and the loop of spvm_vm.c
that runs them.

Simplifications: the statements are those of Spec/Flow; every operator other than control flow is `act` (one operation code)
or `call` (one operation code that can set the error id, and the conditional jump behind it).  Operation codes for arguments
at the start of a method are left out (the list begins with `END_ARGS`).  Indexes are natural numbers (`int32_t` in the code).
What releasing a variable does to the object is C32; here the variable becomes `undef`.
-/
namespace SPVM
namespace Flow

/-! ## The op tree -/

/-- `SPVM_BLOCK_C_ID_*`, spvm_block.h. -/
inductive BlockId where
  | normal | if_ | else_ | loopInit | loopStatements | switch | eval | method
deriving DecidableEq, Repr

/-- The op kinds that matter for control flow (`SPVM_OP_C_ID_*`); `group` stands for `LIST`, `IF`, `LOOP`, `EVAL`,
`SEQUENCE` and `DO_NOTHING`, which emit nothing themselves. -/
inductive Kind where
  | group
  | act (k : Nat)
  | call (k : Nat)
  | varDecl (v : Nat)
  | block (id : BlockId) (noScope : Bool)
  | condition (v : Nat)
  | loopCondition (v : Nat)
  | loopIncrement
  | switch (values : List Int)
  | switchCondition (v : Nat)
  | case_ (n : Int)
  | default_
  | next | last | brk
  | ret (k : Nat)
deriving DecidableEq, Repr

/-- `SPVM_OP`: a kind and its operands. -/
inductive Node where
  | mk (kind : Kind) (children : List Node)

/-- The inner loop of the sort of the cases, spvm_check.c 1524-1537: position `i` against every later position. -/
def sortInner (l : List Int) (i : Nat) : List Nat → List Int
  | [] => l
  | j :: js =>
    let a := l.getD i 0
    let b := l.getD j 0
    sortInner (if b < a then (l.set i b).set j a else l) i js

/-- The sort of the cases, spvm_check.c 1524-1537. -/
def sortOuter (l : List Int) : List Nat → List Int
  | [] => l
  | i :: is => sortOuter (sortInner l i ((List.range l.length).drop (i + 1))) is

/-- The sort of the cases, spvm_check.c 1524-1537. -/
def sortCases (l : List Int) : List Int := sortOuter l (List.range l.length)

/-- The test for double cases, spvm_check.c 1540-1546: a compile error if two neighbours are equal. -/
def doubleCases : List Int → Bool
  | [] => false
  | [_] => false
  | a :: b :: l => a == b || doubleCases (b :: l)

/-- The values of the cases in the order of the source, spvm_check.c 1566-1570. -/
def Stmt.caseValues : Stmt → List Int
  | .caseFall n rest => n :: rest.caseValues
  | .caseRun n _ rest => n :: rest.caseValues
  | _ => []

/-- Whether the last statement of a block is `break`, spvm_op.c 1816-1829. -/
def Stmt.endsWithBreak : Stmt → Bool
  | .brk => true
  | .seq _ t => t.endsWithBreak
  | _ => false

/-- `SPVM_OP_build_case_statement`, spvm_op.c 1812-1832: `break` is added unless it is there. -/
def Stmt.withBreak (s : Stmt) : Stmt := if s.endsWithBreak then s else .seq s .brk

mutual

/-- The op tree of a statement as the opcode builder sees it.  `if`: spvm_op.c 2047-2092 and yacc/spvm_yacc.y 841-875; loops:
spvm_op.c 1868-1897, 1999-2033, with the condition moved behind the increment by spvm_check.c 3758-3770; switch: spvm_op.c
1772-1849 and the added default at spvm_check.c 1553-1561; eval: spvm_op.c 1762-1770; the logical operators: spvm_op.c
2822-2897 (a conditional whose blocks have `no_scope`).  The parts of a case list are children of one switch block. -/
def Stmt.tree : Stmt → Node
  | .skip => .mk .group []
  | .seq s t => .mk .group [s.tree, t.tree]
  | .act k => .mk (.act k) []
  | .call k => .mk (.call k) []
  | .decl v => .mk (.varDecl v) []
  | .choose c v t e => .mk .group [.mk (.condition v) [c.tree], .mk (.block .if_ true) [t.tree], .mk (.block .else_ true) [e.tree]]
  | .block s => .mk (.block .normal false) [s.tree]
  | .ifs c v t e =>
    .mk (.block .normal false)
      [.mk .group [.mk (.condition v) [c.tree], .mk (.block .if_ false) [t.tree], .mk (.block .else_ false) [e.tree]]]
  | .elif c v t e => .mk .group [.mk (.condition v) [c.tree], .mk (.block .if_ false) [t.tree], .mk (.block .else_ false) [e.tree]]
  | .loop init c v inc body =>
    .mk .group [.mk (.block .loopInit false)
      [init.tree, .mk (.block .loopStatements false) [body.tree], .mk .loopIncrement [inc.tree], .mk (.loopCondition v) [c.tree]]]
  | .switch c v cs =>
    .mk (.switch (sortCases cs.caseValues)) [.mk .group [.mk (.switchCondition v) [c.tree]], .mk (.block .switch false) cs.cases]
  | .caseFall _ _ => .mk .group []
  | .caseRun _ _ _ => .mk .group []
  | .dflt _ => .mk .group []
  | .eval s => .mk .group [.mk (.block .eval false) [s.tree]]
  | .next => .mk .next []
  | .last => .mk .last []
  | .brk => .mk .brk []
  | .ret k => .mk (.ret k) []

/-- The ops of a case list, spvm_op.c 1793-1849. -/
def Stmt.cases : Stmt → List Node
  | .caseFall n rest => .mk (.case_ n) [] :: rest.cases
  | .caseRun n body rest =>
    .mk (.case_ n) [.mk (.block .normal false)
      [if body.endsWithBreak then body.tree else .mk .group [body.tree, .mk .brk []]]] :: rest.cases
  | .dflt body => [.mk .default_ [.mk (.block .normal false) [body.tree]]]
  | _ => []

end

mutual

/-- Whether an object variable is declared below an op: `has_object_var_decls` as `SPVM_CHECK_check_ast_if_block_need_leave_scope`,
spvm_check.c 3626-3720, computes it (a block hands it on to its parent). -/
def Node.declares : Node → Bool
  | .mk k cs => (match k with | .varDecl _ => true | _ => false) || Node.declaresAny cs

/-- The same for a list of ops. -/
def Node.declaresAny : List Node → Bool
  | [] => false
  | n :: ns => n.declares || Node.declaresAny ns

end

/-! ## Operation codes -/

/-- The operation codes, spvm_opcode.h, with the operands that are used. -/
inductive Op where
  | endArgs
  | act (k : Nat)
  | call (k : Nat)
  | goto_ (t : Nat)
  | ifEq (t : Nat) (v : Nat)
  | ifNe (t : Nat) (v : Nat)
  /-- `GOTO_END_OF_EVAL_ON_EXCEPTION` -/
  | onExcEval (t : Nat) (line : Nat)
  /-- `GOTO_END_OF_METHOD_ON_EXCEPTION` -/
  | onExcMethod (t : Nat) (line : Nat)
  | pushMortal (v : Nat)
  | leaveScope (n : Nat)
  /-- `LOOKUP_SWITCH` -/
  | lookup (v : Nat) (dflt : Nat) (n : Nat)
  | caseInfo (value : Int) (t : Nat)
  /-- `CLEAR_EVAL_ERROR_ID` and `SET_EXCEPTION_VAR_UNDEF`, joined into one -/
  | enterEval
  | ret (k : Nat) (t : Nat)
  | endMethod
deriving DecidableEq, Repr

/-- Setting the jump target of an operation code (`operand0`, and `operand1` of `RETURN`). -/
def Op.aim (t : Nat) : Op → Op
  | .goto_ _ => .goto_ t
  | .ifEq _ v => .ifEq t v
  | .ifNe _ v => .ifNe t v
  | .onExcEval _ l => .onExcEval t l
  | .onExcMethod _ l => .onExcMethod t l
  | .ret k _ => .ret k t
  | op => op

/-- The stacks of jumps to be patched: `next_opcode_index_stack`, `last_opcode_index_stack`, `break_opcode_index_stack`,
`return_opcode_index_stack`, `goto_end_of_eval_on_exception_opcode_index_stack`,
`goto_end_of_method_on_exception_opcode_index_stack`, spvm_opcode_builder.c 258-270. -/
inductive Hole where
  | next | last | brk | ret | excEval | excMethod
deriving DecidableEq, Repr

/-- `SPVM_SWITCH_INFO` in the builder: where the lookup is, the default target, and the cases with their targets. -/
structure SwitchInfo where
  at_ : Nat
  dflt : Nat
  cases : List (Int × Nat)
deriving DecidableEq, Repr

/-- The state of the builder, spvm_opcode_builder.c 240-281.  The tops of the stacks are the heads of the lists. -/
structure Bld where
  code : List Op
  holes : Hole → List Nat
  /-- `loop_block_stack_next_base` -/
  nextBase : List Nat
  /-- `loop_block_stack_last_base` -/
  lastBase : List Nat
  /-- `switch_block_stack_break_base` -/
  breakBase : List Nat
  /-- `if_block_stack_goto_end_opcode_index` -/
  ifEnd : List Nat
  /-- `if_eq_or_if_ne_opcode_index_stack` -/
  ifCond : List Nat
  /-- `loop_block_stack_goto_opcode_index` -/
  loopGoto : List Nat
  /-- `eval_block_stack_goto_opcode_index->length` -/
  evals : Nat
  switches : List SwitchInfo
  /-- `block_stack_typed_var_index_top` -/
  blockTop : List Nat
  /-- `mortal_stack->length` -/
  mortal : Nat
  /-- `mortal_stack_top`: object variable declarations met so far -/
  decls : Nat

/-- The builder at the start of a method body, spvm_opcode_builder.c 228-281. -/
def Bld.init : Bld :=
  { code := [.endArgs], holes := fun _ => [], nextBase := [], lastBase := [], breakBase := [], ifEnd := [], ifCond := [],
    loopGoto := [], evals := 0, switches := [], blockTop := [], mortal := 0, decls := 0 }

/-- `SPVM_OPCODE_LIST_push_opcode`. -/
def Bld.emit (b : Bld) (op : Op) : Bld := { b with code := b.code ++ [op] }

/-- Replacing one of the stacks of jumps. -/
def Bld.setHole (b : Bld) (h : Hole) (l : List Nat) : Bld := { b with holes := fun h' => if h' = h then l else b.holes h' }

/-- Emitting a jump whose target is not known yet: its position goes on a stack. -/
def Bld.emitHole (b : Bld) (h : Hole) (op : Op) : Bld := (b.emit op).setHole h (b.code.length :: b.holes h)

/-- `opcode_list->values[i].operand0 = t`. -/
def aimAt (code : List Op) (i t : Nat) : List Op := code.modify i (Op.aim t)

/-- The loops that pop `n` jumps from a stack and set their targets to `t`. -/
def aimAll (code : List Op) (is : List Nat) (t : Nat) : List Op := is.foldl (fun c i => aimAt c i t) code

/-- Popping a stack down to `base` entries and setting the targets of the popped jumps to the next operation code. -/
def Bld.resolve (b : Bld) (h : Hole) (base : Nat) : Bld :=
  let l := b.holes h
  let n := l.length - base
  ({ b with code := aimAll b.code (l.take n) b.code.length }).setHole h (l.drop n)

/-- `SPVM_OPCODE_BUILDER_push_goto_end_of_eval_or_method_on_exception`, spvm_opcode_builder.c 5115-5152. -/
def Bld.onException (b : Bld) (line : Nat) : Bld :=
  if b.evals ≠ 0 then b.emitHole .excEval (.onExcEval 0 line) else b.emitHole .excMethod (.onExcMethod 0 line)

/-- The preorder position, spvm_opcode_builder.c 283-356. -/
def Bld.pre (b : Bld) : Kind → Option Bld
  | .block id _ =>
    let b1 :=
      match id with
      | .loopInit => { b with lastBase := (b.holes .last).length :: b.lastBase }
      | .loopStatements =>
        { (b.emit (.goto_ 0)) with nextBase := (b.holes .next).length :: b.nextBase, loopGoto := b.code.length :: b.loopGoto }
      | .switch => { b with breakBase := (b.holes .brk).length :: b.breakBase }
      | .eval => { (b.emit .enterEval) with evals := b.evals + 1 }
      | _ => b
    some { b1 with blockTop := b1.mortal :: b1.blockTop }
  | .switch values => some { b with switches := ⟨0, 0, values.map (fun n => (n, 0))⟩ :: b.switches }
  | .case_ n =>
    match b.switches with
    | si :: rest =>
      some { b with switches := { si with cases := si.cases.map (fun c => if c.1 = n then (c.1, b.code.length) else c) } :: rest }
    | [] => some b
  | .default_ =>
    match b.switches with
    | si :: rest => some { b with switches := { si with dflt := b.code.length } :: rest }
    | [] => some b
  | _ => some b

/-- What a block does at its end before its scope is left, spvm_opcode_builder.c 370-469. -/
def Bld.closeBlock (b : Bld) : BlockId → Option Bld
  | .if_ =>
    let b1 := { (b.emit (.goto_ 0)) with ifEnd := b.code.length :: b.ifEnd }
    match b1.ifCond with
    | i :: rest => some { b1 with code := aimAt b1.code i b1.code.length, ifCond := rest }
    | [] => none
  | .else_ =>
    match b.ifEnd with
    | i :: rest => some { b with code := aimAt b.code i b.code.length, ifEnd := rest }
    | [] => none
  | .loopInit =>
    match b.lastBase with
    | base :: rest => some ({ b with lastBase := rest }.resolve .last base)
    | [] => none
  | .loopStatements =>
    match b.nextBase with
    | base :: rest => some ({ b with nextBase := rest }.resolve .next base)
    | [] => none
  | .switch =>
    match b.breakBase with
    | base :: rest => some ({ b with breakBase := rest }.resolve .brk base)
    | [] => none
  | .eval => some { (b.resolve .excEval 0) with evals := b.evals - 1 }
  | .method => some ((b.resolve .ret 0).resolve .excMethod 0)
  | .normal => some b

/-- The end of the scope of a block, spvm_opcode_builder.c 471-490. -/
def Bld.leave (b : Bld) (need : Bool) : Option Bld :=
  match b.blockTop with
  | top :: rest =>
    let b1 := if need then b.emit (.leaveScope top) else b
    some { b1 with mortal := min b1.mortal top, blockTop := rest }
  | [] => none

/-- Writing the cases behind a lookup, spvm_opcode_builder.c 574-580. -/
def writeCases (code : List Op) (i : Nat) : List (Int × Nat) → List Op
  | [] => code
  | c :: cs => writeCases (code.set i (.caseInfo c.1 c.2)) (i + 1) cs

/-- The postorder position, spvm_opcode_builder.c 366-806; `declares` tells whether an object variable is declared below. -/
def Bld.post (b : Bld) (declares : Bool) : Kind → Option Bld
  | .group => some b
  | .act k => some (b.emit (.act k))
  | .call k => some ((b.emit (.call k)).onException k)
  | .varDecl v => some { (b.emit (.pushMortal v)) with mortal := b.mortal + 1, decls := b.decls + 1 }
  | .block id noScope => do
    let b1 ← b.closeBlock id
    b1.leave (declares && !noScope)
  | .condition v => some { (b.emit (.ifEq 0 v)) with ifCond := b.code.length :: b.ifCond }
  | .loopCondition v =>
    match b.loopGoto with
    | g :: rest => some { (b.emit (.ifNe (g + 1) v)) with loopGoto := rest }
    | [] => none
  | .loopIncrement =>
    match b.loopGoto with
    | g :: _ => some { b with code := aimAt b.code g b.code.length }
    | [] => none
  | .switchCondition v =>
    match b.switches with
    | si :: rest =>
      let b1 := b.emit (.lookup v 0 0)
      let b2 := { b1 with code := b1.code ++ si.cases.map (fun _ => Op.caseInfo 0 0) }
      some { b2 with switches := { si with at_ := b.code.length, dflt := if si.dflt = 0 then b2.code.length + 1 else si.dflt } :: rest }
    | [] => none
  | .switch _ =>
    match b.switches with
    | si :: rest =>
      let code := b.code.modify si.at_ (fun op => match op with | .lookup v _ _ => .lookup v si.dflt si.cases.length | op => op)
      some { b with code := writeCases code (si.at_ + 1) si.cases, switches := rest }
    | [] => none
  | .case_ _ => some b
  | .default_ => some b
  | .next => some (b.emitHole .next (.goto_ 0))
  | .last => some (b.emitHole .last (.goto_ 0))
  | .brk => some (b.emitHole .brk (.goto_ 0))
  | .ret k => some (b.emitHole .ret (.ret k 0))

mutual

/-- The walk over the op tree, spvm_opcode_builder.c 276-5080: preorder position, operands, postorder position. -/
def Node.walk : Node → Bld → Option Bld
  | .mk k cs, b =>
    match b.pre k with
    | none => none
    | some b1 =>
      match Node.walkAll cs b1 with
      | none => none
      | some b2 => b2.post (Node.declares (.mk k cs)) k

/-- The operands from the first to the last. -/
def Node.walkAll : List Node → Bld → Option Bld
  | [], b => some b
  | n :: ns, b =>
    match n.walk b with
    | none => none
    | some b1 => Node.walkAll ns b1

end

/-- A compiled method: its operation codes and `mortal_stack_length`. -/
structure Method where
  code : List Op
  mortalLength : Nat
deriving DecidableEq, Repr

/-- The operation codes of a method, spvm_opcode_builder.c 228-5100; `none` would be an access below an empty stack. -/
def compile (body : Stmt) : Option Method :=
  match (Node.mk (.block .method false) [body.tree]).walk Bld.init with
  | none => none
  | some b => some { code := b.code ++ [.endMethod], mortalLength := b.decls + 1 }

/-! ## The virtual machine -/

/-- The state of `SPVM_VM_call_method`, spvm_vm.c 95-175: `opcode_rel_index`, the variables and everything else (`eval_error_id`
and the exception message among it), `error_id`, and the used part of the mortal stack. -/
structure Vm (τ : Type) where
  pc : Nat
  st : State τ
  err : Nat
  mortal : List Nat

/-- The result of one round of the loop. -/
inductive Step (τ : Type) where
  | go (m : Vm τ)
  | done (m : Vm τ)
  /-- undefined behaviour: no operation code here, or a write behind the end of the mortal stack -/
  | ub

/-- The binary search of `LOOKUP_SWITCH`, spvm_vm.c 238-262; `fuel` bounds the loop, positions are `int32_t`. -/
def searchCase (code : List Op) (base : Nat) (x : Int) (dflt : Nat) : Nat → Int → Int → Option Nat
  | 0, _, _ => none
  | fuel + 1, lo, hi =>
    if hi < lo then some dflt
    else
      let mid := lo + (hi - lo) / 2
      match code[base + mid.toNat]? with
      | some (.caseInfo n t) =>
        if n < x then searchCase code base x dflt fuel (mid + 1) hi
        else if x < n then searchCase code base x dflt fuel lo (mid - 1)
        else some t
      | _ => none

/-- `LOOKUP_SWITCH`, spvm_vm.c 222-272. -/
def lookupTarget (code : List Op) (pc : Nat) (x : Int) (dflt n : Nat) : Option Nat :=
  if n = 0 then some dflt
  else
    match code[pc + 1]?, code[pc + 1 + (n - 1)]? with
    | some (.caseInfo lo _), some (.caseInfo hi _) =>
      if lo ≤ x ∧ x ≤ hi then searchCase code (pc + 1) x dflt (n + 1) 0 ((n : Int) - 1) else some dflt
    | _, _ => none

/-- One round of the loop of `SPVM_VM_call_method`, spvm_vm.c 185-2391.  `PUSH_MORTAL`: spvm_implement.h 325, the mortal stack has
`limit` entries.  `LEAVE_SCOPE`: `SPVM_API_leave_scope_local`, spvm_api.c 4946-4957; a mortal stack shorter than the operand is
counted as undefined behaviour. -/
def Vm.step {τ} (I : Interp τ) (code : List Op) (limit : Nat) (m : Vm τ) : Step τ :=
  match code[m.pc]? with
  | none => .ub
  | some .endArgs => .go { m with pc := m.pc + 1 }
  | some (.act k) => .go { m with pc := m.pc + 1, st := I.act k m.st }
  | some (.call k) => .go { m with pc := m.pc + 1, st := (I.call k m.st).1, err := (I.call k m.st).2 }
  | some (.goto_ t) => .go { m with pc := t }
  | some (.ifEq t v) => .go { m with pc := if I.ival v m.st = 0 then t else m.pc + 1 }
  | some (.ifNe t v) => .go { m with pc := if I.ival v m.st ≠ 0 then t else m.pc + 1 }
  | some (.onExcEval t k) =>
    if m.err ≠ 0 then
      .go { m with pc := t, err := 0, st := { m.st with mem := I.caught m.err (I.trace k m.st.mem) } }
    else .go { m with pc := m.pc + 1 }
  | some (.onExcMethod t k) =>
    if m.err ≠ 0 then .go { m with pc := t, st := { m.st with mem := I.trace k m.st.mem } }
    else .go { m with pc := m.pc + 1 }
  | some (.pushMortal v) =>
    if m.mortal.length < limit then .go { m with pc := m.pc + 1, mortal := m.mortal ++ [v] } else .ub
  | some (.leaveScope n) =>
    if n ≤ m.mortal.length then
      .go { m with pc := m.pc + 1, st := m.st.release (m.mortal.drop n), mortal := m.mortal.take n }
    else .ub
  | some (.lookup v d n) =>
    match lookupTarget code m.pc (I.ival v m.st) d n with
    | some t => .go { m with pc := t }
    | none => .ub
  | some (.caseInfo _ _) => .ub
  | some .enterEval => .go { m with pc := m.pc + 1, st := { m.st with mem := I.enter m.st.mem } }
  | some (.ret k t) => .go { m with pc := t, st := I.act k m.st }
  | some .endMethod => .done m

/-- At most `n` rounds. -/
def Vm.run {τ} (I : Interp τ) (code : List Op) (limit : Nat) : Nat → Vm τ → Step τ
  | 0, m => .go m
  | n + 1, m =>
    match m.step I code limit with
    | .go m' => m'.run I code limit n
    | r => r

/-- The start of a method: `SPVM_VM_call_method`, spvm_vm.c 95-183. -/
def Vm.start {τ} (s : State τ) : Vm τ := { pc := 0, st := s, err := 0, mortal := [] }

/-! ## What the compiler accepts -/

/-- An operator: no statement inside. -/
def Stmt.isOperator : Stmt → Bool
  | .skip | .act _ | .call _ | .decl _ => true
  | .seq s t => s.isOperator && t.isOperator
  | .choose c _ t e => c.isOperator && t.isOperator && e.isOperator
  | _ => false

mutual

/-- What the grammar (yacc/spvm_yacc.y 600-900) and the checks of `next`, `last`, `break` and of double cases (spvm_check.c
1403-1423, 1540-1546) let through, outside of case lists.  `inElse`: the statement is the else part of an `if` (yacc/spvm_yacc.y
877-889), the place where `elsif` may stand. -/
def Stmt.ok (inLoop inSwitch inElse : Bool) : Stmt → Bool
  | .skip | .act _ | .call _ | .decl _ | .ret _ => true
  | .seq s t => s.ok inLoop inSwitch false && t.ok inLoop inSwitch false
  | .choose c _ t e => c.isOperator && t.isOperator && e.isOperator
  | .block s => s.ok inLoop inSwitch false
  | .ifs c _ t e => c.isOperator && t.ok inLoop inSwitch false && e.ok inLoop inSwitch true
  | .elif c _ t e => inElse && c.isOperator && t.ok inLoop inSwitch false && e.ok inLoop inSwitch true
  | .loop init c _ inc body => init.isOperator && c.isOperator && inc.isOperator && body.ok true inSwitch false
  | .switch c _ cs => c.isOperator && !doubleCases (sortCases cs.caseValues) && cs.okCases inLoop
  | .caseFall _ _ | .caseRun _ _ _ | .dflt _ => false
  | .eval s => s.ok inLoop inSwitch false
  | .next | .last => inLoop
  | .brk => inSwitch

/-- A case list, yacc/spvm_yacc.y 765-833. -/
def Stmt.okCases (inLoop : Bool) : Stmt → Bool
  | .caseFall _ rest => rest.okCases inLoop
  | .caseRun _ body rest => body.ok inLoop true false && rest.okCases inLoop
  | .dflt body => body.ok inLoop true false
  | _ => false

end

end Flow
end SPVM
