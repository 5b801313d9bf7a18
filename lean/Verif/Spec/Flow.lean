/-!
# What the statements of a method body mean

The control flow of the language as a user reads it: statements run one after the other, `if` runs one of its two branches,
a loop runs its body while the condition holds, `next`, `last`, `break` and `return` leave the innermost loop, loop, switch
and the method, an exception leaves everything up to the innermost enclosing `eval`, and every block that is left, in whatever
way, releases the object variables declared in it since it was entered.

Nothing of the compiler appears here: no operation codes, no jumps, no stacks.
-/
namespace SPVM
namespace Flow

/-- Statements, and the operators in them.

* `act k`: an operator that cannot throw; `call k`: an operator that can throw an exception (a method call, `die`, ...).
* `decl v`: the declaration of object variable `v`, written by the user (`my $v`) or a temporary variable of the compiler.
* `choose c v t e`: a conditional without a scope of its own (`&&`, `||`, `!` are made of these).
  The condition code `c` leaves its answer in the `int` variable `v`.
* `ifs` and `elif`: the `if` statement and its `elsif` parts; `elif` stands in the else part of an `ifs` or `elif` only.
* `loop init c v inc body`: `for (init; c; inc) { body }`; a `while` loop has empty `init` and `inc`.
* `switch c v cs`: `cs` is made of `caseFall n rest` (`case n:` without a block), `caseRun n body rest` (`case n: { body }`) and,
  at its end, `dflt body` (`default: { body }`; a switch without a default part has `dflt skip`). -/
inductive Stmt where
  | skip
  | seq (s t : Stmt)
  | act (k : Nat)
  | call (k : Nat)
  | decl (v : Nat)
  | choose (c : Stmt) (v : Nat) (t e : Stmt)
  | block (s : Stmt)
  | ifs (c : Stmt) (v : Nat) (t e : Stmt)
  | elif (c : Stmt) (v : Nat) (t e : Stmt)
  | loop (init c : Stmt) (v : Nat) (inc body : Stmt)
  | switch (c : Stmt) (v : Nat) (cs : Stmt)
  | caseFall (n : Int) (rest : Stmt)
  | caseRun (n : Int) (body rest : Stmt)
  | dflt (body : Stmt)
  | eval (s : Stmt)
  | next
  | last
  | brk
  | ret (k : Nat)
deriving DecidableEq, Repr

/-- The state: which object each object variable refers to (`none` is `undef`), and everything else. -/
structure State (τ : Type) where
  vars : Nat → Option Nat
  mem : τ

/-- The meaning of the operators, left open. -/
structure Interp (τ : Type) where
  /-- an operator that cannot throw -/
  act : Nat → State τ → State τ
  /-- an operator that can throw: the new state and the error id, 0 for no exception -/
  call : Nat → State τ → State τ × Nat
  /-- the value of an `int` variable -/
  ival : Nat → State τ → Int
  /-- the exception message gets the line of operator `k` -/
  trace : Nat → τ → τ
  /-- `eval` begins: no error, no exception message -/
  enter : τ → τ
  /-- `eval` has caught error `e` -/
  caught : Nat → τ → τ

/-- The object variables in `vs` are released. -/
def State.release {τ} (s : State τ) (vs : List Nat) : State τ :=
  { s with vars := fun v => if v ∈ vs then none else s.vars v }

/-- A point of an execution: the state, and the object variables declared in the blocks that are open, oldest first. -/
structure Point (τ : Type) where
  st : State τ
  open_ : List Nat

/-- Leaving a block that was entered when `n` variables were declared. -/
def Point.leave {τ} (p : Point τ) (n : Nat) : Point τ :=
  { st := p.st.release (p.open_.drop n), open_ := p.open_.take n }

/-- How a statement ends. -/
inductive End where
  | normal | next | last | brk | ret
  | exc (e : Nat)
deriving DecidableEq, Repr

/-- The statement a case list runs from its first case on: a case without a block goes on with the next one. -/
def Stmt.entry : Stmt → Stmt
  | .caseFall _ rest => rest.entry
  | .caseRun _ body _ => body
  | .dflt body => body
  | _ => .skip

/-- The statement a switch runs for value `x`. -/
def Stmt.select (x : Int) : Stmt → Stmt
  | .caseFall n rest => if n = x then rest.entry else rest.select x
  | .caseRun n body rest => if n = x then body else rest.select x
  | .dflt body => body
  | _ => .skip

/-- What is executed: a statement, a conditional (the part that `choose`, `ifs` and `elif` have in common), or a loop that has
been initialised. -/
inductive Task where
  | stmt (s : Stmt)
  | cond (c : Stmt) (v : Nat) (t e : Stmt)
  | iter (c : Stmt) (v : Nat) (inc body : Stmt)

/-- `break` ends at the switch. -/
def End.atSwitch : End → End
  | .brk => .normal
  | r => r

/-- `Runs I t p r q`: `t` started at `p` ends as `r` at `q`. -/
inductive Runs {τ} (I : Interp τ) : Task → Point τ → End → Point τ → Prop where
  | skip (p) : Runs I (.stmt .skip) p .normal p
  | seq {s t p q r u} : Runs I (.stmt s) p .normal q → Runs I (.stmt t) q r u → Runs I (.stmt (.seq s t)) p r u
  | seqExit {s t p q r} : Runs I (.stmt s) p r q → r ≠ .normal → Runs I (.stmt (.seq s t)) p r q
  | act (k p) : Runs I (.stmt (.act k)) p .normal { p with st := I.act k p.st }
  | callOk {k p} : (I.call k p.st).2 = 0 → Runs I (.stmt (.call k)) p .normal { p with st := (I.call k p.st).1 }
  | callThrow {k p} : (I.call k p.st).2 ≠ 0 →
      Runs I (.stmt (.call k)) p (.exc (I.call k p.st).2)
        { p with st := { (I.call k p.st).1 with mem := I.trace k (I.call k p.st).1.mem } }
  | decl (v p) : Runs I (.stmt (.decl v)) p .normal { p with open_ := p.open_ ++ [v] }
  | next (p) : Runs I (.stmt .next) p .next p
  | last (p) : Runs I (.stmt .last) p .last p
  | brk (p) : Runs I (.stmt .brk) p .brk p
  | ret (k p) : Runs I (.stmt (.ret k)) p .ret { p with st := I.act k p.st }
  | condTrue {c v t e p q r u} : Runs I (.stmt c) p .normal q → I.ival v q.st ≠ 0 → Runs I (.stmt t) q r u →
      Runs I (.cond c v t e) p r u
  | condFalse {c v t e p q r u} : Runs I (.stmt c) p .normal q → I.ival v q.st = 0 → Runs I (.stmt e) q r u →
      Runs I (.cond c v t e) p r u
  | condExit {c v t e p q r} : Runs I (.stmt c) p r q → r ≠ .normal → Runs I (.cond c v t e) p r q
  | choose {c v t e p r q} : Runs I (.cond c v t e) p r q → Runs I (.stmt (.choose c v t e)) p r q
  | block {s p r q} : Runs I (.stmt s) p r q → Runs I (.stmt (.block s)) p r (q.leave p.open_.length)
  | ifs {c v t e p r q} : Runs I (.cond c v t e) p r q → Runs I (.stmt (.ifs c v t e)) p r (q.leave p.open_.length)
  | elif {c v t e p r q} : Runs I (.cond c v t e) p r q → Runs I (.stmt (.elif c v t e)) p r (q.leave p.open_.length)
  | loop {init c v inc body p q r u} : Runs I (.stmt init) p .normal q → Runs I (.iter c v inc body) q r u →
      Runs I (.stmt (.loop init c v inc body)) p r (u.leave p.open_.length)
  | loopExit {init c v inc body p q r} : Runs I (.stmt init) p r q → r ≠ .normal →
      Runs I (.stmt (.loop init c v inc body)) p r (q.leave p.open_.length)
  | iterDone {c v inc body p q} : Runs I (.stmt c) p .normal q → I.ival v q.st = 0 → Runs I (.iter c v inc body) p .normal q
  | iterCond {c v inc body p q r} : Runs I (.stmt c) p r q → r ≠ .normal → Runs I (.iter c v inc body) p r q
  | iterLast {c v inc body p q u} : Runs I (.stmt c) p .normal q → I.ival v q.st ≠ 0 →
      Runs I (.stmt (.block body)) q .last u → Runs I (.iter c v inc body) p .normal u
  | iterExit {c v inc body p q r u} : Runs I (.stmt c) p .normal q → I.ival v q.st ≠ 0 →
      Runs I (.stmt (.block body)) q r u → r ≠ .normal → r ≠ .next → r ≠ .last → Runs I (.iter c v inc body) p r u
  | iterNext {c v inc body p q r u w r' x} : Runs I (.stmt c) p .normal q → I.ival v q.st ≠ 0 →
      Runs I (.stmt (.block body)) q r u → r = .normal ∨ r = .next → Runs I (.stmt inc) u .normal w →
      Runs I (.iter c v inc body) w r' x → Runs I (.iter c v inc body) p r' x
  | iterInc {c v inc body p q r u r' w} : Runs I (.stmt c) p .normal q → I.ival v q.st ≠ 0 →
      Runs I (.stmt (.block body)) q r u → r = .normal ∨ r = .next → Runs I (.stmt inc) u r' w → r' ≠ .normal →
      Runs I (.iter c v inc body) p r' w
  | switch {c v cs p q r u} : Runs I (.stmt c) p .normal q → Runs I (.stmt (cs.select (I.ival v q.st))) q r u →
      Runs I (.stmt (.switch c v cs)) p r.atSwitch (u.leave q.open_.length)
  | switchExit {c v cs p r q} : Runs I (.stmt c) p r q → r ≠ .normal → Runs I (.stmt (.switch c v cs)) p r q
  | eval {s p r q} : Runs I (.stmt (.block s)) { p with st := { p.st with mem := I.enter p.st.mem } } r q →
      (∀ e, r ≠ .exc e) → Runs I (.stmt (.eval s)) p r q
  | evalCatch {s p e q} : Runs I (.stmt (.block s)) { p with st := { p.st with mem := I.enter p.st.mem } } (.exc e) q →
      Runs I (.stmt (.eval s)) p .normal { q with st := { q.st with mem := I.caught e q.st.mem } }

/-! ## Kinds of statements the theorems speak about -/

/-- Whether a statement declares an object variable. -/
def Stmt.declares : Stmt → Bool
  | .decl _ => true
  | .seq s t => s.declares || t.declares
  | .choose c _ t e => c.declares || t.declares || e.declares
  | .ifs c _ t e => c.declares || t.declares || e.declares
  | .elif c _ t e => c.declares || t.declares || e.declares
  | .block s => s.declares
  | .eval s => s.declares
  | .loop init c _ inc body => init.declares || body.declares || inc.declares || c.declares
  | .switch c _ cs => c.declares || cs.declares
  | .caseFall _ rest => rest.declares
  | .caseRun _ body rest => body.declares || rest.declares
  | .dflt body => body.declares
  | _ => false

/-- No `eval` inside an `eval`. -/
def Stmt.evalFlat (inEval : Bool) : Stmt → Bool
  | .seq s t => s.evalFlat inEval && t.evalFlat inEval
  | .choose c _ t e => c.evalFlat inEval && t.evalFlat inEval && e.evalFlat inEval
  | .ifs c _ t e => c.evalFlat inEval && t.evalFlat inEval && e.evalFlat inEval
  | .elif c _ t e => c.evalFlat inEval && t.evalFlat inEval && e.evalFlat inEval
  | .block s => s.evalFlat inEval
  | .eval s => !inEval && s.evalFlat true
  | .loop init c _ inc body => init.evalFlat inEval && c.evalFlat inEval && inc.evalFlat inEval && body.evalFlat inEval
  | .switch c _ cs => c.evalFlat inEval && cs.evalFlat inEval
  | .caseFall _ rest => rest.evalFlat inEval
  | .caseRun _ body rest => body.evalFlat inEval && rest.evalFlat inEval
  | .dflt body => body.evalFlat inEval
  | _ => true

/-- No object variable is declared in a branch of a conditional without a scope of its own (an operand of `&&`, `||`, ...), nor in
the condition or the increment of a loop. -/
def Stmt.scoped : Stmt → Bool
  | .seq s t => s.scoped && t.scoped
  | .choose c _ t e => c.scoped && t.scoped && e.scoped && !t.declares && !e.declares
  | .ifs c _ t e => c.scoped && t.scoped && e.scoped
  | .elif c _ t e => c.scoped && t.scoped && e.scoped
  | .block s => s.scoped
  | .eval s => s.scoped
  | .loop init c _ inc body => init.scoped && c.scoped && inc.scoped && body.scoped && !c.declares && !inc.declares
  | .switch c _ cs => c.scoped && cs.scoped
  | .caseFall _ rest => rest.scoped
  | .caseRun _ body rest => body.scoped && rest.scoped
  | .dflt body => body.scoped
  | _ => true

/-- The error a method ends with: 0 unless an exception leaves it. -/
def End.error : End → Nat
  | .exc e => e
  | _ => 0

/-- A method body run to its end: started with state `s`, it ends with state `s'` and error `e` (0 for none). -/
def MethodRuns {τ} (I : Interp τ) (body : Stmt) (s : State τ) (e : Nat) (s' : State τ) : Prop :=
  ∃ r q, Runs I (.stmt (.block body)) ⟨s, []⟩ r q ∧ r.error = e ∧ q.st = s'

end Flow
end SPVM
