import Verif.Model.Except

/-!
# Scope guards

`Fn->defer` (Fn.spvm 1133-1138), `Scope::Guard` (Scope/Guard.spvm), the end of a scope (`SPVM_API_leave_scope_local`, spvm_api.c
4946-4957; spvm_opcode_builder.c 433-481: blocks, eval blocks and the method block release the variables declared in them, jumps out of a
block leave that to the block they jump to) and the call of a destructor (spvm_api.c 5188-5230).

Simplifications: a program is the tree of what it executes, as in `Model/Except`.  A guard is kept in a variable of the scope
that it is made in and nowhere else, and the variable is not declared in an operand of `&&` or `||` (`flow_branch_declaration_violated`, C55), so it is destroyed when the variable is released (that this is when its destructor is called is C32
and C84).  The callback is kept as what calling it does.
-/

namespace SPVM.Guard

open SPVM.Except (Msg Meth stackTrace deepMsg errorClass)

inductive Code where
  | skip
  | seq (a b : Code)
  | emit (n : Int)
  | look
  | die (id : Int) (msg : Option Msg) (line : Int)
  | ret
  | defer (m : Meth) (cb : Code)
  | block (body : Code)
  | evalB (body : Code)
  | call (m : Meth) (body : Code) (line : Int)

/-- What can be observed: output, what `$@` and `eval_error_id` are when they are read, that guard number `k` is made, that its callback
is called, a warning on the standard error. -/
inductive Ev where
  | emit (n : Int)
  | saw (exc : Option Msg) (id : Int)
  | reg (k : Nat)
  | run (k : Nat)
  | warn (m : Msg)
deriving DecidableEq

/-- What all methods share: `$@`, the number of the next guard, what has been observed. -/
structure Sh where
  exc : Option Msg
  next : Nat
  log : List Ev
deriving DecidableEq

/-- A guard object, with what its destruction does. -/
structure Guard where
  k : Nat
  run : Sh → Out Sh

/-- A running method: `eval_error_id` and the mortal stack, here only its guards. -/
structure Fr where
  sh : Sh
  evalErr : Int
  mortal : List Guard

inductive Flow where
  | next
  | raised (id : Int)
  | ret
deriving DecidableEq

/-- `error_id`. -/
def Flow.err : Flow → Int
  | .raised id => id
  | _ => 0

/-- The on-exception opcodes, spvm_vm.c 211-231. -/
def onExc (depth : Nat) (m : Meth) (line : Int) (err : Int) (s : Sh) : Out (Flow × Sh) :=
  if err = 0 then .ok (.next, s)
  else do
    let e ← stackTrace depth s.exc m line
    .ok (.raised err, { s with exc := e })

/-- The loop of `SPVM_API_leave_scope_local`, spvm_api.c 4948-4954. -/
def leave : List Guard → Sh → Out Sh
  | [], s => .ok s
  | g :: gs, s => do
    let s ← g.run s
    leave gs s

/-- `SPVM_API_leave_scope_local`, spvm_api.c 4946-4957. -/
def leaveScope (top : Nat) (f : Fr) : Out Fr := do
  let s ← leave (f.mortal.drop top) f.sh
  .ok { f with sh := s, mortal := f.mortal.take top }

/-- A method: a new mortal stack, the body, the end of the method block (spvm_opcode_builder.c 450-481, spvm_vm.c 2395-2416). -/
def asMethod (body : Fr → Out (Flow × Fr)) (s : Sh) : Out (Int × Sh) := do
  let r ← body ⟨s, 0, []⟩
  let f ← leaveScope 0 r.2
  .ok (r.1.err, f.sh)

/-- `SPVM_API_call_method_common`, spvm_api.c 4798-4804. -/
def callAt (depth : Nat) (run : Sh → Out (Int × Sh)) (s : Sh) : Out (Int × Sh) :=
  if depth + 1 > 1000 then .ok (errorClass, { s with exc := some deepMsg }) else run s

/-- `Scope::Guard#DESTROY`, Scope/Guard.spvm 22-24. -/
def destroyM : Meth := ⟨"Scope::Guard".toList, "DESTROY".toList, "SPVM/Scope/Guard.spvm".toList⟩

/-- The destructor calls the callback, Scope/Guard.spvm 23. -/
def destroy (depth k : Nat) (cb : Sh → Out (Int × Sh)) (s : Sh) : Out (Int × Sh) := do
  let r ← callAt (depth + 1) (fun s => cb { s with log := s.log ++ [.run k] }) s
  let r ← onExc (depth + 1) destroyM 23 r.1 r.2
  .ok (r.1.err, r.2)

/-- The warning for an exception of a destructor, spvm_api.c 5209-5217. -/
def warnOn (err : Int) (s : Sh) : Out Sh :=
  if err = 0 then .ok s
  else
    match s.exc with
    | none => .ub
    | some e => .ok { s with log := s.log ++ [.warn e] }

/-- The call of the destructor of a guard, spvm_api.c 5196-5224; `$@` is saved and restored. -/
def runGuard (depth k : Nat) (cb : Sh → Out (Int × Sh)) (s : Sh) : Out Sh := do
  let r ← callAt depth (destroy depth k cb) { s with exc := none }
  let s' ← warnOn r.1 r.2
  .ok { s' with exc := s.exc }

/-- Execution in method `m` at call depth `depth`. -/
def exec (m : Meth) (depth : Nat) : Code → Fr → Out (Flow × Fr)
  | .skip, f => .ok (.next, f)
  | .seq a b, f => do
    let r ← exec m depth a f
    if r.1 = .next then exec m depth b r.2 else .ok r
  | .emit n, f => .ok (.next, { f with sh := { f.sh with log := f.sh.log ++ [.emit n] } })
  | .look, f => .ok (.next, { f with sh := { f.sh with log := f.sh.log ++ [.saw f.sh.exc f.evalErr] } })
  | .die id msg line, f => do
    let r ← onExc depth m line id { f.sh with exc := msg }
    .ok (r.1, { f with sh := r.2 })
  | .ret, f => .ok (.ret, f)
  | .defer m' cb, f =>
    let k := f.sh.next
    .ok (.next, { f with sh := { f.sh with next := k + 1, log := f.sh.log ++ [.reg k] },
                         mortal := f.mortal ++ [⟨k, runGuard depth k (asMethod (exec m' (depth + 2) cb))⟩] })
  | .block b, f => do
    let r ← exec m depth b f
    if r.1 = .next then do
      let f' ← leaveScope f.mortal.length r.2
      .ok (.next, f')
    else .ok r
  | .evalB b, f => do
    let r ← exec m depth b { f with sh := { f.sh with exc := none }, evalErr := 0 }
    match r.1 with
    | .ret => .ok r
    | .next => do
      let f' ← leaveScope f.mortal.length r.2
      .ok (.next, f')
    | .raised id => do
      let f' ← leaveScope f.mortal.length { r.2 with evalErr := id }
      .ok (.next, f')
  | .call m' b line, f => do
    let r ← callAt depth (asMethod (exec m' (depth + 1) b)) f.sh
    let r ← onExc depth m line r.1 r.2
    .ok (r.1, { f with sh := r.2 })

end SPVM.Guard
