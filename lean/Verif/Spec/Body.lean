import Verif.Spec.Logic
/-!
# Method bodies of numeric statements: documented meaning

lib/SPVM/Document/Language/Statements.pm and lib/SPVM/Document/Language/ExceptionHandling.pm, for method bodies made of numeric expressions (Spec/Expr), conditions
(Spec/Logic), declarations without a value, `if`, `elsif`, `else`, `unless`, `while`, `for`, `switch`, `next`, `last`, `break`, `return`, blocks and `eval`, and calls of class methods as
statements, lib/SPVM/Document/Language/Operators.pm "Method Call".

Nothing of the compiler appears here: no operation codes, no jumps, no hidden variables.
-/
namespace SPVM
namespace Expr

inductive Stat (φ : Type) where
  | skip
  | seq (s t : Stat φ)
  /-- an expression statement -/
  | expr (e : Expr φ)
  /-- `my $v : TYPE;` -/
  | decl (v : Var)
  | block (s : Stat φ)
  /-- `if (c) { t } else { e }`, and `unless` -/
  | ifs (isUnless : Bool) (c : Cond φ) (t e : Stat φ)
  /-- `elsif (c) { t } else { e }`: the else part of an `ifs` or `elif` -/
  | elif (c : Cond φ) (t e : Stat φ)
  /-- `for (init; c; inc) { body }`; a `while` loop has neither `init` nor `inc` -/
  | loop (init : Option (Expr φ)) (c : Cond φ) (inc : Option (Expr φ)) (body : Stat φ)
  /-- `switch (e) { cs }`; `cs` is made of the three following -/
  | switch (e : Expr φ) (cs : Stat φ)
  /-- `case n:`, and the block of the next case -/
  | caseFall (n : Int) (rest : Stat φ)
  /-- `case n: { body }` -/
  | caseRun (n : Int) (body rest : Stat φ)
  /-- `default: { body }` at the end; a switch without a default part has `dflt skip` -/
  | dflt (body : Stat φ)
  | next
  | last
  | brk
  /-- `return;` -/
  | ret
  /-- `return e;` -/
  | give (e : Expr φ)
  | eval (s : Stat φ)
  /-- `&f(args);` or `$v = &f(args);` -/
  | call (v : Option Var) (f : Nat) (args : List (Expr φ))

/-- The values of the variables and of the exception variable `$@` (`none` is `undef`), and the value to be returned, with its type. -/
structure World (φ : Type) where
  store : Store φ
  exc : Option String
  result : Option (NT × Val φ)

/-- "Type Initial Value". -/
def initial {φ} (F : Fl φ) (t : NT) : Val φ := if t.IsInt then .i 0 else .f (F.ofInt t 0)

/-- The arguments of a method, the default values of the last ones of them, and its return type. -/
structure Sig (φ : Type) where
  params : List NT
  defaults : List (Val φ)
  ret : Option NT

/-- All the arguments the method gets: those given in the call, and the default values of those left out. -/
def Sig.fill {φ} (g : Sig φ) (vs : List (Val φ)) : List (Val φ) := vs ++ g.defaults.drop (g.defaults.length - (g.params.length - vs.length))

/-- What has happened when a method is left. -/
structure Answer (φ : Type) where
  threw : Bool
  exc : Option String
  result : Option (NT × Val φ)

/-- `C f vs ex a`: method number `f`, called with the arguments `vs` when `$@` is `ex`, is left as `a` says. -/
abbrev Calls (φ : Type) := Nat → List (Val φ) → Option String → Answer φ → Prop

/-- What the evaluation of the arguments gives. -/
inductive ArgsOutcome (φ : Type) where
  | vals (s : Store φ) (vs : List (Val φ))
  | throws (msg : String) (s : Store φ)
  | undefined

/-- The arguments are evaluated from left to right. -/
def evalArgs {φ} (F : Fl φ) : List (Expr φ) → Store φ → ArgsOutcome φ
  | [], s => .vals s []
  | e :: es, s =>
    match Expr.eval F e s with
    | .val s x =>
      match evalArgs F es s with
      | .vals s xs => .vals s (x :: xs)
      | r => r
    | .throws msg s => .throws msg s
    | .undefined => .undefined

/-- Each argument is converted to its type. -/
def Sig.given {φ} (g : Sig φ) (args : List (Expr φ)) : List (Expr φ) := List.zipWith .cast g.params args

/-- How a statement ends. -/
inductive Stop where
  | normal | next | last | brk | ret
  /-- with the exception of which `$@` has the message -/
  | exc
deriving DecidableEq

def Stat.ofOption {φ} : Option (Expr φ) → Stat φ
  | none => .skip
  | some e => .expr e

/-- The block that is run from the first case of `cs` on. -/
def Stat.entry {φ} : Stat φ → Stat φ
  | .caseFall _ rest => rest.entry
  | .caseRun _ body _ => body
  | .dflt body => body
  | _ => .skip

/-- The block that is run for the value `x`. -/
def Stat.select {φ} (x : Int) : Stat φ → Stat φ
  | .caseFall n rest => if n = x then rest.entry else rest.select x
  | .caseRun n body rest => if n = x then body else rest.select x
  | .dflt body => body
  | _ => .skip

/-- `break` ends the switch. -/
def Stop.atSwitch : Stop → Stop
  | .brk => .normal
  | r => r

/-- What is executed: a statement, a conditional (`if`, `unless` or `elsif`), or a loop that has been initialised. -/
inductive Doing (φ : Type) where
  | stat (s : Stat φ)
  | cond (isUnless : Bool) (c : Cond φ) (t e : Stat φ)
  | iter (c : Cond φ) (inc : Option (Expr φ)) (body : Stat φ)

/-- `Exec F O R S C d w r w'`: in a method with the return type `R` (`none` is `void`), `d`, started with the variables `w`, ends as `r` with the
variables `w'`; the methods that can be called have the signatures `S`, and the calls do what `C` says.  There is no rule for operations that C does not define. -/
inductive Exec {φ} (F : Fl φ) (O : Objs) (R : Option NT) (S : Nat → Option (Sig φ)) (C : Calls φ) : Doing φ → World φ → Stop → World φ → Prop where
  | skip (w) : Exec F O R S C (.stat .skip) w .normal w
  | seq {s t w w1 r w2} : Exec F O R S C (.stat s) w .normal w1 → Exec F O R S C (.stat t) w1 r w2 → Exec F O R S C (.stat (.seq s t)) w r w2
  | seqExit {s t w r w1} : Exec F O R S C (.stat s) w r w1 → r ≠ .normal → Exec F O R S C (.stat (.seq s t)) w r w1
  | expr {e w s x} : Expr.eval F e w.store = .val s x → Exec F O R S C (.stat (.expr e)) w .normal { w with store := s }
  | exprThrows {e w msg s} : Expr.eval F e w.store = .throws msg s → Exec F O R S C (.stat (.expr e)) w .exc { w with store := s, exc := some msg }
  | block {s w r w1} : Exec F O R S C (.stat s) w r w1 → Exec F O R S C (.stat (.block s)) w r w1
  | decl (v w) : Exec F O R S C (.stat (.decl v)) w .normal { w with store := w.store.set v (initial F v.ty) }
  | cond {u c t e w s n r w1} : judge F O c w.store = .val s n → Exec F O R S C (.stat (if n = 0 ↔ u = true then t else e)) { w with store := s } r w1 →
      Exec F O R S C (.cond u c t e) w r w1
  | whenThrows {u c t e w msg s} : judge F O c w.store = .throws msg s → Exec F O R S C (.cond u c t e) w .exc { w with store := s, exc := some msg }
  | ifs {u c t e w r w1} : Exec F O R S C (.cond u c t e) w r w1 → Exec F O R S C (.stat (.ifs u c t e)) w r w1
  | elif {c t e w r w1} : Exec F O R S C (.cond false c t e) w r w1 → Exec F O R S C (.stat (.elif c t e)) w r w1
  | loop {init c inc body w w1 r w2} : Exec F O R S C (.stat (.ofOption init)) w .normal w1 → Exec F O R S C (.iter c inc body) w1 r w2 →
      Exec F O R S C (.stat (.loop init c inc body)) w r w2
  | loopExit {init c inc body w r w1} : Exec F O R S C (.stat (.ofOption init)) w r w1 → r ≠ .normal → Exec F O R S C (.stat (.loop init c inc body)) w r w1
  | done {c inc body w s} : judge F O c w.store = .val s 0 → Exec F O R S C (.iter c inc body) w .normal { w with store := s }
  | condThrows {c inc body w msg s} : judge F O c w.store = .throws msg s → Exec F O R S C (.iter c inc body) w .exc { w with store := s, exc := some msg }
  | bodyLast {c inc body w s n w1} : judge F O c w.store = .val s n → n ≠ 0 → Exec F O R S C (.stat body) { w with store := s } .last w1 →
      Exec F O R S C (.iter c inc body) w .normal w1
  | bodyExit {c inc body w s n r w1} : judge F O c w.store = .val s n → n ≠ 0 → Exec F O R S C (.stat body) { w with store := s } r w1 →
      r ≠ .normal → r ≠ .next → r ≠ .last →
      Exec F O R S C (.iter c inc body) w r w1
  | again {c inc body w s n r w1 w2 r' w3} : judge F O c w.store = .val s n → n ≠ 0 → Exec F O R S C (.stat body) { w with store := s } r w1 →
      r = .normal ∨ r = .next → Exec F O R S C (.stat (.ofOption inc)) w1 .normal w2 → Exec F O R S C (.iter c inc body) w2 r' w3 →
      Exec F O R S C (.iter c inc body) w r' w3
  | incExit {c inc body w s n r w1 r' w2} : judge F O c w.store = .val s n → n ≠ 0 → Exec F O R S C (.stat body) { w with store := s } r w1 →
      r = .normal ∨ r = .next → Exec F O R S C (.stat (.ofOption inc)) w1 r' w2 → r' ≠ .normal → Exec F O R S C (.iter c inc body) w r' w2
  | next (w) : Exec F O R S C (.stat .next) w .next w
  | last (w) : Exec F O R S C (.stat .last) w .last w
  -- "The integer promotional conversion is performed"
  | switch {e cs w s n r w1} : Expr.eval F (.cast .int e) w.store = .val s (.i n) → Exec F O R S C (.stat (cs.select n)) { w with store := s } r w1 →
      Exec F O R S C (.stat (.switch e cs)) w r.atSwitch w1
  | switchThrows {e cs w msg s} : Expr.eval F (.cast .int e) w.store = .throws msg s →
      Exec F O R S C (.stat (.switch e cs)) w .exc { w with store := s, exc := some msg }
  | brk (w) : Exec F O R S C (.stat .brk) w .brk w
  | ret (w) : Exec F O R S C (.stat .ret) w .ret w
  -- the value is converted to the return type
  | give {e t w s x} : R = some t → Expr.eval F (.cast t e) w.store = .val s x → Exec F O R S C (.stat (.give e)) w .ret { w with store := s, result := some (t, x) }
  | giveThrows {e t w msg s} : R = some t → Expr.eval F (.cast t e) w.store = .throws msg s →
      Exec F O R S C (.stat (.give e)) w .exc { w with store := s, exc := some msg }
  | call {f args g w s vs a} : S f = some g → evalArgs F (g.given args) w.store = .vals s vs → C f (g.fill vs) w.exc a → a.threw = false →
      Exec F O R S C (.stat (.call none f args)) w .normal { w with store := s, exc := a.exc }
  -- the return value is converted to the type of the variable
  | callSet {v f args g w s vs a t x y} : S f = some g → evalArgs F (g.given args) w.store = .vals s vs → C f (g.fill vs) w.exc a → a.threw = false →
      a.result = some (t, x) → conv F t v.ty x = .val y →
      Exec F O R S C (.stat (.call (some v) f args)) w .normal { w with store := s.set v y, exc := a.exc }
  | callThrows {v f args g w s vs a} : S f = some g → evalArgs F (g.given args) w.store = .vals s vs → C f (g.fill vs) w.exc a → a.threw = true →
      Exec F O R S C (.stat (.call v f args)) w .exc { w with store := s, exc := a.exc }
  | argsThrow {v f args g w msg s} : S f = some g → evalArgs F (g.given args) w.store = .throws msg s →
      Exec F O R S C (.stat (.call v f args)) w .exc { w with store := s, exc := some msg }
  | eval {s w r w1} : Exec F O R S C (.stat s) { w with exc := none } r w1 → r ≠ .exc → Exec F O R S C (.stat (.eval s)) w r w1
  | caught {s w w1} : Exec F O R S C (.stat s) { w with exc := none } .exc w1 → Exec F O R S C (.stat (.eval s)) w .normal w1

/-- A rule for the expressions and a rule for the conditions of a statement. -/
def Stat.All {φ} (P : Expr φ → Prop) (Q : Cond φ → Prop) : Stat φ → Prop
  | .seq s t => s.All P Q ∧ t.All P Q
  | .expr e => P e
  | .block s => s.All P Q
  | .ifs _ c t e => Q c ∧ t.All P Q ∧ e.All P Q
  | .elif c t e => Q c ∧ t.All P Q ∧ e.All P Q
  | .loop init c inc body => (∀ e, init = some e → P e) ∧ Q c ∧ (∀ e, inc = some e → P e) ∧ body.All P Q
  | .switch e cs => P e ∧ cs.All P Q
  | .caseFall _ rest => rest.All P Q
  | .caseRun _ body rest => body.All P Q ∧ rest.All P Q
  | .dflt body => body.All P Q
  | .give e => P e
  | .eval s => s.All P Q
  | .call _ _ args => ∀ e ∈ args, P e
  | _ => True

/-- The rules about types of `switch`, of `return` and of calls. -/
def Stat.Typed {φ} (R : Option NT) (S : Nat → Option (Sig φ)) : Stat φ → Prop
  | .seq s t => s.Typed R S ∧ t.Typed R S
  | .block s => s.Typed R S
  | .ifs _ _ t e => t.Typed R S ∧ e.Typed R S
  | .elif _ t e => t.Typed R S ∧ e.Typed R S
  | .loop _ _ _ body => body.Typed R S
  -- "must be an integer type within int"
  | .switch e cs => (ty e).rank ≤ NT.int.rank ∧ cs.Typed R S
  | .caseFall _ rest => rest.Typed R S
  | .caseRun _ body rest => body.Typed R S ∧ rest.Typed R S
  | .dflt body => body.Typed R S
  | .eval s => s.Typed R S
  | .ret => R = none
  -- "must satisfy assignment requirement to the return type"
  | .give e => ∃ t, R = some t ∧ ((ty e).rank ≤ t.rank ∨ Narrows t (litOf e))
  -- "Too few arguments", "Too many arguments", and the assignment requirement for arguments and the variable
  | .call v f args => ∃ g, S f = some g ∧ args.length ≤ g.params.length ∧ g.params.length ≤ args.length + g.defaults.length ∧
      (∀ p ∈ g.params.zip args, (ty p.2).rank ≤ p.1.rank ∨ Narrows p.1 (litOf p.2)) ∧ ∀ w, v = some w → ∃ t, g.ret = some t ∧ t.rank ≤ w.ty.rank
  | _ => True

/-- The values of the cases. -/
def Stat.values {φ} : Stat φ → List Int
  | .caseFall n rest => n :: rest.values
  | .caseRun n _ rest => n :: rest.values
  | _ => []

mutual

/-- `next` and `last` stand inside a loop, `break` inside a switch, `elsif` in the else part of a conditional and `case` and `default` directly inside a
switch; the values of the cases of a switch are different. -/
def Stat.Placed {φ} (inLoop inSwitch inElse : Bool) : Stat φ → Prop
  | .skip | .expr _ | .decl _ | .ret | .give _ | .call _ _ _ => True
  | .seq s t => s.Placed inLoop inSwitch false ∧ t.Placed inLoop inSwitch false
  | .block s => s.Placed inLoop inSwitch false
  | .ifs _ _ t e => t.Placed inLoop inSwitch false ∧ e.Placed inLoop inSwitch true
  | .elif _ t e => inElse = true ∧ t.Placed inLoop inSwitch false ∧ e.Placed inLoop inSwitch true
  | .loop _ _ _ body => body.Placed true inSwitch false
  | .switch _ cs => cs.values.Nodup ∧ cs.PlacedCases inLoop
  | .caseFall _ _ | .caseRun _ _ _ | .dflt _ => False
  | .next | .last => inLoop = true
  | .brk => inSwitch = true
  | .eval s => s.Placed inLoop inSwitch false

/-- A list of cases. -/
def Stat.PlacedCases {φ} (inLoop : Bool) : Stat φ → Prop
  | .caseFall _ rest => rest.PlacedCases inLoop
  | .caseRun _ body rest => body.Placed inLoop true false ∧ rest.PlacedCases inLoop
  | .dflt body => body.Placed inLoop true false
  | _ => False

end

/-- No argument of a call is a variable that a later argument assigns to, as in `foo($x, $x = 5)`. -/
def Stat.Steady {φ} (S : Nat → Option (Sig φ)) : Stat φ → Prop
  | .seq s t => s.Steady S ∧ t.Steady S
  | .block s => s.Steady S
  | .ifs _ _ t e => t.Steady S ∧ e.Steady S
  | .elif _ t e => t.Steady S ∧ e.Steady S
  | .loop _ _ _ body => body.Steady S
  | .switch _ cs => cs.Steady S
  | .caseFall _ rest => rest.Steady S
  | .caseRun _ body rest => body.Steady S ∧ rest.Steady S
  | .dflt body => body.Steady S
  | .eval s => s.Steady S
  | .call _ f args => ∀ g, S f = some g → (g.given args).Pairwise fun a b => ∀ v, holder a = some v → v ∉ assigned b
  | _ => True

/-- No `eval` inside an `eval`. -/
def Stat.Flat {φ} (inEval : Bool) : Stat φ → Prop
  | .seq s t => s.Flat inEval ∧ t.Flat inEval
  | .block s => s.Flat inEval
  | .ifs _ _ t e => t.Flat inEval ∧ e.Flat inEval
  | .elif _ t e => t.Flat inEval ∧ e.Flat inEval
  | .loop _ _ _ body => body.Flat inEval
  | .switch _ cs => cs.Flat inEval
  | .caseFall _ rest => rest.Flat inEval
  | .caseRun _ body rest => body.Flat inEval ∧ rest.Flat inEval
  | .dflt body => body.Flat inEval
  | .eval s => inEval = false ∧ s.Flat true
  | _ => True

/-- The end of the body without a return statement: a method that has a return type returns the initial value of this type. -/
def World.atEnd {φ} (F : Fl φ) (R : Option NT) (w : World φ) : World φ := match R with
  | none => w
  | some t => { w with result := some (t, initial F t) }

/-- A method with the return type `R` and the body `b` ends: with `w'`, and an exception if `threw`.  A method that comes to its end without a `return`
returns the initial value of its type. -/
def BodyEnds {φ} (F : Fl φ) (O : Objs) (R : Option NT) (S : Nat → Option (Sig φ)) (C : Calls φ) (b : Stat φ) (w : World φ) (threw : Bool) (w' : World φ) : Prop :=
  ∃ r w1, Exec F O R S C (.stat b) w r w1 ∧ (r = .exc ↔ threw = true) ∧ w' = if r = .normal then w1.atEnd F R else w1

/-! ## Programs -/

/-- A class method. -/
structure Meth (φ : Type) where
  params : List Var
  defaults : List (Val φ)
  ret : Option NT
  body : Stat φ

def Meth.sig {φ} (g : Meth φ) : Sig φ := ⟨g.params.map Var.ty, g.defaults, g.ret⟩
def sigs {φ} (P : List (Meth φ)) (f : Nat) : Option (Sig φ) := P[f]?.map Meth.sig

/-- The variables of a method at its start: the arguments, and the initial values. -/
def Meth.enter {φ} (F : Fl φ) (g : Meth φ) (vs : List (Val φ)) : Store φ :=
  (g.params.zip vs).foldl (fun s p => s.set p.1 p.2) fun v => initial F v.ty

def msgDeep : String := "Deep recursion occurs. The depth of a method call must be less than 1000."

/-- The calls of the methods of the program `P`, if at most `d` calls may be nested: one more throws an exception. -/
def ProgramCalls {φ} (F : Fl φ) (O : Objs) (P : List (Meth φ)) : Nat → Calls φ
  | 0, f, _, _, a => f < P.length ∧ a = ⟨true, some msgDeep, none⟩
  | d + 1, f, vs, ex, a => ∃ g w', P[f]? = some g ∧ BodyEnds F O g.ret (sigs P) (ProgramCalls F O P d) g.body ⟨g.enter F vs, ex, none⟩ a.threw w' ∧
      a.exc = w'.exc ∧ a.result = w'.result

end Expr
end SPVM
