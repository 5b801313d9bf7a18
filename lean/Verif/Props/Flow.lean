import Verif.Lemmas.FlowMethod
/-!
# C54, C55: the switch statement, and the control flow of a method body

The statements are compiled to operation codes by the model of the opcode builder, and the operation codes are run by the model
of the virtual machine.  `MethodRuns` (Spec/Flow) says what the statements mean.
-/
namespace SPVM
namespace Flow

variable {τ : Type}

/-! ## C54: switch -/

theorem doubleCases_true (l : List Int) (h : doubleCases l = true) : ¬ l.Nodup := by
  induction l with
  | nil => simp [doubleCases] at h
  | cons a l ih =>
    cases l with
    | nil => simp [doubleCases] at h
    | cons b l =>
      simp only [doubleCases, Bool.or_eq_true, beq_iff_eq] at h
      rcases h with rfl | h
      · simp
      · intro hn; exact ih h (List.nodup_cons.1 hn).2

/-- C54: the compiler rejects a switch statement exactly if two of its cases have the same value. -/
theorem switch_double_cases (values : List Int) : doubleCases (sortCases values) = true ↔ ¬ values.Nodup := by
  constructor
  · intro h hn
    exact doubleCases_true _ h ((sortCases_perm values).nodup_iff.2 hn)
  · intro h
    cases hd : doubleCases (sortCases values)
    · exact absurd (nodup_of_no_double values hd) h
    · rfl

/-- C54: the table of the cases is the cases in ascending order. -/
theorem switch_table_sorted (values : List Int) :
    (sortCases values).Perm values ∧ (values.Nodup → (sortCases values).Pairwise (· < ·)) := by
  refine ⟨sortCases_perm values, fun hn => ?_⟩
  apply sortCases_strict
  cases h : doubleCases (sortCases values)
  · rfl
  · exact absurd hn ((switch_double_cases values).1 h)

/-- C54: `LOOKUP_SWITCH` with the table of the cases `values`, case `i` of the table having target `target i`: the next operation
code is that of the case with the value of the operand, or the default if there is no such case. -/
theorem switch_lookup (I : Interp τ) (code : List Op) (limit : Nat) (m : Vm τ) (v dflt : Nat) (values : List Int) (target : Int → Nat)
    (hn : values.Nodup) (hl : code[m.pc]? = some (.lookup v dflt values.length))
    (ht : ∀ i, (h : i < (sortCases values).length) →
      code[m.pc + 1 + i]? = some (.caseInfo (sortCases values)[i] (target (sortCases values)[i]))) :
    m.step I code limit = .go { m with pc := if I.ival v m.st ∈ values then target (I.ival v m.st) else dflt } := by
  let tab := (sortCases values).map (fun n => (n, target n))
  have hlen : tab.length = values.length := by simp [tab, (sortCases_perm values).length_eq]
  have hcode : ∀ i, (h : i < tab.length) → code[m.pc + 1 + i]? = some (.caseInfo tab[i].1 tab[i].2) := by
    intro i h
    have := ht i (by simpa [tab] using h)
    simpa [tab] using this
  have hs : (tab.map (·.1)).Pairwise (· < ·) := by
    have : tab.map (·.1) = sortCases values := by simp [tab, Function.comp_def]
    rw [this]
    exact (switch_table_sorted values).2 hn
  have hmem : ∀ x t, (x, t) ∈ tab ↔ x ∈ values ∧ t = target x := by
    intro x t
    simp only [tab, List.mem_map, Prod.mk.injEq]
    constructor
    · rintro ⟨n, hn, rfl, rfl⟩; exact ⟨(sortCases_perm values).mem_iff.1 hn, rfl⟩
    · rintro ⟨hx, rfl⟩; exact ⟨x, (sortCases_perm values).mem_iff.2 hx, rfl, rfl⟩
  unfold Vm.step
  rw [hl]
  simp only
  rw [← hlen]
  rcases lookup_ok code m.pc (I.ival v m.st) dflt tab hcode hs with ⟨t, hm, e⟩ | ⟨hno, e⟩
  · rw [e]
    obtain ⟨h1, rfl⟩ := (hmem _ _).1 hm
    rw [if_pos h1]
  · rw [e]
    rw [if_neg (fun h => hno _ ((hmem _ _).2 ⟨h, rfl⟩))]

/-- What the specification runs for a value is the block of the first case at or behind the matching `case` that has one. -/
theorem switch_select (x : Int) (n : Int) (body rest : Stmt) :
    (Stmt.caseRun n body rest).select x = (if n = x then body else rest.select x) ∧
    (Stmt.caseFall n rest).select x = (if n = x then rest.entry else rest.select x) ∧
    (Stmt.dflt body).select x = body := ⟨rfl, rfl, rfl⟩

/-! ## C55: control flow -/

/-- C55: every method body that the compiler accepts, without an `eval` inside an `eval`, is compiled: the builder never takes
from an empty stack. -/
theorem flow_compiles (body : Stmt) (ok : body.ok false false false = true) (fl : body.evalFlat false = true) :
    ∃ M, compile body = some M := by
  obtain ⟨M, _, _, _, h, _⟩ := compile_shape body ok fl
  exact ⟨M, h⟩

/-- C55: if the statements of a method body end with state `s'` and error `e`, the compiled code ends with the same state and
error, and every object variable has been released.  Missing: bodies with an `eval` inside an `eval`, and with object variables
declared in a branch of `&&`, `||`, ... or in the condition or increment of a loop; the property fails there, see below. -/
theorem flow_ends_partial (body : Stmt) (ok : body.ok false false false = true) (fl : body.evalFlat false = true)
    (sc : body.scoped = true) (M : Method) (hM : compile body = some M) (I : Interp τ) (s : State τ) (e : Nat) (s' : State τ)
    (h : MethodRuns I body s e s') :
    ∃ n m', (∀ k, n ≤ k → (Vm.start s).run I M.code M.mortalLength k = .done m') ∧ m'.st = s' ∧ m'.err = e ∧ m'.mortal = [] := by
  obtain ⟨m', h1, h2, h3, h4, h5⟩ := method_ends body ok fl sc M hM s e s' h
  obtain ⟨n, hn⟩ := run_done h1 h2
  exact ⟨n + 1, m', fun k hk => hn k (by omega), h3, h4, h5⟩

/-- C55: the compiled code never does anything undefined: it never leaves the operation codes and never writes behind the end of
the mortal stack, whether the method ends or not. -/
theorem flow_defined_partial (body : Stmt) (ok : body.ok false false false = true) (fl : body.evalFlat false = true)
    (sc : body.scoped = true) (M : Method) (hM : compile body = some M) (I : Interp τ) (s : State τ) (n : Nat) :
    (Vm.start s).run I M.code M.mortalLength n ≠ .ub := by
  rcases method_prog I body ok fl sc M hM s n with ⟨e, s', h⟩ | ⟨m', hb⟩
  · obtain ⟨m', ⟨k, h1⟩, h2, _⟩ := method_ends body ok fl sc M hM s e s' h
    by_cases hk : n ≤ k
    · obtain ⟨m2, e2⟩ := run_before h1 n hk
      rw [e2]; simp
    · obtain ⟨j, rfl⟩ : ∃ j, n = k + (j + 1) := ⟨n - k - 1, by omega⟩
      rw [h1.run, Vm.run, h2]; simp
  · obtain ⟨m2, e2⟩ := run_before hb n (Nat.le_refl _)
    rw [e2]; simp

/-- C55: if the compiled code ends, the statements end, with the same state and error. -/
theorem flow_reflects_partial (body : Stmt) (ok : body.ok false false false = true) (fl : body.evalFlat false = true)
    (sc : body.scoped = true) (M : Method) (hM : compile body = some M) (I : Interp τ) (s : State τ) (n : Nat) (m : Vm τ)
    (h : (Vm.start s).run I M.code M.mortalLength n = .done m) : MethodRuns I body s m.err m.st := by
  rcases method_prog I body ok fl sc M hM s n with ⟨e, s', hr⟩ | ⟨m', hb⟩
  · obtain ⟨m', h1, h2, h3, h4, _⟩ := method_ends body ok fl sc M hM s e s' hr
    obtain ⟨k, hk⟩ := run_done h1 h2
    have e1 : ∀ j, (Vm.start s).run I M.code M.mortalLength (n + j) = .done m := by
      intro j
      have : ∀ (n : Nat) (v : Vm τ), v.run I M.code M.mortalLength n = .done m → v.run I M.code M.mortalLength (n + j) = .done m := by
        intro n
        induction n with
        | zero => intro v hv; simp [Vm.run] at hv
        | succ n ih =>
          intro v hv
          rw [Nat.add_right_comm, Vm.run]
          rw [Vm.run] at hv
          cases hs : v.step I M.code M.mortalLength with
          | go v' => rw [hs] at hv; exact ih v' hv
          | done v' => rw [hs] at hv; exact hv
          | ub => rw [hs] at hv; exact hv
      exact this n _ h
    have e2 := hk (n + (k + 1)) (by omega)
    rw [e1] at e2
    cases e2
    rw [h3, h4]; exact hr
  · obtain ⟨m2, e2⟩ := run_before hb n (Nat.le_refl _)
    rw [h] at e2; simp at e2

/-- C54 and C55 together: if a method that is one switch statement ends, it has run the statements of the selected case, and
nothing else. -/
theorem flow_switch_partial (v : Nat) (cs : Stmt) (ok : (Stmt.switch .skip v cs).ok false false false = true)
    (fl : cs.evalFlat false = true) (sc : cs.scoped = true) (M : Method) (hM : compile (.switch .skip v cs) = some M) (I : Interp τ)
    (s : State τ) (n : Nat) (m : Vm τ) (h : (Vm.start s).run I M.code M.mortalLength n = .done m) :
    ∃ r q, Runs I (.stmt (.block (cs.select (I.ival v s)))) ⟨s, []⟩ r q ∧ r.error = m.err ∧ q.st = m.st := by
  have hr := flow_reflects_partial (.switch .skip v cs) ok (by simpa [Stmt.evalFlat] using fl) (by simpa [Stmt.scoped] using sc)
    M hM I s n m h
  obtain ⟨r, q, h1, h2, h3⟩ := hr
  cases h1 with
  | block hb =>
    cases hb with
    | switch hc hs =>
      cases hc
      rename_i r' u
      refine ⟨r', _, .block hs, ?_, ?_⟩
      · rw [← h2]; cases r' <;> rfl
      · rw [← h3]
        show (u.leave 0).st = ((u.leave 0).leave 0).st
        rw [leave_leave u 0 0 (Nat.le_refl _)]
    | switchExit hc hn => cases hc; exact absurd rfl hn

/-- The meaning of a method body is unique, so "the" state and error are meant above. -/
theorem flow_unique_partial (body : Stmt) (ok : body.ok false false false = true) (fl : body.evalFlat false = true)
    (sc : body.scoped = true) (I : Interp τ) (s : State τ) (e e' : Nat) (s1 s2 : State τ)
    (h1 : MethodRuns I body s e s1) (h2 : MethodRuns I body s e' s2) : e = e' ∧ s1 = s2 := by
  obtain ⟨M, hM⟩ := flow_compiles body ok fl
  obtain ⟨n1, m1, a1, rfl, rfl, _⟩ := flow_ends_partial body ok fl sc M hM I s e s1 h1
  obtain ⟨n2, m2, a2, rfl, rfl, _⟩ := flow_ends_partial body ok fl sc M hM I s e' s2 h2
  have := a1 (n1 + n2) (by omega)
  rw [a2 (n1 + n2) (by omega)] at this
  cases this
  exact ⟨rfl, rfl⟩

/-! ### Where the property fails -/

/-- Operators for the witnesses: an operator notes its number (0 instead if variable 1 is set) in a list, an operator from 100 on
sets a variable, `call 9` throws error 1, and condition variable `v` holds while the list is shorter than `v`. -/
def noting : Interp (List Nat) where
  act k s := if 100 ≤ k then { s with vars := fun v => if v = k - 100 then some 7 else s.vars v }
    else { s with mem := s.mem ++ [if s.vars 1 = none then k else 0] }
  call k s := (s, if k = 9 then 1 else 0)
  ival v s := if s.mem.length < v then 1 else 0
  trace _ m := m
  enter m := m
  caught _ m := m

/-- No variable is set, and nothing is noted. -/
def blank : State (List Nat) := ⟨fun _ => none, []⟩

/-- The list at the end of the machine. -/
def Step.noted : Step (List Nat) → Option (List Nat)
  | .done m => some m.st.mem
  | _ => none

/-- Whether the machine did something undefined. -/
def Step.isUb {τ} : Step τ → Bool
  | .ub => true
  | _ => false

/-- `eval { die; eval { }; act 5 }`. -/
def nestedEval : Stmt := .eval (.seq (.call 9) (.seq (.eval .skip) (.act 5)))

/-- Its operation codes. -/
def nestedEvalCode : Method :=
  ⟨[.endArgs, .enterEval, .call 9, .onExcEval 5 9, .enterEval, .act 5, .endMethod], 1⟩

/-- C55 fails for an `eval` inside an `eval`: an exception of the outer `eval` is caught at the end of the inner one, and the
statements behind the inner `eval` run although the exception should have skipped them. -/
theorem flow_nested_eval_violated :
    nestedEval.ok false false false = true ∧ nestedEval.scoped = true ∧ (∃ s', MethodRuns noting nestedEval blank 0 s' ∧ s'.mem = []) ∧
      compile nestedEval = some nestedEvalCode ∧ ((Vm.start blank).run noting nestedEvalCode.code nestedEvalCode.mortalLength 20).noted = some [5] := by
  refine ⟨by decide, by decide, ?_, by decide +kernel, by decide +kernel⟩
  exact ⟨_, ⟨_, _, .block (.evalCatch (.block (.seqExit (.callThrow (by decide)) (by simp)))), rfl, rfl⟩, rfl⟩

/-- `(c && my $v0); my $v1 = ...; { my $v2 }; act 5`, where `c` holds. -/
def branchDecl : Stmt :=
  .seq (.choose .skip 1 (.decl 0) .skip) (.seq (.decl 1) (.seq (.act 101) (.seq (.block (.decl 2)) (.act 5))))

/-- Its operation codes. -/
def branchDeclCode : Method :=
  ⟨[.endArgs, .ifEq 4 1, .pushMortal 0, .goto_ 4, .pushMortal 1, .act 101, .pushMortal 2, .leaveScope 1, .act 5,
     .leaveScope 0, .endMethod], 4⟩

/-- C55 fails for an object variable declared in a branch of `&&` or `||`: the builder forgets it at the end of the branch, so the
end of a later block releases a variable that is still in use (the operator behind the block notes 5 instead of 0). -/
theorem flow_branch_declaration_violated :
    branchDecl.ok false false false = true ∧ branchDecl.evalFlat false = true ∧
      (∃ s', MethodRuns noting branchDecl blank 0 s' ∧ s'.mem = [0]) ∧
      compile branchDecl = some branchDeclCode ∧ ((Vm.start blank).run noting branchDeclCode.code branchDeclCode.mortalLength 20).noted = some [5] := by
  refine ⟨by decide, by decide, ?_, by decide +kernel, by decide +kernel⟩
  refine ⟨_, ⟨_, _, .block (.seq (.choose (.condTrue (.skip _) (by decide) (.decl _ _))) (.seq (.decl _ _)
    (.seq (.act _ _) (.seq (.block (.decl _ _)) (.act _ _))))), rfl, rfl⟩, ?_⟩
  decide

/-- `while (my $v0 ...) { act 1 }` with three rounds. -/
def conditionDecl : Stmt := .loop .skip (.decl 0) 3 .skip (.act 1)

/-- Its operation codes. -/
def conditionDeclCode : Method :=
  ⟨[.endArgs, .goto_ 3, .act 1, .pushMortal 0, .ifNe 2 3, .leaveScope 0, .leaveScope 0, .endMethod], 2⟩

/-- C55 fails for an object variable declared in the condition of a loop: every round pushes it on the mortal stack, which has room
for the declarations in the source only, and the machine writes behind its end. -/
theorem flow_condition_declaration_violated :
    conditionDecl.ok false false false = true ∧ conditionDecl.evalFlat false = true ∧
      (∃ s', MethodRuns noting conditionDecl blank 0 s' ∧ s'.mem = [1, 1, 1]) ∧
      compile conditionDecl = some conditionDeclCode ∧ ((Vm.start blank).run noting conditionDeclCode.code conditionDeclCode.mortalLength 40).isUb = true := by
  refine ⟨by decide, by decide, ?_, by decide +kernel, by decide +kernel⟩
  refine ⟨_, ⟨_, _, .block (.loop (.skip _) (.iterNext (.decl _ _) (by decide) (.block (.act _ _)) (Or.inl rfl) (.skip _)
    (.iterNext (.decl _ _) (by decide) (.block (.act _ _)) (Or.inl rfl) (.skip _)
    (.iterNext (.decl _ _) (by decide) (.block (.act _ _)) (Or.inl rfl) (.skip _)
    (.iterDone (.decl _ _) (by decide)))))), rfl, rfl⟩, ?_⟩
  decide

/-! ### Examples: the hypotheses are met -/

/-- `for (...) { my $v0; if (c) { next } elsif (d) { my $v1; last } else { eval { my $v2; die } } switch (v) { case 1: case 2: { act 6; break } default: { act 7 } } } return` -/
def sample : Stmt :=
  .seq (.decl 3)
    (.seq (.loop (.act 1) .skip 9 (.act 2)
      (.seq (.decl 0)
        (.seq (.ifs .skip 2 .next (.elif .skip 3 (.seq (.decl 1) .last) (.eval (.seq (.decl 2) (.call 9)))))
          (.switch (.act 4) 7 (.caseFall 1 (.caseRun 2 (.seq (.act 6) .brk) (.dflt (.act 7)))))))) (.ret 8))

/-- Its operation codes. -/
def sampleCode : Method :=
  ⟨[.endArgs, .pushMortal 3, .act 1, .goto_ 30, .pushMortal 0, .ifEq 8 2, .goto_ 28, .goto_ 19, .ifEq 12 3, .pushMortal 1,
     .goto_ 31, .goto_ 18, .leaveScope 2, .enterEval, .pushMortal 2, .call 9, .onExcEval 17 9, .leaveScope 2, .leaveScope 2,
     .leaveScope 2, .leaveScope 2, .act 4, .lookup 7 27 2, .caseInfo 1 25, .caseInfo 2 25, .act 6, .goto_ 28, .act 7,
     .leaveScope 1, .act 2, .ifNe 4 9, .leaveScope 1, .ret 8 33, .leaveScope 0, .endMethod], 5⟩

example : sample.ok false false false = true ∧ sample.evalFlat false = true ∧ sample.scoped = true := by decide

example : compile sample = some sampleCode ∧
    ((Vm.start blank).run noting sampleCode.code sampleCode.mortalLength 100).noted = some [1, 2, 8] := by decide +kernel

/-- The statements of the sample really run to an end in the specification (by the theorem above). -/
example : ∃ e s', MethodRuns noting sample blank e s' := by
  have h : ((Vm.start blank).run noting sampleCode.code sampleCode.mortalLength 100).noted = some [1, 2, 8] := by decide +kernel
  cases hr : (Vm.start blank).run noting sampleCode.code sampleCode.mortalLength 100 with
  | done m =>
    exact ⟨_, _, flow_reflects_partial sample (by decide) (by decide) (by decide) sampleCode (by decide +kernel) noting blank 100 m hr⟩
  | go m => rw [hr] at h; simp [Step.noted] at h
  | ub => rw [hr] at h; simp [Step.noted] at h

example : ([5, 1, -3] : List Int).Nodup ∧ sortCases [5, 1, -3] = [-3, 1, 5] := by decide

example : doubleCases (sortCases [5, 1, 5]) = true := by decide

end Flow
end SPVM
