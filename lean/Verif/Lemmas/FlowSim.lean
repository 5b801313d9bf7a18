import Verif.Lemmas.FlowRun
/-!
# The operation codes do what the statements mean
-/
namespace SPVM
namespace Flow

variable {τ : Type} {I : Interp τ} {C : List Op} {L : Nat}

theorem Landed.retarget {ev : Bool} {ctx ctx' : Hole → Nat} {b b' : Nat} {r : End} {q : Point τ} {X : List Nat} {m : Vm τ}
    (h : Landed I ev ctx b r q X m) (ht : target ev ctx b r = target ev ctx' b' r) : Landed I ev ctx' b' r q X m :=
  ⟨h.pc.trans ht, h.mortal, h.vars, h.err, h.mem⟩

/-- A jump has arrived: go on from there as after a normal end. -/
theorem Landed.arrive {ev : Bool} {ctx ctx' : Hole → Nat} {b : Nat} {r : End} {q : Point τ} {X : List Nat} {m : Vm τ}
    (h : Landed I ev ctx b r q X m) (hr : ∀ e, r ≠ .exc e) : Landed I ev ctx' (target ev ctx b r) .normal q X m := by
  refine ⟨h.pc, h.mortal, h.vars, ?_, ?_⟩
  · rw [h.err]
    cases r <;> simp [End.error] at hr ⊢
  · rw [h.mem]
    cases r <;> simp [endMem] at hr ⊢

/-- An exception has arrived at the end of its `eval`. -/
theorem Landed.caught {ctx ctx' : Hole → Nat} {b e : Nat} {q : Point τ} {X : List Nat} {m : Vm τ} {ev' : Bool}
    (h : Landed I true ctx b (.exc e) q X m) :
    Landed I ev' ctx' (ctx .excEval) .normal { q with st := { q.st with mem := I.caught e q.st.mem } } X m := by
  refine ⟨by rw [h.pc]; simp [target], h.mortal, h.vars, by rw [h.err]; simp [End.error], by rw [h.mem]; simp [endMem]⟩

theorem Landed.leave {ev : Bool} {ctx : Hole → Nat} {b : Nat} {r : End} {q : Point τ} {X P Y : List Nat} {m : Vm τ} {d : Nat}
    (h : Landed I ev ctx b r q X m) (hq : q.open_ = P ++ Y) (hd : P.length = d) :
    Landed I ev ctx b r (q.leave d) (Y ++ X) m := by
  refine ⟨h.pc, ?_, ?_, h.err, ?_⟩
  · rw [h.mortal, hq]; simp [Point.leave, hq, ← hd]
  · simp only [Point.leave, hq, ← hd, List.drop_left]
    rw [← release_release]
    have := h.vars
    show (fun v => if v ∈ Y then none else (m.st.release X).vars v) = fun v => if v ∈ Y then none else q.st.vars v
    rw [this]
  · rw [h.mem]; rfl

theorem leave_open {q : Point τ} {P Y : List Nat} {d : Nat} (hq : q.open_ = P ++ Y) (hd : P.length = d) : (q.leave d).open_ = P := by
  simp [Point.leave, hq, ← hd]

theorem leave_leave (q : Point τ) (d d' : Nat) (h : d ≤ d') : (q.leave d').leave d = q.leave d := by
  simp only [Point.leave]
  rw [release_release, List.take_take, Nat.min_eq_left h]
  congr 2
  rw [List.drop_take]
  have : q.open_.drop d' = (q.open_.drop d).drop (d' - d) := by rw [List.drop_drop]; congr 1; omega
  rw [this, List.take_append_drop]

theorem leave_self (q : Point τ) (d : Nat) (h : q.open_.length = d) : q.leave d = q := by
  cases q
  simp only at h
  subst h
  simp [Point.leave, release_nil]

/-- A scope left by the machine. -/
theorem Landed.leaveScope {ev : Bool} {ctx : Hole → Nat} {a b : Nat} {q : Point τ} {X P Y : List Nat} {m : Vm τ} {d : Nat} {need : Bool}
    (h : Landed I ev ctx a .normal q X m) (hl : Leave C need d a b) (hq : q.open_ = P ++ Y) (hd : P.length = d)
    (hn : need = false → X = [] ∧ Y = []) : Reach I C L m (Vm.at (q.leave d) b) := by
  have h' := h.leave hq hd
  have hm : m.mortal = P ++ (Y ++ X) := by rw [h.mortal, hq, List.append_assoc]
  have hr := reach_leave (I := I) (L := L) hl m P (Y ++ X) h.pc hm hd (fun hh => by simp [hn hh])
  have : { m with pc := b, st := m.st.release (Y ++ X), mortal := P } = Vm.at (q.leave d) b := by
    apply landed_normal (I := I) (ev := ev) (ctx := ctx)
    refine ⟨rfl, by rw [leave_open hq hd]; simp, ?_, ?_, ?_⟩
    · rw [release_nil]; exact h'.vars
    · exact h.err
    · exact h'.mem
  rw [← this]
  exact hr

/-- A scope that may or may not be left by the machine. -/
theorem Landed.mayLeave {ev : Bool} {ctx : Hole → Nat} {a b : Nat} {q : Point τ} {X P Y : List Nat} {m : Vm τ} {d : Nat} {need : Bool}
    (h : Landed I ev ctx a .normal q X m) (hl : Leave C need d a b) (hq : q.open_ = P ++ Y) (hd : P.length = d) :
    ∃ m' Z, Reach I C L m m' ∧ Landed I ev ctx b .normal (q.leave d) Z m' ∧ (Z = [] ∨ Z = Y ++ X) := by
  cases need
  · have : b = a := by simpa [Leave] using hl
    subst this
    exact ⟨m, Y ++ X, Reach.refl m, h.leave hq hd, Or.inr rfl⟩
  · exact ⟨_, [], h.leaveScope hl hq hd (by simp), landed_at _ _ _ _, Or.inl rfl⟩

/-! ## What is proved of a piece of code -/

/-- The code from `a` on, started at `p`, ends as the statement does.  `Y` are the variables declared since the start, `X` those
that the machine has yet to release; `decl` tells whether there are any declarations, `el` whether the code is the else part of
an `if`. -/
def Ends (I : Interp τ) (C : List Op) (L : Nat) (ev : Bool) (ctx : Hole → Nat) (a b : Nat) (el decl : Bool) (aft : Nat)
    (p : Point τ) (r : End) (q : Point τ) : Prop :=
  ∃ m X Y, Reach I C L (Vm.at p a) m ∧ Landed I ev ctx b r q X m ∧ q.open_ = p.open_ ++ Y ∧ (decl = false → X = [] ∧ Y = []) ∧
    (r = .normal → el = false → X = [] ∧ q.open_.length = aft)

/-- What is needed of a statement at a place of the code. -/
structure Fits (C : List Op) (L : Nat) (s : Stmt) (lp sw el ev : Bool) (ctx : Hole → Nat) (d a b : Nat) : Prop where
  ok : s.ok lp sw el = true
  sc : s.scoped = true
  codes : Codes C s ev ctx d a b
  room : d + s.count ≤ L

/-- Operators only end normally or with an exception. -/
theorem operator_end {t : Task} {p : Point τ} {r : End} {q : Point τ} (h : Runs I t p r q) :
    (∀ s, t = .stmt s → s.isOperator = true → r = .normal ∨ ∃ e, r = .exc e) ∧
    (∀ c v x y, t = .cond c v x y → c.isOperator = true → x.isOperator = true → y.isOperator = true → r = .normal ∨ ∃ e, r = .exc e) := by
  induction h
  case seq ih1 ih2 =>
    refine ⟨fun s hs ho => ?_, fun _ _ _ _ hs => by simp at hs⟩
    cases hs; simp only [Stmt.isOperator, Bool.and_eq_true] at ho
    exact ih2.1 _ rfl ho.2
  case seqExit ih =>
    refine ⟨fun s hs ho => ?_, fun _ _ _ _ hs => by simp at hs⟩
    cases hs; simp only [Stmt.isOperator, Bool.and_eq_true] at ho
    exact ih.1 _ rfl ho.1
  case condTrue ih1 ih2 =>
    refine ⟨fun s hs => by simp at hs, fun c v x y hs hc hx hy => ?_⟩
    cases hs
    exact ih2.1 _ rfl hx
  case condFalse ih1 ih2 =>
    refine ⟨fun s hs => by simp at hs, fun c v x y hs hc hx hy => ?_⟩
    cases hs
    exact ih2.1 _ rfl hy
  case condExit ih =>
    refine ⟨fun s hs => by simp at hs, fun c v x y hs hc hx hy => ?_⟩
    cases hs
    exact ih.1 _ rfl hc
  case choose ih =>
    refine ⟨fun s hs ho => ?_, fun _ _ _ _ hs => by simp at hs⟩
    cases hs; simp only [Stmt.isOperator, Bool.and_eq_true] at ho
    exact ih.2 _ _ _ _ rfl ho.1.1 ho.1.2 ho.2
  all_goals
    refine ⟨fun s hs ho => ?_, fun _ _ _ _ hs => by simp at hs⟩
    cases hs <;> simp [Stmt.isOperator] at ho ⊢

/-- A statement list that ends with `break` does not end normally. -/
theorem endsWithBreak_end (s : Stmt) (hb : s.endsWithBreak = true) (p q : Point τ) : ¬ Runs I (.stmt s) p .normal q := by
  induction s generalizing p q <;> simp only [Stmt.endsWithBreak] at hb <;> try contradiction
  case seq s t _ ih2 =>
    intro h
    cases h with
    | seq _ h2 => exact ih2 hb _ _ h2
    | seqExit _ hn => exact hn rfl
  case brk => intro h; cases h

theorem step_goto {m : Vm τ} {t : Nat} (h : C[m.pc]? = some (.goto_ t)) : Reach I C L m { m with pc := t } := by
  apply Reach.one; unfold Vm.step; rw [h]

/-- An exception or normal end does not depend on the targets of `next`, `last` and `break`. -/
theorem target_op {ev : Bool} {ctx ctx' : Hole → Nat} {b : Nat} {r : End} (h : r = .normal ∨ ∃ e, r = .exc e)
    (h1 : ctx .excEval = ctx' .excEval) (h2 : ctx .excMethod = ctx' .excMethod) : target ev ctx b r = target ev ctx' b r := by
  rcases h with rfl | ⟨e, rfl⟩
  · rfl
  · simp only [target, h1, h2]

theorem Ends.to_leave {ev : Bool} {ctx : Hole → Nat} {a b : Nat} {el decl : Bool} {aft : Nat} {p : Point τ} {r : End} {q : Point τ}
    (h : Ends I C L ev ctx a b el decl aft p r q) : Ends I C L ev ctx a b true decl aft p r (q.leave p.open_.length) := by
  obtain ⟨m, X, Y, h1, h2, h3, h4, h5⟩ := h
  refine ⟨m, Y ++ X, [], h1, h2.leave h3 rfl, by rw [leave_open h3 rfl, List.append_nil], ?_, by simp⟩
  intro hd
  obtain ⟨rfl, rfl⟩ := h4 hd
  exact ⟨rfl, rfl⟩

/-- A block: what `Ends` gives for the statements inside, and the end of the scope. -/
theorem ends_block {ev : Bool} {ctx : Hole → Nat} {a x b : Nat} {el decl need : Bool} {aft aft' : Nat} {p : Point τ} {r : End} {q : Point τ}
    (h : Ends I C L ev ctx a x el decl aft p r q) (hl : Leave C need p.open_.length x b) (hn : need = false → decl = false)
    (haft : aft' = p.open_.length) : Ends I C L ev ctx a b false decl aft' p r (q.leave p.open_.length) := by
  obtain ⟨m, X, Y, h1, h2, h3, h4, h5⟩ := h
  by_cases hr : r = .normal
  · subst hr
    refine ⟨_, [], [], h1.trans (h2.leaveScope hl h3 rfl (fun h => h4 (hn h))), landed_at _ _ _ _, ?_, by simp, ?_⟩
    · rw [leave_open h3 rfl, List.append_nil]
    · intro _ _; exact ⟨rfl, by rw [leave_open h3 rfl, haft]⟩
  · refine ⟨m, Y ++ X, [], h1, (h2.leave h3 rfl).retarget ?_, by rw [leave_open h3 rfl, List.append_nil], ?_, fun h => absurd h hr⟩
    · cases r <;> first | rfl | exact absurd rfl hr
    · intro hd; obtain ⟨rfl, rfl⟩ := h4 hd; exact ⟨rfl, rfl⟩

/-- Starting elsewhere. -/
theorem Ends.from {ev : Bool} {ctx : Hole → Nat} {a a' b : Nat} {el decl : Bool} {aft : Nat} {p : Point τ} {r : End} {q : Point τ}
    (h : Ends I C L ev ctx a b el decl aft p r q) (hr : Reach I C L (Vm.at p a') (Vm.at p a)) :
    Ends I C L ev ctx a' b el decl aft p r q := by
  obtain ⟨m, X, Y, h1, h2⟩ := h
  exact ⟨m, X, Y, hr.trans h1, h2⟩

/-- After a first part that ended normally. -/
theorem Ends.after {ev : Bool} {ctx ctx' : Hole → Nat} {a x b : Nat} {el decl decl' : Bool} {aft aft' : Nat} {p q u : Point τ} {r : End}
    (h1 : Ends I C L ev ctx' a x false decl aft p .normal q) (h2 : Ends I C L ev ctx x b el decl' aft' q r u) :
    Ends I C L ev ctx a b el (decl || decl') aft' p r u := by
  obtain ⟨m, X, Y, r1, l1, o1, n1, e1⟩ := h1
  obtain ⟨m', X', Y', r2, l2, o2, n2, e2⟩ := h2
  obtain ⟨rfl, _⟩ := e1 rfl rfl
  have := landed_normal l1
  subst this
  refine ⟨m', X', Y ++ Y', r1.trans r2, l2, by rw [o2, o1, List.append_assoc], ?_, e2⟩
  intro hd
  simp only [Bool.or_eq_false_iff] at hd
  obtain ⟨_, rfl⟩ := n1 hd.1
  obtain ⟨rfl, rfl⟩ := n2 hd.2
  exact ⟨rfl, rfl⟩

theorem Ends.exit {ev : Bool} {ctx ctx' : Hole → Nat} {a b b' : Nat} {el el' decl decl' : Bool} {aft aft' : Nat} {p q : Point τ} {r : End}
    (h : Ends I C L ev ctx' a b el decl aft p r q) (hr : r ≠ .normal) (ht : target ev ctx' b r = target ev ctx b' r)
    (hd : decl' = false → decl = false) : Ends I C L ev ctx a b' el' decl' aft' p r q := by
  obtain ⟨m, X, Y, r1, l1, o1, n1, e1⟩ := h
  exact ⟨m, X, Y, r1, l1.retarget ht, o1, fun h => n1 (hd h), fun h => absurd h hr⟩

theorem Ends.len {ev : Bool} {ctx : Hole → Nat} {a b : Nat} {decl : Bool} {aft : Nat} {p q : Point τ}
    (h : Ends I C L ev ctx a b false decl aft p .normal q) : q.open_.length = aft := by
  obtain ⟨_, _, _, _, _, _, _, e⟩ := h
  exact (e rfl rfl).2

theorem Ends.reach {ev : Bool} {ctx : Hole → Nat} {a b : Nat} {decl : Bool} {aft : Nat} {p q : Point τ}
    (h : Ends I C L ev ctx a b false decl aft p .normal q) : Reach I C L (Vm.at p a) (Vm.at q b) := by
  obtain ⟨m, X, Y, r1, l1, _, _, e⟩ := h
  obtain ⟨rfl, _⟩ := e rfl rfl
  rw [landed_normal l1] at r1
  exact r1

theorem Ends.mono {ev : Bool} {ctx : Hole → Nat} {a b : Nat} {el decl decl' : Bool} {aft : Nat} {p q : Point τ} {r : End}
    (h : Ends I C L ev ctx a b el decl aft p r q) (hd : decl' = false → decl = false) : Ends I C L ev ctx a b el decl' aft p r q := by
  obtain ⟨m, X, Y, r1, l1, o1, n1, e1⟩ := h
  exact ⟨m, X, Y, r1, l1, o1, fun h => n1 (hd h), e1⟩

/-! ## The statements one by one -/

theorem ends_here {ev : Bool} {ctx : Hole → Nat} {a b : Nat} {el decl : Bool} {p q : Point τ} {aft : Nat}
    (hs : (Vm.at p a).step I C L = .go (Vm.at q b)) (ho : q.open_ = p.open_) (ha : aft = p.open_.length) :
    Ends I C L ev ctx a b el decl aft p .normal q :=
  ⟨_, [], [], Reach.one hs, landed_at _ _ _ _, by rw [ho, List.append_nil], fun _ => ⟨rfl, rfl⟩, fun _ _ => ⟨rfl, by rw [ho, ha]⟩⟩

/-- A jump out. -/
theorem ends_jump {ev : Bool} {ctx : Hole → Nat} {a b : Nat} {el decl : Bool} {p q : Point τ} {aft : Nat} {r : End} {t : Nat}
    (hs : (Vm.at p a).step I C L = .go (Vm.at q t)) (ho : q.open_ = p.open_) (ht : target ev ctx b r = t) (hr : r ≠ .normal)
    (he : ∀ e, r ≠ .exc e) : Ends I C L ev ctx a b el decl aft p r q := by
  refine ⟨_, [], [], Reach.one hs, ?_, by rw [ho, List.append_nil], fun _ => ⟨rfl, rfl⟩, fun h => absurd h hr⟩
  refine ⟨ht.symm, by simp [Vm.at], by rw [release_nil]; rfl, ?_, ?_⟩
  · cases r <;> simp [End.error, Vm.at] at he ⊢
  · cases r <;> simp [endMem, Vm.at] at he ⊢

theorem ends_call {ev : Bool} {ctx : Hole → Nat} {a b : Nat} {el decl : Bool} {aft : Nat} {k : Nat} {p : Point τ}
    (h1 : C[a]? = some (.call k)) (h2 : C[a + 1]? = some (excOp ev ctx k)) (hk : (I.call k p.st).2 ≠ 0) :
    Ends I C L ev ctx a b el decl aft p (.exc (I.call k p.st).2)
      { p with st := { (I.call k p.st).1 with mem := I.trace k (I.call k p.st).1.mem } } := by
  let m1 : Vm τ := ⟨a + 1, (I.call k p.st).1, (I.call k p.st).2, p.open_⟩
  have s1 : (Vm.at p a).step I C L = .go m1 := by
    unfold Vm.step; rw [show (Vm.at p a).pc = a from rfl, h1]; rfl
  cases ev
  · let m2 : Vm τ := { m1 with pc := ctx .excMethod, st := { m1.st with mem := I.trace k m1.st.mem } }
    have s2 : m1.step I C L = .go m2 := by
      unfold Vm.step; rw [show m1.pc = a + 1 from rfl, h2]
      simp only [excOp, Bool.false_eq_true, if_false]
      rw [if_pos hk]
    refine ⟨m2, [], [], (Reach.one s1).trans (Reach.one s2), ?_, by simp, by simp, by simp⟩
    refine ⟨by simp [target, m2], by simp [m2, m1], by rw [release_nil], by simp [m2, m1, End.error], by simp [m2, m1, endMem]⟩
  · let m2 : Vm τ := { m1 with pc := ctx .excEval, err := 0, st := { m1.st with mem := I.caught m1.err (I.trace k m1.st.mem) } }
    have s2 : m1.step I C L = .go m2 := by
      unfold Vm.step; rw [show m1.pc = a + 1 from rfl, h2]
      simp only [excOp, if_true]
      rw [if_pos hk]
    refine ⟨m2, [], [], (Reach.one s1).trans (Reach.one s2), ?_, by simp, by simp, by simp⟩
    refine ⟨by simp [target, m2], by simp [m2, m1], by rw [release_nil], by simp [m2], by simp [m2, m1, endMem]⟩

theorem ends_callOk {ev : Bool} {ctx : Hole → Nat} {a : Nat} {el decl : Bool} {k : Nat} {p : Point τ}
    (h1 : C[a]? = some (.call k)) (h2 : C[a + 1]? = some (excOp ev ctx k)) (hk : (I.call k p.st).2 = 0) :
    Ends I C L ev ctx a (a + 2) el decl p.open_.length p .normal { p with st := (I.call k p.st).1 } := by
  let m1 : Vm τ := ⟨a + 1, (I.call k p.st).1, (I.call k p.st).2, p.open_⟩
  have s1 : (Vm.at p a).step I C L = .go m1 := by
    unfold Vm.step; rw [show (Vm.at p a).pc = a from rfl, h1]; rfl
  let m2 : Vm τ := { m1 with pc := a + 2 }
  have s2 : m1.step I C L = .go m2 := by
    unfold Vm.step; rw [show m1.pc = a + 1 from rfl, h2]
    cases ev
    · simp only [excOp, Bool.false_eq_true, if_false]
      rw [if_neg (by simpa using hk)]
    · simp only [excOp, if_true]
      rw [if_neg (by simpa using hk)]
  have e : m2 = Vm.at { p with st := (I.call k p.st).1 } (a + 2) := by
    simp only [m2, m1, Vm.at, hk]
  refine ⟨m2, [], [], (Reach.one s1).trans (Reach.one s2), ?_, by simp, by simp, by simp⟩
  rw [e]
  exact landed_at _ _ _ _

/-! ## The cases of a switch -/

/-- The code of a case body, up to the end `e` of the switch block. -/
def BodyAt (C : List Op) (s : Stmt) (ev : Bool) (ctx : Hole → Nat) (d a e : Nat) : Prop :=
  ∃ m, Codes C s ev ctx d a m ∧ (s.endsWithBreak = true ∨ C[m]? = some (.goto_ (ctx .brk)) ∨ Leave C s.declares d m e)

theorem entry_at (cs : Stmt) {ev : Bool} {ctx : Hole → Nat} {d a e : Nat} {tab : List (Int × Nat)} {dft : Nat}
    (h : CaseCode C cs ev ctx d a e tab dft) : BodyAt C cs.entry ev ctx d a e := by
  induction cs generalizing a <;> simp only [CaseCode] at h
  case caseFall n rest ih => exact ih h.2
  case caseRun n body rest _ _ =>
    obtain ⟨_, m, x, y, h1, h2, _⟩ := h
    refine ⟨m, h1, ?_⟩
    split at h2
    · left; assumption
    · right; left; exact h2.1
  case dflt body _ =>
    obtain ⟨_, m, h1, h2⟩ := h
    exact ⟨m, h1, Or.inr (Or.inr h2)⟩

theorem select_at (cs : Stmt) (x : Int) (t : Nat) {ev : Bool} {ctx : Hole → Nat} {d a e : Nat} {tab : List (Int × Nat)} {dft : Nat}
    (h : CaseCode C cs ev ctx d a e tab dft) (hf : ∀ n t t', (n, t) ∈ tab → (n, t') ∈ tab → t = t')
    (hin : x ∈ cs.caseValues → (x, t) ∈ tab) (hout : x ∉ cs.caseValues → t = dft) :
    BodyAt C (cs.select x) ev ctx d t e := by
  induction cs generalizing a <;> simp only [CaseCode] at h
  case caseFall n rest ih =>
    simp only [Stmt.select]
    simp only [Stmt.caseValues, List.mem_cons] at hin hout
    split
    · rename_i e1
      subst e1
      have := hf _ _ _ h.1 (hin (Or.inl rfl))
      subst this
      exact entry_at _ h.2
    · rename_i e1
      exact ih h.2 (fun hh => hin (Or.inr hh)) (fun hh => hout (by rintro (hh' | hh'); exact e1 hh'.symm; exact hh hh'))
  case caseRun n body rest _ ih =>
    simp only [Stmt.select]
    simp only [Stmt.caseValues, List.mem_cons] at hin hout
    have h' := h
    obtain ⟨h0, m, x', y, h1, h2, h3, h4⟩ := h
    split
    · rename_i e1
      subst e1
      have := hf _ _ _ h0 (hin (Or.inl rfl))
      subst this
      exact entry_at (.caseRun n body rest) (ev := ev) (ctx := ctx) (d := d) (a := a) (tab := tab) (dft := dft)
        (by simp only [CaseCode]; exact h')
    · rename_i e1
      exact ih h4 (fun hh => hin (Or.inr hh)) (fun hh => hout (by rintro (hh' | hh'); exact e1 hh'.symm; exact hh hh'))
  case dflt body _ =>
    have : t = dft := hout (by simp [Stmt.caseValues])
    subst this
    obtain ⟨rfl, m, h1, h2⟩ := h
    exact ⟨m, h1, Or.inr (Or.inr h2)⟩

theorem entry_ok (cs : Stmt) (lp : Bool) (h : cs.okCases lp = true) : cs.entry.ok lp true false = true := by
  induction cs <;> simp [Stmt.okCases] at h
  case caseFall ih => exact ih h
  case caseRun => exact h.1
  case dflt => exact h

theorem select_ok (cs : Stmt) (x : Int) (lp : Bool) (h : cs.okCases lp = true) : (cs.select x).ok lp true false = true := by
  induction cs <;> simp [Stmt.okCases] at h
  case caseFall ih => simp only [Stmt.select]; split; exact entry_ok _ _ h; exact ih h
  case caseRun ih => simp only [Stmt.select]; split; exact h.1; exact ih h.2
  case dflt => exact h

theorem entry_sc (cs : Stmt) (h : cs.scoped = true) : cs.entry.scoped = true := by
  induction cs <;> simp only [Stmt.entry] <;> try rfl
  case caseFall ih => simp only [Stmt.scoped] at h; exact ih h
  case caseRun => simp only [Stmt.scoped, Bool.and_eq_true] at h; exact h.1
  case dflt => simp only [Stmt.scoped] at h; exact h

theorem select_sc (cs : Stmt) (x : Int) (h : cs.scoped = true) : (cs.select x).scoped = true := by
  induction cs <;> simp only [Stmt.select] <;> try rfl
  case caseFall ih => simp only [Stmt.scoped] at h; split; exact entry_sc _ h; exact ih h
  case caseRun ih => simp only [Stmt.scoped, Bool.and_eq_true] at h; split; exact h.1; exact ih h.2
  case dflt => simp only [Stmt.scoped] at h; exact h

theorem entry_count (cs : Stmt) : cs.entry.count ≤ cs.count := by
  induction cs <;> simp only [Stmt.entry, Stmt.count] <;> omega

theorem select_count (cs : Stmt) (x : Int) : (cs.select x).count ≤ cs.count := by
  induction cs <;> simp only [Stmt.select, Stmt.count] <;> try omega
  case caseFall rest _ => split; exact entry_count rest; assumption
  case caseRun => split <;> omega

theorem entry_declares (cs : Stmt) (h : cs.declares = false) : cs.entry.declares = false := by
  induction cs <;> simp_all [Stmt.entry, Stmt.declares]

theorem select_declares (cs : Stmt) (x : Int) (h : cs.declares = false) : (cs.select x).declares = false := by
  induction cs <;> simp only [Stmt.select] <;> try rfl
  case caseFall ih => simp only [Stmt.declares] at h; split; exact entry_declares _ h; exact ih h
  case caseRun ih => simp only [Stmt.declares, Bool.or_eq_false_iff] at h; split; exact h.1; exact ih h.2
  case dflt => simp only [Stmt.declares] at h; exact h

end Flow
end SPVM
