import Verif.Lemmas.FlowMain
/-!
# The operation codes do what the statements mean: all runs
-/
namespace SPVM
namespace Flow

variable {τ : Type} {I : Interp τ} {C : List Op} {L : Nat}

theorem block_open {s : Stmt} {p u : Point τ} {r : End} (h : Runs I (.stmt (.block s)) p r u) : u.open_.length ≤ p.open_.length := by
  cases h
  simp [Point.leave]
  omega

/-- One round of a loop: the body and the end of its scope. -/
theorem ends_round {body : Stmt} {sw ev : Bool} {ctx : Hole → Nat} {g x y w : Nat} {p u : Point τ} {r : End}
    (ok : body.ok true sw false = true) (sc : body.scoped = true) (room : p.open_.length + body.count ≤ L)
    (hc : Codes C body ev (setTarget (setTarget ctx .last (w + 1)) .next x) p.open_.length (g + 1) x)
    (hl : Leave C body.declares p.open_.length x y) (hrun : Runs I (.stmt (.block body)) p r u)
    (hg : Good I C L (.stmt (.block body)) p r u) :
    (r = .normal ∨ r = .next → Reach I C L (Vm.at p (g + 1)) (Vm.at u y) ∧ u.open_ = p.open_) ∧
    (r = .last → Ends I C L ev ctx (g + 1) (w + 1) true body.declares 0 p .normal u) ∧
    (r ≠ .normal → r ≠ .next → r ≠ .last → Ends I C L ev ctx (g + 1) (w + 1) true body.declares 0 p r u) := by
  have es := hg true sw false ev (setTarget (setTarget ctx .last (w + 1)) .next x) (g + 1) y
    ⟨by simpa [Stmt.ok] using ok, by simpa [Stmt.scoped] using sc, by simp only [Codes]; exact ⟨x, hc, hl⟩, by simpa [Stmt.count] using room⟩
  simp only [Stmt.declares] at es
  refine ⟨fun hr => ?_, fun hr => ?_, fun h1 h2 h3 => ?_⟩
  · rcases hr with rfl | rfl
    · have hlen := es.len
      have hrr := es.reach
      refine ⟨hrr, ?_⟩
      obtain ⟨_, _, Y, _, _, o, _, _⟩ := es
      simp only [Stmt.after] at hlen
      rw [o] at hlen ⊢
      have : Y = [] := by
        apply List.eq_nil_of_length_eq_zero
        rw [List.length_append] at hlen; omega
      rw [this, List.append_nil]
    · -- the body has jumped to its end
      obtain ⟨m, X, Y, r1, l1, o1, n1, e1⟩ := es
      have l2 := l1.arrive (ctx' := ctx) (by simp)
      simp only [target, setTarget, if_true] at l2
      have := l2.leaveScope (L := L) hl o1 rfl (fun h => n1 h)
      have hY : u.open_ = p.open_ := by
        have hle := block_open hrun
        rw [o1, List.length_append] at hle
        have : Y = [] := List.eq_nil_of_length_eq_zero (by omega)
        rw [o1, this, List.append_nil]
      rw [leave_self u _ (by rw [hY])] at this
      exact ⟨r1.trans this, hY⟩
  · subst hr
    obtain ⟨m, X, Y, r1, l1, o1, n1, e1⟩ := es
    have l2 := l1.arrive (ctx' := ctx) (by simp)
    simp only [target, setTarget] at l2
    refine ⟨m, X, Y, r1, by simpa using l2, o1, n1, by simp⟩
  · refine es.exit h1 ?_ id
    cases r <;> first | rfl | exact absurd rfl h1 | exact absurd rfl h2 | exact absurd rfl h3

theorem good_iter_start {c : Stmt} {v : Nat} {n body : Stmt} {p q : Point τ} {ev : Bool} {ctx : Hole → Nat} {g x z w : Nat}
    (oc : c.isOperator = true) (sc : c.scoped = true) (dc : c.declares = false) (dn : n.declares = false)
    (room : p.open_.length + (body.count + n.count + c.count) ≤ L)
    (hcode : LoopCode C v p.open_.length body.declares
        (fun i j => Codes C body ev (setTarget (setTarget ctx .last (w + 1)) .next x) p.open_.length i j)
        (fun i j => Codes C n ev (setTarget ctx .last (w + 1)) p.open_.length i j)
        (fun i j => Codes C c ev (setTarget ctx .last (w + 1)) (n.after p.open_.length) i j) g x z w)
    (hc : Good I C L (.stmt c) p .normal q) :
    q.open_ = p.open_ ∧ Reach I C L (Vm.at p z) (Vm.at q (if I.ival v q.st ≠ 0 then g + 1 else w + 1)) := by
  have h4 := hcode.cond
  rw [Stmt.after_eq n _ dn] at h4
  have ec := hc false false false ev (setTarget ctx .last (w + 1)) z w (fits_op oc sc h4 (by omega))
  have hr := ec.reach
  obtain ⟨_, _, Y, _, _, o, nn, _⟩ := ec
  refine ⟨by rw [o, (nn dc).2, List.append_nil], hr.trans (step_ifNe hcode.again)⟩

theorem good_of_runs {t : Task} {p : Point τ} {r : End} {q : Point τ} (h : Runs I t p r q) : Good I C L t p r q := by
  induction h
  case skip p =>
    intro lp sw el ev ctx a b f
    have hb : b = a := by simpa [Codes] using f.codes
    subst hb
    exact ⟨_, [], [], Reach.refl _, landed_at _ _ _ _, by simp, by simp, by simp [Stmt.after]⟩
  case seq s t p q r u _ _ ih1 ih2 =>
    intro lp sw el ev ctx a b f
    have ok := f.ok; have sc := f.sc; have co := f.codes; have room := f.room
    simp only [Stmt.ok, Stmt.scoped, Stmt.count, Bool.and_eq_true, Codes] at ok sc co room
    obtain ⟨m, c1, c2⟩ := co
    have e1 := ih1 lp sw false ev ctx a m ⟨ok.1, sc.1, c1, by omega⟩
    have lq := e1.len
    have af := s.after_le p.open_.length
    have e2 := ih2 lp sw false ev ctx m b ⟨ok.2, sc.2, by rw [lq]; exact c2, by omega⟩
    have e3 := e1.after e2
    rw [lq] at e3
    obtain ⟨m', X, Y, h1, h2, h3, h4, h5⟩ := e3
    exact ⟨m', X, Y, h1, h2, h3, h4, fun h _ => h5 h rfl⟩
  case seqExit s t p q r _ hr ih1 =>
    intro lp sw el ev ctx a b f
    have ok := f.ok; have sc := f.sc; have co := f.codes; have room := f.room
    simp only [Stmt.ok, Stmt.scoped, Stmt.count, Bool.and_eq_true, Codes] at ok sc co room
    obtain ⟨m, c1, c2⟩ := co
    have e1 := ih1 lp sw false ev ctx a m ⟨ok.1, sc.1, c1, by omega⟩
    exact e1.exit hr (target_abrupt hr) (by simp [Stmt.declares]; intros; assumption)
  case act k p =>
    intro lp sw el ev ctx a b f
    have co := f.codes
    simp only [Codes] at co
    obtain ⟨h1, rfl⟩ := co
    exact ends_here (by unfold Vm.step; rw [show (Vm.at p a).pc = a from rfl, h1]; rfl) rfl rfl
  case callOk k p hk =>
    intro lp sw el ev ctx a b f
    have co := f.codes
    simp only [Codes] at co
    obtain ⟨h1, h2, rfl⟩ := co
    exact ends_callOk h1 h2 hk
  case callThrow k p hk =>
    intro lp sw el ev ctx a b f
    have co := f.codes
    simp only [Codes] at co
    obtain ⟨h1, h2, rfl⟩ := co
    exact ends_call h1 h2 hk
  case decl v p =>
    intro lp sw el ev ctx a b f
    have co := f.codes; have room := f.room
    simp only [Codes, Stmt.count] at co room
    obtain ⟨h1, rfl⟩ := co
    refine ⟨Vm.at { p with open_ := p.open_ ++ [v] } (a + 1), [], [v], Reach.one ?_, landed_at _ _ _ _, rfl, by simp [Stmt.declares], by simp [Stmt.after]⟩
    unfold Vm.step
    rw [show (Vm.at p a).pc = a from rfl, h1]
    simp only
    rw [if_pos (by show p.open_.length < L; omega)]
    rfl
  case next p =>
    intro lp sw el ev ctx a b f
    have co := f.codes
    simp only [Codes] at co
    obtain ⟨h1, rfl⟩ := co
    exact ends_jump (by unfold Vm.step; rw [show (Vm.at p a).pc = a from rfl, h1]; rfl) rfl rfl (by simp) (by simp)
  case last p =>
    intro lp sw el ev ctx a b f
    have co := f.codes
    simp only [Codes] at co
    obtain ⟨h1, rfl⟩ := co
    exact ends_jump (by unfold Vm.step; rw [show (Vm.at p a).pc = a from rfl, h1]; rfl) rfl rfl (by simp) (by simp)
  case brk p =>
    intro lp sw el ev ctx a b f
    have co := f.codes
    simp only [Codes] at co
    obtain ⟨h1, rfl⟩ := co
    exact ends_jump (by unfold Vm.step; rw [show (Vm.at p a).pc = a from rfl, h1]; rfl) rfl rfl (by simp) (by simp)
  case ret k p =>
    intro lp sw el ev ctx a b f
    have co := f.codes
    simp only [Codes] at co
    obtain ⟨h1, rfl⟩ := co
    exact ends_jump (by unfold Vm.step; rw [show (Vm.at p a).pc = a from rfl, h1]; rfl) rfl rfl (by simp) (by simp)
  case condTrue hv _ ih1 ih2 => exact good_condTrue hv ih1 ih2
  case condFalse hv _ ih1 ih2 => exact good_condFalse hv ih1 ih2
  case condExit hr ih => exact good_condExit hr ih
  case choose c v t e p r q _ ih =>
    intro lp sw el ev ctx a b f
    have ok := f.ok; have sc := f.sc; have co := f.codes; have room := f.room
    simp only [Stmt.ok, Stmt.scoped, Stmt.count, Bool.and_eq_true, Bool.not_eq_true', Codes] at ok sc co room
    obtain ⟨⟨⟨⟨s1, s2⟩, s3⟩, dt⟩, de⟩ := sc
    have := (ih lp sw ev ctx a b false false ok.1.1 (Stmt.ok_of_operator t _ _ _ ok.1.2) s1 s2 s3 room co).2
      (Stmt.ok_of_operator e _ _ _ ok.2) rfl rfl dt de
    obtain ⟨m', X, Y, h1, h2, h3, h4, h5⟩ := this
    exact ⟨m', X, Y, h1, h2, h3, fun h => h4 (by simp [Stmt.declares] at h; exact h.1.1), fun h _ => h5 h rfl⟩
  case block s p r q _ ih =>
    intro lp sw el ev ctx a b f
    have ok := f.ok; have sc := f.sc; have co := f.codes; have room := f.room
    simp only [Stmt.ok, Stmt.scoped, Stmt.count, Codes] at ok sc co room
    obtain ⟨m, c1, c2⟩ := co
    have := ends_block (ih lp sw false ev ctx a m ⟨ok, sc, c1, room⟩) c2 id (aft' := p.open_.length) rfl
    obtain ⟨m', X, Y, h1, h2, h3, h4, h5⟩ := this
    exact ⟨m', X, Y, h1, h2, h3, h4, fun h _ => h5 h rfl⟩
  case ifs c v t e p r q _ ih =>
    intro lp sw el ev ctx a b f
    have ok := f.ok; have sc := f.sc; have co := f.codes; have room := f.room
    simp only [Stmt.ok, Stmt.scoped, Stmt.count, Bool.and_eq_true, Codes] at ok sc co room
    obtain ⟨m, c1, c2⟩ := co
    have e1 := (ih lp sw ev ctx a m _ _ ok.1.1 ok.1.2 sc.1.1 sc.1.2 sc.2 room c1).1 ok.2
    have := ends_block e1 c2 id (aft' := p.open_.length) rfl
    rw [leave_leave q _ _ (Nat.le_refl _)] at this
    obtain ⟨m', X, Y, h1, h2, h3, h4, h5⟩ := this
    exact ⟨m', X, Y, h1, h2, h3, h4, fun h _ => h5 h rfl⟩
  case elif c v t e p r q _ ih =>
    intro lp sw el ev ctx a b f
    have ok := f.ok; have sc := f.sc; have co := f.codes; have room := f.room
    simp only [Stmt.ok, Stmt.scoped, Stmt.count, Bool.and_eq_true, Codes] at ok sc co room
    have e1 := (ih lp sw ev ctx a b _ _ ok.1.1.2 ok.1.2 sc.1.1 sc.1.2 sc.2 room co).1 ok.2
    obtain ⟨m', X, Y, h1, h2, h3, h4, h5⟩ := e1
    exact ⟨m', X, Y, h1, h2, h3, h4, fun _ h => by simp [ok.1.1.1] at h⟩
  case loop i c v n body p q r u _ _ ih1 ih2 =>
    intro lp sw el ev ctx a b f
    have ok := f.ok; have sc := f.sc; have co := f.codes; have room := f.room
    simp only [Stmt.ok, Stmt.scoped, Stmt.count, Bool.and_eq_true, Bool.not_eq_true', Codes] at ok sc co room
    obtain ⟨⟨⟨⟨⟨s1, s2⟩, s3⟩, s4⟩, dc⟩, dn⟩ := sc
    obtain ⟨g, x, z, w, c1, c2, c3⟩ := co
    have e1 := ih1 false false false ev _ a g (fits_op ok.1.1.1 s1 c1 (by omega))
    have lq := e1.len
    have af := i.after_le p.open_.length
    have e2 := ih2 sw ev ctx g x z w ok.1.1.2 ok.1.2 ok.2 s2 s3 s4 dc dn (by omega) (by rw [lq]; exact c2)
    have e3 : Ends I C L ev ctx g (w + 1) true body.declares 0 q r u := e2.from (by
      have := step_goto (I := I) (L := L) (m := Vm.at q g) c2.first
      exact this)
    have := ends_block (e1.after e3) c3 (by simp [dc, dn]) (aft' := p.open_.length) rfl
    obtain ⟨m', X, Y, h1, h2, h3, h4, h5⟩ := this
    exact ⟨m', X, Y, h1, h2, h3, fun h => h4 (by simp [Stmt.declares] at h ⊢; exact ⟨h.1.1.1, h.1.1.2⟩), fun h _ => h5 h rfl⟩
  case loopExit i c v n body p q r hrun hr ih =>
    intro lp sw el ev ctx a b f
    have ok := f.ok; have sc := f.sc; have co := f.codes; have room := f.room
    simp only [Stmt.ok, Stmt.scoped, Stmt.count, Bool.and_eq_true, Bool.not_eq_true', Codes] at ok sc co room
    obtain ⟨⟨⟨⟨⟨s1, s2⟩, s3⟩, s4⟩, dc⟩, dn⟩ := sc
    obtain ⟨g, x, z, w, c1, c2, c3⟩ := co
    have e1 := ih false false false ev _ a g (fits_op ok.1.1.1 s1 c1 (by omega))
    have ht := (operator_end hrun).1 _ rfl ok.1.1.1
    refine e1.to_leave.exit hr ?_ (by simp [Stmt.declares]; intros; assumption)
    exact (target_op (ctx := setTarget ctx .last (w + 1)) (ctx' := ctx) ht rfl rfl).trans (target_abrupt hr)
  case iterDone c v n body p q _ hv ih =>
    intro sw ev ctx g x z w oc on okb s1 s2 s3 dc dn room hcode
    obtain ⟨ho, hr⟩ := good_iter_start oc s1 dc dn room hcode ih
    rw [if_neg (by simpa using hv)] at hr
    exact ⟨_, [], [], hr, landed_at _ _ _ _, by simp [ho], by simp, by simp⟩
  case iterCond c v n body p q r hrun hr ih =>
    intro sw ev ctx g x z w oc on okb s1 s2 s3 dc dn room hcode
    have h4 := hcode.cond
    rw [Stmt.after_eq n _ dn] at h4
    have ec := ih false false false ev (setTarget ctx .last (w + 1)) z w (fits_op oc s1 h4 (by omega))
    have ht := (operator_end hrun).1 _ rfl oc
    refine ec.exit hr ?_ (fun _ => dc)
    exact (target_op (ctx := setTarget ctx .last (w + 1)) (ctx' := ctx) ht rfl rfl).trans (target_abrupt hr)
  case iterLast c v n body p q u _ hv hrun ih1 ih2 =>
    intro sw ev ctx g x z w oc on okb s1 s2 s3 dc dn room hcode
    obtain ⟨ho, hr⟩ := good_iter_start oc s1 dc dn room hcode ih1
    rw [if_pos hv] at hr
    obtain ⟨y, hl, hn⟩ := hcode.rest
    have := (ends_round okb s3 (by rw [ho]; omega) (by rw [ho]; exact hcode.body) (by rw [ho]; exact hl) hrun ih2).2.1 rfl
    obtain ⟨m', X, Y, h1, h2, h3, h4, h5⟩ := this
    exact ⟨m', X, Y, hr.trans h1, h2, by rw [← ho]; exact h3, h4, h5⟩
  case iterExit c v n body p q r u _ hv hrun r1 r2 r3 ih1 ih2 =>
    intro sw ev ctx g x z w oc on okb s1 s2 s3 dc dn room hcode
    obtain ⟨ho, hr⟩ := good_iter_start oc s1 dc dn room hcode ih1
    rw [if_pos hv] at hr
    obtain ⟨y, hl, hn⟩ := hcode.rest
    have := (ends_round okb s3 (by rw [ho]; omega) (by rw [ho]; exact hcode.body) (by rw [ho]; exact hl) hrun ih2).2.2 r1 r2 r3
    obtain ⟨m', X, Y, h1, h2, h3, h4, h5⟩ := this
    exact ⟨m', X, Y, hr.trans h1, h2, by rw [← ho]; exact h3, h4, h5⟩
  case iterNext c v n body p q r u w' r' x' _ hv hrun hr' _ _ ih1 ih2 ih3 ih4 =>
    intro sw ev ctx g x z w oc on okb s1 s2 s3 dc dn room hcode
    obtain ⟨ho, hr⟩ := good_iter_start oc s1 dc dn room hcode ih1
    rw [if_pos hv] at hr
    obtain ⟨y, hl, hn⟩ := hcode.rest
    obtain ⟨h1, h2⟩ := (ends_round okb s3 (by rw [ho]; omega) (by rw [ho]; exact hcode.body) (by rw [ho]; exact hl) hrun ih2).1 hr'
    have hu : u.open_ = p.open_ := h2.trans ho
    have en := ih3 false false false ev (setTarget ctx .last (w + 1)) y z (fits_op on s2 (by rw [hu]; exact hn) (by rw [hu]; omega))
    have hrn := en.reach
    have how : w'.open_ = p.open_ := by
      obtain ⟨_, _, Y, _, _, o, nn, _⟩ := en
      rw [o, (nn dn).2, List.append_nil, hu]
    have := ih4 sw ev ctx g x z w oc on okb s1 s2 s3 dc dn (by rw [how]; exact room) (by rw [how]; exact hcode)
    obtain ⟨m', X, Y, k1, k2, k3, k4, k5⟩ := this
    exact ⟨m', X, Y, hr.trans (h1.trans (hrn.trans k1)), k2, by rw [← how]; exact k3, k4, k5⟩
  case iterInc c v n body p q r u r' w' _ hv hrun hr' hrunn hne ih1 ih2 ih3 =>
    intro sw ev ctx g x z w oc on okb s1 s2 s3 dc dn room hcode
    obtain ⟨ho, hr⟩ := good_iter_start oc s1 dc dn room hcode ih1
    rw [if_pos hv] at hr
    obtain ⟨y, hl, hn⟩ := hcode.rest
    obtain ⟨h1, h2⟩ := (ends_round okb s3 (by rw [ho]; omega) (by rw [ho]; exact hcode.body) (by rw [ho]; exact hl) hrun ih2).1 hr'
    have hu : u.open_ = p.open_ := h2.trans ho
    have en := ih3 false false false ev (setTarget ctx .last (w + 1)) y z (fits_op on s2 (by rw [hu]; exact hn) (by rw [hu]; omega))
    have ht := (operator_end hrunn).1 _ rfl on
    have en2 : Ends I C L ev ctx y (w + 1) true body.declares 0 u r' w' := by
      refine en.exit hne ?_ (fun _ => dn)
      exact (target_op (ctx := setTarget ctx .last (w + 1)) (ctx' := ctx) ht rfl rfl).trans (target_abrupt hne)
    obtain ⟨m', X, Y, k1, k2, k3, k4, k5⟩ := en2
    exact ⟨m', X, Y, hr.trans (h1.trans k1), k2, by rw [← hu]; exact k3, k4, k5⟩
  case switch c v cs p q r u _ hrun ih1 ih2 =>
    intro lp sw el ev ctx a b f
    have ok := f.ok; have sc := f.sc; have co := f.codes; have room := f.room
    simp only [Stmt.ok, Stmt.scoped, Stmt.count, Bool.and_eq_true, Bool.not_eq_true', Codes] at ok sc co room
    obtain ⟨m, dft, tab, e, c1, c2, c3, c4, c5, c6⟩ := co
    have ec := ih1 false false false ev ctx a m (fits_op ok.1.1 sc.1 c1 (by omega))
    have lq := ec.len
    have af := c.after_le p.open_.length
    obtain ⟨t, hs, hb⟩ := lookup_at (I := I) (L := L) q ok.1.2 c2 c3 c4 c5
    have hcount := select_count cs (I.ival v q.st)
    rw [← lq] at hb c6
    have eb := ends_body hb (select_ok cs _ lp ok.2) (select_sc cs _ sc.2) (by omega) c6 (select_declares cs _) hrun ih2
    have := ec.after (eb.from (Reach.one hs))
    rw [lq] at this
    obtain ⟨m', X, Y, h1, h2, h3, h4, h5⟩ := this
    refine ⟨m', X, Y, h1, ?_, ?_, h4, ?_⟩
    · rw [lq]; exact h2
    · rw [lq]; exact h3
    · rw [lq]; exact fun h _ => h5 h rfl
  case switchExit c v cs p r q _ hr ih =>
    intro lp sw el ev ctx a b f
    have ok := f.ok; have sc := f.sc; have co := f.codes; have room := f.room
    simp only [Stmt.ok, Stmt.scoped, Stmt.count, Bool.and_eq_true, Bool.not_eq_true', Codes] at ok sc co room
    obtain ⟨m, dft, tab, e, c1, c2, c3, c4, c5, c6⟩ := co
    have ec := ih false false false ev ctx a m (fits_op ok.1.1 sc.1 c1 (by omega))
    exact ec.exit hr (target_abrupt hr) (by simp [Stmt.declares]; intros; assumption)
  case eval s p r q _ hr ih =>
    intro lp sw el ev ctx a b f
    have ok := f.ok; have sc := f.sc; have co := f.codes; have room := f.room
    simp only [Stmt.ok, Stmt.scoped, Stmt.count, Codes] at ok sc co room
    obtain ⟨rfl, h0, m, c1, c2⟩ := co
    have es := ih lp sw false true (setTarget ctx .excEval m) (a + 1) b
      ⟨by simpa [Stmt.ok] using ok, by simpa [Stmt.scoped] using sc, by simp only [Codes]; exact ⟨m, c1, c2⟩, by simpa [Stmt.count] using room⟩
    obtain ⟨m', X, Y, h1, h2, h3, h4, h5⟩ := es
    refine ⟨m', X, Y, (Reach.one ?_).trans h1, ?_, h3, h4, fun h _ => h5 h rfl⟩
    · unfold Vm.step; rw [show (Vm.at p a).pc = a from rfl, h0]; rfl
    · refine ⟨?_, h2.mortal, h2.vars, ?_, ?_⟩
      · rw [h2.pc]; cases r <;> first | rfl | exact absurd rfl (hr _)
      · rw [h2.err]; cases r <;> first | rfl | exact absurd rfl (hr _)
      · rw [h2.mem]; cases r <;> first | rfl | exact absurd rfl (hr _)
  case evalCatch s p e q hrun ih =>
    intro lp sw el ev ctx a b f
    have ok := f.ok; have sc := f.sc; have co := f.codes; have room := f.room
    simp only [Stmt.ok, Stmt.scoped, Stmt.count, Codes] at ok sc co room
    obtain ⟨rfl, h0, m, c1, c2⟩ := co
    have es := ih lp sw false true (setTarget ctx .excEval m) (a + 1) b
      ⟨by simpa [Stmt.ok] using ok, by simpa [Stmt.scoped] using sc, by simp only [Codes]; exact ⟨m, c1, c2⟩, by simpa [Stmt.count] using room⟩
    obtain ⟨m', X, Y, h1, h2, h3, h4, h5⟩ := es
    simp only at h3
    have hlen := block_open hrun
    simp only at hlen
    have hY : Y = [] := by
      rw [h3, List.length_append] at hlen
      exact List.eq_nil_of_length_eq_zero (by omega)
    subst hY
    rw [List.append_nil] at h3
    have l2 : Landed I false ctx m .normal { q with st := { q.st with mem := I.caught e q.st.mem } } X m' := by
      have := h2.caught (ev' := false) (ctx' := ctx)
      simpa [setTarget] using this
    have hl := l2.leaveScope (L := L) c2 (P := p.open_) (Y := []) (by simpa using h3) rfl (fun h => h4 (by simpa [Stmt.declares] using h))
    rw [leave_self _ _ (by simp [h3])] at hl
    refine ⟨_, [], [], (Reach.one ?_).trans (h1.trans hl), landed_at _ _ _ _, by simp [h3], by simp, fun _ _ => ⟨rfl, by simp [h3, Stmt.after]⟩⟩
    unfold Vm.step; rw [show (Vm.at p a).pc = a from rfl, h0]; rfl

end Flow
end SPVM
