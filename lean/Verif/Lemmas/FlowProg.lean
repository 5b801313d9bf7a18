import Verif.Lemmas.FlowGood
/-!
# A statement that does not end keeps the virtual machine busy
-/
namespace SPVM
namespace Flow

variable {τ : Type} {I : Interp τ} {C : List Op} {L : Nat}

/-- Either the statement ends, or the machine goes on for any number of rounds. -/
def Prog (I : Interp τ) (C : List Op) (L : Nat) (s : Stmt) : Prop :=
  ∀ lp sw el ev ctx a b (p : Point τ) n, Fits C L s lp sw el ev ctx p.open_.length a b →
    (∃ r q, Runs I (.stmt s) p r q) ∨ Busy I C L n (Vm.at p a)

theorem prog_skip : Prog I C L .skip := fun _ _ _ _ _ _ _ p _ _ => Or.inl ⟨_, _, .skip p⟩

theorem prog_cond {c : Stmt} {v : Nat} {t e : Stmt} (hc : Prog I C L c) (ht : Prog I C L t) (he : Prog I C L e)
    {lp sw el ev : Bool} {ctx : Hole → Nat} {a b : Nat} {nT nE : Bool} {p : Point τ} (n : Nat)
    (oc : c.isOperator = true) (okt : t.ok lp sw false = true) (oke : e.ok lp sw el = true)
    (sc : c.scoped = true) (st : t.scoped = true) (se : e.scoped = true) (room : p.open_.length + (c.count + t.count + e.count) ≤ L)
    (hcode : IfCode C v (c.after p.open_.length) nT nE (fun x y => Codes C c ev ctx p.open_.length x y)
        (fun x y => Codes C t ev ctx (c.after p.open_.length) x y) (fun x y => Codes C e ev ctx (c.after p.open_.length) x y) a b) :
    (∃ r q, Runs I (.cond c v t e) p r q) ∨ Busy I C L n (Vm.at p a) := by
  obtain ⟨m, x, y, z, c1, c2, c3, c4, c5, c6, c7⟩ := hcode
  have fc := fits_op (L := L) oc sc c1 (by omega)
  rcases hc _ _ _ _ _ _ _ p n fc with ⟨r, q, hrun⟩ | hb
  · by_cases hr : r = .normal
    · subst hr
      have ec := good_of_runs hrun _ _ _ _ _ _ _ fc
      have lq := ec.len
      have af := c.after_le p.open_.length
      by_cases hv : I.ival v q.st = 0
      · rcases he lp sw el ev ctx y z q n ⟨oke, se, by rw [lq]; exact c6, by omega⟩ with ⟨r, u, hu⟩ | hb
        · exact Or.inl ⟨r, u, .condFalse hrun hv hu⟩
        · right
          have := step_ifEq (I := I) (L := L) (p := q) c2
          rw [if_pos hv] at this
          exact (ec.reach.trans (this.trans (reach_leave_empty c5 lq))).busy hb
      · rcases ht lp sw false ev ctx (m + 1) x q n ⟨okt, st, by rw [lq]; exact c3, by omega⟩ with ⟨r, u, hu⟩ | hb
        · exact Or.inl ⟨r, u, .condTrue hrun hv hu⟩
        · right
          have := step_ifEq (I := I) (L := L) (p := q) c2
          rw [if_neg hv] at this
          exact (ec.reach.trans this).busy hb
    · exact Or.inl ⟨r, q, .condExit hrun hr⟩
  · exact Or.inr hb

theorem prog_block {s : Stmt} (hs : Prog I C L s) : Prog I C L (.block s) := by
  intro lp sw el ev ctx a b p n f
  have ok := f.ok; have sc := f.sc; have co := f.codes; have room := f.room
  simp only [Stmt.ok, Stmt.scoped, Stmt.count, Codes] at ok sc co room
  obtain ⟨m, c1, c2⟩ := co
  rcases hs lp sw false ev ctx a m p n ⟨ok, sc, c1, room⟩ with ⟨r, q, h⟩ | h
  · exact Or.inl ⟨r, _, .block h⟩
  · exact Or.inr h

theorem prog_iter {c : Stmt} {v : Nat} {inc body : Stmt} (hc : Prog I C L c) (hi : Prog I C L inc) (hb : Prog I C L body)
    {sw ev : Bool} {ctx : Hole → Nat} {g x z w : Nat} (n : Nat) :
    ∀ (p : Point τ), c.isOperator = true → inc.isOperator = true → body.ok true sw false = true →
      c.scoped = true → inc.scoped = true → body.scoped = true → c.declares = false → inc.declares = false →
      p.open_.length + (body.count + inc.count + c.count) ≤ L →
      LoopCode C v p.open_.length body.declares
        (fun i j => Codes C body ev (setTarget (setTarget ctx .last (w + 1)) .next x) p.open_.length i j)
        (fun i j => Codes C inc ev (setTarget ctx .last (w + 1)) p.open_.length i j)
        (fun i j => Codes C c ev (setTarget ctx .last (w + 1)) (inc.after p.open_.length) i j) g x z w →
      (∃ r q, Runs I (.iter c v inc body) p r q) ∨ Busy I C L n (Vm.at p z) := by
  induction n with
  | zero => intros; exact Or.inr (Busy.zero _)
  | succ n ih =>
    intro p oc oi okb sc si sb dc di room hcode
    have h4 := hcode.cond
    rw [Stmt.after_eq inc _ di] at h4
    have fc := fits_op (L := L) oc sc h4 (by omega)
    rcases hc _ _ _ _ _ _ _ p (n + 1) fc with ⟨r, q, hrun⟩ | hbusy
    · by_cases hr : r = .normal
      · subst hr
        have gc := good_of_runs (C := C) (L := L) hrun
        have ec := gc _ _ _ _ _ _ _ fc
        obtain ⟨ho, _⟩ := good_iter_start oc sc dc di room hcode gc
        by_cases hv : I.ival v q.st = 0
        · exact Or.inl ⟨_, _, .iterDone hrun hv⟩
        · have hstep : (Vm.at q w).step I C L = .go (Vm.at q (g + 1)) := by
            unfold Vm.step
            rw [show (Vm.at q w).pc = w from rfl, hcode.again]
            simp only [show (Vm.at q w).st = q.st from rfl]
            rw [if_pos hv]; rfl
          have next : ∀ m, Reach I C L (Vm.at q (g + 1)) m → Busy I C L n m → Busy I C L (n + 1) (Vm.at p z) := by
            intro m h1 h2
            exact ec.reach.busy (Busy.succ hstep (h1.busy h2))
          obtain ⟨y, hl, hn⟩ := hcode.rest
          have hbody : Codes C body ev (setTarget (setTarget ctx .last (w + 1)) .next x) p.open_.length (g + 1) x := hcode.body
          rcases prog_block hb true sw false ev (setTarget (setTarget ctx .last (w + 1)) .next x) (g + 1) y q n
            ⟨by simpa [Stmt.ok] using okb, by simpa [Stmt.scoped] using sb, by rw [ho]; simp only [Codes]; exact ⟨x, hbody, hl⟩,
              by rw [ho]; simp only [Stmt.count]; omega⟩ with ⟨r, u, hu⟩ | h
          · by_cases hlast : r = .last
            · subst hlast; exact Or.inl ⟨_, _, .iterLast hrun hv hu⟩
            · by_cases hnn : r = .normal ∨ r = .next
              · obtain ⟨h1, h2⟩ := (ends_round (I := I) (L := L) (p := q) (ctx := ctx) (w := w) okb sb (by rw [ho]; omega) (by rw [ho]; exact hbody)
                  (by rw [ho]; exact hl) hu (good_of_runs hu)).1 hnn
                have huo : u.open_ = p.open_ := h2.trans ho
                have fi := fits_op (L := L) (d := u.open_.length) (a := y) (b := z) oi si (by rw [huo]; exact hn) (by rw [huo]; omega)
                rcases hi _ _ _ _ _ _ _ u n fi with ⟨r', u', hu'⟩ | h
                · by_cases hr' : r' = .normal
                  · subst hr'
                    have ei := good_of_runs hu' _ _ _ _ _ _ _ fi
                    have hro := ei.reach
                    have how : u'.open_ = p.open_ := by
                      obtain ⟨_, _, Y, _, _, o, nn, _⟩ := ei
                      rw [o, (nn di).2, List.append_nil, huo]
                    rcases ih u' oc oi okb sc si sb dc di (by rw [how]; exact room) (by rw [how]; exact hcode) with ⟨r2, q2, h⟩ | h
                    · exact Or.inl ⟨_, _, .iterNext hrun hv hu hnn hu' h⟩
                    · exact Or.inr (next _ (h1.trans hro) h)
                  · exact Or.inl ⟨_, _, .iterInc hrun hv hu hnn hu' hr'⟩
                · exact Or.inr (next _ h1 h)
              · exact Or.inl ⟨_, _, .iterExit hrun hv hu (fun h => hnn (Or.inl h)) (fun h => hnn (Or.inr h)) hlast⟩
          · exact Or.inr (next _ (Reach.refl _) h)
      · exact Or.inl ⟨_, _, .iterCond hrun hr⟩
    · exact Or.inr hbusy

theorem prog_all (s : Stmt) : Prog I C L s ∧ Prog I C L s.entry ∧ ∀ x, Prog I C L (s.select x) := by
  induction s with
  | skip => exact ⟨prog_skip, prog_skip, fun _ => prog_skip⟩
  | act k => exact ⟨fun _ _ _ _ _ _ _ p _ _ => Or.inl ⟨_, _, .act k p⟩, prog_skip, fun _ => prog_skip⟩
  | decl v => exact ⟨fun _ _ _ _ _ _ _ p _ _ => Or.inl ⟨_, _, .decl v p⟩, prog_skip, fun _ => prog_skip⟩
  | next => exact ⟨fun _ _ _ _ _ _ _ p _ _ => Or.inl ⟨_, _, .next p⟩, prog_skip, fun _ => prog_skip⟩
  | last => exact ⟨fun _ _ _ _ _ _ _ p _ _ => Or.inl ⟨_, _, .last p⟩, prog_skip, fun _ => prog_skip⟩
  | brk => exact ⟨fun _ _ _ _ _ _ _ p _ _ => Or.inl ⟨_, _, .brk p⟩, prog_skip, fun _ => prog_skip⟩
  | ret k => exact ⟨fun _ _ _ _ _ _ _ p _ _ => Or.inl ⟨_, _, .ret k p⟩, prog_skip, fun _ => prog_skip⟩
  | call k =>
    refine ⟨fun _ _ _ _ _ _ _ p _ _ => Or.inl ?_, prog_skip, fun _ => prog_skip⟩
    by_cases h : (I.call k p.st).2 = 0
    · exact ⟨_, _, .callOk h⟩
    · exact ⟨_, _, .callThrow h⟩
  | seq s t ih1 ih2 =>
    refine ⟨?_, prog_skip, fun _ => prog_skip⟩
    intro lp sw el ev ctx a b p n f
    have ok := f.ok; have sc := f.sc; have co := f.codes; have room := f.room
    simp only [Stmt.ok, Stmt.scoped, Stmt.count, Bool.and_eq_true, Codes] at ok sc co room
    obtain ⟨m, c1, c2⟩ := co
    have f1 : Fits C L s lp sw false ev ctx p.open_.length a m := ⟨ok.1, sc.1, c1, by omega⟩
    rcases ih1.1 _ _ _ _ _ _ _ p n f1 with ⟨r, q, hrun⟩ | hb
    · by_cases hr : r = .normal
      · subst hr
        have e1 := good_of_runs hrun _ _ _ _ _ _ _ f1
        have lq := e1.len
        have af := s.after_le p.open_.length
        rcases ih2.1 lp sw false ev ctx m b q n ⟨ok.2, sc.2, by rw [lq]; exact c2, by omega⟩ with ⟨r, u, hu⟩ | hb
        · exact Or.inl ⟨_, _, .seq hrun hu⟩
        · exact Or.inr (e1.reach.busy hb)
      · exact Or.inl ⟨_, _, .seqExit hrun hr⟩
    · exact Or.inr hb
  | choose c v t e ihc iht ihe =>
    refine ⟨?_, prog_skip, fun _ => prog_skip⟩
    intro lp sw el ev ctx a b p n f
    have ok := f.ok; have sc := f.sc; have co := f.codes; have room := f.room
    simp only [Stmt.ok, Stmt.scoped, Stmt.count, Bool.and_eq_true, Bool.not_eq_true', Codes] at ok sc co room
    obtain ⟨⟨⟨⟨s1, s2⟩, s3⟩, dt⟩, de⟩ := sc
    rcases prog_cond ihc.1 iht.1 ihe.1 n ok.1.1 (Stmt.ok_of_operator t lp sw _ ok.1.2) (Stmt.ok_of_operator e lp sw false ok.2) s1 s2 s3 room co
      with ⟨r, q, h⟩ | h
    · exact Or.inl ⟨r, q, .choose h⟩
    · exact Or.inr h
  | block s ih => exact ⟨prog_block ih.1, prog_skip, fun _ => prog_skip⟩
  | ifs c v t e ihc iht ihe =>
    refine ⟨?_, prog_skip, fun _ => prog_skip⟩
    intro lp sw el ev ctx a b p n f
    have ok := f.ok; have sc := f.sc; have co := f.codes; have room := f.room
    simp only [Stmt.ok, Stmt.scoped, Stmt.count, Bool.and_eq_true, Codes] at ok sc co room
    obtain ⟨m, c1, c2⟩ := co
    rcases prog_cond ihc.1 iht.1 ihe.1 n ok.1.1 ok.1.2 ok.2 sc.1.1 sc.1.2 sc.2 room c1 with ⟨r, q, h⟩ | h
    · exact Or.inl ⟨r, _, .ifs h⟩
    · exact Or.inr h
  | elif c v t e ihc iht ihe =>
    refine ⟨?_, prog_skip, fun _ => prog_skip⟩
    intro lp sw el ev ctx a b p n f
    have ok := f.ok; have sc := f.sc; have co := f.codes; have room := f.room
    simp only [Stmt.ok, Stmt.scoped, Stmt.count, Bool.and_eq_true, Codes] at ok sc co room
    rcases prog_cond ihc.1 iht.1 ihe.1 n ok.1.1.2 ok.1.2 ok.2 sc.1.1 sc.1.2 sc.2 room co with ⟨r, q, h⟩ | h
    · exact Or.inl ⟨r, _, .elif h⟩
    · exact Or.inr h
  | loop i c v inc body ihi ihc ihn ihb =>
    refine ⟨?_, prog_skip, fun _ => prog_skip⟩
    intro lp sw el ev ctx a b p n f
    have ok := f.ok; have sc := f.sc; have co := f.codes; have room := f.room
    simp only [Stmt.ok, Stmt.scoped, Stmt.count, Bool.and_eq_true, Bool.not_eq_true', Codes] at ok sc co room
    obtain ⟨⟨⟨⟨⟨s1, s2⟩, s3⟩, s4⟩, dc⟩, dn⟩ := sc
    obtain ⟨g, x, z, w, c1, c2, c3⟩ := co
    have fi := fits_op (L := L) ok.1.1.1 s1 c1 (by omega)
    rcases ihi.1 _ _ _ _ _ _ _ p n fi with ⟨r, q, hrun⟩ | hb
    · by_cases hr : r = .normal
      · subst hr
        have e1 := good_of_runs hrun _ _ _ _ _ _ _ fi
        have lq := e1.len
        have af := i.after_le p.open_.length
        rcases prog_iter ihc.1 ihn.1 ihb.1 n q ok.1.1.2 ok.1.2 ok.2 s2 s3 s4 dc dn (by omega) (by rw [lq]; exact c2) with ⟨r, u, h⟩ | h
        · exact Or.inl ⟨_, _, .loop hrun h⟩
        · right
          have hg := step_goto (I := I) (L := L) (m := Vm.at q g) c2.first
          exact (e1.reach.trans hg).busy h
      · exact Or.inl ⟨_, _, .loopExit hrun hr⟩
    · exact Or.inr hb
  | switch c v cs ihc ihs =>
    refine ⟨?_, prog_skip, fun _ => prog_skip⟩
    intro lp sw el ev ctx a b p n f
    have ok := f.ok; have sc := f.sc; have co := f.codes; have room := f.room
    simp only [Stmt.ok, Stmt.scoped, Stmt.count, Bool.and_eq_true, Bool.not_eq_true', Codes] at ok sc co room
    obtain ⟨m, dft, tab, e, c1, c2, c3, c4, c5, c6⟩ := co
    have fc := fits_op (L := L) ok.1.1 sc.1 c1 (by omega)
    rcases ihc.1 _ _ _ _ _ _ _ p n fc with ⟨r, q, hrun⟩ | hb
    · by_cases hr : r = .normal
      · subst hr
        have ec := good_of_runs hrun _ _ _ _ _ _ _ fc
        have lq := ec.len
        have af := c.after_le p.open_.length
        obtain ⟨t, hs, m', h1, _⟩ := lookup_at (I := I) (L := L) q ok.1.2 c2 c3 c4 c5
        have hcount := select_count cs (I.ival v q.st)
        rw [← lq] at h1
        rcases ihs.2.2 (I.ival v q.st) lp true false ev _ t m' q n
          ⟨select_ok cs _ lp ok.2, select_sc cs _ sc.2, h1, by omega⟩ with ⟨r, u, h⟩ | h
        · exact Or.inl ⟨_, _, .switch hrun h⟩
        · exact Or.inr ((ec.reach.trans (Reach.one hs)).busy h)
      · exact Or.inl ⟨_, _, .switchExit hrun hr⟩
    · exact Or.inr hb
  | caseFall k rest ih =>
    refine ⟨fun _ _ _ _ _ _ _ _ _ f => ?_, ih.2.1, fun x => ?_⟩
    · have := f.ok; simp [Stmt.ok] at this
    · simp only [Stmt.select]; split; exact ih.2.1; exact ih.2.2 x
  | caseRun k body rest ihb ihr =>
    refine ⟨fun _ _ _ _ _ _ _ _ _ f => ?_, ihb.1, fun x => ?_⟩
    · have := f.ok; simp [Stmt.ok] at this
    · simp only [Stmt.select]; split; exact ihb.1; exact ihr.2.2 x
  | dflt body ih =>
    refine ⟨fun _ _ _ _ _ _ _ _ _ f => ?_, ih.1, fun _ => ih.1⟩
    have := f.ok; simp [Stmt.ok] at this
  | eval s ih =>
    refine ⟨?_, prog_skip, fun _ => prog_skip⟩
    intro lp sw el ev ctx a b p n f
    have ok := f.ok; have sc := f.sc; have co := f.codes; have room := f.room
    simp only [Stmt.ok, Stmt.scoped, Stmt.count, Codes] at ok sc co room
    obtain ⟨rfl, h0, m, c1, c2⟩ := co
    have hs : (Vm.at p a).step I C L = .go (Vm.at { p with st := { p.st with mem := I.enter p.st.mem } } (a + 1)) := by
      unfold Vm.step; rw [show (Vm.at p a).pc = a from rfl, h0]; rfl
    rcases prog_block ih.1 lp sw false true (setTarget ctx .excEval m) (a + 1) b { p with st := { p.st with mem := I.enter p.st.mem } } n
      ⟨by simpa [Stmt.ok] using ok, by simpa [Stmt.scoped] using sc, by simp only [Codes]; exact ⟨m, c1, c2⟩, by simpa [Stmt.count] using room⟩
      with ⟨r, q, h⟩ | h
    · by_cases hr : ∃ e, r = .exc e
      · obtain ⟨e, rfl⟩ := hr
        exact Or.inl ⟨_, _, .evalCatch h⟩
      · exact Or.inl ⟨_, _, .eval h (fun e he => hr ⟨e, he⟩)⟩
    · exact Or.inr ((Reach.one hs).busy h)

end Flow
end SPVM
