import Verif.Lemmas.FlowSim
/-!
# The operation codes do what the statements mean: the induction
-/
namespace SPVM
namespace Flow

variable {τ : Type} {I : Interp τ} {C : List Op} {L : Nat}

theorem target_abrupt {ev : Bool} {ctx : Hole → Nat} {b b' : Nat} {r : End} (hr : r ≠ .normal) : target ev ctx b r = target ev ctx b' r := by
  cases r <;> first | rfl | exact absurd rfl hr

theorem Ends.goto {ev : Bool} {ctx : Hole → Nat} {a x z : Nat} {el decl : Bool} {aft : Nat} {p q : Point τ} {r : End}
    (h : Ends I C L ev ctx a x el decl aft p r q) (hg : C[x]? = some (.goto_ z)) : Ends I C L ev ctx a z el decl aft p r q := by
  by_cases hr : r = .normal
  · subst hr
    obtain ⟨m, X, Y, r1, l1, o1, n1, e1⟩ := h
    have hpc : m.pc = x := l1.pc
    refine ⟨{ m with pc := z }, X, Y, r1.trans (step_goto (by rw [hpc]; exact hg)), ?_, o1, n1, e1⟩
    exact ⟨rfl, l1.mortal, l1.vars, l1.err, l1.mem⟩
  · exact h.exit hr (target_abrupt hr) id

theorem Ends.mayLeave {ev : Bool} {ctx : Hole → Nat} {a z b : Nat} {el decl need : Bool} {aft d : Nat} {p q : Point τ} {r : End}
    (h : Ends I C L ev ctx a z el decl aft p r q) (hd : p.open_.length = d) (hl : Leave C need d z b) :
    Ends I C L ev ctx a b true decl 0 p r (q.leave d) := by
  subst hd
  by_cases hr : r = .normal
  · subst hr
    obtain ⟨m, X, Y, r1, l1, o1, n1, e1⟩ := h
    obtain ⟨m', Z, r2, l2, hZ⟩ := l1.mayLeave (L := L) hl o1 rfl
    refine ⟨m', Z, [], r1.trans r2, l2, by rw [leave_open o1 rfl, List.append_nil], ?_, by simp⟩
    intro hd
    obtain ⟨rfl, rfl⟩ := n1 hd
    exact ⟨by rcases hZ with h | h <;> simp [h], rfl⟩
  · exact h.to_leave.exit hr (target_abrupt hr) id

/-- What is proved of a run. -/
def Good (I : Interp τ) (C : List Op) (L : Nat) : Task → Point τ → End → Point τ → Prop
  | .stmt s, p, r, q => ∀ lp sw el ev ctx a b, Fits C L s lp sw el ev ctx p.open_.length a b →
      Ends I C L ev ctx a b el s.declares (s.after p.open_.length) p r q
  | .cond c v t e, p, r, q => ∀ lp sw ev ctx a b nT nE, c.isOperator = true → t.ok lp sw false = true →
      c.scoped = true → t.scoped = true → e.scoped = true → p.open_.length + (c.count + t.count + e.count) ≤ L →
      IfCode C v (c.after p.open_.length) nT nE (fun x y => Codes C c ev ctx p.open_.length x y)
        (fun x y => Codes C t ev ctx (c.after p.open_.length) x y) (fun x y => Codes C e ev ctx (c.after p.open_.length) x y) a b →
      (e.ok lp sw true = true →
        Ends I C L ev ctx a b true (c.declares || t.declares || e.declares) 0 p r (q.leave p.open_.length)) ∧
      (e.ok lp sw false = true → nT = false → nE = false → t.declares = false → e.declares = false →
        Ends I C L ev ctx a b false c.declares (c.after p.open_.length) p r q)
  | .iter c v n body, p, r, q => ∀ sw ev ctx g x z w, c.isOperator = true → n.isOperator = true → body.ok true sw false = true →
      c.scoped = true → n.scoped = true → body.scoped = true → c.declares = false → n.declares = false →
      p.open_.length + (body.count + n.count + c.count) ≤ L →
      LoopCode C v p.open_.length body.declares
        (fun i j => Codes C body ev (setTarget (setTarget ctx .last (w + 1)) .next x) p.open_.length i j)
        (fun i j => Codes C n ev (setTarget ctx .last (w + 1)) p.open_.length i j)
        (fun i j => Codes C c ev (setTarget ctx .last (w + 1)) (n.after p.open_.length) i j) g x z w →
      Ends I C L ev ctx z (w + 1) true body.declares 0 p r q

theorem fits_op {s : Stmt} {ev : Bool} {ctx : Hole → Nat} {d a b : Nat} (ho : s.isOperator = true) (hs : s.scoped = true)
    (hc : Codes C s ev ctx d a b) (hr : d + s.count ≤ L) : Fits C L s false false false ev ctx d a b :=
  ⟨Stmt.ok_of_operator s _ _ _ ho, hs, hc, hr⟩

theorem step_ifEq {p : Point τ} {m t v : Nat} (h : C[m]? = some (.ifEq t v)) :
    Reach I C L (Vm.at p m) (Vm.at p (if I.ival v p.st = 0 then t else m + 1)) := by
  apply Reach.one; unfold Vm.step; rw [show (Vm.at p m).pc = m from rfl, h]; rfl

theorem step_ifNe {p : Point τ} {m t v : Nat} (h : C[m]? = some (.ifNe t v)) :
    Reach I C L (Vm.at p m) (Vm.at p (if I.ival v p.st ≠ 0 then t else m + 1)) := by
  apply Reach.one; unfold Vm.step; rw [show (Vm.at p m).pc = m from rfl, h]; rfl

/-- An empty scope left. -/
theorem reach_leave_empty {need : Bool} {d a b : Nat} {q : Point τ} (h : Leave C need d a b) (hd : q.open_.length = d) :
    Reach I C L (Vm.at q a) (Vm.at q b) := by
  have := (landed_at (I := I) false (fun _ => 0) a q).leaveScope (L := L) (P := q.open_) (Y := []) h (by simp) hd (by simp)
  rw [leave_self q d hd] at this
  exact this

theorem good_condTrue {c : Stmt} {v : Nat} {t e : Stmt} {p q u : Point τ} {r : End} (hv : I.ival v q.st ≠ 0)
    (hc : Good I C L (.stmt c) p .normal q) (ht : Good I C L (.stmt t) q r u) : Good I C L (.cond c v t e) p r u := by
  intro lp sw ev ctx a b nT nE oc okt sc st se room hcode
  obtain ⟨m, x, y, z, c1, c2, c3, c4, c5, c6, c7⟩ := hcode
  have ec := hc false false false ev ctx a m (fits_op oc sc c1 (by omega))
  have lq := ec.len
  have af := c.after_le p.open_.length
  have et := ht lp sw false ev ctx (m + 1) x ⟨okt, st, by rw [lq]; exact c3, by omega⟩
  have e1 : Ends I C L ev ctx m z false t.declares (t.after q.open_.length) q r u := by
    refine (et.goto c4).from ?_
    have := step_ifEq (I := I) (L := L) (p := q) c2
    rw [if_neg hv] at this
    exact this
  refine ⟨fun _ => ?_, fun _ _ hE dt _ => ?_⟩
  · have e2 := (ec.after (e1.mayLeave lq c7)).to_leave
    rw [leave_leave u _ _ (Stmt.le_after c _)] at e2
    exact e2.mono (by simp; intros; simp_all)
  · subst hE
    have : b = z := by simpa [Leave] using c7
    subst this
    rw [Stmt.after_eq t _ dt, lq] at e1
    exact (ec.after e1).mono (by simp [dt])

theorem good_condFalse {c : Stmt} {v : Nat} {t e : Stmt} {p q u : Point τ} {r : End} (hv : I.ival v q.st = 0)
    (hc : Good I C L (.stmt c) p .normal q) (he : Good I C L (.stmt e) q r u) : Good I C L (.cond c v t e) p r u := by
  intro lp sw ev ctx a b nT nE oc okt sc st se room hcode
  obtain ⟨m, x, y, z, c1, c2, c3, c4, c5, c6, c7⟩ := hcode
  have ec := hc false false false ev ctx a m (fits_op oc sc c1 (by omega))
  have lq := ec.len
  have af := c.after_le p.open_.length
  have hy : Reach I C L (Vm.at q m) (Vm.at q y) := by
    have := step_ifEq (I := I) (L := L) (p := q) c2
    rw [if_pos hv] at this
    exact this.trans (reach_leave_empty c5 lq)
  refine ⟨fun oke => ?_, fun oke _ hE _ de => ?_⟩
  · have e1 := (he lp sw true ev ctx y z ⟨oke, se, by rw [lq]; exact c6, by omega⟩).from hy
    have e2 := (ec.after (e1.mayLeave lq c7)).to_leave
    rw [leave_leave u _ _ (Stmt.le_after c _)] at e2
    exact e2.mono (by simp; intros; simp_all)
  · have e1 := (he lp sw false ev ctx y z ⟨oke, se, by rw [lq]; exact c6, by omega⟩).from hy
    subst hE
    have : b = z := by simpa [Leave] using c7
    subst this
    rw [Stmt.after_eq e _ de, lq] at e1
    exact (ec.after e1).mono (by simp [de])

theorem good_condExit {c : Stmt} {v : Nat} {t e : Stmt} {p q : Point τ} {r : End} (hr : r ≠ .normal)
    (hc : Good I C L (.stmt c) p r q) : Good I C L (.cond c v t e) p r q := by
  intro lp sw ev ctx a b nT nE oc okt sc st se room hcode
  obtain ⟨m, x, y, z, c1, c2, c3, c4, c5, c6, c7⟩ := hcode
  have ec := hc false false false ev ctx a m (fits_op oc sc c1 (by omega))
  refine ⟨fun _ => ?_, fun _ _ _ _ _ => ec.exit hr (target_abrupt hr) id⟩
  exact ec.to_leave.exit hr (target_abrupt hr) (by simp; intros; simp_all)

/-- A switch: the target of the lookup, and the end of the case that is run. -/
theorem lookup_at {cs : Stmt} {v m dft e : Nat} {tab : List (Int × Nat)} {ev : Bool} {ctx : Hole → Nat} {d : Nat} (q : Point τ)
    (hd : doubleCases (sortCases cs.caseValues) = false) (h1 : C[m]? = some (.lookup v dft tab.length))
    (h2 : ∀ i, (h : i < tab.length) → C[m + 1 + i]? = some (.caseInfo tab[i].1 tab[i].2))
    (h3 : tab.map (·.1) = sortCases cs.caseValues) (h4 : CaseCode C cs ev ctx d (m + 1 + tab.length) e tab dft) :
    ∃ t, (Vm.at q m).step I C L = .go (Vm.at q t) ∧ BodyAt C (cs.select (I.ival v q.st)) ev ctx d t e := by
  have hs := sortCases_strict cs.caseValues hd
  rw [← h3] at hs
  have hf : ∀ n t t', (n, t) ∈ tab → (n, t') ∈ tab → t = t' := by
    intro n t t' m1 m2
    obtain ⟨i, hi, e1⟩ := List.getElem_of_mem m1
    obtain ⟨j, hj, e2⟩ := List.getElem_of_mem m2
    have hij : i = j := by
      rw [List.pairwise_iff_getElem] at hs
      rcases Nat.lt_trichotomy i j with h | h | h
      · have := hs i j (by simpa using hi) (by simpa using hj) h
        simp [e1, e2] at this
      · exact h
      · have := hs j i (by simpa using hj) (by simpa using hi) h
        simp [e1, e2] at this
    subst hij
    rw [e1] at e2
    exact (Prod.mk.inj e2).2
  have hmem : ∀ x, x ∈ cs.caseValues ↔ ∃ t, (x, t) ∈ tab := by
    intro x
    rw [← (sortCases_perm cs.caseValues).mem_iff, ← h3]
    simp
  have hstep : ∀ t, lookupTarget C m (I.ival v q.st) dft tab.length = some t → (Vm.at q m).step I C L = .go (Vm.at q t) := by
    intro t ht
    unfold Vm.step
    rw [show (Vm.at q m).pc = m from rfl, h1]
    simp only [show (Vm.at q m).st = q.st from rfl, show (Vm.at q m).pc = m from rfl, ht]
    rfl
  rcases lookup_ok C m (I.ival v q.st) dft tab h2 hs with ⟨t, ht, e1⟩ | ⟨hn, e1⟩
  · exact ⟨t, hstep t e1, select_at cs _ t h4 hf (fun _ => ht) (fun hx => absurd ((hmem _).2 ⟨t, ht⟩) hx)⟩
  · refine ⟨dft, hstep dft e1, select_at cs _ dft h4 hf (fun hx => ?_) (fun _ => rfl)⟩
    obtain ⟨t, ht⟩ := (hmem _).1 hx
    exact absurd ht (hn t)

/-- From the start of a case body to the end of the switch. -/
theorem ends_body {s : Stmt} {lp ev : Bool} {ctx : Hole → Nat} {t e b : Nat} {need : Bool} {q u : Point τ} {r : End}
    (hb : BodyAt C s ev (setTarget ctx .brk e) q.open_.length t e) (ok : s.ok lp true false = true) (sc : s.scoped = true)
    (room : q.open_.length + s.count ≤ L) (hl : Leave C need q.open_.length e b) (hn : need = false → s.declares = false)
    (hrun : Runs I (.stmt s) q r u) (hg : Good I C L (.stmt s) q r u) :
    Ends I C L ev ctx t b false need q.open_.length q r.atSwitch (u.leave q.open_.length) := by
  obtain ⟨m, h1, h2⟩ := hb
  have es := hg lp true false ev (setTarget ctx .brk e) t m ⟨ok, sc, h1, room⟩
  obtain ⟨m', X, Y, r1, l1, o1, n1, e1⟩ := es
  by_cases hr : r = .normal ∨ r = .brk
  · -- at the end of the block
    have hat : r.atSwitch = .normal := by rcases hr with rfl | rfl <;> rfl
    rw [hat]
    have key : ∃ m2 Z, Reach I C L (Vm.at q t) m2 ∧ Landed I ev ctx e .normal (u.leave q.open_.length) Z m2 ∧ (need = false → Z = []) := by
      rcases hr with rfl | rfl
      · obtain ⟨rfl, _⟩ := e1 rfl rfl
        rcases h2 with h2 | h2 | h2
        · exact absurd hrun (endsWithBreak_end s h2 _ _)
        · have hm : m' = Vm.at u m := landed_normal l1
          subst hm
          have hgo := step_goto (I := I) (L := L) (m := Vm.at u m) h2
          refine ⟨_, Y, r1.trans hgo, ?_, fun h => (n1 (hn h)).2⟩
          have h3 : ({ Vm.at u m with pc := setTarget ctx .brk e .brk } : Vm τ) = Vm.at u e := by simp [Vm.at, setTarget]
          rw [h3]
          have := (landed_at (I := I) ev ctx e u).leave o1 rfl
          rw [List.append_nil] at this
          exact this
        · have := l1.leaveScope (L := L) h2 o1 rfl (fun h => n1 h)
          exact ⟨_, [], r1.trans this, landed_at _ _ _ _, fun _ => rfl⟩
      · refine ⟨m', Y ++ X, r1, ?_, fun h => by obtain ⟨rfl, rfl⟩ := n1 (hn h); rfl⟩
        have := (l1.arrive (ctx' := ctx) (by simp)).leave o1 rfl
        simp only [target, setTarget, if_true] at this
        exact this
    obtain ⟨m2, Z, r2, l2, hZ⟩ := key
    have ho : (u.leave q.open_.length).open_ = q.open_ ++ [] := by rw [leave_open o1 rfl, List.append_nil]
    have := l2.leaveScope (L := L) hl ho rfl (fun h => ⟨hZ h, rfl⟩)
    rw [leave_self (u.leave q.open_.length) _ (by rw [ho, List.append_nil])] at this
    exact ⟨_, [], [], r2.trans this, landed_at _ _ _ _, ho, fun _ => ⟨rfl, rfl⟩, fun _ _ => ⟨rfl, by rw [ho, List.append_nil]⟩⟩
  · have hr1 : r ≠ .normal := fun h => hr (Or.inl h)
    have hr2 : r ≠ .brk := fun h => hr (Or.inr h)
    have hat : r.atSwitch = r := by cases r <;> first | rfl | exact absurd rfl hr2
    rw [hat]
    refine ⟨m', Y ++ X, [], r1, (l1.leave o1 rfl).retarget ?_, by rw [leave_open o1 rfl, List.append_nil], ?_, fun h => absurd h hr1⟩
    · cases r <;> first | rfl | exact absurd rfl hr1 | exact absurd rfl hr2
    · intro h; obtain ⟨rfl, rfl⟩ := n1 (hn h); exact ⟨rfl, rfl⟩

end Flow
end SPVM
