import Verif.Lemmas.FlowBlock
/-!
# The builder on loops
-/
namespace SPVM
namespace Flow

theorem walks_loop (i c : Stmt) (v : Nat) (n body : Stmt) (lp sw : Bool) (hi' : Walks i false false) (hc : Walks c false false)
    (hn : Walks n false false) (hb : Walks body true sw) (di : i.tree.declares = i.declares) (dc : c.tree.declares = c.declares)
    (dn : n.tree.declares = n.declares) (db : body.tree.declares = body.declares) : Walks (.loop i c v n body) lp sw := by
  intro b hf hi
  simp only [Stmt.evalFlat, Bool.and_eq_true] at hf
  obtain ⟨⟨⟨fi, fc⟩, fn⟩, fb⟩ := hf
  -- the init part
  let b0 : Bld := { b with lastBase := (b.holes .last).length :: b.lastBase, blockTop := b.mortal :: b.blockTop }
  have i0 : Inv b0 := ⟨hi.pos, hi.lt, hi.disj, hi.noEval⟩
  obtain ⟨b1, w1, k1⟩ := hi' b0 fi i0
  have ev1 : b1.evals = b.evals := k1.same.evals
  have m1 : b1.mortal = i.after b.mortal := k1.mortal
  -- the body
  let b2 : Bld := { (b1.emit (.goto_ 0)) with
    nextBase := (b1.holes .next).length :: b1.nextBase
    loopGoto := b1.code.length :: b1.loopGoto
    blockTop := b1.mortal :: b1.blockTop }
  have i2 : Inv b2 := by
    have := inv_emit k1.inv (.goto_ 0)
    exact ⟨this.pos, this.lt, this.disj, this.noEval⟩
  have g12 : Grows b1 b2 := ⟨⟨[.goto_ 0], rfl⟩, fun _ => ⟨[], by simp [b2, Bld.emit]⟩⟩
  have l2 : b2.code.length = b1.code.length + 1 := by simp [b2, Bld.emit]
  have ev2 : b2.evals = b.evals := ev1
  obtain ⟨b3, w3, k3⟩ := hb b2 (by rw [ev2]; exact fb) i2
  obtain ⟨N, hN, hNlo⟩ := k3.grows.holes .next
  have hN1 : b3.holes .next = N ++ b1.holes .next := hN
  -- its end
  let b4 : Bld := ({ b3 with nextBase := b1.nextBase }).resolve .next (b1.holes .next).length
  have c4 : b3.closeBlock .loopStatements = some b4 := by
    have h : b3.nextBase = (b1.holes .next).length :: b1.nextBase := k3.same.nextBase
    simp only [Bld.closeBlock, h]
    rfl
  have i3' : Inv { b3 with nextBase := b1.nextBase } := ⟨k3.inv.pos, k3.inv.lt, k3.inv.disj, k3.inv.noEval⟩
  have i4 : Inv b4 := inv_resolve i3' .next N _ hN1
  have l4 : b4.code.length = b3.code.length := resolve_length _ .next N _ hN1
  have h4 : ∀ k, b4.holes k = if k = .next then b1.holes .next else b3.holes k := resolve_holes _ .next N _ hN1
  have g24 : Grows b2 b4 := by
    have := grows_resolve (a := b2) (b := { b3 with nextBase := b1.nextBase }) ⟨k3.grows.code, k3.grows.holes⟩ .next N hN hNlo
    exact this
  let b5 : Bld := b4.exit body.declares (i.after b.mortal) b1.blockTop
  have f5 := exit_fields b4 body.declares (i.after b.mortal) b1.blockTop
  have i5 : Inv b5 := inv_exit i4 _ _ _
  have g45 : Grows b4 b5 := grows_exit _ _ _ _
  have hB : Node.declares (.mk (.block .loopStatements false) [body.tree]) = body.declares := by
    simp [Node.declares, Node.declaresAny, db]
  have hw5 : (Node.mk (.block .loopStatements false) [body.tree]).walk b1 = some b5 := by
    have hpre : b1.pre (.block .loopStatements false) = some b2 := rfl
    simp only [Node.walk, hpre, walkAll_one, w3, Bld.post, hB]
    rw [c4]
    show b4.leave (body.declares && true) = _
    rw [Bool.and_true]
    apply leave_eq
    · have : b3.blockTop = b2.blockTop := k3.same.blockTop
      show b3.blockTop = _
      rw [this]; show b1.mortal :: _ = _; rw [m1]
    · show _ ≤ b3.mortal
      rw [k3.mortal]; show _ ≤ body.after b1.mortal; rw [m1]; exact Stmt.le_after _ _
  have ev5 : b5.evals = b.evals := by
    show (b4.exit _ _ _).evals = _
    rw [f5.2.2.2.2.2.2.1]; show b3.evals = _; rw [k3.same.evals]; exact ev2
  have m5 : b5.mortal = i.after b.mortal := f5.2.2.2.2.2.2.2.2.2.1
  -- the increment
  obtain ⟨b6, w6, k6⟩ := hn b5 (by rw [ev5]; exact fn) i5
  have lg6 : b6.loopGoto = b1.code.length :: b1.loopGoto := by
    rw [k6.same.loopGoto, f5.2.2.2.2.2.1]; exact k3.same.loopGoto
  let b7 : Bld := { b6 with code := aimAt b6.code b1.code.length b6.code.length }
  have hw7 : (Node.mk .loopIncrement [n.tree]).walk b5 = some b7 := by
    simp only [Node.walk, Bld.pre, walkAll_one, w6, Bld.post, lg6, b7]
  have i7 : Inv b7 := inv_aim k6.inv _ _
  have l7 : b7.code.length = b6.code.length := by simp [b7, length_aimAt]
  have ev7 : b7.evals = b.evals := by show b6.evals = _; rw [k6.same.evals]; exact ev5
  -- the condition
  obtain ⟨b8, w8, k8⟩ := hc b7 (by rw [ev7]; exact fc) i7
  let b9 : Bld := { (b8.emit (.ifNe (b1.code.length + 1) v)) with loopGoto := b1.loopGoto }
  have hw9 : (Node.mk (.loopCondition v) [c.tree]).walk b7 = some b9 := by
    have h : b8.loopGoto = b1.code.length :: b1.loopGoto := by rw [k8.same.loopGoto]; exact lg6
    simp only [Node.walk, Bld.pre, walkAll_one, w8, Bld.post, h]
    rfl
  have i9 : Inv b9 := by
    have := inv_emit k8.inv (.ifNe (b1.code.length + 1) v)
    exact ⟨this.pos, this.lt, this.disj, this.noEval⟩
  have g89 : Grows b8 b9 := ⟨⟨[.ifNe (b1.code.length + 1) v], rfl⟩, fun _ => ⟨[], by simp [b9, Bld.emit]⟩⟩
  have l9 : b9.code.length = b8.code.length + 1 := by simp [b9, Bld.emit]
  -- positions
  have le1 : b.code.length ≤ b1.code.length := k1.grows.le
  have le3 : b1.code.length + 1 ≤ b3.code.length := by rw [← l2]; exact k3.grows.le
  have le5 : b3.code.length ≤ b5.code.length := by rw [← l4]; exact g45.le
  have le6 : b5.code.length ≤ b6.code.length := k6.grows.le
  have le8 : b6.code.length ≤ b8.code.length := by rw [← l7]; exact k8.grows.le
  -- growth
  have g01 : Grows b b1 := ⟨k1.grows.code, k1.grows.holes⟩
  have g06 : Grows b b6 := g01.trans (g12.trans (g24.trans (g45.trans k6.grows)))
  have g07 : Grows b b7 := grows_aim g06 _ _ le1
  have g79 : Grows b7 b9 := k8.grows.trans g89
  have g09 : Grows b b9 := g07.trans g79
  obtain ⟨M, hM, hMlo⟩ := g09.holes .last
  -- the end of the loop
  have lb9 : b9.lastBase = (b.holes .last).length :: b.lastBase := by
    show b8.lastBase = _
    rw [k8.same.lastBase]; show b6.lastBase = _
    rw [k6.same.lastBase, f5.2.1]; show b3.lastBase = _
    rw [k3.same.lastBase]; exact k1.same.lastBase
  let b9' : Bld := { b9 with lastBase := b.lastBase }
  let b10 : Bld := b9'.resolve .last (b.holes .last).length
  have c10 : b9.closeBlock .loopInit = some b10 := by
    simp only [Bld.closeBlock, lb9]
    rfl
  have i9' : Inv b9' := ⟨i9.pos, i9.lt, i9.disj, i9.noEval⟩
  have i10 : Inv b10 := inv_resolve i9' .last M _ hM
  have l10 : b10.code.length = b9.code.length := resolve_length _ .last M _ hM
  have h10 : ∀ k, b10.holes k = if k = .last then b.holes .last else b9.holes k := resolve_holes _ .last M _ hM
  have g010 : Grows b b10 := grows_resolve (a := b) (b := b9') ⟨g09.code, g09.holes⟩ .last M hM hMlo
  let need := i.declares || body.declares || n.declares || c.declares
  let b11 : Bld := b10.exit need b.mortal b.blockTop
  have f11 := exit_fields b10 need b.mortal b.blockTop
  have g1011 : Grows b10 b11 := grows_exit _ _ _ _
  have le11 : b10.code.length ≤ b11.code.length := g1011.le
  have hL : Node.declares (.mk (.block .loopInit false)
      [i.tree, .mk (.block .loopStatements false) [body.tree], .mk .loopIncrement [n.tree], .mk (.loopCondition v) [c.tree]]) = need := by
    simp [need, Node.declares, Node.declaresAny, di, db, dn, dc, Bool.or_assoc]
  have bt9 : b9.blockTop = b.mortal :: b.blockTop := by
    show b8.blockTop = _
    rw [k8.same.blockTop]; show b6.blockTop = _
    rw [k6.same.blockTop, f5.2.2.2.2.2.2.2.2.1]; exact k1.same.blockTop
  refine ⟨b11, ?_, ?_⟩
  · rw [Stmt.tree, walk_group, walkAll_one]
    have hpre : b.pre (.block .loopInit false) = some b0 := rfl
    have hall : Node.walkAll [i.tree, .mk (.block .loopStatements false) [body.tree], .mk .loopIncrement [n.tree],
        .mk (.loopCondition v) [c.tree]] b0 = some b9 := by
      rw [walkAll_cons _ _ _ _ w1, walkAll_cons _ _ _ _ hw5, walkAll_cons _ _ _ _ hw7, walkAll_one, hw9]
    simp only [Node.walk, hpre, hall, Bld.post, hL]
    rw [c10]
    show b10.leave (need && true) = _
    rw [Bool.and_true]
    apply leave_eq
    · exact bt9
    · show _ ≤ b8.mortal
      rw [k8.mortal]; refine Nat.le_trans ?_ (Stmt.le_after _ _)
      show _ ≤ b6.mortal
      rw [k6.mortal]; refine Nat.le_trans ?_ (Stmt.le_after _ _)
      rw [m5]; exact Stmt.le_after _ _
  · refine ⟨inv_exit i10 _ _ _, g010.trans g1011, ?_, ?_, f11.2.2.2.2.2.2.2.2.2.1, ?_, ?_, ?_, ?_, ?_⟩
    · refine ⟨?_, ?_, ?_, ?_, ?_, ?_, ?_, ?_⟩
      · rw [f11.1]; show b8.nextBase = _; rw [k8.same.nextBase]; show b6.nextBase = _
        rw [k6.same.nextBase, f5.1]; exact k1.same.nextBase
      · rw [f11.2.1]; rfl
      · rw [f11.2.2.1]; show b8.breakBase = _; rw [k8.same.breakBase]; show b6.breakBase = _
        rw [k6.same.breakBase, f5.2.2.1]; show b3.breakBase = _; rw [k3.same.breakBase]; exact k1.same.breakBase
      · rw [f11.2.2.2.1]; show b8.ifEnd = _; rw [k8.same.ifEnd]; show b6.ifEnd = _
        rw [k6.same.ifEnd, f5.2.2.2.1]; show b3.ifEnd = _; rw [k3.same.ifEnd]; exact k1.same.ifEnd
      · rw [f11.2.2.2.2.1]; show b8.ifCond = _; rw [k8.same.ifCond]; show b6.ifCond = _
        rw [k6.same.ifCond, f5.2.2.2.2.1]; show b3.ifCond = _; rw [k3.same.ifCond]; exact k1.same.ifCond
      · rw [f11.2.2.2.2.2.1]; exact k1.same.loopGoto
      · rw [f11.2.2.2.2.2.2.1]; show b8.evals = _; rw [k8.same.evals]; exact ev7
      · exact f11.2.2.2.2.2.2.2.2.1
    · rw [f11.2.2.2.2.2.2.2.1]; show b8.switches = _; rw [k8.switches]; show b6.switches = _
      rw [k6.switches, f5.2.2.2.2.2.2.2.1]; show b3.switches = _; rw [k3.switches]; exact k1.switches
    · rw [f11.2.2.2.2.2.2.2.2.2.2]; show b8.decls = _; rw [k8.decls]; show b6.decls + _ = _
      rw [k6.decls, f5.2.2.2.2.2.2.2.2.2.2]; show b3.decls + _ + _ = _; rw [k3.decls]; show b1.decls + _ + _ + _ = _
      rw [k1.decls]; show b.decls + _ + _ + _ + _ = _; simp only [Stmt.count]; omega
    · intro _
      show (b10.exit _ _ _).holes .next = _
      rw [exit_holes, h10]; show b8.holes .next = _
      rw [k8.noNext rfl]; show b6.holes .next = _
      rw [k6.noNext rfl]; show (b4.exit _ _ _).holes .next = _
      rw [exit_holes, h4]; exact k1.noNext rfl
    · intro _
      show (b10.exit _ _ _).holes .last = _
      rw [exit_holes, h10]; rfl
    · intro h
      show (b10.exit _ _ _).holes .brk = _
      rw [exit_holes, h10]; show b8.holes .brk = _
      rw [k8.noBrk rfl]; show b6.holes .brk = _
      rw [k6.noBrk rfl]; show (b4.exit _ _ _).holes .brk = _
      rw [exit_holes, h4]; show b3.holes .brk = _
      rw [k3.noBrk h]; exact k1.noBrk rfl
    · intro C ctx hC
      have hC10 : Completes C ctx b.code.length b9.code.length b10 := by
        apply (hC.mono (Nat.le_refl _) (by omega)).of_agree
        rw [← l10]; exact g1011.agree _
      have hC9 : Completes C (setTarget ctx .last b9.code.length) b.code.length b9.code.length b9 := by
        have := completes_resolve i9' .last M _ hM b.code.length b9.code.length (fun j hj => hi.lt .last j hj)
          (fun j hj hj' => by have := hMlo j hj; have := hi.lt .last j hj'; omega) hC10
        exact this
      have hC7 : Completes C (setTarget ctx .last b9.code.length) b.code.length b7.code.length b7 :=
        (hC9.mono (Nat.le_refl _) (by omega)).of_agree (g79.agree _)
      have hC6 : ∀ lo hi, b.code.length ≤ lo → (b1.code.length < lo ∨ hi ≤ b1.code.length) → hi ≤ b6.code.length →
          Completes C (setTarget ctx .last b9.code.length) lo hi b6 := fun lo hi h1 h2 h3 =>
        (hC7.mono h1 (by omega)).of_agree (agree_aim b6 _ _ lo hi h2)
      have g46 : Grows b4 b6 := g45.trans k6.grows
      have hC4 : ∀ lo hi, b.code.length ≤ lo → (b1.code.length < lo ∨ hi ≤ b1.code.length) → hi ≤ b4.code.length →
          Completes C (setTarget ctx .last b9.code.length) lo hi b4 := fun lo hi h1 h2 h3 =>
        (hC6 lo hi h1 h2 (by omega)).of_agree ((g46.agree lo).mono (Nat.le_refl _) h3)
      simp only [Codes]
      refine ⟨b1.code.length, b3.code.length, b6.code.length, b8.code.length, ?_, ⟨?_, ?_, ⟨b5.code.length, ?_, ?_⟩, ?_, ?_⟩, ?_⟩
      · rw [← l9]
        apply k1.codes C
        apply (hC4 b.code.length b1.code.length (Nat.le_refl _) (Or.inr (Nat.le_refl _)) (by omega)).of_agree
        exact (g12.trans g24).agree _
      · -- the first jump
        have hg : Grows (b1.emit (.goto_ 0)) b6 := by
          have := g24.trans g46
          exact ⟨this.code, this.holes⟩
        have a := (g79.agree 0) b1.code.length (by omega) (by omega)
        rw [get_of_completes hC9 b1.code.length le1 (by omega) (fun k hk => not_mem_of_grows k1.inv hg k ((a.2 k).1 hk)), a.1]
        show (aimAt b6.code b1.code.length b6.code.length)[b1.code.length]? = _
        rw [get_aimAt, if_pos rfl, get_of_grows hg]
        rfl
      · have h3 : Completes C (setTarget (setTarget ctx .last b9.code.length) .next b3.code.length) b2.code.length b3.code.length b3 := by
          have := completes_resolve i3' .next N _ hN1 b2.code.length b3.code.length
            (fun j hj => by have := k1.inv.lt .next j hj; omega)
            (fun j hj hj' => by have := hNlo j hj; have := k1.inv.lt .next j hj'; omega)
            (hC4 b2.code.length b3.code.length (by omega) (Or.inl (by omega)) (by omega))
          exact this
        have := k3.codes C _ h3
        rw [ev2, l2, show b2.mortal = i.after b.mortal from m1, l9] at this
        exact this
      · have := leave_of_completes (C := C) i4 body.declares (i.after b.mortal) b1.blockTop
          ((hC6 b4.code.length b5.code.length (by omega) (Or.inl (by omega)) le6).of_agree (k6.grows.agree _))
        rw [l4] at this
        exact this
      · have := k6.codes C _ (hC6 b5.code.length b6.code.length (by omega) (Or.inl (by omega)) (Nat.le_refl _))
        rw [ev5, m5, l9] at this
        exact this
      · have := k8.codes C _ ((hC9.mono (lo' := b7.code.length) (hi' := b8.code.length) (by omega) (by omega)).of_agree (g89.agree _))
        rw [ev7, l7, show b7.mortal = n.after (i.after b.mortal) from by rw [← m5]; exact k6.mortal, l9] at this
        exact this
      · rw [get_of_completes hC9 b8.code.length (by omega) (by omega) (not_mem_of_len k8.inv _ (Nat.le_refl _))]
        simp [b9, Bld.emit]
      · have := leave_of_completes (C := C) i10 need b.mortal b.blockTop (hC.mono (by omega) (Nat.le_refl _))
        rw [l10, l9] at this
        exact this

end Flow
end SPVM
