import Verif.Lemmas.FlowIf
/-!
# The builder on blocks and simple statements
-/
namespace SPVM
namespace Flow

/-- Walking over a plain block. -/
theorem walk_block (cs : List Node) (dd : Bool) (hd : Node.declaresAny cs = dd) (aft cnt : Nat)
    (P : List Op → (Hole → Nat) → Nat → Nat → Prop) (lp sw : Bool) (b b2 : Bld)
    (hw : Node.walkAll cs { b with blockTop := b.mortal :: b.blockTop } = some b2)
    (k : Walked aft cnt P lp sw { b with blockTop := b.mortal :: b.blockTop } b2) (ha : b.mortal ≤ aft) :
    ∃ b', (Node.mk (.block .normal false) cs).walk b = some b' ∧
      Walked b.mortal cnt (fun C ctx x y => ∃ m, P C ctx x m ∧ Leave C dd b.mortal m y) lp sw b b' := by
  have hT : Node.declares (.mk (.block .normal false) cs) = dd := by simp [Node.declares, hd]
  have f := exit_fields b2 dd b.mortal b.blockTop
  have g1 : Grows b b2 := ⟨k.grows.code, k.grows.holes⟩
  have g2 : Grows b2 (b2.exit dd b.mortal b.blockTop) := grows_exit _ _ _ _
  refine ⟨b2.exit dd b.mortal b.blockTop, ?_, ?_⟩
  · have hpre : b.pre (.block .normal false) = some { b with blockTop := b.mortal :: b.blockTop } := rfl
    simp only [Node.walk, hpre, hw, Bld.post, hT, Bld.closeBlock]
    show b2.leave (dd && true) = _
    rw [Bool.and_true]
    apply leave_eq
    · exact k.same.blockTop
    · rw [k.mortal]; exact ha
  · refine ⟨inv_exit k.inv _ _ _, g1.trans g2, ?_, ?_, f.2.2.2.2.2.2.2.2.2.1, ?_, ?_, ?_, ?_, ?_⟩
    · exact ⟨f.1.trans k.same.nextBase, f.2.1.trans k.same.lastBase, f.2.2.1.trans k.same.breakBase,
        f.2.2.2.1.trans k.same.ifEnd, f.2.2.2.2.1.trans k.same.ifCond, f.2.2.2.2.2.1.trans k.same.loopGoto,
        f.2.2.2.2.2.2.1.trans k.same.evals, f.2.2.2.2.2.2.2.2.1⟩
    · exact f.2.2.2.2.2.2.2.1.trans k.switches
    · exact f.2.2.2.2.2.2.2.2.2.2.trans k.decls
    · intro h; rw [exit_holes]; exact k.noNext h
    · intro h; rw [exit_holes]; exact k.noLast h
    · intro h; rw [exit_holes]; exact k.noBrk h
    · intro C ctx hC
      have le1 := g1.le
      have le2 := g2.le
      refine ⟨b2.code.length, ?_, ?_⟩
      · apply k.codes C ctx
        apply (hC.mono (Nat.le_refl _) le2).of_agree
        exact g2.agree _
      · exact leave_of_completes k.inv _ _ _ (hC.mono le1 (Nat.le_refl _))

/-- A part that emits one operation code without a jump. -/
theorem walked_emit (b : Bld) (hi : Inv b) (op : Op) (lp sw : Bool) :
    Walked b.mortal 0 (fun C _ x y => C[x]? = some op ∧ y = x + 1) lp sw b (b.emit op) where
  inv := inv_emit hi op
  grows := grows_emit b op
  same := ⟨rfl, rfl, rfl, rfl, rfl, rfl, rfl, rfl⟩
  switches := rfl
  mortal := rfl
  decls := rfl
  noNext := fun _ => rfl
  noLast := fun _ => rfl
  noBrk := fun _ => rfl
  codes := by
    intro C ctx hC
    refine ⟨?_, by simp [Bld.emit]⟩
    rw [get_of_completes hC b.code.length (Nat.le_refl _) (by simp [Bld.emit]) (not_mem_of_len hi _ (Nat.le_refl _))]
    simp [Bld.emit]

/-- A part that emits one jump to be patched. -/
theorem walked_hole (b : Bld) (hi : Inv b) (k : Hole) (op : Op) (lp sw : Bool) (he : k = .excEval → b.evals ≠ 0)
    (h1 : lp = false → k ≠ .next ∧ k ≠ .last) (h2 : sw = false → k ≠ .brk) :
    Walked b.mortal 0 (fun C ctx x y => C[x]? = some (op.aim (ctx k)) ∧ y = x + 1) lp sw b (b.emitHole k op) where
  inv := inv_emitHole hi k op he
  grows := grows_emitHole b k op
  same := ⟨rfl, rfl, rfl, rfl, rfl, rfl, rfl, rfl⟩
  switches := rfl
  mortal := rfl
  decls := rfl
  noNext := fun h => by simp [Bld.emitHole, holes_setHole, Ne.symm (h1 h).1, Bld.emit]
  noLast := fun h => by simp [Bld.emitHole, holes_setHole, Ne.symm (h1 h).2, Bld.emit]
  noBrk := fun h => by simp [Bld.emitHole, holes_setHole, Ne.symm (h2 h), Bld.emit]
  codes := by
    intro C ctx hC
    refine ⟨?_, by simp [Bld.emitHole, Bld.setHole, Bld.emit]⟩
    rw [(hC b.code.length (Nat.le_refl _) (by simp [Bld.emitHole, Bld.setHole, Bld.emit])).1 k
      (by simp [Bld.emitHole, holes_setHole])]
    simp [Bld.emitHole, Bld.setHole, Bld.emit]

/-- Two parts, one after the other. -/
theorem walked_seq {aft1 cnt1 P1 aft2 cnt2 P2 lp sw} {b b1 b2 : Bld} (k1 : Walked aft1 cnt1 P1 lp sw b b1)
    (k2 : Walked aft2 cnt2 P2 lp sw b1 b2) :
    Walked aft2 (cnt1 + cnt2) (fun C ctx x y => ∃ m, P1 C ctx x m ∧ P2 C ctx m y) lp sw b b2 where
  inv := k2.inv
  grows := k1.grows.trans k2.grows
  same := k1.same.trans k2.same
  switches := k2.switches.trans k1.switches
  mortal := k2.mortal
  decls := by rw [k2.decls, k1.decls]; omega
  noNext := fun h => (k2.noNext h).trans (k1.noNext h)
  noLast := fun h => (k2.noLast h).trans (k1.noLast h)
  noBrk := fun h => (k2.noBrk h).trans (k1.noBrk h)
  codes := by
    intro C ctx hC
    have l1 := k1.grows.le
    have l2 := k2.grows.le
    refine ⟨b1.code.length, ?_, ?_⟩
    · apply k1.codes C ctx
      exact (hC.mono (Nat.le_refl _) l2).of_agree (k2.grows.agree _)
    · exact k2.codes C ctx (hC.mono l1 (Nat.le_refl _))

theorem Walked.weaken {aft cnt P Q lp sw aft' cnt'} {b b' : Bld} (k : Walked aft cnt P lp sw b b') (ha : aft = aft') (hc : cnt = cnt')
    (h : ∀ C ctx x y, P C ctx x y → Q C ctx x y) : Walked aft' cnt' Q lp sw b b' := by
  subst ha hc
  exact ⟨k.inv, k.grows, k.same, k.switches, k.mortal, k.decls, k.noNext, k.noLast, k.noBrk, fun C ctx hC => h _ _ _ _ (k.codes C ctx hC)⟩

theorem walk_group (cs : List Node) (b : Bld) : (Node.mk .group cs).walk b = Node.walkAll cs b := by
  simp only [Node.walk, Bld.pre]
  cases Node.walkAll cs b <;> rfl

theorem walkAll_nil (b : Bld) : Node.walkAll [] b = some b := by simp only [Node.walkAll]

theorem walks_skip (lp sw : Bool) : Walks .skip lp sw := by
  intro b _ hi
  refine ⟨b, by rw [Stmt.tree, walk_group, walkAll_nil], hi, Grows.refl b, Same.refl b, rfl, rfl, rfl, fun _ => rfl, fun _ => rfl,
    fun _ => rfl, ?_⟩
  intro C ctx _
  simp only [Codes]

theorem walks_seq (s t : Stmt) (lp sw : Bool) (hs : Walks s lp sw) (ht : Walks t lp sw) : Walks (.seq s t) lp sw := by
  intro b hf hi
  simp only [Stmt.evalFlat, Bool.and_eq_true] at hf
  obtain ⟨b1, w1, k1⟩ := hs b hf.1 hi
  have ev : b1.evals = b.evals := k1.same.evals
  obtain ⟨b2, w2, k2⟩ := ht b1 (by rw [ev]; exact hf.2) k1.inv
  refine ⟨b2, ?_, ?_⟩
  · rw [Stmt.tree, walk_group, walkAll_cons _ _ _ _ w1, walkAll_one, w2]
  · apply (walked_seq k1 k2).weaken
    · rw [k1.mortal]; rfl
    · rfl
    · intro C ctx x y h
      obtain ⟨m, h1, h2⟩ := h
      rw [ev, k1.mortal] at h2
      simp only [Codes]
      exact ⟨m, h1, h2⟩

theorem walks_act (k : Nat) (lp sw : Bool) : Walks (.act k) lp sw := by
  intro b _ hi
  refine ⟨b.emit (.act k), by rw [Stmt.tree]; simp only [Node.walk, Bld.pre, walkAll_nil, Bld.post], ?_⟩
  apply (walked_emit b hi (.act k) lp sw).weaken rfl rfl
  intro C ctx x y h
  simp only [Codes]
  exact h

theorem walks_decl (v : Nat) (lp sw : Bool) : Walks (.decl v) lp sw := by
  intro b _ hi
  have k := walked_emit b hi (.pushMortal v) lp sw
  refine ⟨{ (b.emit (.pushMortal v)) with mortal := b.mortal + 1, decls := b.decls + 1 },
    by rw [Stmt.tree]; simp only [Node.walk, Bld.pre, walkAll_nil, Bld.post], ?_⟩
  refine ⟨⟨k.inv.pos, k.inv.lt, k.inv.disj, k.inv.noEval⟩, ⟨k.grows.code, k.grows.holes⟩, ⟨rfl, rfl, rfl, rfl, rfl, rfl, rfl, rfl⟩, rfl, rfl, rfl,
    fun _ => rfl, fun _ => rfl, fun _ => rfl, ?_⟩
  intro C ctx hC
  simp only [Codes]
  exact k.codes C ctx hC

theorem walks_next (sw : Bool) : Walks .next true sw := by
  intro b _ hi
  refine ⟨b.emitHole .next (.goto_ 0), by rw [Stmt.tree]; simp only [Node.walk, Bld.pre, walkAll_nil, Bld.post], ?_⟩
  apply (walked_hole b hi .next (.goto_ 0) true sw (by simp) (by simp) (by simp)).weaken rfl rfl
  intro C ctx x y h
  simp only [Codes]
  exact h

theorem walks_last (sw : Bool) : Walks .last true sw := by
  intro b _ hi
  refine ⟨b.emitHole .last (.goto_ 0), by rw [Stmt.tree]; simp only [Node.walk, Bld.pre, walkAll_nil, Bld.post], ?_⟩
  apply (walked_hole b hi .last (.goto_ 0) true sw (by simp) (by simp) (by simp)).weaken rfl rfl
  intro C ctx x y h
  simp only [Codes]
  exact h

theorem walks_brk (lp : Bool) : Walks .brk lp true := by
  intro b _ hi
  refine ⟨b.emitHole .brk (.goto_ 0), by rw [Stmt.tree]; simp only [Node.walk, Bld.pre, walkAll_nil, Bld.post], ?_⟩
  apply (walked_hole b hi .brk (.goto_ 0) lp true (by simp) (by simp) (by simp)).weaken rfl rfl
  intro C ctx x y h
  simp only [Codes]
  exact h

theorem walks_ret (k : Nat) (lp sw : Bool) : Walks (.ret k) lp sw := by
  intro b _ hi
  refine ⟨b.emitHole .ret (.ret k 0), by rw [Stmt.tree]; simp only [Node.walk, Bld.pre, walkAll_nil, Bld.post], ?_⟩
  apply (walked_hole b hi .ret (.ret k 0) lp sw (by simp) (by simp) (by simp)).weaken rfl rfl
  intro C ctx x y h
  simp only [Codes]
  exact h

theorem walks_call (k : Nat) (lp sw : Bool) : Walks (.call k) lp sw := by
  intro b _ hi
  have k1 := walked_emit b hi (.call k) lp sw
  by_cases he : b.evals ≠ 0
  · have k2 := walked_hole (b.emit (.call k)) k1.inv .excEval (.onExcEval 0 k) lp sw (fun _ => he) (by simp) (by simp)
    refine ⟨(b.emit (.call k)).emitHole .excEval (.onExcEval 0 k), ?_, ?_⟩
    · rw [Stmt.tree]; simp only [Node.walk, Bld.pre, walkAll_nil, Bld.post, Bld.onException]
      rw [if_pos (show (b.emit (.call k)).evals ≠ 0 from he)]
    · apply (walked_seq k1 k2).weaken rfl rfl
      intro C ctx x y h
      obtain ⟨m, ⟨h1, rfl⟩, h2, rfl⟩ := h
      simp only [Codes]
      refine ⟨h1, ?_, by trivial⟩
      rw [h2, excOp, if_pos (by simpa using he)]
      rfl
  · have k2 := walked_hole (b.emit (.call k)) k1.inv .excMethod (.onExcMethod 0 k) lp sw (by simp) (by simp) (by simp)
    refine ⟨(b.emit (.call k)).emitHole .excMethod (.onExcMethod 0 k), ?_, ?_⟩
    · rw [Stmt.tree]; simp only [Node.walk, Bld.pre, walkAll_nil, Bld.post, Bld.onException]
      rw [if_neg (show ¬ (b.emit (.call k)).evals ≠ 0 from he)]
    · apply (walked_seq k1 k2).weaken rfl rfl
      intro C ctx x y h
      obtain ⟨m, ⟨h1, rfl⟩, h2, rfl⟩ := h
      simp only [Codes]
      refine ⟨h1, ?_, by trivial⟩
      rw [h2, excOp, if_neg (by simpa using he)]
      rfl

theorem walks_block (s : Stmt) (lp sw : Bool) (hs : Walks s lp sw) (ds : s.tree.declares = s.declares) : Walks (.block s) lp sw := by
  intro b hf hi
  simp only [Stmt.evalFlat] at hf
  obtain ⟨b2, w2, k2⟩ := hs { b with blockTop := b.mortal :: b.blockTop } hf ⟨hi.pos, hi.lt, hi.disj, hi.noEval⟩
  obtain ⟨b', w, k⟩ := walk_block [s.tree] s.declares (by simp [Node.declaresAny, ds]) _ _ _ lp sw b b2 (by rw [walkAll_one]; exact w2) k2
    (Stmt.le_after _ _)
  refine ⟨b', by rw [Stmt.tree]; exact w, ?_⟩
  apply k.weaken rfl rfl
  intro C ctx x y h
  simp only [Codes]
  exact h

theorem walks_choose (c : Stmt) (v : Nat) (t e : Stmt) (lp sw : Bool) (hc : Walks c false false) (ht : Walks t lp sw)
    (he : Walks e lp sw) (dt : t.tree.declares = t.declares) (de : e.tree.declares = e.declares) : Walks (.choose c v t e) lp sw := by
  intro b hf hi
  simp only [Stmt.evalFlat, Bool.and_eq_true] at hf
  obtain ⟨b', w, k⟩ := walk_if c v t e true lp sw hc ht he dt de b hf.1.1 hf.1.2 hf.2 hi
  refine ⟨b', by rw [Stmt.tree, walk_group]; exact w, ?_⟩
  apply k.weaken rfl rfl
  intro C ctx x y h
  simp only [Codes]
  simpa using h

theorem walks_elif (c : Stmt) (v : Nat) (t e : Stmt) (lp sw : Bool) (hc : Walks c false false) (ht : Walks t lp sw)
    (he : Walks e lp sw) (dt : t.tree.declares = t.declares) (de : e.tree.declares = e.declares) : Walks (.elif c v t e) lp sw := by
  intro b hf hi
  simp only [Stmt.evalFlat, Bool.and_eq_true] at hf
  obtain ⟨b', w, k⟩ := walk_if c v t e false lp sw hc ht he dt de b hf.1.1 hf.1.2 hf.2 hi
  refine ⟨b', by rw [Stmt.tree, walk_group]; exact w, ?_⟩
  apply k.weaken rfl rfl
  intro C ctx x y h
  simp only [Codes]
  simpa using h

theorem walks_ifs (c : Stmt) (v : Nat) (t e : Stmt) (lp sw : Bool) (hc : Walks c false false) (ht : Walks t lp sw)
    (he : Walks e lp sw) (dc : c.tree.declares = c.declares) (dt : t.tree.declares = t.declares) (de : e.tree.declares = e.declares) :
    Walks (.ifs c v t e) lp sw := by
  intro b hf hi
  simp only [Stmt.evalFlat, Bool.and_eq_true] at hf
  obtain ⟨b2, w2, k2⟩ := walk_if c v t e false lp sw hc ht he dt de { b with blockTop := b.mortal :: b.blockTop } hf.1.1 hf.1.2 hf.2
    ⟨hi.pos, hi.lt, hi.disj, hi.noEval⟩
  obtain ⟨b', w, k⟩ := walk_block
    [.mk .group [.mk (.condition v) [c.tree], .mk (.block .if_ false) [t.tree], .mk (.block .else_ false) [e.tree]]]
    (c.declares || t.declares || e.declares) (by simp [Node.declaresAny, Node.declares, dc, dt, de, Bool.or_assoc]) _ _ _ lp sw b b2
    (by rw [walkAll_one, walk_group]; exact w2) k2 (Stmt.le_after _ _)
  refine ⟨b', by rw [Stmt.tree]; exact w, ?_⟩
  apply k.weaken rfl rfl
  intro C ctx x y h
  simp only [Codes]
  simpa using h

theorem walks_eval (s : Stmt) (lp sw : Bool) (hs : Walks s lp sw) (ds : s.tree.declares = s.declares) : Walks (.eval s) lp sw := by
  intro b hf hi
  simp only [Stmt.evalFlat, Bool.and_eq_true, Bool.not_eq_true', decide_eq_false_iff_not, ne_eq, Decidable.not_not] at hf
  obtain ⟨hev, hf⟩ := hf
  have hno : b.holes .excEval = [] := hi.noEval hev
  let b1 : Bld := { (b.emit .enterEval) with evals := b.evals + 1, blockTop := b.mortal :: b.blockTop }
  have i1 : Inv b1 := by
    have := inv_emit hi .enterEval
    exact ⟨this.pos, this.lt, this.disj, fun h => by simp [b1] at h⟩
  have g01 : Grows b b1 := ⟨⟨[.enterEval], rfl⟩, fun _ => ⟨[], by simp [b1, Bld.emit]⟩⟩
  have ev1 : decide (b1.evals ≠ 0) = true := by simp [b1]
  obtain ⟨b2, w2, k2⟩ := hs b1 (by rw [ev1]; exact hf) i1
  have l1 : b1.code.length = b.code.length + 1 := by simp [b1, Bld.emit]
  have hN : b2.holes .excEval = b2.holes .excEval ++ [] := by simp
  have hNlo : ∀ i ∈ b2.holes .excEval, b1.code.length ≤ i := by
    obtain ⟨N, hN, hN'⟩ := k2.grows.holes .excEval
    have : b1.holes .excEval = [] := hno
    rw [this, List.append_nil] at hN
    rw [hN]; exact hN'
  let b3 : Bld := { (b2.resolve .excEval 0) with evals := b2.evals - 1 }
  have i3' : Inv (b2.resolve .excEval 0) := inv_resolve k2.inv .excEval _ [] hN
  have i3 : Inv b3 := ⟨i3'.pos, i3'.lt, i3'.disj, fun _ => by
    show (b2.resolve .excEval 0).holes .excEval = []
    exact (resolve_holes b2 .excEval _ [] hN .excEval).trans (by simp)⟩
  have l3 : b3.code.length = b2.code.length := resolve_length b2 .excEval _ [] hN
  have g13 : Grows b1 b3 := by
    have e : b1.holes .excEval = [] := hno
    have := grows_resolve k2.grows .excEval (b2.holes .excEval) (by rw [e]; simp) hNlo
    rw [e] at this
    exact ⟨this.code, this.holes⟩
  have c3 : b2.closeBlock .eval = some b3 := rfl
  let b4 : Bld := b3.exit s.declares b.mortal b.blockTop
  have f := exit_fields b3 s.declares b.mortal b.blockTop
  have g34 : Grows b3 b4 := grows_exit _ _ _ _
  have hT : Node.declares (.mk (.block .eval false) [s.tree]) = s.declares := by simp [Node.declares, Node.declaresAny, ds]
  refine ⟨b4, ?_, ?_⟩
  · rw [Stmt.tree, walk_group, walkAll_one]
    have hpre : b.pre (.block .eval false) = some b1 := rfl
    simp only [Node.walk, hpre, walkAll_one, w2, Bld.post, hT]
    rw [c3]
    show b3.leave (s.declares && true) = _
    rw [Bool.and_true]
    apply leave_eq
    · exact k2.same.blockTop
    · show _ ≤ b2.mortal
      rw [k2.mortal]; exact Stmt.le_after _ _
  · have keep : ∀ h, h ≠ .excEval → b4.holes h = b2.holes h := by
      intro h hh
      show (b3.exit _ _ _).holes h = _
      rw [exit_holes]
      exact (resolve_holes b2 .excEval _ [] hN h).trans (by simp [hh])
    refine ⟨inv_exit i3 _ _ _, g01.trans (g13.trans g34), ?_, ?_, f.2.2.2.2.2.2.2.2.2.1, ?_, ?_, ?_, ?_, ?_⟩
    · refine ⟨f.1.trans k2.same.nextBase, f.2.1.trans k2.same.lastBase, f.2.2.1.trans k2.same.breakBase,
        f.2.2.2.1.trans k2.same.ifEnd, f.2.2.2.2.1.trans k2.same.ifCond, f.2.2.2.2.2.1.trans k2.same.loopGoto, ?_, f.2.2.2.2.2.2.2.2.1⟩
      rw [f.2.2.2.2.2.2.1]
      show b2.evals - 1 = _
      rw [k2.same.evals]
      show b.evals + 1 - 1 = _
      omega
    · exact f.2.2.2.2.2.2.2.1.trans k2.switches
    · exact f.2.2.2.2.2.2.2.2.2.2.trans k2.decls
    · intro h; rw [keep _ (by simp)]; exact k2.noNext h
    · intro h; rw [keep _ (by simp)]; exact k2.noLast h
    · intro h; rw [keep _ (by simp)]; exact k2.noBrk h
    · intro C ctx hC
      have le1 := g01.le
      have le2 := g13.le
      have le3 := g34.le
      simp only [Codes]
      refine ⟨by simp [hev], ?_, b2.code.length, ?_, ?_⟩
      · have hg : Grows (b.emit .enterEval) b4 := by
          have := g13.trans g34
          exact ⟨this.code, this.holes⟩
        rw [get_of_completes hC b.code.length (Nat.le_refl _) (by omega) (not_mem_of_grows hi hg), get_of_grows hg]
      · have hc3 : Completes C ctx b1.code.length b2.code.length (b2.resolve .excEval 0) := by
          have := (hC.mono (lo' := b1.code.length) (hi' := b3.code.length) (by omega) le3).of_agree (g34.agree _)
          rw [l3] at this
          exact this
        have := k2.codes C _ (completes_resolve k2.inv .excEval _ [] hN _ _ (by simp) (by simp) hc3)
        rw [ev1, l1] at this
        exact this
      · have := leave_of_completes i3 s.declares b.mortal b.blockTop (hC.mono (by omega) (Nat.le_refl _))
        rw [l3] at this
        exact this

end Flow
end SPVM
