import Verif.Lemmas.FlowWalk
/-!
# The builder on conditionals
-/
namespace SPVM
namespace Flow

theorem walk_if (c : Stmt) (v : Nat) (t e : Stmt) (ns lp sw : Bool) (hc : Walks c false false) (ht : Walks t lp sw)
    (he : Walks e lp sw) (dt : t.tree.declares = t.declares) (de : e.tree.declares = e.declares) (b : Bld)
    (fc : c.evalFlat (decide (b.evals ≠ 0)) = true) (ft : t.evalFlat (decide (b.evals ≠ 0)) = true)
    (fe : e.evalFlat (decide (b.evals ≠ 0)) = true) (hi : Inv b) :
    ∃ b', Node.walkAll [.mk (.condition v) [c.tree], .mk (.block .if_ ns) [t.tree], .mk (.block .else_ ns) [e.tree]] b = some b' ∧
      Walked (c.after b.mortal) (c.count + t.count + e.count)
        (fun C ctx x y => IfCode C v (c.after b.mortal) (t.declares && !ns) (e.declares && !ns)
          (fun p q => Codes C c (decide (b.evals ≠ 0)) ctx b.mortal p q)
          (fun p q => Codes C t (decide (b.evals ≠ 0)) ctx (c.after b.mortal) p q)
          (fun p q => Codes C e (decide (b.evals ≠ 0)) ctx (c.after b.mortal) p q) x y) lp sw b b' := by
  -- the condition
  obtain ⟨b1, w1, k1⟩ := hc b fc hi
  have ev1 : b1.evals = b.evals := k1.same.evals
  -- the conditional jump
  let b2 : Bld := { (b1.emit (.ifEq 0 v)) with ifCond := b1.code.length :: b1.ifCond }
  have hw2 : (Node.mk (.condition v) [c.tree]).walk b = some b2 := by
    simp only [Node.walk, Bld.pre, walkAll_one, w1, Bld.post]
    rfl
  have g12 : Grows b1 b2 := ⟨⟨[.ifEq 0 v], rfl⟩, fun _ => ⟨[], by simp [b2, Bld.emit]⟩⟩
  have i2 : Inv b2 := by
    have := inv_emit k1.inv (.ifEq 0 v)
    exact ⟨this.pos, this.lt, this.disj, this.noEval⟩
  -- the then part
  let b3 : Bld := { b2 with blockTop := b2.mortal :: b2.blockTop }
  have i3 : Inv b3 := ⟨i2.pos, i2.lt, i2.disj, i2.noEval⟩
  have g23 : Grows b2 b3 := ⟨⟨[], by simp [b3]⟩, fun _ => ⟨[], by simp [b3]⟩⟩
  have ev3 : b3.evals = b.evals := ev1
  have m3 : b3.mortal = c.after b.mortal := k1.mortal
  obtain ⟨b4, w4, k4⟩ := ht b3 (by rw [ev3]; exact ft) i3
  have l2 : b2.code.length = b1.code.length + 1 := by simp [b2, Bld.emit]
  -- its end
  let b6 : Bld := { (b4.emit (.goto_ 0)) with
    ifEnd := b4.code.length :: b4.ifEnd
    code := aimAt (b4.emit (.goto_ 0)).code b1.code.length (b4.code.length + 1)
    ifCond := b1.ifCond }
  have c6 : b4.closeBlock .if_ = some b6 := by
    have h4 : b4.ifCond = b1.code.length :: b1.ifCond := k4.same.ifCond
    simp only [Bld.closeBlock]
    show (match (b4.emit (.goto_ 0)).ifCond with | i :: rest => _ | [] => none) = _
    show (match b4.ifCond with | i :: rest => _ | [] => none) = _
    rw [h4]
    simp [b6, Bld.emit]
  have l6 : b6.code.length = b4.code.length + 1 := by simp [b6, length_aimAt, Bld.emit]
  have i6 : Inv b6 := by
    have := inv_aim (inv_emit k4.inv (.goto_ 0)) b1.code.length (b4.code.length + 1)
    exact ⟨this.pos, this.lt, this.disj, this.noEval⟩
  have hT : Node.declares (.mk (.block .if_ ns) [t.tree]) = t.declares := by simp [Node.declares, Node.declaresAny, dt]
  let b7 : Bld := b6.exit (t.declares && !ns) (c.after b.mortal) b2.blockTop
  have m4 : c.after b.mortal ≤ b4.mortal := by rw [k4.mortal, m3]; exact Stmt.le_after _ _
  have hw7 : (Node.mk (.block .if_ ns) [t.tree]).walk b2 = some b7 := by
    have hpre : b2.pre (.block .if_ ns) = some b3 := rfl
    simp only [Node.walk, hpre, walkAll_one, w4, Bld.post, hT]
    rw [c6]
    show b6.leave _ = _
    apply leave_eq
    · have : b4.blockTop = b3.blockTop := k4.same.blockTop
      show b4.blockTop = _
      rw [this]; show b3.mortal :: _ = _; rw [m3]
    · exact m4
  have f7 := exit_fields b6 (t.declares && !ns) (c.after b.mortal) b2.blockTop
  have i7 : Inv b7 := inv_exit i6 _ _ _
  -- the else part
  let b8 : Bld := { b7 with blockTop := b7.mortal :: b7.blockTop }
  have i8 : Inv b8 := ⟨i7.pos, i7.lt, i7.disj, i7.noEval⟩
  have ev8 : b8.evals = b.evals := by
    show b7.evals = _; rw [f7.2.2.2.2.2.2.1]; show b4.evals = _; rw [k4.same.evals]; exact ev3
  have m8 : b8.mortal = c.after b.mortal := f7.2.2.2.2.2.2.2.2.2.1
  obtain ⟨b9, w9, k9⟩ := he b8 (by rw [ev8]; exact fe) i8
  have ifEnd9 : b9.ifEnd = b4.code.length :: b4.ifEnd := by
    rw [k9.same.ifEnd]; show b7.ifEnd = _; rw [f7.2.2.2.1]
  let b10 : Bld := { b9 with code := aimAt b9.code b4.code.length b9.code.length, ifEnd := b4.ifEnd }
  have c10 : b9.closeBlock .else_ = some b10 := by
    simp only [Bld.closeBlock, ifEnd9]
    rfl
  have i10 : Inv b10 := by
    have := inv_aim k9.inv b4.code.length b9.code.length
    exact ⟨this.pos, this.lt, this.disj, this.noEval⟩
  have l10 : b10.code.length = b9.code.length := by simp [b10, length_aimAt]
  have hE : Node.declares (.mk (.block .else_ ns) [e.tree]) = e.declares := by simp [Node.declares, Node.declaresAny, de]
  let b11 : Bld := b10.exit (e.declares && !ns) (c.after b.mortal) b7.blockTop
  have hw11 : (Node.mk (.block .else_ ns) [e.tree]).walk b7 = some b11 := by
    have hpre : b7.pre (.block .else_ ns) = some b8 := rfl
    simp only [Node.walk, hpre, walkAll_one, w9, Bld.post, hE]
    rw [c10]
    show b10.leave _ = _
    apply leave_eq
    · have : b9.blockTop = b8.blockTop := k9.same.blockTop
      show b9.blockTop = _
      rw [this]; show b7.mortal :: _ = _; rw [show b7.mortal = c.after b.mortal from m8]
    · show _ ≤ b9.mortal
      rw [k9.mortal, m8]; exact Stmt.le_after _ _
  have f11 := exit_fields b10 (e.declares && !ns) (c.after b.mortal) b7.blockTop
  have i11 : Inv b11 := inv_exit i10 _ _ _
  -- positions
  have le1 : b.code.length ≤ b1.code.length := k1.grows.le
  have le4 : b1.code.length + 1 ≤ b4.code.length := by have := k4.grows.le; rw [← l2]; exact this
  have le7 : b4.code.length + 1 ≤ b7.code.length := by rw [← l6]; exact (grows_exit b6 _ _ _).le
  have le9 : b7.code.length ≤ b9.code.length := k9.grows.le
  have le11 : b9.code.length ≤ b11.code.length := by rw [← l10]; exact (grows_exit b10 _ _ _).le
  -- growth
  have g14 : Grows b1 b4 := g12.trans (g23.trans k4.grows)
  have g04 : Grows b b4 := k1.grows.trans g14
  have g46' : Grows b4 (b4.emit (.goto_ 0)) := grows_emit _ _
  have g06 : Grows b b6 := by
    have := grows_aim (g04.trans g46') b1.code.length (b4.code.length + 1) le1
    exact ⟨this.code, this.holes⟩
  have g67 : Grows b6 b7 := grows_exit b6 _ _ _
  have g78 : Grows b7 b8 := ⟨⟨[], by simp [b8]⟩, fun _ => ⟨[], by simp [b8]⟩⟩
  have g79 : Grows b7 b9 := g78.trans k9.grows
  have g09 : Grows b b9 := g06.trans (g67.trans g79)
  have g010 : Grows b b10 := by
    have := grows_aim g09 b4.code.length b9.code.length (by omega)
    exact ⟨this.code, this.holes⟩
  have g1011 : Grows b10 b11 := grows_exit b10 _ _ _
  refine ⟨b11, ?_, ?_⟩
  · rw [walkAll_cons _ _ _ _ hw2, walkAll_cons _ _ _ _ hw7, walkAll_one]; exact hw11
  -- agreement
  have a46 : ∀ lo hi, (b1.code.length < lo ∨ hi ≤ b1.code.length) → hi ≤ b4.code.length → Agree lo hi b4 b6 := by
    intro lo hi h hh
    have := ((g46'.agree lo).mono (Nat.le_refl _) hh).trans (agree_aim (b4.emit (.goto_ 0)) b1.code.length (b4.code.length + 1) lo hi h)
    intro i h1 h2
    exact this i h1 h2
  have a911 : ∀ lo hi, (b4.code.length < lo ∨ hi ≤ b4.code.length) → hi ≤ b9.code.length → Agree lo hi b9 b11 := by
    intro lo hi h hh
    have h1 : Agree lo hi b9 b10 := agree_aim b9 b4.code.length b9.code.length lo hi h
    exact h1.trans ((g1011.agree lo).mono (Nat.le_refl _) (by omega))
  refine ⟨i11, g010.trans g1011, ?_, ?_, f11.2.2.2.2.2.2.2.2.2.1, ?_, ?_, ?_, ?_, ?_⟩
  · -- the stacks
    refine ⟨?_, ?_, ?_, ?_, ?_, ?_, ?_, ?_⟩
    · rw [f11.1]; show b9.nextBase = _; rw [k9.same.nextBase]; show b7.nextBase = _
      rw [f7.1]; show b4.nextBase = _; rw [k4.same.nextBase]; exact k1.same.nextBase
    · rw [f11.2.1]; show b9.lastBase = _; rw [k9.same.lastBase]; show b7.lastBase = _
      rw [f7.2.1]; show b4.lastBase = _; rw [k4.same.lastBase]; exact k1.same.lastBase
    · rw [f11.2.2.1]; show b9.breakBase = _; rw [k9.same.breakBase]; show b7.breakBase = _
      rw [f7.2.2.1]; show b4.breakBase = _; rw [k4.same.breakBase]; exact k1.same.breakBase
    · rw [f11.2.2.2.1]; show b4.ifEnd = _; rw [k4.same.ifEnd]; exact k1.same.ifEnd
    · rw [f11.2.2.2.2.1]; show b9.ifCond = _; rw [k9.same.ifCond]; show b7.ifCond = _
      rw [f7.2.2.2.2.1]; exact k1.same.ifCond
    · rw [f11.2.2.2.2.2.1]; show b9.loopGoto = _; rw [k9.same.loopGoto]; show b7.loopGoto = _
      rw [f7.2.2.2.2.2.1]; show b4.loopGoto = _; rw [k4.same.loopGoto]; exact k1.same.loopGoto
    · rw [f11.2.2.2.2.2.2.1]; show b9.evals = _; rw [k9.same.evals]; exact ev8
    · rw [f11.2.2.2.2.2.2.2.2.1, f7.2.2.2.2.2.2.2.2.1]; exact k1.same.blockTop
  · rw [f11.2.2.2.2.2.2.2.1]; show b9.switches = _; rw [k9.switches]; show b7.switches = _
    rw [f7.2.2.2.2.2.2.2.1]; show b4.switches = _; rw [k4.switches]; exact k1.switches
  · rw [f11.2.2.2.2.2.2.2.2.2.2]; show b9.decls = _; rw [k9.decls]; show b7.decls + _ = _
    rw [f7.2.2.2.2.2.2.2.2.2.2]; show b4.decls + _ = _; rw [k4.decls]; show b1.decls + _ + _ = _; rw [k1.decls]; omega
  · intro h
    show (b10.exit _ _ _).holes .next = _
    rw [exit_holes]; show b9.holes .next = _; rw [k9.noNext h]; show (b6.exit _ _ _).holes .next = _
    rw [exit_holes]; show b4.holes .next = _; rw [k4.noNext h]; exact k1.noNext rfl
  · intro h
    show (b10.exit _ _ _).holes .last = _
    rw [exit_holes]; show b9.holes .last = _; rw [k9.noLast h]; show (b6.exit _ _ _).holes .last = _
    rw [exit_holes]; show b4.holes .last = _; rw [k4.noLast h]; exact k1.noLast rfl
  · intro h
    show (b10.exit _ _ _).holes .brk = _
    rw [exit_holes]; show b9.holes .brk = _; rw [k9.noBrk h]; show (b6.exit _ _ _).holes .brk = _
    rw [exit_holes]; show b4.holes .brk = _; rw [k4.noBrk h]; exact k1.noBrk rfl
  · intro C ctx hC
    -- agreement of the parts with the end
    have a711 : ∀ lo hi, hi ≤ b4.code.length → Agree lo hi b7 b11 := by
      intro lo hi hh
      exact ((g79.agree lo).mono (Nat.le_refl _) (by omega)).trans (a911 lo hi (Or.inr hh) (by omega))
    have a411 : ∀ lo hi, (b1.code.length < lo ∨ hi ≤ b1.code.length) → hi ≤ b4.code.length → Agree lo hi b4 b11 := by
      intro lo hi h hh
      exact (a46 lo hi h hh).trans (((g67.agree lo).mono (Nat.le_refl _) (by omega)).trans (a711 lo hi hh))
    refine ⟨b1.code.length, b4.code.length, b7.code.length, b9.code.length, ?_, ?_, ?_, ?_, ?_, ?_, ?_⟩
    · apply k1.codes C ctx
      apply (hC.mono (Nat.le_refl _) (by omega)).of_agree
      exact ((g14.agree _).trans (a411 _ _ (Or.inr (Nat.le_refl _)) (by omega)))
    · -- the conditional jump
      have n4 : ∀ k, b1.code.length ∉ b4.holes k := by
        have : Grows (b1.emit (.ifEq 0 v)) b4 := by
          have := g23.trans k4.grows
          exact ⟨this.code, this.holes⟩
        exact not_mem_of_grows k1.inv this
      have e4 : b4.code[b1.code.length]? = some (.ifEq 0 v) := by
        have : Grows (b1.emit (.ifEq 0 v)) b4 := by
          have := g23.trans k4.grows
          exact ⟨this.code, this.holes⟩
        exact get_of_grows this
      have e6 : b6.code[b1.code.length]? = some (.ifEq (b4.code.length + 1) v) := by
        show (aimAt (b4.emit (.goto_ 0)).code b1.code.length (b4.code.length + 1))[b1.code.length]? = _
        rw [get_aimAt, if_pos rfl, ((g46'.agree 0) _ (by omega) (by omega)).1, e4]
        rfl
      have a := (((g67.agree 0).mono (Nat.le_refl _) (by omega)).trans (a711 0 (b1.code.length + 1) (by omega)))
      have a' := a b1.code.length (by omega) (by omega)
      rw [get_of_completes hC b1.code.length (by omega) (by omega) (fun k hk => n4 k ((a'.2 k).1 hk)), a'.1, e6]
    · have := k4.codes C ctx ?_
      · rw [ev3, m3] at this
        have e : b3.code.length = b1.code.length + 1 := l2
        rw [e] at this; exact this
      · apply (hC.mono (by show _ ≤ b2.code.length; omega) (by omega)).of_agree
        exact a411 _ _ (Or.inl (by show _ < b2.code.length; omega)) (Nat.le_refl _)
    · -- the jump to the end
      have n6 : ∀ k, b4.code.length ∉ b4.holes k := not_mem_of_len k4.inv _ (Nat.le_refl _)
      have e6 : b6.code[b4.code.length]? = some (.goto_ 0) := by
        show (aimAt (b4.emit (.goto_ 0)).code b1.code.length (b4.code.length + 1))[b4.code.length]? = _
        rw [get_aimAt, if_neg (by omega)]
        simp [Bld.emit]
      have a69 := ((g67.trans g79).agree 0) b4.code.length (by omega) (by omega)
      have e10 : b10.code[b4.code.length]? = some (.goto_ b9.code.length) := by
        show (aimAt b9.code b4.code.length b9.code.length)[b4.code.length]? = _
        rw [get_aimAt, if_pos rfl, a69.1, e6]
        rfl
      have a1011 := (g1011.agree 0) b4.code.length (by omega) (by omega)
      rw [get_of_completes hC b4.code.length (by omega) (by omega)
        (fun k hk => n6 k ((a69.2 k).1 ((a1011.2 k).1 hk))), a1011.1, e10]
    · have : Completes C ctx b6.code.length b7.code.length b7 := by
        apply (hC.mono (by omega) (by omega)).of_agree
        exact (g79.agree _).trans (a911 _ _ (Or.inl (by omega)) (by omega))
      have := leave_of_completes i6 _ _ _ this
      rw [l6] at this
      exact this
    · have := k9.codes C ctx ?_
      · rw [ev8, m8] at this; exact this
      · apply (hC.mono (by show _ ≤ b7.code.length; omega) (by omega)).of_agree
        exact a911 _ _ (Or.inl (by show _ < b7.code.length; omega)) (Nat.le_refl _)
    · have := leave_of_completes i10 _ _ _ (hC.mono (lo' := b10.code.length) (by omega) (Nat.le_refl _))
      rw [l10] at this
      exact this

end Flow
end SPVM
