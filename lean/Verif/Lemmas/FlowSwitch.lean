import Verif.Lemmas.FlowLoop
import Verif.Lemmas.FlowSort
/-!
# The builder on switch statements
-/
namespace SPVM
namespace Flow

/-- The walk over the ops of a case list. -/
def CaseWalks (cs : Stmt) (lp : Bool) : Prop :=
  ∀ (b : Bld) (si : SwitchInfo) (rest : List SwitchInfo), b.switches = si :: rest →
    cs.evalFlat (decide (b.evals ≠ 0)) = true → Inv b → cs.caseValues.Nodup → (∀ n ∈ cs.caseValues, n ∈ si.cases.map (·.1)) →
    ∃ b' si', Node.walkAll cs.cases b = some b' ∧ b'.switches = si' :: rest ∧ si'.at_ = si.at_ ∧
      si'.cases.map (·.1) = si.cases.map (·.1) ∧
      (∀ n t, n ∉ cs.caseValues → (n, t) ∈ si.cases → (n, t) ∈ si'.cases) ∧
      Walked b.mortal cs.count
        (fun C ctx x y => CaseCode C cs (decide (b.evals ≠ 0)) ctx b.mortal x y si'.cases si'.dflt) lp true b
        { b' with switches := b.switches }

/-- The builder behind `CASE`. -/
def SwitchInfo.put (si : SwitchInfo) (n : Int) (t : Nat) : SwitchInfo :=
  { si with cases := si.cases.map (fun c => if c.1 = n then (c.1, t) else c) }

theorem put_keys (si : SwitchInfo) (n : Int) (t : Nat) : (si.put n t).cases.map (·.1) = si.cases.map (·.1) := by
  simp only [SwitchInfo.put, List.map_map]
  apply List.map_congr_left
  intro c _
  simp only [Function.comp_def]
  split <;> rfl

theorem put_mem (si : SwitchInfo) (n : Int) (t : Nat) (h : n ∈ si.cases.map (·.1)) : (n, t) ∈ (si.put n t).cases := by
  simp only [SwitchInfo.put, List.mem_map]
  obtain ⟨c, hc, e⟩ := List.mem_map.1 h
  exact ⟨c, hc, by simp [e]⟩

theorem put_other (si : SwitchInfo) (n : Int) (t : Nat) (n' : Int) (t' : Nat) (hn : n' ≠ n) (h : (n', t') ∈ si.cases) :
    (n', t') ∈ (si.put n t).cases := by
  simp only [SwitchInfo.put, List.mem_map]
  exact ⟨(n', t'), h, by simp [hn]⟩

theorem Inv.of_switches {b : Bld} (h : Inv b) (l : List SwitchInfo) : Inv { b with switches := l } := ⟨h.pos, h.lt, h.disj, h.noEval⟩

theorem caseWalks_fall (n : Int) (rest : Stmt) (lp : Bool) (hr : CaseWalks rest lp) : CaseWalks (.caseFall n rest) lp := by
  intro b si rs hsw hf hi hnd hkeys
  simp only [Stmt.evalFlat] at hf
  simp only [Stmt.caseValues, List.nodup_cons] at hnd
  simp only [Stmt.caseValues, List.mem_cons, forall_eq_or_imp] at hkeys
  let b1 : Bld := { b with switches := si.put n b.code.length :: rs }
  obtain ⟨b', si', w, hs', hat, hk, hm, k⟩ := hr b1 (si.put n b.code.length) rs rfl hf (hi.of_switches _) hnd.2
    (by rw [put_keys]; exact hkeys.2)
  refine ⟨b', si', ?_, hs', hat, hk.trans (put_keys _ _ _), ?_, ?_⟩
  · have : (Node.mk (.case_ n) []).walk b = some b1 := by
      simp only [Node.walk, Bld.pre, hsw, walkAll_nil, Bld.post]
      rfl
    rw [Stmt.cases, walkAll_cons _ _ _ _ this, w]
  · intro n' t' h1 h2
    simp only [Stmt.caseValues, List.mem_cons, not_or] at h1
    exact hm n' t' h1.2 (put_other _ _ _ _ _ h1.1 h2)
  · refine ⟨k.inv.of_switches _, ⟨k.grows.code, k.grows.holes⟩,
      ⟨k.same.1, k.same.2, k.same.3, k.same.4, k.same.5, k.same.6, k.same.7, k.same.8⟩, rfl, k.mortal, k.decls, k.noNext, k.noLast, k.noBrk, ?_⟩
    intro C ctx hC
    simp only [CaseCode]
    exact ⟨hm n b.code.length hnd.1 (put_mem _ _ _ hkeys.1), k.codes C ctx hC⟩

theorem withBreak_tree (s : Stmt) : s.withBreak.tree = if s.endsWithBreak = true then s.tree else .mk .group [s.tree, .mk .brk []] := by
  unfold Stmt.withBreak
  split
  · rfl
  · rw [Stmt.tree, Stmt.tree]

theorem walks_withBreak (s : Stmt) (lp : Bool) (hs : Walks s lp true) : Walks s.withBreak lp true := by
  unfold Stmt.withBreak
  split
  · exact hs
  · exact walks_seq s .brk lp true hs (walks_brk lp)

theorem withBreak_codes (C : List Op) (s : Stmt) (ev : Bool) (ctx : Hole → Nat) (d a b : Nat) (h : Codes C s.withBreak ev ctx d a b) :
    ∃ m, Codes C s ev ctx d a m ∧ (if s.endsWithBreak = true then b = m else C[m]? = some (.goto_ (ctx .brk)) ∧ b = m + 1) := by
  unfold Stmt.withBreak at h
  split at h
  · rename_i e
    exact ⟨b, h, by rw [if_pos e]⟩
  · rename_i e
    simp only [Codes] at h
    obtain ⟨m, h1, h2⟩ := h
    exact ⟨m, h1, by rw [if_neg e]; exact h2⟩

theorem withBreak_count (s : Stmt) : s.withBreak.count = s.count := by
  unfold Stmt.withBreak; split
  · rfl
  · rfl

theorem withBreak_flat (s : Stmt) (ev : Bool) : s.withBreak.evalFlat ev = s.evalFlat ev := by
  unfold Stmt.withBreak; split
  · rfl
  · simp [Stmt.evalFlat]

theorem caseWalks_run (n : Int) (body rest : Stmt) (lp : Bool) (hb : Walks body lp true) (db : body.tree.declares = body.declares)
    (hr : CaseWalks rest lp) : CaseWalks (.caseRun n body rest) lp := by
  intro b si rs hsw hf hi hnd hkeys
  simp only [Stmt.evalFlat, Bool.and_eq_true] at hf
  simp only [Stmt.caseValues, List.nodup_cons] at hnd
  simp only [Stmt.caseValues, List.mem_cons, forall_eq_or_imp] at hkeys
  let b1 : Bld := { b with switches := si.put n b.code.length :: rs }
  have i1 : Inv b1 := hi.of_switches _
  -- the block of the case
  obtain ⟨b2, w2, k2⟩ := walks_withBreak body lp hb { b1 with blockTop := b1.mortal :: b1.blockTop }
    (by rw [withBreak_flat]; exact hf.1) ⟨i1.pos, i1.lt, i1.disj, i1.noEval⟩
  have hd : Node.declaresAny [body.withBreak.tree] = body.declares := by
    rw [withBreak_tree]
    split <;> simp [Node.declaresAny, Node.declares, db]
  obtain ⟨b3, w3, k3⟩ := walk_block [body.withBreak.tree] body.declares hd _ _ _ lp true b1 b2 (by rw [walkAll_one]; exact w2) k2
    (Stmt.le_after _ _)
  have hs3 : b3.switches = si.put n b.code.length :: rs := k3.switches
  have ev3 : b3.evals = b.evals := k3.same.evals
  have m3 : b3.mortal = b.mortal := k3.mortal
  obtain ⟨b', si', w, hs', hat, hk, hm, k⟩ := hr b3 (si.put n b.code.length) rs hs3 (by rw [ev3]; exact hf.2) k3.inv hnd.2
    (by rw [put_keys]; exact hkeys.2)
  refine ⟨b', si', ?_, hs', hat, hk.trans (put_keys _ _ _), ?_, ?_⟩
  · have : (Node.mk (.case_ n) [.mk (.block .normal false) [body.withBreak.tree]]).walk b = some b3 := by
      have hpre : b.pre (.case_ n) = some b1 := by simp only [Bld.pre, hsw]; rfl
      rw [Node.walk]
      simp only [hpre, walkAll_one, w3, Bld.post]
    rw [Stmt.cases, ← withBreak_tree, walkAll_cons _ _ _ _ this, w]
  · intro n' t' h1 h2
    simp only [Stmt.caseValues, List.mem_cons, not_or] at h1
    exact hm n' t' h1.2 (put_other _ _ _ _ _ h1.1 h2)
  · have g1 : Grows b b3 := ⟨k3.grows.code, k3.grows.holes⟩
    have g2 : Grows b3 { b' with switches := b3.switches } := k.grows
    have g := g1.trans g2
    refine ⟨k.inv.of_switches _, ⟨g.code, g.holes⟩, ?_, rfl, k.mortal.trans m3, ?_, ?_, ?_, ?_, ?_⟩
    · have s1 : Same b1 b3 := k3.same
      have s2 := k.same
      exact ⟨s2.1.trans s1.1, s2.2.trans s1.2, s2.3.trans s1.3, s2.4.trans s1.4, s2.5.trans s1.5, s2.6.trans s1.6, s2.7.trans s1.7,
        s2.8.trans s1.8⟩
    · have e1 : b'.decls = b3.decls + rest.count := k.decls
      have e2 : b3.decls = b.decls + body.withBreak.count := k3.decls
      show b'.decls = _
      rw [e1, e2, withBreak_count]; simp only [Stmt.count]; omega
    · intro h; exact (k.noNext h).trans (k3.noNext h)
    · intro h; exact (k.noLast h).trans (k3.noLast h)
    · intro h; simp at h
    · intro C ctx hC
      have l1 := g1.le
      have l2 := g2.le
      simp only [CaseCode]
      refine ⟨hm n b.code.length hnd.1 (put_mem _ _ _ hkeys.1), ?_⟩
      obtain ⟨x, hx, hleave⟩ := k3.codes C ctx (by
        apply (hC.mono (lo' := b.code.length) (hi' := b3.code.length) (Nat.le_refl _) l2).of_agree
        exact g2.agree _)
      obtain ⟨m, hm1, hm2⟩ := withBreak_codes _ _ _ _ _ _ _ hx
      refine ⟨m, x, b3.code.length, hm1, hm2, hleave, ?_⟩
      have := k.codes C ctx (hC.mono l1 (Nat.le_refl _))
      rw [ev3, m3] at this
      exact this

theorem caseWalks_dflt (body : Stmt) (lp : Bool) (hb : Walks body lp true) (db : body.tree.declares = body.declares) :
    CaseWalks (.dflt body) lp := by
  intro b si rs hsw hf hi _ _
  simp only [Stmt.evalFlat] at hf
  let b1 : Bld := { b with switches := { si with dflt := b.code.length } :: rs }
  have i1 : Inv b1 := hi.of_switches _
  obtain ⟨b2, w2, k2⟩ := hb { b1 with blockTop := b1.mortal :: b1.blockTop } hf ⟨i1.pos, i1.lt, i1.disj, i1.noEval⟩
  obtain ⟨b3, w3, k3⟩ := walk_block [body.tree] body.declares (by simp [Node.declaresAny, db]) _ _ _ lp true b1 b2
    (by rw [walkAll_one]; exact w2) k2 (Stmt.le_after _ _)
  refine ⟨b3, { si with dflt := b.code.length }, ?_, k3.switches, rfl, rfl, fun _ _ _ h => h, ?_⟩
  · have hpre : b.pre .default_ = some b1 := by simp only [Bld.pre, hsw]; rfl
    rw [Stmt.cases, walkAll_one]
    rw [Node.walk]
    simp only [hpre, walkAll_one, w3, Bld.post]
  · refine ⟨k3.inv.of_switches _, ⟨k3.grows.code, k3.grows.holes⟩,
      ⟨k3.same.1, k3.same.2, k3.same.3, k3.same.4, k3.same.5, k3.same.6, k3.same.7, k3.same.8⟩, rfl, k3.mortal, k3.decls, k3.noNext, k3.noLast,
      k3.noBrk, ?_⟩
    intro C ctx hC
    simp only [CaseCode]
    exact ⟨trivial, k3.codes C ctx hC⟩

theorem length_writeCases (code : List Op) (i : Nat) (cs : List (Int × Nat)) : (writeCases code i cs).length = code.length := by
  induction cs generalizing code i with
  | nil => rfl
  | cons c cs ih => simp only [writeCases, ih, List.length_set]

theorem get_writeCases_out (code : List Op) (i : Nat) (cs : List (Int × Nat)) (j : Nat) (h : j < i ∨ i + cs.length ≤ j) :
    (writeCases code i cs)[j]? = code[j]? := by
  induction cs generalizing code i with
  | nil => rfl
  | cons c cs ih =>
    simp only [List.length_cons] at h
    simp only [writeCases]
    rw [ih _ _ (by omega), List.getElem?_set, if_neg (by omega)]

theorem get_writeCases_in (code : List Op) (i : Nat) (cs : List (Int × Nat)) (j : Nat) (h : j < cs.length) (hl : i + cs.length ≤ code.length) :
    (writeCases code i cs)[i + j]? = some (.caseInfo cs[j].1 cs[j].2) := by
  induction cs generalizing code i j with
  | nil => simp at h
  | cons c cs ih =>
    simp only [List.length_cons] at h hl
    simp only [writeCases]
    cases j with
    | zero =>
      rw [get_writeCases_out _ _ _ _ (by omega), List.getElem?_set]
      simp
      omega
    | succ j =>
      have := ih (code.set i (.caseInfo c.1 c.2)) (i + 1) j (by omega) (by simp; omega)
      rw [show i + (j + 1) = i + 1 + j by omega, this]
      simp

/-- The change of the lookup operation code, spvm_opcode_builder.c 567-572. -/
def fixLookup (d n : Nat) : Op → Op
  | .lookup v _ _ => .lookup v d n
  | op => op

theorem walks_switch (c : Stmt) (v : Nat) (cs : Stmt) (lp sw : Bool) (hc : Walks c false false) (hcs : CaseWalks cs lp)
    (hd : doubleCases (sortCases cs.caseValues) = false) (dcs : Node.declaresAny cs.cases = cs.declares) :
    Walks (.switch c v cs) lp sw := by
  intro b hf hi
  simp only [Stmt.evalFlat, Bool.and_eq_true] at hf
  obtain ⟨fc, fcs⟩ := hf
  let vals := sortCases cs.caseValues
  let si0 : SwitchInfo := ⟨0, 0, vals.map (fun n => (n, 0))⟩
  let b0 : Bld := { b with switches := si0 :: b.switches }
  obtain ⟨b1, w1, k1⟩ := hc b0 fc (hi.of_switches _)
  have ev1 : b1.evals = b.evals := k1.same.evals
  have m1 : b1.mortal = c.after b.mortal := k1.mortal
  have s1 : b1.switches = si0 :: b.switches := k1.switches
  -- the lookup
  let infos : List Op := vals.map (fun _ => Op.caseInfo 0 0)
  let si2 : SwitchInfo := { si0 with at_ := b1.code.length, dflt := b1.code.length + 1 + vals.length + 1 }
  let b2 : Bld := { b1 with code := b1.code ++ [.lookup v 0 0] ++ infos, switches := si2 :: b.switches }
  have l2 : b2.code.length = b1.code.length + 1 + vals.length := by simp [b2, infos]; omega
  have hw2 : (Node.mk (.switchCondition v) [c.tree]).walk b0 = some b2 := by
    simp only [Node.walk, Bld.pre, walkAll_one, w1, Bld.post, s1]
    simp [b2, si2, si0, infos, Bld.emit, Function.comp_def]
    omega
  have g12 : Grows b1 b2 := ⟨⟨.lookup v 0 0 :: infos, by simp [b2]⟩, fun _ => ⟨[], by simp [b2]⟩⟩
  have i2 : Inv b2 := by
    refine ⟨by omega, fun k j hj => ?_, k1.inv.disj, k1.inv.noEval⟩
    have := k1.inv.lt k j hj
    omega
  -- the cases
  let b3 : Bld := { b2 with breakBase := (b2.holes .brk).length :: b2.breakBase, blockTop := b2.mortal :: b2.blockTop }
  have i3 : Inv b3 := ⟨i2.pos, i2.lt, i2.disj, i2.noEval⟩
  have ev3 : b3.evals = b.evals := ev1
  have m3 : b3.mortal = c.after b.mortal := m1
  have hkeys2 : si2.cases.map (·.1) = vals := by simp [si2, si0, Function.comp_def]
  obtain ⟨b4, si4, w4, s4, at4, keys4, _, k4⟩ := hcs b3 si2 b.switches rfl (by rw [ev3]; exact fcs) i3 (nodup_of_no_double _ hd)
    (by intro n hn; rw [hkeys2]; exact (sortCases_perm cs.caseValues).mem_iff.2 hn)
  have hkeys4 : si4.cases.map (·.1) = vals := keys4.trans hkeys2
  have len4 : si4.cases.length = vals.length := by rw [← hkeys4]; simp
  have i4 : Inv b4 := ⟨k4.inv.pos, k4.inv.lt, k4.inv.disj, k4.inv.noEval⟩
  have g34 : Grows b3 b4 := ⟨k4.grows.code, k4.grows.holes⟩
  obtain ⟨N, hN, hNlo⟩ := g34.holes .brk
  -- the end of the block
  let b4' : Bld := { b4 with breakBase := b2.breakBase }
  have i4' : Inv b4' := ⟨i4.pos, i4.lt, i4.disj, i4.noEval⟩
  let b5 : Bld := b4'.resolve .brk (b2.holes .brk).length
  have hN' : b4'.holes .brk = N ++ b2.holes .brk := hN
  have c5 : b4.closeBlock .switch = some b5 := by
    have h : b4.breakBase = (b2.holes .brk).length :: b2.breakBase := k4.same.breakBase
    simp only [Bld.closeBlock, h]
    rfl
  have i5 : Inv b5 := inv_resolve i4' .brk N _ hN'
  have l5 : b5.code.length = b4.code.length := resolve_length _ .brk N _ hN'
  have h5 : ∀ k, b5.holes k = if k = .brk then b2.holes .brk else b4.holes k := resolve_holes _ .brk N _ hN'
  have g35 : Grows b3 b5 := grows_resolve (a := b3) (b := b4') ⟨g34.code, g34.holes⟩ .brk N hN hNlo
  let b6 : Bld := b5.exit cs.declares (c.after b.mortal) b2.blockTop
  have f6 := exit_fields b5 cs.declares (c.after b.mortal) b2.blockTop
  have i6 : Inv b6 := inv_exit i5 _ _ _
  have g56 : Grows b5 b6 := grows_exit _ _ _ _
  have hB : Node.declares (.mk (.block .switch false) cs.cases) = cs.declares := by simp [Node.declares, dcs]
  have hw6 : (Node.mk (.block .switch false) cs.cases).walk b2 = some b6 := by
    have hpre : b2.pre (.block .switch false) = some b3 := rfl
    rw [Node.walk]
    simp only [hpre, w4, Bld.post, hB]
    rw [c5]
    show b5.leave (cs.declares && true) = _
    rw [Bool.and_true]
    apply leave_eq
    · have : b4.blockTop = b3.blockTop := k4.same.blockTop
      show b4.blockTop = _
      rw [this]; show b2.mortal :: _ = _; rw [show b2.mortal = c.after b.mortal from m1]
    · show _ ≤ b4.mortal
      rw [show b4.mortal = c.after b.mortal from k4.mortal.trans m3]; exact Nat.le_refl _
  have s6 : b6.switches = si4 :: b.switches := f6.2.2.2.2.2.2.2.1.trans s4
  -- the table
  let code7 := writeCases (b6.code.modify b1.code.length (fixLookup si4.dflt si4.cases.length)) (b1.code.length + 1) si4.cases
  let b7 : Bld := { b6 with code := code7, switches := b.switches }
  have hw7 : b6.post (Node.declares (.mk (.switch vals) [.mk .group [.mk (.switchCondition v) [c.tree]], .mk (.block .switch false) cs.cases]))
      (.switch vals) = some b7 := by
    simp only [Bld.post, s6]
    have : si4.at_ = b1.code.length := at4
    rw [this]
    rfl
  have l7 : b7.code.length = b6.code.length := by
    show (writeCases _ _ _).length = _
    rw [length_writeCases]; simp
  have le1 : b.code.length ≤ b1.code.length := k1.grows.le
  have le4 : b2.code.length ≤ b4.code.length := g34.le
  have le6 : b4.code.length ≤ b6.code.length := by rw [← l5]; exact g56.le
  have out7 : ∀ j, j < b1.code.length ∨ b2.code.length ≤ j → b7.code[j]? = b6.code[j]? := by
    intro j hj
    show (writeCases _ _ _)[j]? = _
    rw [get_writeCases_out _ _ _ _ (by omega), List.getElem?_modify]
    have : ¬ b1.code.length = j := by omega
    simp [this]
  have a67 : ∀ lo hi, b2.code.length ≤ lo ∨ hi ≤ b1.code.length → Agree lo hi b6 b7 := by
    intro lo hi h j h1 h2
    exact ⟨out7 j (by omega), fun _ => Iff.rfl⟩
  have g26 : Grows b2 b6 := by
    have := g35.trans g56
    exact ⟨this.code, this.holes⟩
  have g06 : Grows b b6 := by
    have := k1.grows.trans (g12.trans g26)
    exact ⟨this.code, this.holes⟩
  have g07 : Grows b b7 := by
    refine ⟨?_, g06.holes⟩
    apply prefix_of_get
    · rw [l7]; exact g06.le
    · intro j hj
      rw [out7 j (by omega)]
      exact ((g06.agree 0) j (Nat.zero_le _) hj).1
  have i7 : Inv b7 := ⟨by rw [l7]; exact i6.pos, fun k j hj => by rw [l7]; exact i6.lt k j hj, i6.disj, i6.noEval⟩
  refine ⟨b7, ?_, ?_⟩
  · rw [Stmt.tree, Node.walk]
    have hpre : b.pre (.switch (sortCases cs.caseValues)) = some b0 := rfl
    have hg : (Node.mk .group [Node.mk (.switchCondition v) [c.tree]]).walk b0 = some b2 := by rw [walk_group, walkAll_one, hw2]
    simp only [hpre, walkAll_cons _ _ _ _ hg, walkAll_one, hw6]
    exact hw7
  · refine ⟨i7, g07, ?_, rfl, f6.2.2.2.2.2.2.2.2.2.1, ?_, ?_, ?_, ?_, ?_⟩
    · refine ⟨?_, ?_, ?_, ?_, ?_, ?_, ?_, ?_⟩
      · exact (f6.1.trans k4.same.nextBase).trans k1.same.nextBase
      · exact (f6.2.1.trans k4.same.lastBase).trans k1.same.lastBase
      · exact f6.2.2.1.trans k1.same.breakBase
      · exact (f6.2.2.2.1.trans k4.same.ifEnd).trans k1.same.ifEnd
      · exact (f6.2.2.2.2.1.trans k4.same.ifCond).trans k1.same.ifCond
      · exact (f6.2.2.2.2.2.1.trans k4.same.loopGoto).trans k1.same.loopGoto
      · exact (f6.2.2.2.2.2.2.1.trans k4.same.evals).trans k1.same.evals
      · exact f6.2.2.2.2.2.2.2.2.1.trans k1.same.blockTop
    · have e4 : b4.decls = b3.decls + cs.count := k4.decls
      have e1 : b1.decls = b.decls + c.count := k1.decls
      have e6 : b6.decls = b4.decls := f6.2.2.2.2.2.2.2.2.2.2
      show b6.decls = _
      rw [e6, e4]
      show b1.decls + _ = _
      rw [e1]; simp only [Stmt.count]; omega
    · intro h
      show (b5.exit cs.declares (c.after b.mortal) b2.blockTop).holes .next = _
      rw [exit_holes, h5]
      exact (k4.noNext h).trans (k1.noNext rfl)
    · intro h
      show (b5.exit cs.declares (c.after b.mortal) b2.blockTop).holes .last = _
      rw [exit_holes, h5]
      exact (k4.noLast h).trans (k1.noLast rfl)
    · intro h
      show (b5.exit cs.declares (c.after b.mortal) b2.blockTop).holes .brk = _
      rw [exit_holes, h5]
      exact k1.noBrk rfl
    · intro C ctx hC
      have hC6 : ∀ lo hi, b.code.length ≤ lo → hi ≤ b6.code.length → b2.code.length ≤ lo ∨ hi ≤ b1.code.length → Completes C ctx lo hi b6 :=
        fun lo hi h1 h2 h3 => (hC.mono h1 (by omega)).of_agree (a67 lo hi h3)
      have nh : ∀ j, b1.code.length ≤ j → j < b2.code.length → ∀ k, j ∉ b7.holes k := by
        intro j h1 h2 k hk
        obtain ⟨M, hM, hMlo⟩ := g26.holes k
        have hk' : j ∈ b6.holes k := hk
        rw [hM] at hk'
        rcases List.mem_append.1 hk' with h | h
        · have := hMlo j h; omega
        · have := k1.inv.lt k j h; omega
      simp only [Codes]
      refine ⟨b1.code.length, si4.dflt, si4.cases, b4.code.length, ?_, ?_, ?_, hkeys4, ?_, ?_⟩
      · apply k1.codes C ctx
        apply (hC6 b.code.length b1.code.length (Nat.le_refl _) (by omega) (Or.inr (Nat.le_refl _))).of_agree
        exact (g12.trans g26).agree _
      · rw [get_of_completes hC b1.code.length le1 (by omega) (nh _ (Nat.le_refl _) (by omega))]
        show (writeCases _ _ _)[b1.code.length]? = _
        rw [get_writeCases_out _ _ _ _ (by omega), List.getElem?_modify, ((g26.agree 0) _ (by omega) (by omega)).1]
        have : b2.code[b1.code.length]? = some (.lookup v 0 0) := by
          show (b1.code ++ [.lookup v 0 0] ++ infos)[b1.code.length]? = _
          rw [List.append_assoc, List.getElem?_append_right (Nat.le_refl _)]
          simp
        rw [this]
        simp [fixLookup]
      · intro j hj
        rw [get_of_completes hC _ (by omega) (by omega) (nh _ (by omega) (by omega))]
        apply get_writeCases_in
        simp only [List.length_modify]
        omega
      · have hC4 : Completes C (setTarget ctx .brk b4.code.length) b2.code.length b4.code.length b4 := by
          have h : Completes C ctx b2.code.length b4.code.length b5 := by
            apply (hC6 b2.code.length b4.code.length (by omega) le6 (Or.inl (Nat.le_refl _))).of_agree
            have := g56.agree b2.code.length
            rw [l5] at this
            exact this
          exact completes_resolve i4' .brk N _ hN' _ _ (fun j hj => i2.lt .brk j hj)
            (fun j hj hj' => by have : b2.code.length ≤ j := hNlo j hj; have := i2.lt .brk j hj'; omega) h
        have := k4.codes C _ hC4
        rw [ev3, m3, show b3.code.length = b1.code.length + 1 + si4.cases.length from by rw [len4]; exact l2] at this
        exact this
      · have := leave_of_completes (C := C) i5 cs.declares (c.after b.mortal) b2.blockTop
          (hC6 b5.code.length b6.code.length (by omega) (Nat.le_refl _) (Or.inl (by omega)))
        rw [l5] at this
        rw [l7]
        exact this

/-! ## All statements -/

theorem walks_both (s : Stmt) :
    (∀ lp sw el, s.ok lp sw el = true → Walks s lp sw) ∧ (∀ lp, s.okCases lp = true → CaseWalks s lp) := by
  induction s with
  | skip => exact ⟨fun lp sw _ _ => walks_skip lp sw, fun lp h => by simp [Stmt.okCases] at h⟩
  | act k => exact ⟨fun lp sw _ _ => walks_act k lp sw, fun lp h => by simp [Stmt.okCases] at h⟩
  | call k => exact ⟨fun lp sw _ _ => walks_call k lp sw, fun lp h => by simp [Stmt.okCases] at h⟩
  | decl v => exact ⟨fun lp sw _ _ => walks_decl v lp sw, fun lp h => by simp [Stmt.okCases] at h⟩
  | ret k => exact ⟨fun lp sw _ _ => walks_ret k lp sw, fun lp h => by simp [Stmt.okCases] at h⟩
  | next =>
    refine ⟨fun lp sw el h => ?_, fun lp h => by simp [Stmt.okCases] at h⟩
    simp only [Stmt.ok] at h; subst h; exact walks_next sw
  | last =>
    refine ⟨fun lp sw el h => ?_, fun lp h => by simp [Stmt.okCases] at h⟩
    simp only [Stmt.ok] at h; subst h; exact walks_last sw
  | brk =>
    refine ⟨fun lp sw el h => ?_, fun lp h => by simp [Stmt.okCases] at h⟩
    simp only [Stmt.ok] at h; subst h; exact walks_brk lp
  | seq s t ih1 ih2 =>
    refine ⟨fun lp sw el h => ?_, fun lp h => by simp [Stmt.okCases] at h⟩
    simp only [Stmt.ok, Bool.and_eq_true] at h
    exact walks_seq s t lp sw (ih1.1 _ _ _ h.1) (ih2.1 _ _ _ h.2)
  | choose c v t e ihc iht ihe =>
    refine ⟨fun lp sw el h => ?_, fun lp h => by simp [Stmt.okCases] at h⟩
    simp only [Stmt.ok, Bool.and_eq_true] at h
    have h2 := Stmt.ok_of_operator t lp sw false h.1.2
    have h3 := Stmt.ok_of_operator e lp sw false h.2
    exact walks_choose c v t e lp sw (ihc.1 _ _ _ (Stmt.ok_of_operator c false false false h.1.1)) (iht.1 _ _ _ h2) (ihe.1 _ _ _ h3)
      ((declares_both t).1 _ _ _ h2) ((declares_both e).1 _ _ _ h3)
  | block s ih =>
    refine ⟨fun lp sw el h => ?_, fun lp h => by simp [Stmt.okCases] at h⟩
    simp only [Stmt.ok] at h
    exact walks_block s lp sw (ih.1 _ _ _ h) ((declares_both s).1 _ _ _ h)
  | eval s ih =>
    refine ⟨fun lp sw el h => ?_, fun lp h => by simp [Stmt.okCases] at h⟩
    simp only [Stmt.ok] at h
    exact walks_eval s lp sw (ih.1 _ _ _ h) ((declares_both s).1 _ _ _ h)
  | ifs c v t e ihc iht ihe =>
    refine ⟨fun lp sw el h => ?_, fun lp h => by simp [Stmt.okCases] at h⟩
    simp only [Stmt.ok, Bool.and_eq_true] at h
    have h1 := Stmt.ok_of_operator c false false false h.1.1
    exact walks_ifs c v t e lp sw (ihc.1 _ _ _ h1) (iht.1 _ _ _ h.1.2) (ihe.1 _ _ _ h.2)
      ((declares_both c).1 _ _ _ h1) ((declares_both t).1 _ _ _ h.1.2) ((declares_both e).1 _ _ _ h.2)
  | elif c v t e ihc iht ihe =>
    refine ⟨fun lp sw el h => ?_, fun lp h => by simp [Stmt.okCases] at h⟩
    simp only [Stmt.ok, Bool.and_eq_true] at h
    have h1 := Stmt.ok_of_operator c false false false h.1.1.2
    exact walks_elif c v t e lp sw (ihc.1 _ _ _ h1) (iht.1 _ _ _ h.1.2) (ihe.1 _ _ _ h.2)
      ((declares_both t).1 _ _ _ h.1.2) ((declares_both e).1 _ _ _ h.2)
  | loop i c v n b ihi ihc ihn ihb =>
    refine ⟨fun lp sw el h => ?_, fun lp h => by simp [Stmt.okCases] at h⟩
    simp only [Stmt.ok, Bool.and_eq_true] at h
    have h1 := Stmt.ok_of_operator i false false false h.1.1.1
    have h2 := Stmt.ok_of_operator c false false false h.1.1.2
    have h3 := Stmt.ok_of_operator n false false false h.1.2
    exact walks_loop i c v n b lp sw (ihi.1 _ _ _ h1) (ihc.1 _ _ _ h2) (ihn.1 _ _ _ h3) (ihb.1 _ _ _ h.2)
      ((declares_both i).1 _ _ _ h1) ((declares_both c).1 _ _ _ h2) ((declares_both n).1 _ _ _ h3) ((declares_both b).1 _ _ _ h.2)
  | switch c v cs ihc ihs =>
    refine ⟨fun lp sw el h => ?_, fun lp h => by simp [Stmt.okCases] at h⟩
    simp only [Stmt.ok, Bool.and_eq_true, Bool.not_eq_true'] at h
    exact walks_switch c v cs lp sw (ihc.1 _ _ _ (Stmt.ok_of_operator c false false false h.1.1)) (ihs.2 _ h.2) h.1.2
      ((declares_both cs).2 _ h.2)
  | caseFall n rest ih =>
    refine ⟨fun lp sw el h => by simp [Stmt.ok] at h, fun lp h => ?_⟩
    simp only [Stmt.okCases] at h
    exact caseWalks_fall n rest lp (ih.2 _ h)
  | caseRun n body rest ihb ihr =>
    refine ⟨fun lp sw el h => by simp [Stmt.ok] at h, fun lp h => ?_⟩
    simp only [Stmt.okCases, Bool.and_eq_true] at h
    exact caseWalks_run n body rest lp (ihb.1 _ _ _ h.1) ((declares_both body).1 _ _ _ h.1) (ihr.2 _ h.2)
  | dflt body ih =>
    refine ⟨fun lp sw el h => by simp [Stmt.ok] at h, fun lp h => ?_⟩
    simp only [Stmt.okCases] at h
    exact caseWalks_dflt body lp (ih.1 _ _ _ h) ((declares_both body).1 _ _ _ h)

end Flow
end SPVM
