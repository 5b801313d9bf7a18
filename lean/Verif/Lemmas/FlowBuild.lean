import Verif.Model.Flow
/-!
# The shape of the operation codes the builder emits
-/
namespace SPVM
namespace Flow

/-! ## Counts on statements -/

/-- The number of declarations of object variables in a statement. -/
def Stmt.count : Stmt → Nat
  | .decl _ => 1
  | .seq s t => s.count + t.count
  | .choose c _ t e => c.count + t.count + e.count
  | .ifs c _ t e => c.count + t.count + e.count
  | .elif c _ t e => c.count + t.count + e.count
  | .block s => s.count
  | .eval s => s.count
  | .loop init c _ inc body => init.count + body.count + inc.count + c.count
  | .switch c _ cs => c.count + cs.count
  | .caseFall _ rest => rest.count
  | .caseRun _ body rest => body.count + rest.count
  | .dflt body => body.count
  | _ => 0

/-- The length of the builder's mortal stack behind a statement. -/
def Stmt.after (d : Nat) : Stmt → Nat
  | .decl _ => d + 1
  | .seq s t => t.after (s.after d)
  | .choose c _ _ _ => c.after d
  | .elif c _ _ _ => c.after d
  | .switch c _ _ => c.after d
  | _ => d

theorem Stmt.le_after (s : Stmt) (d : Nat) : d ≤ s.after d := by
  induction s generalizing d <;> simp only [Stmt.after] <;> try omega
  case seq s t ih1 ih2 => exact Nat.le_trans (ih1 d) (ih2 _)
  case choose ih _ _ => exact ih d
  case elif ih _ _ => exact ih d
  case switch ih _ => exact ih d

theorem Stmt.after_le (s : Stmt) (d : Nat) : s.after d ≤ d + s.count := by
  induction s generalizing d <;> simp only [Stmt.after, Stmt.count] <;> try omega
  case seq s t ih1 ih2 => have := ih1 d; have := ih2 (s.after d); omega
  case choose ih _ _ => have := ih d; omega
  case elif ih _ _ => have := ih d; omega
  case switch ih _ => have := ih d; omega

theorem Stmt.after_eq (s : Stmt) (d : Nat) (h : s.declares = false) : s.after d = d := by
  induction s generalizing d <;> simp_all [Stmt.after, Stmt.declares]

theorem Stmt.ok_of_operator (s : Stmt) (lp sw el : Bool) (h : s.isOperator = true) : s.ok lp sw el = true := by
  induction s generalizing el <;> simp_all [Stmt.isOperator, Stmt.ok]

theorem Stmt.noEval_of_operator (s : Stmt) (ev : Bool) (h : s.isOperator = true) : s.evalFlat ev = true := by
  induction s <;> simp_all [Stmt.isOperator, Stmt.evalFlat]

theorem declares_both (s : Stmt) :
    (∀ lp sw el, s.ok lp sw el = true → s.tree.declares = s.declares) ∧
    (∀ lp, s.okCases lp = true → Node.declaresAny s.cases = s.declares) := by
  induction s with
  | skip | act | call | decl | next | last | brk | ret =>
    exact ⟨fun _ _ _ _ => by simp [Stmt.tree, Node.declares, Node.declaresAny, Stmt.declares],
      fun lp h => by simp [Stmt.okCases] at h⟩
  | seq s t ih1 ih2 =>
    refine ⟨fun lp sw el h => ?_, fun lp h => by simp [Stmt.okCases] at h⟩
    simp only [Stmt.ok, Bool.and_eq_true] at h
    simp [Stmt.tree, Node.declares, Node.declaresAny, Stmt.declares, ih1.1 _ _ _ h.1, ih2.1 _ _ _ h.2]
  | choose c v t e ihc iht ihe =>
    refine ⟨fun lp sw el h => ?_, fun lp h => by simp [Stmt.okCases] at h⟩
    simp only [Stmt.ok, Bool.and_eq_true] at h
    have h1 := Stmt.ok_of_operator c false false false h.1.1
    have h2 := Stmt.ok_of_operator t false false false h.1.2
    have h3 := Stmt.ok_of_operator e false false false h.2
    simp [Stmt.tree, Node.declares, Node.declaresAny, Stmt.declares, ihc.1 _ _ _ h1, iht.1 _ _ _ h2, ihe.1 _ _ _ h3,
      Bool.or_assoc]
  | block s ih =>
    refine ⟨fun lp sw el h => ?_, fun lp h => by simp [Stmt.okCases] at h⟩
    simp only [Stmt.ok] at h
    simp [Stmt.tree, Node.declares, Node.declaresAny, Stmt.declares, ih.1 _ _ _ h]
  | eval s ih =>
    refine ⟨fun lp sw el h => ?_, fun lp h => by simp [Stmt.okCases] at h⟩
    simp only [Stmt.ok] at h
    simp [Stmt.tree, Node.declares, Node.declaresAny, Stmt.declares, ih.1 _ _ _ h]
  | ifs c v t e ihc iht ihe =>
    refine ⟨fun lp sw el h => ?_, fun lp h => by simp [Stmt.okCases] at h⟩
    simp only [Stmt.ok, Bool.and_eq_true] at h
    have h1 := Stmt.ok_of_operator c false false false h.1.1
    simp [Stmt.tree, Node.declares, Node.declaresAny, Stmt.declares, ihc.1 _ _ _ h1, iht.1 _ _ _ h.1.2, ihe.1 _ _ _ h.2,
      Bool.or_assoc]
  | elif c v t e ihc iht ihe =>
    refine ⟨fun lp sw el h => ?_, fun lp h => by simp [Stmt.okCases] at h⟩
    simp only [Stmt.ok, Bool.and_eq_true] at h
    have h1 := Stmt.ok_of_operator c false false false h.1.1.2
    simp [Stmt.tree, Node.declares, Node.declaresAny, Stmt.declares, ihc.1 _ _ _ h1, iht.1 _ _ _ h.1.2, ihe.1 _ _ _ h.2,
      Bool.or_assoc]
  | loop i c v n b ihi ihc ihn ihb =>
    refine ⟨fun lp sw el h => ?_, fun lp h => by simp [Stmt.okCases] at h⟩
    simp only [Stmt.ok, Bool.and_eq_true] at h
    have h1 := Stmt.ok_of_operator i false false false h.1.1.1
    have h2 := Stmt.ok_of_operator c false false false h.1.1.2
    have h3 := Stmt.ok_of_operator n false false false h.1.2
    simp [Stmt.tree, Node.declares, Node.declaresAny, Stmt.declares, ihi.1 _ _ _ h1, ihc.1 _ _ _ h2, ihn.1 _ _ _ h3,
      ihb.1 _ _ _ h.2, Bool.or_assoc]
  | switch c v cs ihc ihs =>
    refine ⟨fun lp sw el h => ?_, fun lp h => by simp [Stmt.okCases] at h⟩
    simp only [Stmt.ok, Bool.and_eq_true] at h
    have h1 := Stmt.ok_of_operator c false false false h.1.1
    simp [Stmt.tree, Node.declares, Node.declaresAny, Stmt.declares, ihc.1 _ _ _ h1, ihs.2 _ h.2]
  | caseFall n rest ih =>
    refine ⟨fun lp sw el h => by simp [Stmt.ok] at h, fun lp h => ?_⟩
    simp only [Stmt.okCases] at h
    simp [Stmt.cases, Node.declares, Node.declaresAny, Stmt.declares, ih.2 _ h]
  | caseRun n body rest ihb ihr =>
    refine ⟨fun lp sw el h => by simp [Stmt.ok] at h, fun lp h => ?_⟩
    simp only [Stmt.okCases, Bool.and_eq_true] at h
    have : Node.declares (if body.endsWithBreak = true then body.tree else .mk .group [body.tree, .mk .brk []]) = body.declares := by
      split <;> simp [Node.declares, Node.declaresAny, ihb.1 _ _ _ h.1]
    simp [Stmt.cases, Node.declares, Node.declaresAny, Stmt.declares, this, ihr.2 _ h.2]
  | dflt body ih =>
    refine ⟨fun lp sw el h => by simp [Stmt.ok] at h, fun lp h => ?_⟩
    simp only [Stmt.okCases] at h
    simp [Stmt.cases, Node.declares, Node.declaresAny, Stmt.declares, ih.1 _ _ _ h]

/-! ## The shape of the code of a statement -/

/-- `LEAVE_SCOPE d` at `a` if needed; `b` is behind it. -/
def Leave (C : List Op) (need : Bool) (d a b : Nat) : Prop :=
  if need = true then C[a]? = some (.leaveScope d) ∧ b = a + 1 else b = a

/-- The shape of a conditional: condition, then part, else part. -/
def IfCode (C : List Op) (v d : Nat) (needT needE : Bool) (P Q R : Nat → Nat → Prop) (a b : Nat) : Prop :=
  ∃ m x y z, P a m ∧ C[m]? = some (.ifEq (x + 1) v) ∧ Q (m + 1) x ∧ C[x]? = some (.goto_ z) ∧ Leave C needT d (x + 1) y ∧
    R y z ∧ Leave C needE d z b

/-- The shape of a loop between `LOOP_INIT`'s init part and its end: the first `GOTO` is at `g`, the body ends at `x`, the
condition begins at `z` and ends at `w`. -/
structure LoopCode (C : List Op) (v d : Nat) (needB : Bool) (P Q R : Nat → Nat → Prop) (g x z w : Nat) : Prop where
  first : C[g]? = some (.goto_ z)
  body : P (g + 1) x
  rest : ∃ y, Leave C needB d x y ∧ Q y z
  cond : R z w
  again : C[w]? = some (.ifNe (g + 1) v)

/-- Replacing one target. -/
def setTarget (ctx : Hole → Nat) (h : Hole) (t : Nat) : Hole → Nat := fun h' => if h' = h then t else ctx h'

/-- The target an exception jumps to. -/
def excOp (ev : Bool) (ctx : Hole → Nat) (k : Nat) : Op :=
  if ev = true then .onExcEval (ctx .excEval) k else .onExcMethod (ctx .excMethod) k

mutual

/-- `Codes C s ev ctx d a b`: in `C`, the code of `s` lies at positions `a` to `b`; `ev` tells whether `s` is inside of an `eval`,
`ctx` the targets of the jumps that leave `s`, and `d` the length of the builder's mortal stack before `s`. -/
def Codes (C : List Op) : Stmt → Bool → (Hole → Nat) → Nat → Nat → Nat → Prop
  | .skip, _, _, _, a, b => b = a
  | .seq s t, ev, ctx, d, a, b => ∃ m, Codes C s ev ctx d a m ∧ Codes C t ev ctx (s.after d) m b
  | .act k, _, _, _, a, b => C[a]? = some (.act k) ∧ b = a + 1
  | .call k, ev, ctx, _, a, b => C[a]? = some (.call k) ∧ C[a + 1]? = some (excOp ev ctx k) ∧ b = a + 2
  | .decl v, _, _, _, a, b => C[a]? = some (.pushMortal v) ∧ b = a + 1
  | .choose c v t e, ev, ctx, d, a, b =>
    IfCode C v (c.after d) false false (fun x y => Codes C c ev ctx d x y) (fun x y => Codes C t ev ctx (c.after d) x y)
      (fun x y => Codes C e ev ctx (c.after d) x y) a b
  | .elif c v t e, ev, ctx, d, a, b =>
    IfCode C v (c.after d) t.declares e.declares (fun x y => Codes C c ev ctx d x y)
      (fun x y => Codes C t ev ctx (c.after d) x y) (fun x y => Codes C e ev ctx (c.after d) x y) a b
  | .ifs c v t e, ev, ctx, d, a, b =>
    ∃ m, IfCode C v (c.after d) t.declares e.declares (fun x y => Codes C c ev ctx d x y)
      (fun x y => Codes C t ev ctx (c.after d) x y) (fun x y => Codes C e ev ctx (c.after d) x y) a m ∧
      Leave C (c.declares || t.declares || e.declares) d m b
  | .block s, ev, ctx, d, a, b => ∃ m, Codes C s ev ctx d a m ∧ Leave C s.declares d m b
  | .loop i c v n body, ev, ctx, d, a, b =>
    ∃ g x z w, Codes C i ev (setTarget ctx .last (w + 1)) d a g ∧
      LoopCode C v (i.after d) body.declares
        (fun p q => Codes C body ev (setTarget (setTarget ctx .last (w + 1)) .next x) (i.after d) p q)
        (fun p q => Codes C n ev (setTarget ctx .last (w + 1)) (i.after d) p q)
        (fun p q => Codes C c ev (setTarget ctx .last (w + 1)) (n.after (i.after d)) p q) g x z w ∧
      Leave C (i.declares || body.declares || n.declares || c.declares) d (w + 1) b
  | .switch c v cs, ev, ctx, d, a, b =>
    ∃ m dft tab e, Codes C c ev ctx d a m ∧ C[m]? = some (.lookup v dft tab.length) ∧
      (∀ i, (h : i < tab.length) → C[m + 1 + i]? = some (.caseInfo tab[i].1 tab[i].2)) ∧
      tab.map (·.1) = sortCases cs.caseValues ∧
      CaseCode C cs ev (setTarget ctx .brk e) (c.after d) (m + 1 + tab.length) e tab dft ∧
      Leave C cs.declares (c.after d) e b
  | .caseFall _ _, _, _, _, _, _ => False
  | .caseRun _ _ _, _, _, _, _, _ => False
  | .dflt _, _, _, _, _, _ => False
  | .eval s, ev, ctx, d, a, b =>
    ev = false ∧ C[a]? = some .enterEval ∧
      ∃ m, Codes C s true (setTarget ctx .excEval m) d (a + 1) m ∧ Leave C s.declares d m b
  | .next, _, ctx, _, a, b => C[a]? = some (.goto_ (ctx .next)) ∧ b = a + 1
  | .last, _, ctx, _, a, b => C[a]? = some (.goto_ (ctx .last)) ∧ b = a + 1
  | .brk, _, ctx, _, a, b => C[a]? = some (.goto_ (ctx .brk)) ∧ b = a + 1
  | .ret k, _, ctx, _, a, b => C[a]? = some (.ret k (ctx .ret)) ∧ b = a + 1

/-- The code of a case list, with the table of the targets. -/
def CaseCode (C : List Op) : Stmt → Bool → (Hole → Nat) → Nat → Nat → Nat → List (Int × Nat) → Nat → Prop
  | .caseFall n rest, ev, ctx, d, a, b, tab, dft => (n, a) ∈ tab ∧ CaseCode C rest ev ctx d a b tab dft
  | .caseRun n body rest, ev, ctx, d, a, b, tab, dft =>
    (n, a) ∈ tab ∧ ∃ m x y, Codes C body ev ctx d a m ∧
      (if body.endsWithBreak = true then x = m else C[m]? = some (.goto_ (ctx .brk)) ∧ x = m + 1) ∧
      Leave C body.declares d x y ∧ CaseCode C rest ev ctx d y b tab dft
  | .dflt body, ev, ctx, d, a, b, _, dft => dft = a ∧ ∃ m, Codes C body ev ctx d a m ∧ Leave C body.declares d m b
  | _, _, _, _, _, _, _, _ => False

end

/-! ## States of the builder -/

/-- What holds in every state of the builder. -/
structure Inv (b : Bld) : Prop where
  pos : 0 < b.code.length
  lt : ∀ h i, i ∈ b.holes h → i < b.code.length
  disj : ∀ h h' i, i ∈ b.holes h → i ∈ b.holes h' → h = h'
  noEval : b.evals = 0 → b.holes .excEval = []

/-- The stacks that a statement leaves as they were. -/
structure Same (b b' : Bld) : Prop where
  nextBase : b'.nextBase = b.nextBase
  lastBase : b'.lastBase = b.lastBase
  breakBase : b'.breakBase = b.breakBase
  ifEnd : b'.ifEnd = b.ifEnd
  ifCond : b'.ifCond = b.ifCond
  loopGoto : b'.loopGoto = b.loopGoto
  evals : b'.evals = b.evals
  blockTop : b'.blockTop = b.blockTop

/-- Only new code and new jumps. -/
structure Grows (b b' : Bld) : Prop where
  code : ∃ l, b'.code = b.code ++ l
  holes : ∀ h, ∃ N, b'.holes h = N ++ b.holes h ∧ ∀ i ∈ N, b.code.length ≤ i

/-- The two states agree on positions `lo` to `hi`. -/
def Agree (lo hi : Nat) (b b' : Bld) : Prop :=
  ∀ i, lo ≤ i → i < hi → b'.code[i]? = b.code[i]? ∧ ∀ h, i ∈ b'.holes h ↔ i ∈ b.holes h

/-- `C` is the code between `lo` and `hi` with the open jumps filled in from `ctx`. -/
def Completes (C : List Op) (ctx : Hole → Nat) (lo hi : Nat) (b : Bld) : Prop :=
  ∀ i, lo ≤ i → i < hi →
    (∀ h, i ∈ b.holes h → C[i]? = (b.code[i]?).map (Op.aim (ctx h))) ∧ ((∀ h, i ∉ b.holes h) → C[i]? = b.code[i]?)

theorem Agree.refl (lo hi b) : Agree lo hi b b := fun _ _ _ => ⟨rfl, fun _ => Iff.rfl⟩

theorem Agree.trans {lo hi b c d} (h1 : Agree lo hi b c) (h2 : Agree lo hi c d) : Agree lo hi b d := by
  intro i hl hh
  exact ⟨(h2 i hl hh).1.trans (h1 i hl hh).1, fun h => ((h2 i hl hh).2 h).trans ((h1 i hl hh).2 h)⟩

theorem Agree.mono {lo hi lo' hi' b c} (h : Agree lo hi b c) (hl : lo ≤ lo') (hh : hi' ≤ hi) : Agree lo' hi' b c :=
  fun i h1 h2 => h i (by omega) (by omega)

theorem Completes.mono {C ctx lo hi lo' hi' b} (h : Completes C ctx lo hi b) (hl : lo ≤ lo') (hh : hi' ≤ hi) :
    Completes C ctx lo' hi' b :=
  fun i h1 h2 => h i (by omega) (by omega)

theorem Completes.of_agree {C ctx lo hi b b'} (h : Completes C ctx lo hi b') (ha : Agree lo hi b b') : Completes C ctx lo hi b := by
  intro i hl hh
  obtain ⟨e1, e2⟩ := ha i hl hh
  refine ⟨fun k hk => ?_, fun hn => ?_⟩
  · rw [← e1]; exact (h i hl hh).1 k ((e2 k).2 hk)
  · rw [← e1]; exact (h i hl hh).2 (fun k hk => hn k ((e2 k).1 hk))

theorem Grows.refl (b) : Grows b b := ⟨⟨[], by simp⟩, fun _ => ⟨[], by simp⟩⟩

theorem Grows.le {b c} (h : Grows b c) : b.code.length ≤ c.code.length := by
  obtain ⟨l, hl⟩ := h.code; rw [hl]; simp

theorem Grows.trans {b c d} (h1 : Grows b c) (h2 : Grows c d) : Grows b d := by
  refine ⟨?_, fun h => ?_⟩
  · obtain ⟨l, hl⟩ := h1.code; obtain ⟨m, hm⟩ := h2.code
    exact ⟨l ++ m, by rw [hm, hl, List.append_assoc]⟩
  · obtain ⟨N, hN, hN'⟩ := h1.holes h; obtain ⟨M, hM, hM'⟩ := h2.holes h
    refine ⟨M ++ N, by rw [hM, hN, List.append_assoc], fun i hi => ?_⟩
    rcases List.mem_append.1 hi with hi | hi
    · exact Nat.le_trans h1.le (hM' i hi)
    · exact hN' i hi

theorem Grows.agree {b c} (h : Grows b c) (lo : Nat) : Agree lo b.code.length b c := by
  intro i _ hi
  obtain ⟨l, hl⟩ := h.code
  refine ⟨by rw [hl, List.getElem?_append_left hi], fun k => ?_⟩
  obtain ⟨N, hN, hN'⟩ := h.holes k
  rw [hN]
  refine ⟨fun hm => ?_, fun hm => List.mem_append.2 (Or.inr hm)⟩
  rcases List.mem_append.1 hm with hm | hm
  · have := hN' i hm; omega
  · exact hm

theorem Same.refl (b) : Same b b := ⟨rfl, rfl, rfl, rfl, rfl, rfl, rfl, rfl⟩

theorem Same.trans {b c d} (h1 : Same b c) (h2 : Same c d) : Same b d :=
  ⟨h2.1.trans h1.1, h2.2.trans h1.2, h2.3.trans h1.3, h2.4.trans h1.4, h2.5.trans h1.5, h2.6.trans h1.6, h2.7.trans h1.7,
    h2.8.trans h1.8⟩

/-! ### One step -/

theorem inv_emit {b : Bld} (h : Inv b) (op : Op) : Inv (b.emit op) where
  pos := by simp [Bld.emit]
  lt := fun k i hi => by have := h.lt k i hi; simp [Bld.emit]; omega
  disj := h.disj
  noEval := h.noEval

theorem grows_emit (b : Bld) (op : Op) : Grows b (b.emit op) := ⟨⟨[op], rfl⟩, fun _ => ⟨[], by simp [Bld.emit]⟩⟩

theorem holes_setHole (b : Bld) (h : Hole) (l : List Nat) (k : Hole) : (b.setHole h l).holes k = if k = h then l else b.holes k := rfl

theorem inv_emitHole {b : Bld} (h : Inv b) (k : Hole) (op : Op) (hk : k = .excEval → b.evals ≠ 0) : Inv (b.emitHole k op) where
  pos := by simp [Bld.emitHole, Bld.emit, Bld.setHole]
  lt := by
    intro k' i hi
    simp only [Bld.emitHole, holes_setHole, Bld.emit] at hi
    simp only [Bld.emitHole, Bld.setHole, Bld.emit, List.length_append, List.length_cons, List.length_nil]
    split at hi
    · rcases List.mem_cons.1 hi with rfl | hi
      · omega
      · have := h.lt k i hi; omega
    · have := h.lt k' i hi; omega
  disj := by
    intro k1 k2 i h1 h2
    simp only [Bld.emitHole, holes_setHole, Bld.emit] at h1 h2
    split at h1 <;> split at h2
    · simp_all
    · rename_i e1 e2
      rcases List.mem_cons.1 h1 with rfl | h1
      · have := h.lt k2 _ h2; omega
      · rw [e1]; exact h.disj _ _ i h1 h2
    · rename_i e1 e2
      rcases List.mem_cons.1 h2 with rfl | h2
      · have := h.lt k1 _ h1; omega
      · rw [e2]; exact h.disj _ _ i h1 h2
    · exact h.disj _ _ i h1 h2
  noEval := by
    intro he
    simp only [Bld.emitHole, holes_setHole, Bld.emit]
    split
    · rename_i e; exact absurd he (hk e.symm)
    · exact h.noEval he

theorem grows_emitHole (b : Bld) (k : Hole) (op : Op) : Grows b (b.emitHole k op) := by
  refine ⟨⟨[op], rfl⟩, fun k' => ?_⟩
  simp only [Bld.emitHole, holes_setHole, Bld.emit]
  split
  · rename_i e; subst e
    exact ⟨[b.code.length], rfl, by simp⟩
  · exact ⟨[], by simp⟩

theorem length_aimAt (c : List Op) (i t : Nat) : (aimAt c i t).length = c.length := by simp [aimAt]

theorem get_aimAt (c : List Op) (i t j : Nat) : (aimAt c i t)[j]? = if i = j then (c[j]?).map (Op.aim t) else c[j]? := by
  unfold aimAt
  rw [List.getElem?_modify]
  split <;> simp

theorem length_aimAll (c : List Op) (is : List Nat) (t : Nat) : (aimAll c is t).length = c.length := by
  unfold aimAll
  induction is generalizing c with
  | nil => rfl
  | cons i is ih => rw [List.foldl_cons, ih, length_aimAt]

theorem aim_aim (t : Nat) (op : Op) : Op.aim t (Op.aim t op) = Op.aim t op := by cases op <;> rfl

theorem get_aimAll (c : List Op) (is : List Nat) (t j : Nat) :
    (aimAll c is t)[j]? = if j ∈ is then (c[j]?).map (Op.aim t) else c[j]? := by
  unfold aimAll
  induction is generalizing c with
  | nil => simp
  | cons i is ih =>
    rw [List.foldl_cons, ih, get_aimAt]
    by_cases h1 : j ∈ is <;> by_cases h2 : i = j
    · simp [h1, h2, Function.comp_def, aim_aim]
    · simp [h1, h2]
    · simp [h1, h2, Function.comp_def, aim_aim]
    · simp [h1, h2, Ne.symm h2]

end Flow
end SPVM
