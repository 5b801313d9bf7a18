import Verif.Lemmas.FlowBuild
/-!
# The builder emits code of the right shape
-/
namespace SPVM
namespace Flow

theorem prefix_of_get {a b : List Op} (hl : a.length ≤ b.length) (h : ∀ i, i < a.length → b[i]? = a[i]?) : ∃ l, b = a ++ l := by
  refine ⟨b.drop a.length, ?_⟩
  apply List.ext_getElem?
  intro i
  by_cases hi : i < a.length
  · rw [List.getElem?_append_left hi]; exact h i hi
  · rw [List.getElem?_append_right (by omega), List.getElem?_drop]
    congr 1; omega

/-- Setting the target of a jump at or behind the end of `a`. -/
theorem grows_aim {a b : Bld} (h : Grows a b) (i t : Nat) (hi : a.code.length ≤ i) : Grows a { b with code := aimAt b.code i t } := by
  refine ⟨?_, h.holes⟩
  obtain ⟨l, hl⟩ := h.code
  apply prefix_of_get
  · simp only [length_aimAt]; exact h.le
  · intro j hj
    show (aimAt b.code i t)[j]? = _
    rw [get_aimAt, if_neg (by omega), hl, List.getElem?_append_left hj]

theorem inv_aim {b : Bld} (h : Inv b) (i t : Nat) : Inv { b with code := aimAt b.code i t } where
  pos := by simp only [length_aimAt]; exact h.pos
  lt := fun k j hj => by simp only [length_aimAt]; exact h.lt k j hj
  disj := h.disj
  noEval := h.noEval

theorem agree_aim (b : Bld) (i t lo hi : Nat) (h : i < lo ∨ hi ≤ i) : Agree lo hi b { b with code := aimAt b.code i t } := by
  intro j h1 h2
  refine ⟨?_, fun _ => Iff.rfl⟩
  show (aimAt b.code i t)[j]? = _
  rw [get_aimAt, if_neg (by omega)]

/-! ### Popping a stack of jumps -/

theorem resolve_holes (b : Bld) (h : Hole) (N O : List Nat) (hN : b.holes h = N ++ O) (k : Hole) :
    (b.resolve h O.length).holes k = if k = h then O else b.holes k := by
  unfold Bld.resolve
  simp only [holes_setHole, hN]
  split
  · simp
  · rfl

theorem resolve_code (b : Bld) (h : Hole) (N O : List Nat) (hN : b.holes h = N ++ O) :
    (b.resolve h O.length).code = aimAll b.code N b.code.length := by
  unfold Bld.resolve
  simp [Bld.setHole, hN]

theorem resolve_length (b : Bld) (h : Hole) (N O : List Nat) (hN : b.holes h = N ++ O) :
    (b.resolve h O.length).code.length = b.code.length := by
  rw [resolve_code b h N O hN, length_aimAll]

theorem resolve_same (b : Bld) (h : Hole) (n : Nat) : Same b (b.resolve h n) := ⟨rfl, rfl, rfl, rfl, rfl, rfl, rfl, rfl⟩

theorem inv_resolve {b : Bld} (hi : Inv b) (h : Hole) (N O : List Nat) (hN : b.holes h = N ++ O) : Inv (b.resolve h O.length) := by
  have sub : ∀ k i, i ∈ (b.resolve h O.length).holes k → i ∈ b.holes k := by
    intro k i hm
    rw [resolve_holes b h N O hN] at hm
    split at hm
    · rename_i e; rw [e, hN]; exact List.mem_append.2 (Or.inr hm)
    · exact hm
  refine ⟨?_, ?_, ?_, ?_⟩
  · rw [resolve_length b h N O hN]; exact hi.pos
  · intro k i hm; rw [resolve_length b h N O hN]; exact hi.lt k i (sub k i hm)
  · intro k k' i h1 h2; exact hi.disj k k' i (sub _ _ h1) (sub _ _ h2)
  · intro he
    have he' : b.holes .excEval = [] := hi.noEval he
    rw [resolve_holes b h N O hN]
    split
    · rename_i e; rw [← e, he'] at hN
      exact (List.append_eq_nil_iff.1 hN.symm).2
    · exact he'

theorem grows_resolve {a b : Bld} (hg : Grows a b) (h : Hole) (N : List Nat) (hN : b.holes h = N ++ a.holes h)
    (hlo : ∀ i ∈ N, a.code.length ≤ i) : Grows a (b.resolve h (a.holes h).length) := by
  refine ⟨?_, fun k => ?_⟩
  · rw [resolve_code b h N _ hN]
    obtain ⟨l, hl⟩ := hg.code
    apply prefix_of_get
    · rw [length_aimAll]; exact hg.le
    · intro j hj
      rw [get_aimAll, if_neg (fun hm => by have := hlo j hm; omega), hl, List.getElem?_append_left hj]
  · rw [resolve_holes b h N _ hN]
    split
    · rename_i e; subst e; exact ⟨[], by simp⟩
    · exact hg.holes k

theorem agree_resolve (b : Bld) (h : Hole) (N O : List Nat) (hN : b.holes h = N ++ O) (lo hi : Nat)
    (hlo : ∀ i ∈ N, hi ≤ i) : Agree lo hi b (b.resolve h O.length) := by
  intro j h1 h2
  refine ⟨?_, fun k => ?_⟩
  · rw [resolve_code b h N O hN, get_aimAll, if_neg (fun hm => by have := hlo j hm; omega)]
  · rw [resolve_holes b h N O hN]
    split
    · rename_i e; rw [e, hN]
      refine ⟨fun hm => List.mem_append.2 (Or.inr hm), fun hm => ?_⟩
      rcases List.mem_append.1 hm with hm | hm
      · have := hlo j hm; omega
      · exact hm
    · exact Iff.rfl

theorem completes_resolve {b : Bld} (hi : Inv b) (h : Hole) (N O : List Nat) (hN : b.holes h = N ++ O) (lo top : Nat)
    (hO : ∀ i ∈ O, i < lo) (hdis : ∀ i ∈ N, i ∉ O) {C ctx} (hc : Completes C ctx lo top (b.resolve h O.length)) :
    Completes C (setTarget ctx h b.code.length) lo top b := by
  intro j h1 h2
  obtain ⟨c1, c2⟩ := hc j h1 h2
  rw [resolve_code b h N O hN] at c1 c2
  refine ⟨fun k hk => ?_, fun hn => ?_⟩
  · by_cases e : k = h
    · subst e
      rw [hN] at hk
      have hjN : j ∈ N := by
        rcases List.mem_append.1 hk with hk | hk
        · exact hk
        · have := hO j hk; omega
      have hno : ∀ k', j ∉ (b.resolve k O.length).holes k' := by
        intro k' hm
        rw [resolve_holes b k N O hN] at hm
        split at hm
        · exact hdis j hjN hm
        · rename_i e
          exact e (hi.disj k' k j hm (by rw [hN]; exact List.mem_append.2 (Or.inl hjN)))
      rw [c2 hno, get_aimAll, if_pos hjN]
      simp [setTarget]
    · have hjN : j ∉ N := fun hm => e (hi.disj k h j hk (by rw [hN]; exact List.mem_append.2 (Or.inl hm)))
      have hk' : j ∈ (b.resolve h O.length).holes k := by rw [resolve_holes b h N O hN, if_neg e]; exact hk
      rw [c1 k hk', get_aimAll, if_neg hjN]
      simp [setTarget, e]
  · have hjN : j ∉ N := fun hm => hn h (by rw [hN]; exact List.mem_append.2 (Or.inl hm))
    have hno : ∀ k', j ∉ (b.resolve h O.length).holes k' := by
      intro k' hm
      rw [resolve_holes b h N O hN] at hm
      split at hm
      · exact hn h (by rw [hN]; exact List.mem_append.2 (Or.inr hm))
      · exact hn k' hm
    rw [c2 hno, get_aimAll, if_neg hjN]

/-! ### Leaving a scope -/

/-- The end of a block: `Bld.leave` with the top of the stack given. -/
def Bld.exit (b : Bld) (need : Bool) (top : Nat) (rest : List Nat) : Bld :=
  { (if need = true then b.emit (.leaveScope top) else b) with mortal := top, blockTop := rest }

theorem leave_eq (b : Bld) (need : Bool) (top : Nat) (rest : List Nat) (h : b.blockTop = top :: rest) (hm : top ≤ b.mortal) :
    b.leave need = some (b.exit need top rest) := by
  unfold Bld.leave Bld.exit
  rw [h]
  cases need
  · simp [Nat.min_eq_right hm]
  · simp [Bld.emit, Nat.min_eq_right hm]

theorem exit_holes (b : Bld) (need : Bool) (top : Nat) (rest : List Nat) : (b.exit need top rest).holes = b.holes := by
  unfold Bld.exit; cases need <;> rfl

theorem exit_fields (b : Bld) (need : Bool) (top : Nat) (rest : List Nat) :
    let x := b.exit need top rest
    x.nextBase = b.nextBase ∧ x.lastBase = b.lastBase ∧ x.breakBase = b.breakBase ∧ x.ifEnd = b.ifEnd ∧ x.ifCond = b.ifCond ∧
      x.loopGoto = b.loopGoto ∧ x.evals = b.evals ∧ x.switches = b.switches ∧ x.blockTop = rest ∧ x.mortal = top ∧
      x.decls = b.decls := by
  unfold Bld.exit; cases need <;> simp [Bld.emit]

theorem inv_exit {b : Bld} (h : Inv b) (need : Bool) (top : Nat) (rest : List Nat) : Inv (b.exit need top rest) := by
  unfold Bld.exit
  cases need
  · exact ⟨h.pos, h.lt, h.disj, h.noEval⟩
  · have := inv_emit h (.leaveScope top)
    exact ⟨this.pos, this.lt, this.disj, this.noEval⟩

theorem grows_exit (b : Bld) (need : Bool) (top : Nat) (rest : List Nat) : Grows b (b.exit need top rest) := by
  unfold Bld.exit
  cases need
  · exact ⟨⟨[], by simp⟩, fun _ => ⟨[], by simp⟩⟩
  · exact ⟨⟨[.leaveScope top], by simp [Bld.emit]⟩, fun _ => ⟨[], by simp [Bld.emit]⟩⟩

theorem leave_of_completes {b : Bld} (h : Inv b) (need : Bool) (top : Nat) (rest : List Nat) {C ctx}
    (hc : Completes C ctx b.code.length (b.exit need top rest).code.length (b.exit need top rest)) :
    Leave C need top b.code.length (b.exit need top rest).code.length := by
  unfold Leave
  cases need
  · rfl
  · have hl : (b.exit true top rest).code = b.code ++ [.leaveScope top] := rfl
    rw [if_pos rfl]
    refine ⟨?_, by rw [hl]; simp⟩
    rw [(hc b.code.length (Nat.le_refl _) (by rw [hl]; simp)).2 ?_, hl]
    · simp
    · intro k hk
      rw [exit_holes] at hk
      have := h.lt k _ hk
      omega

/-! ### What a walk gives -/

/-- The result of walking over a part of the tree. -/
structure Walked (aft cnt : Nat) (P : List Op → (Hole → Nat) → Nat → Nat → Prop) (lp sw : Bool) (b b' : Bld) : Prop where
  inv : Inv b'
  grows : Grows b b'
  same : Same b b'
  switches : b'.switches = b.switches
  mortal : b'.mortal = aft
  decls : b'.decls = b.decls + cnt
  noNext : lp = false → b'.holes .next = b.holes .next
  noLast : lp = false → b'.holes .last = b.holes .last
  noBrk : sw = false → b'.holes .brk = b.holes .brk
  codes : ∀ C ctx, Completes C ctx b.code.length b'.code.length b' → P C ctx b.code.length b'.code.length

/-- The walk over the tree of `s` works in every state. -/
def Walks (s : Stmt) (lp sw : Bool) : Prop :=
  ∀ b : Bld, s.evalFlat (decide (b.evals ≠ 0)) = true → Inv b →
    ∃ b', s.tree.walk b = some b' ∧
      Walked (s.after b.mortal) s.count (fun C ctx x y => Codes C s (decide (b.evals ≠ 0)) ctx b.mortal x y) lp sw b b'

theorem walkAll_one (n : Node) (b : Bld) : Node.walkAll [n] b = n.walk b := by
  simp only [Node.walkAll]
  cases n.walk b <;> rfl

theorem walkAll_cons (n : Node) (ns : List Node) (b b1 : Bld) (h : n.walk b = some b1) : Node.walkAll (n :: ns) b = Node.walkAll ns b1 := by
  simp only [Node.walkAll, h]

/-- The part of a jump in the final code. -/
theorem get_of_completes {C ctx lo hi} {b : Bld} (hc : Completes C ctx lo hi b) (i : Nat) (h1 : lo ≤ i) (h2 : i < hi)
    (hn : ∀ h, i ∉ b.holes h) : C[i]? = b.code[i]? := (hc i h1 h2).2 hn

theorem not_mem_of_len {b : Bld} (h : Inv b) (i : Nat) (hi : b.code.length ≤ i) : ∀ k, i ∉ b.holes k :=
  fun k hk => by have := h.lt k i hk; omega

/-- A position that was the end of the code when a state was reached where only other code was emitted is not an open jump. -/
theorem not_mem_of_grows {a b : Bld} (ha : Inv a) (hg : Grows (a.emit op) b) : ∀ k, a.code.length ∉ b.holes k := by
  intro k hk
  obtain ⟨N, hN, hN'⟩ := hg.holes k
  rw [hN] at hk
  rcases List.mem_append.1 hk with hk | hk
  · have := hN' _ hk; simp [Bld.emit] at this; omega
  · have := ha.lt k _ hk; omega

theorem get_of_grows {a b : Bld} (hg : Grows (a.emit op) b) : b.code[a.code.length]? = some op := by
  obtain ⟨l, hl⟩ := hg.code
  rw [hl]
  simp [Bld.emit]

end Flow
end SPVM
