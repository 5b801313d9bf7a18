import Verif.Lemmas.FlowProg
/-!
# A whole method
-/
namespace SPVM
namespace Flow

variable {τ : Type} {I : Interp τ}

/-- The shape of a compiled method. -/
theorem compile_shape (body : Stmt) (ok : body.ok false false false = true) (fl : body.evalFlat false = true) :
    ∃ M m e, ∃ ctx : Hole → Nat, compile body = some M ∧ M.mortalLength = body.count + 1 ∧ M.code[0]? = some .endArgs ∧
      Codes M.code body false ctx 0 1 m ∧ Leave M.code body.declares 0 m e ∧ M.code[e]? = some .endMethod ∧
      ctx .ret = m ∧ ctx .excMethod = m := by
  have ds := (declares_both body).1 _ _ _ ok
  let b1 : Bld := { Bld.init with blockTop := 0 :: Bld.init.blockTop }
  have i1 : Inv b1 := ⟨by simp [b1, Bld.init], fun h i hi => by simp [b1, Bld.init] at hi, fun h h' i hi => by simp [b1, Bld.init] at hi,
    fun _ => rfl⟩
  obtain ⟨b2, w2, k2⟩ := (walks_both body).1 _ _ _ ok b1 (by simpa [b1, Bld.init] using fl) i1
  have e1 : ∀ h, b1.holes h = [] := fun _ => rfl
  have lo : ∀ h, ∀ i ∈ b2.holes h, b1.code.length ≤ i := by
    intro h
    obtain ⟨N, hN, hN'⟩ := k2.grows.holes h
    rw [e1, List.append_nil] at hN
    rw [hN]; exact hN'
  have hN2 : b2.holes .ret = b2.holes .ret ++ [] := by simp
  let b3 : Bld := b2.resolve .ret 0
  have i3 : Inv b3 := inv_resolve k2.inv .ret _ [] hN2
  have l3 : b3.code.length = b2.code.length := resolve_length b2 .ret _ [] hN2
  have h3 : ∀ k, b3.holes k = if k = .ret then [] else b2.holes k := resolve_holes b2 .ret _ [] hN2
  have g3 : Grows b1 b3 := grows_resolve k2.grows .ret (b2.holes .ret) (by rw [e1]; simp) (lo .ret)
  have hN3 : b3.holes .excMethod = b3.holes .excMethod ++ [] := by simp
  have lo3 : ∀ i ∈ b3.holes .excMethod, b1.code.length ≤ i := by
    rw [h3]; exact lo .excMethod
  let b4 : Bld := b3.resolve .excMethod 0
  have i4 : Inv b4 := inv_resolve i3 .excMethod _ [] hN3
  have l4 : b4.code.length = b2.code.length := (resolve_length b3 .excMethod _ [] hN3).trans l3
  have h4 : ∀ k, b4.holes k = if k = .excMethod then [] else b3.holes k := resolve_holes b3 .excMethod _ [] hN3
  have g4 : Grows b1 b4 := grows_resolve g3 .excMethod (b3.holes .excMethod) (by rw [e1]; simp) lo3
  have no4 : ∀ k, b4.holes k = [] := by
    intro k
    have hev : b2.holes .excEval = [] := k2.inv.noEval k2.same.evals
    have hnx : b2.holes .next = [] := k2.noNext rfl
    have hla : b2.holes .last = [] := k2.noLast rfl
    have hbr : b2.holes .brk = [] := k2.noBrk rfl
    rw [h4, h3]
    cases k <;> simp [*]
  let b5 : Bld := b4.exit body.declares 0 []
  have f := exit_fields b4 body.declares 0 []
  have g45 : Grows b4 b5 := grows_exit _ _ _ _
  have hw : (Node.mk (.block .method false) [body.tree]).walk Bld.init = some b5 := by
    have hpre : Bld.init.pre (.block .method false) = some b1 := rfl
    have hT : Node.declares (.mk (.block .method false) [body.tree]) = body.declares := by simp [Node.declares, Node.declaresAny, ds]
    simp only [Node.walk, hpre, walkAll_one, w2, Bld.post, hT]
    show b4.leave (body.declares && true) = _
    rw [Bool.and_true]
    exact leave_eq _ _ _ _ k2.same.blockTop (Nat.zero_le _)
  let C : List Op := b5.code ++ [.endMethod]
  let ctx : Hole → Nat := setTarget (setTarget (fun _ => 0) .excMethod b3.code.length) .ret b2.code.length
  have hC5 : Completes C (fun _ => 0) b1.code.length b5.code.length b5 := by
    intro i _ hi
    refine ⟨fun h hh => ?_, fun _ => ?_⟩
    · rw [exit_holes, no4] at hh; simp at hh
    · show (b5.code ++ _)[i]? = _
      rw [List.getElem?_append_left hi]
  have len1 : b1.code.length = 1 := rfl
  have le4 : b4.code.length ≤ b5.code.length := g45.le
  have le1 : b1.code.length ≤ b2.code.length := k2.grows.le
  have hC4 : Completes C (fun _ => 0) b1.code.length b4.code.length b4 := (hC5.mono (Nat.le_refl _) le4).of_agree (g45.agree _)
  have hC3 : Completes C (setTarget (fun _ => 0) .excMethod b3.code.length) b1.code.length b4.code.length b3 :=
    completes_resolve i3 .excMethod _ [] hN3 _ _ (by simp) (by simp) hC4
  have hC2 : Completes C ctx b1.code.length b4.code.length b2 :=
    completes_resolve k2.inv .ret _ [] hN2 _ _ (by simp) (by simp) hC3
  rw [l4] at hC2
  have hcodes := k2.codes C ctx hC2
  refine ⟨⟨C, b5.decls + 1⟩, b2.code.length, b5.code.length, ctx, ?_, ?_, ?_, ?_, ?_, ?_, ?_, ?_⟩
  · simp only [compile, hw]; rfl
  · have e5 : b5.decls = b4.decls := f.2.2.2.2.2.2.2.2.2.2
    have e2 : b4.decls = b2.decls := rfl
    have e3 : b2.decls = 0 + body.count := k2.decls
    show b5.decls + 1 = _
    omega
  · obtain ⟨l, hl⟩ := (g4.trans g45).code
    show (b5.code ++ [.endMethod])[0]? = _
    rw [hl]
    simp [b1, Bld.init]
  · exact hcodes
  · have := leave_of_completes (C := C) i4 body.declares 0 [] (hC5.mono (by omega) (Nat.le_refl _))
    rw [l4] at this
    exact this
  · show (b5.code ++ [.endMethod])[b5.code.length]? = _
    simp
  · simp [ctx, setTarget]
  · simp [ctx, setTarget, l3]

theorem run_done {C : List Op} {L : Nat} {m m' : Vm τ} (h : Reach I C L m m') (hd : m'.step I C L = .done m') :
    ∃ n, ∀ k, n < k → m.run I C L k = .done m' := by
  obtain ⟨n, h⟩ := h
  refine ⟨n, fun k hk => ?_⟩
  obtain ⟨j, rfl⟩ : ∃ j, k = n + (j + 1) := ⟨k - n - 1, by omega⟩
  rw [h.run, Vm.run, hd]

theorem run_before {C : List Op} {L n : Nat} {m m' : Vm τ} (h : Steps I C L n m m') (k : Nat) (hk : k ≤ n) :
    ∃ m'', m.run I C L k = .go m'' := by
  induction h generalizing k with
  | refl m => have : k = 0 := by omega
              subst this; exact ⟨m, rfl⟩
  | step hs _ ih =>
    cases k with
    | zero => exact ⟨_, rfl⟩
    | succ k =>
      obtain ⟨m2, h2⟩ := ih k (by omega)
      refine ⟨m2, ?_⟩
      rw [Vm.run, hs]; exact h2

/-- `next` and `last` end inside of the loop, `break` inside of the switch. -/
def EndOk : Task → End → Prop
  | .stmt s, r => ∀ lp sw el, s.ok lp sw el = true → (r = .next ∨ r = .last → lp = true) ∧ (r = .brk → sw = true)
  | .cond c _ t e, r => ∀ lp sw el, c.isOperator = true → t.ok lp sw false = true → e.ok lp sw el = true →
      (r = .next ∨ r = .last → lp = true) ∧ (r = .brk → sw = true)
  | .iter c _ n body, r => ∀ sw, c.isOperator = true → n.isOperator = true → body.ok true sw false = true →
      r ≠ .next ∧ r ≠ .last ∧ (r = .brk → sw = true)

theorem end_ok {t : Task} {p : Point τ} {r : End} {q : Point τ} (h : Runs I t p r q) : EndOk t r := by
  have opEnd : ∀ {s p r q}, Runs I (.stmt s) p r q → s.isOperator = true → r ≠ .next ∧ r ≠ .last ∧ r ≠ .brk := by
    intro s p r q h ho
    rcases (operator_end h).1 _ rfl ho with rfl | ⟨e, rfl⟩ <;> simp
  induction h
  case skip => intro lp sw el _; simp
  case seq ih1 ih2 =>
    intro lp sw el ok
    simp only [Stmt.ok, Bool.and_eq_true] at ok
    exact ih2 lp sw false ok.2
  case seqExit ih1 =>
    intro lp sw el ok
    simp only [Stmt.ok, Bool.and_eq_true] at ok
    exact ih1 lp sw false ok.1
  case act => intro lp sw el _; simp
  case callOk => intro lp sw el _; simp
  case callThrow => intro lp sw el _; simp
  case decl => intro lp sw el _; simp
  case next => intro lp sw el ok; simp only [Stmt.ok] at ok; simp [ok]
  case last => intro lp sw el ok; simp only [Stmt.ok] at ok; simp [ok]
  case brk => intro lp sw el ok; simp only [Stmt.ok] at ok; simp [ok]
  case ret => intro lp sw el _; simp
  case condTrue ih1 ih2 => intro lp sw el _ ok _; exact ih2 lp sw false ok
  case condFalse ih1 ih2 => intro lp sw el _ _ ok; exact ih2 lp sw el ok
  case condExit h hr ih =>
    intro lp sw el oc _ _
    obtain ⟨h1, h2, h3⟩ := opEnd h oc
    exact ⟨fun h => by rcases h with h | h; exact absurd h h1; exact absurd h h2, fun h => absurd h h3⟩
  case choose ih =>
    intro lp sw el ok
    simp only [Stmt.ok, Bool.and_eq_true] at ok
    exact ih lp sw false ok.1.1 (Stmt.ok_of_operator _ _ _ _ ok.1.2) (Stmt.ok_of_operator _ _ _ _ ok.2)
  case block ih =>
    intro lp sw el ok
    simp only [Stmt.ok] at ok
    exact ih lp sw false ok
  case ifs ih =>
    intro lp sw el ok
    simp only [Stmt.ok, Bool.and_eq_true] at ok
    exact ih lp sw true ok.1.1 ok.1.2 ok.2
  case elif ih =>
    intro lp sw el ok
    simp only [Stmt.ok, Bool.and_eq_true] at ok
    exact ih lp sw true ok.1.1.2 ok.1.2 ok.2
  case loop ih1 ih2 =>
    intro lp sw el ok
    simp only [Stmt.ok, Bool.and_eq_true] at ok
    obtain ⟨h1, h2, h3⟩ := ih2 sw ok.1.1.2 ok.1.2 ok.2
    exact ⟨fun h => by rcases h with h | h; exact absurd h h1; exact absurd h h2, h3⟩
  case loopExit h hr ih =>
    intro lp sw el ok
    simp only [Stmt.ok, Bool.and_eq_true] at ok
    obtain ⟨h1, h2, h3⟩ := opEnd h ok.1.1.1
    exact ⟨fun h => by rcases h with h | h; exact absurd h h1; exact absurd h h2, fun h => absurd h h3⟩
  case iterDone => intro sw _ _ _; simp
  case iterCond h hr ih =>
    intro sw oc _ _
    obtain ⟨h1, h2, h3⟩ := opEnd h oc
    exact ⟨h1, h2, fun h => absurd h h3⟩
  case iterLast => intro sw _ _ _; simp
  case iterExit r1 r2 r3 ih1 ih2 =>
    intro sw _ _ okb
    exact ⟨r2, r3, (ih2 true sw false (by simpa [Stmt.ok] using okb)).2⟩
  case iterNext ih4 =>
    intro sw oc oi okb
    exact ih4 sw oc oi okb
  case iterInc h hne ih1 ih2 ih3 =>
    intro sw oc oi okb
    obtain ⟨h1, h2, h3⟩ := opEnd h oi
    exact ⟨h1, h2, fun h => absurd h h3⟩
  case switch c v cs p q r u _ _ ih1 ih2 =>
    intro lp sw el ok
    simp only [Stmt.ok, Bool.and_eq_true] at ok
    have := ih2 lp true false (select_ok cs _ lp ok.2)
    cases r <;> simp_all [End.atSwitch]
  case switchExit h hr ih =>
    intro lp sw el ok
    simp only [Stmt.ok, Bool.and_eq_true] at ok
    obtain ⟨h1, h2, h3⟩ := opEnd h ok.1.1
    exact ⟨fun h => by rcases h with h | h; exact absurd h h1; exact absurd h h2, fun h => absurd h h3⟩
  case eval ih =>
    intro lp sw el ok
    simp only [Stmt.ok] at ok
    exact ih lp sw false (by simpa [Stmt.ok] using ok)
  case evalCatch => intro lp sw el _; simp

/-- A method that ends. -/
theorem method_ends (body : Stmt) (ok : body.ok false false false = true) (fl : body.evalFlat false = true) (sc : body.scoped = true)
    (M : Method) (hM : compile body = some M) (s : State τ) (e : Nat) (s' : State τ) (h : MethodRuns I body s e s') :
    ∃ m', Reach I M.code M.mortalLength (Vm.start s) m' ∧ m'.step I M.code M.mortalLength = .done m' ∧ m'.st = s' ∧ m'.err = e ∧
      m'.mortal = [] := by
  obtain ⟨M', m, x, ctx, h1, h2, h3, h4, h5, h6, h7, h8⟩ := compile_shape body ok fl
  rw [hM] at h1
  cases h1
  obtain ⟨r, q, hrun, rfl, rfl⟩ := h
  have hs : (Vm.start s).step I M.code M.mortalLength = .go (Vm.at ⟨s, []⟩ 1) := by
    unfold Vm.step; rw [show (Vm.start s).pc = 0 from rfl, h3]; rfl
  cases hrun with
  | block hb =>
    rename_i q0
    have hg := good_of_runs (C := M.code) (L := M.mortalLength) hb false false false false ctx 1 m
      ⟨ok, sc, h4, by show 0 + _ ≤ _; omega⟩
    obtain ⟨m1, X, Y, r1, l1, o1, n1, e1⟩ := hg
    simp only [List.nil_append] at o1
    have hend : ∀ r', r' = r → ∃ m', Reach I M.code M.mortalLength m1 m' ∧ m'.pc = x ∧ m'.st = (q0.leave 0).st ∧ m'.err = r.error ∧ m'.mortal = [] := by
      intro r' _
      by_cases hnl : r = .next ∨ r = .last ∨ r = .brk
      · have he := end_ok hb false false false ok
        rcases hnl with h | h | h
        · exact absurd (he.1 (Or.inl h)) (by simp)
        · exact absurd (he.1 (Or.inr h)) (by simp)
        · exact absurd (he.2 h) (by simp)
      · have hpc : m1.pc = m := by
          rw [l1.pc]
          cases r <;> simp [target, h7, h8] at hnl ⊢
        have hr := reach_leave (I := I) (L := M.mortalLength) h5 m1 [] (Y ++ X) hpc (by rw [l1.mortal, o1]; simp) rfl
          (fun h => by obtain ⟨rfl, rfl⟩ := n1 h; rfl)
        refine ⟨_, hr, rfl, ?_, by simpa using l1.err, rfl⟩
        have l2 := l1.leave (P := []) (Y := Y) (d := 0) (by simpa using o1) rfl
        have hv := l2.vars
        have hm := l2.mem
        show m1.st.release (Y ++ X) = _
        have hm' : (m1.st.release (Y ++ X)).mem = (q0.leave 0).st.mem := by
          rw [show (m1.st.release (Y ++ X)).mem = m1.st.mem from rfl, hm]
          cases r <;> simp [endMem]
        revert hv hm'
        generalize m1.st.release (Y ++ X) = s1
        generalize (q0.leave 0).st = s2
        intro hv hm'
        cases s1; cases s2
        simp only at hv hm'
        subst hv hm'
        rfl
    obtain ⟨m2, r2, e2, e3, e4, e5⟩ := hend r rfl
    refine ⟨m2, (Reach.one hs).trans (r1.trans r2), ?_, e3, e4, e5⟩
    unfold Vm.step
    rw [e2, h6]

/-- A method either ends or keeps the machine busy. -/
theorem method_prog (I : Interp τ) (body : Stmt) (ok : body.ok false false false = true) (fl : body.evalFlat false = true) (sc : body.scoped = true)
    (M : Method) (hM : compile body = some M) (s : State τ) (n : Nat) :
    (∃ e s', MethodRuns I body s e s') ∨ Busy I M.code M.mortalLength n (Vm.start s) := by
  obtain ⟨M', m, x, ctx, h1, h2, h3, h4, h5, h6, h7, h8⟩ := compile_shape body ok fl
  rw [hM] at h1
  cases h1
  have hs : (Vm.start s).step I M.code M.mortalLength = .go (Vm.at ⟨s, []⟩ 1) := by
    unfold Vm.step; rw [show (Vm.start s).pc = 0 from rfl, h3]; rfl
  rcases (prog_all (I := I) (C := M.code) (L := M.mortalLength) body).1 false false false false ctx 1 m ⟨s, []⟩ n
    ⟨ok, sc, h4, by show 0 + _ ≤ _; omega⟩ with ⟨r, q, h⟩ | h
  · exact Or.inl ⟨_, _, r, _, .block h, rfl, rfl⟩
  · exact Or.inr ((Reach.one hs).busy h)

end Flow
end SPVM
