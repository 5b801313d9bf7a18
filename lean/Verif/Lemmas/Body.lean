import Verif.Lemmas.BodyCall
import Verif.Lemmas.FlowSort
/-!
# Method bodies: statements
-/
namespace SPVM
namespace Expr
open Flow (Runs Point Stmt)

/-- The memory at `p` has the variables of `w`; nothing is returned yet. -/
def At {φ} (p : Point (BMem φ)) (w : World φ) : Prop :=
  ∃ m d, p.st.mem = some (m, d) ∧ d.exc = w.exc ∧ w.result = none ∧ storeOf m = w.store ∧ WellTyped w.store

/-- The value to be returned is on the stack. -/
def Returned {φ} (R : Option NT) (w : World φ) (d : Side φ) : Prop :=
  match R with
  | none => w.result = none
  | some t => ∃ x, w.result = some (t, x) ∧ d.stack 0 = some (t, x) ∧ HasTy t x

/-- The memory at `p` has the variables of `w`, and the method returns. -/
def Ended {φ} (R : Option NT) (p : Point (BMem φ)) (w : World φ) : Prop :=
  ∃ m d, p.st.mem = some (m, d) ∧ d.exc = w.exc ∧ Returned R w d ∧ storeOf m = w.store ∧ WellTyped w.store

def AtEnd {φ} (R : Option NT) (r : Stop) (p : Point (BMem φ)) (w : World φ) : Prop :=
  match r with
  | .ret => Ended R p w
  | _ => At p w

/-- Something undefined has happened. -/
def Lost {φ} (p : Point (BMem φ)) : Prop := p.st.mem = none

/-- The operator `S` is the expression statement `e`. -/
def ExprSim {φ} (F : Fl φ) (I : Flow.Interp (BMem φ)) (e : Expr φ) (S : Stmt) : Prop := ∀ p w, At p w →
  match eval F e w.store with
  | .val s _ => ∃ q, Runs I (.stmt S) p .normal q ∧ At q { w with store := s }
  | .throws msg s => ∃ q, Runs I (.stmt S) p (.exc 1) q ∧ At q { w with store := s, exc := some msg }
  | .undefined => ∃ q, Runs I (.stmt S) p .normal q ∧ Lost q

/-- The operator `S` is the value of `e`, which it leaves in the variable `v`. -/
def ValSim {φ} (F : Fl φ) (I : Flow.Interp (BMem φ)) (e : Expr φ) (S : Stmt) (v : MVar) : Prop := ∀ p w, At p w →
  match eval F e w.store with
  | .val s x => ∃ q, Runs I (.stmt S) p .normal q ∧ At q { w with store := s } ∧ HasTy (ty e) x ∧ ∀ m d, q.st.mem = some (m, d) → m v.ty v.id = x
  | .throws msg s => ∃ q, Runs I (.stmt S) p (.exc 1) q ∧ At q { w with store := s, exc := some msg }
  | .undefined => ∃ q, Runs I (.stmt S) p .normal q ∧ Lost q

/-- The operator `S` is the condition `c`, or its negation; its value is in variable `v`. -/
def CondSim {φ} (F : Fl φ) (O : Objs) (I : Flow.Interp (BMem φ)) (u : Bool) (c : Cond φ) (S : Stmt) (v : Nat) : Prop := ∀ p w, At p w →
  match judge F O c w.store with
  | .val s n => ∃ q, Runs I (.stmt S) p .normal q ∧ At q { w with store := s } ∧ (I.ival v q.st ≠ 0 ↔ (n = 0 ↔ u = true))
  | .throws msg s => ∃ q, Runs I (.stmt S) p (.exc 1) q ∧ At q { w with store := s, exc := some msg }
  | .undefined => ∃ q, Runs I (.stmt S) p .normal q ∧ Lost q

/-- `S` is the translation of a statement. -/
inductive Trans {φ} (F : Fl φ) (O : Objs) (R : Option NT) (G : Nat → Option (Sig φ)) (K : Oracle φ) (T : List (XInstr φ)) : Stat φ → Stmt → Prop where
  | skip : Trans F O R G K T .skip .skip
  | seq {s t S S'} : Trans F O R G K T s S → Trans F O R G K T t S' → Trans F O R G K T (.seq s t) (.seq S S')
  | expr {e S} : ExprSim F (interp F O K T) e S → Plain S → Trans F O R G K T (.expr e) S
  | decl {v k} : T[k]? = some (.zero (userVar v)) → Trans F O R G K T (.decl v) (.seq (.act k) .skip)
  | block {s S} : Trans F O R G K T s S → Trans F O R G K T (.block s) (.block S)
  | ifs {u c t e X v Y Z} : CondSim F O (interp F O K T) u c X v → Plain X → Trans F O R G K T t Y → Trans F O R G K T e Z →
      Trans F O R G K T (.ifs u c t e) (.ifs X v Y Z)
  | elif {c t e X v Y Z} : CondSim F O (interp F O K T) false c X v → Plain X → Trans F O R G K T t Y → Trans F O R G K T e Z →
      Trans F O R G K T (.elif c t e) (.elif X v Y Z)
  | loop {init c inc body i X v Y Z} : Trans F O R G K T (.ofOption init) i → Plain i → CondSim F O (interp F O K T) false c X v → Plain X →
      Trans F O R G K T (.ofOption inc) Y → Plain Y → Trans F O R G K T body Z → Trans F O R G K T (.loop init c inc body) (.loop i X v Y Z)
  | switch {e cs X v CS} : ValSim F (interp F O K T) (.cast .int e) X ⟨.int, v⟩ → Plain X → Trans F O R G K T cs CS →
      Trans F O R G K T (.switch e cs) (.switch X v.slot CS)
  | caseFall {n rest S} : Trans F O R G K T rest S → Trans F O R G K T (.caseFall n rest) (.caseFall n S)
  | caseRun {n body rest S S'} : Trans F O R G K T body S → Trans F O R G K T rest S' → Trans F O R G K T (.caseRun n body rest) (.caseRun n S S')
  | dflt {body S} : Trans F O R G K T body S → Trans F O R G K T (.dflt body) (.dflt S)
  | next : Trans F O R G K T .next .next
  | last : Trans F O R G K T .last .last
  | brk : Trans F O R G K T .brk .brk
  | ret {k} : R = none → T[k]? = some .nothing → Trans F O R G K T .ret (.ret k)
  | give {e t X v k} : R = some t → ValSim F (interp F O K T) (.cast t e) X ⟨t, v⟩ → Plain X → T[k]? = some (.give ⟨t, v⟩) →
      Trans F O R G K T (.give e) (.seq X (.ret k))
  | call {v f args g seg n} : G f = some g → CallOK g v args → Fits T n seg → (∀ m d, WellTyped (storeOf m) → CallRun F O K g v f args seg m d) →
      Trans F O R G K T (.call v f args) (straight seg n)
  | eval {s S} : Trans F O R G K T s S → Trans F O R G K T (.eval s) (.eval S)

/-! ## Translation -/

theorem at_mem {φ} {p : Point (BMem φ)} {w : World φ} (h : At p w) :
    ∃ m d, p.st.mem = some (m, d) ∧ storeOf m = w.store ∧ WellTyped (storeOf m) ∧ d.exc = w.exc ∧ w.result = none := by
  obtain ⟨m, d, h1, h2, h3, h4, h5⟩ := h
  exact ⟨m, d, h1, h4, by rw [h4]; exact h5, h2, h3⟩

/-- The rules under which expressions and conditions are compiled correctly (C61, C62). -/
def Proper {φ} (O : Objs) (s : Stat φ) : Prop := s.All Fine fun c => c.All Fine ∧ c.BoolsDefined O

theorem exprPiece_sim {φ} (F : Fl φ) (O : Objs) (e : Expr φ) (h : Fine e) (k : Count) :
    ∃ S seg k', exprPiece e k = .ok ((S, seg), k') ∧ k'.code = k.code + seg.length ∧ Plain S ∧
      ∀ K T, Fits T k.code seg → ExprSim F (interp F O K T) e S := by
  obtain ⟨hl, ht, hc, hk⟩ := h
  obtain ⟨c, h1, h2⟩ := checked e k.old hl ht
  obtain ⟨_, _, code, p, h3, h4, h5, _, h7⟩ := (code_correct F c (h2.good True (fun _ => hc) (fun _ => hk))).1 k.tmp
  refine ⟨straight (code.map .op) k.code, code.map .op, ⟨(build e k.old).2, (temps false c k.tmp).2, k.code + code.length⟩,
    by simp only [exprPiece, h1, Out.ok_bind, h3]; rfl, by simp, plain_straight _ _, fun K T hf p w hw => ?_⟩
  obtain ⟨m, sd, m1, m2, m3, mx, mr⟩ := at_mem hw
  have g := check_correct F e k.old c hl ht h1 (storeOf m) m (fun _ => rfl) m3
  have f := h7 m m (fun _ _ _ => rfl)
  have d := straight_does F O K T _ (quiet_ops code) k.code m hf
  rw [runI_ops, runX_ops] at d
  rw [← m2]
  cases he : eval F e (storeOf m) with
  | undefined =>
    rw [he] at g; rw [g] at f
    have f : run F code m = .ub := f
    rw [f] at d
    exact d p _ m1
  | throws msg s =>
    rw [he] at g; obtain ⟨ms1, g1, g2, g3⟩ := g
    rw [g1] at f
    obtain ⟨m4, f1, f2⟩ := f
    rw [f1] at d
    obtain ⟨q, d1, d2⟩ := d p _ m1
    exact ⟨q, d1, m4, _, d2, (by first | rfl | exact mx), mr, rel_eq g2 f2, g3⟩
  | val s x =>
    rw [he] at g; obtain ⟨ms1, g1, g2, _, _, g3⟩ := g
    rw [g1] at f
    obtain ⟨m4, f1, f2, _⟩ := f
    rw [f1] at d
    obtain ⟨q, d1, d2⟩ := d p _ m1
    exact ⟨q, d1, m4, _, d2, (by first | rfl | exact mx), mr, rel_eq g2 f2, g3⟩

theorem optionPiece_sim {φ} (F : Fl φ) (O : Objs) (o : Option (Expr φ)) (R : Option NT) (G : Nat → Option (Sig φ)) (h : ∀ e, o = some e → Fine e) (k : Count) :
    ∃ S seg k', optionPiece o k = .ok ((S, seg), k') ∧ k'.code = k.code + seg.length ∧ Plain S ∧
      ∀ K T, Fits T k.code seg → Trans F O R G K T (.ofOption o) S := by
  cases o with
  | none => exact ⟨_, _, _, rfl, rfl, plain_skip, fun K T _ => .skip⟩
  | some e =>
    obtain ⟨S, seg, k', h1, h2, h3, h4⟩ := exprPiece_sim F O e (h e rfl) k
    exact ⟨S, seg, k', h1, h2, h3, fun K T hf => .expr (h4 K T hf) h3⟩

/-- The condition, or its negation, as the operand of a condition. -/
theorem operand_sim {φ} (F : Fl φ) (O : Objs) (c d : Cond φ) (u : Bool) (k : Count) (l : LOp φ) (h1 : checkCond (ifOperand u c k.old).1 = .ok l) (h2 : CondOK F O d l)
    (hj : ∀ s, judge F O d s = (judge F O c s).andThen fun s n => .val s (if u then (if n = 0 then 1 else 0) else n)) :
    ∃ S seg v k', operandPiece u c k = .ok ((S, seg), v, k') ∧ k'.code = k.code + seg.length ∧ Plain S ∧
      ∀ K T, Fits T k.code seg → CondSim F O (interp F O K T) u c S v := by
  obtain ⟨X, p, x1, x2, x3, x4⟩ := h2 k.tmp
  obtain ⟨S, seg, s1, s2, s3⟩ := condPiece_does F O _ (hasTmps l k.tmp) k.code X x1
  have hw := evalCode_eq (φ := φ) (.tmp (tempsCond l k.tmp).2) p 0 _ (condOpcodes_ok _ p 0 x3)
  refine ⟨_, _, _, _, by simp only [operandPiece, h1, Out.ok_bind, s1, x2, hw.1]; rfl, by simp; omega, s2.seq (plain_straight _ _), fun K T hf => ?_⟩
  obtain ⟨hf1, hf2⟩ := hf.append
  intro q w hw
  obtain ⟨m, sd, m1, m2, m3, mx, mr⟩ := at_mem hw
  have g := x4 m m3
  have hd := s3 K T hf1 m
  rw [m2, hj] at g
  rw [← m2] at g ⊢
  have hs := Does.seq (k := fun _ m => runI F O [.truth (.tmp (tempsCond l k.tmp).2) p, .op (.move .int .flag (.tmp (tempsCond l k.tmp).2))] m) hd
    (straight_operator (φ := φ) [.truth (.tmp (tempsCond l k.tmp).2) p, .op (.move .int .flag (.tmp (tempsCond l k.tmp).2))] (k.code + seg.length))
    (fun m' _ => straight_does F O K T _ (quiet_eval _ p) (k.code + seg.length) m' hf2)
  cases hv : judge F O c (storeOf m) with
  | undefined =>
    rw [hv] at g
    rw [ub_of g] at hs
    exact hs q _ m1
  | throws msg s =>
    rw [hv] at g
    obtain ⟨g0, m', g1, g2⟩ := g
    rw [die_of g1] at hs
    obtain ⟨q', d1, d2⟩ := hs q _ m1
    exact ⟨q', d1, m', _, d2, rfl, mr, g2, g0⟩
  | val s n =>
    rw [hv] at g
    obtain ⟨g0, m', g1, g2, g3⟩ := g
    rw [out_of g1] at hs
    rcases eval_does F O (tempsCond l k.tmp).2 p m' with ⟨e, _⟩ | ⟨i, e, hr⟩
    · rw [e] at g3; cases g3
    · rw [e] at g3; injection g3 with g3; injection g3 with g3
      have hs : Does _ _ _ (runI F O [.truth (.tmp (tempsCond l k.tmp).2) p, .op (.move .int .flag (.tmp (tempsCond l k.tmp).2))] m') := hs
      rw [hr] at hs
      obtain ⟨q', d1, d2⟩ := hs q _ m1
      refine ⟨q', d1, ⟨_, _, d2, mx, mr, ?_, g0⟩, ?_⟩
      · rw [← g2]; funext v; unfold storeOf
        rw [Mem.set_ne _ _ _ _ _ _ (fun hh => by cases hh.2), Mem.set_ne _ _ _ _ _ _ (fun hh => by cases hh.2)]
      · rw [ival_eval F O K T _ m' i q'.st _ d2, g3]
        cases u with
        | false => simp
        | true => by_cases hn : n = 0 <;> simp [hn]

theorem operandPiece_sim {φ} (F : Fl φ) (O : Objs) (c : Cond φ) (u : Bool) (h : c.All Fine) (hO : c.BoolsDefined O) (k : Count) :
    ∃ S seg v k', operandPiece u c k = .ok ((S, seg), v, k') ∧ k'.code = k.code + seg.length ∧ Plain S ∧
      ∀ K T, Fits T k.code seg → CondSim F O (interp F O K T) u c S v := by
  cases u with
  | false =>
    obtain ⟨l, h1, h2⟩ := cond_correct F O c h hO k.old
    exact operand_sim F O c c false k l h1 h2 (fun s => by cases judge F O c s <;> rfl)
  | true =>
    obtain ⟨l, h1, h2⟩ := cond_correct F O (.not c) h hO k.old
    exact operand_sim F O c (.not c) true k l h1 h2 (fun s => rfl)

/-- An expression whose value is used. -/
theorem valuePiece_sim {φ} (F : Fl φ) (O : Objs) (e : Expr φ) (h : Fine e) (k : Count) (c : Op φ) (hc : check (build e k.old).1 = .ok c) :
    ∃ S seg v k', valuePiece c (build e k.old).2 k = .ok ((S, seg), ⟨ty e, v⟩, k') ∧ k'.code = k.code + seg.length ∧ Plain S ∧
      ∀ K T, Fits T k.code seg → ValSim F (interp F O K T) e S ⟨ty e, v⟩ := by
  obtain ⟨code, v, k', h1, h2, _, _, _, h6⟩ := value_code F e h k c hc
  refine ⟨_, _, v, k', h1, by rw [h2, List.length_map], plain_straight _ _, fun K T hf p w hw => ?_⟩
  obtain ⟨m, sd, m1, m2, m3, mx, mr⟩ := at_mem hw
  have g := h6 m m3
  have d := straight_does F O K T _ (quiet_ops code) k.code m hf
  rw [runI_ops, runX_ops] at d
  rw [← m2]
  cases he : eval F e (storeOf m) with
  | undefined => rw [he] at g; rw [g] at d; exact d p _ m1
  | throws msg s =>
    rw [he] at g; obtain ⟨m4, g1, g2, g3⟩ := g
    rw [g1] at d
    obtain ⟨q, d1, d2⟩ := d p _ m1
    exact ⟨q, d1, m4, _, d2, rfl, mr, g2, g3⟩
  | val s x =>
    rw [he] at g; obtain ⟨m4, g1, g2, g3, g4, g5, _⟩ := g
    rw [g1] at d
    obtain ⟨q, d1, d2⟩ := d p _ m1
    refine ⟨q, d1, ⟨m4, _, d2, mx, mr, g2, g3⟩, g5, fun m' d' hm' => ?_⟩
    rw [d2] at hm'; injection hm' with hm'; injection hm' with e1 _
    rw [← e1]; exact g4

/-- The operand of `switch` is converted as by a cast to `int`. -/
theorem switchPiece_sim {φ} (F : Fl φ) (O : Objs) (e : Expr φ) (h : Fine e) (ht : (ty e).rank ≤ NT.int.rank) (k : Count) :
    ∃ S seg v k', switchPiece e k = .ok ((S, seg), ⟨.int, v⟩, k') ∧ k'.code = k.code + seg.length ∧ Plain S ∧
      ∀ K T, Fits T k.code seg → ValSim F (interp F O K T) (.cast .int e) S ⟨.int, v⟩ := by
  obtain ⟨c, h1, h2⟩ := checked e k.old h.1 h.2.1
  have hc : check (build (.cast .int e) k.old).1 = .ok (promoteOp c) := by
    show (check (build e k.old).1 >>= fun e => Out.ok (if typeOf e = .int then e else .cast .int e)) = _
    rw [h1, Out.ok_bind, promoteOp_eq, h2.type]
    have : promote (ty e) = .int := by unfold promote; rw [if_pos ht]
    rw [this, castTo, h2.type]
  obtain ⟨S, seg, v, k', a1, a2, a3, a4⟩ := valuePiece_sim F O (.cast .int e) ⟨h.1, h.2.1, h.2.2.1, h.2.2.2⟩ k _ hc
  refine ⟨S, seg, v, k', ?_, a2, a3, a4⟩
  simp only [switchPiece, h1, Out.ok_bind]
  rw [if_pos]
  · exact a1
  · rw [h2.type]; revert ht; cases ty e <;> decide

/-- The operand of `return` is converted as by a cast to the return type. -/
theorem givePiece_sim {φ} (F : Fl φ) (O : Objs) (e : Expr φ) (t : NT) (h : Fine e) (ht : (ty e).rank ≤ t.rank ∨ Narrows t (litOf e)) (k : Count) :
    ∃ S seg v k', givePiece (some t) e k = .ok ((.seq S (.ret (k.code + seg.length)), seg ++ [.give ⟨t, v⟩]), k') ∧ k'.code = k.code + (seg.length + 1) ∧ Plain S ∧
      ∀ K T, Fits T k.code seg → ValSim F (interp F O K T) (.cast t e) S ⟨t, v⟩ := by
  obtain ⟨c, h1, h2⟩ := checked e k.old h.1 h.2.1
  have hc : check (build (.cast t e) k.old).1 = .ok (castTo t c) := by
    show (check (build e k.old).1 >>= fun e => Out.ok (if typeOf e = t then e else .cast t e)) = _
    rw [h1, Out.ok_bind, castTo]
  have ha := checkAssign_ok t c h2.narrow h2.okLit (by rw [h2.type, h2.lit]; exact ht)
  obtain ⟨S, seg, v, k', a1, a2, a3, a4⟩ := valuePiece_sim F O (.cast t e) ⟨h.1, h.2.1, h.2.2.1, h.2.2.2⟩ k _ hc
  have a1 : valuePiece (castTo t c) (build e k.old).2 k = .ok ((S, seg), ⟨t, v⟩, k') := a1
  refine ⟨S, seg, v, { k' with code := k'.code + 1 }, ?_, by simp only [a2]; omega, a3, a4⟩
  simp only [givePiece, h1, Out.ok_bind, ha, a1, a2]
  rfl

/-- Every statement that follows the rules is translated. -/
theorem statPiece_sim {φ} (F : Fl φ) (O : Objs) (R : Option NT) (G : Nat → Option (Sig φ)) (s : Stat φ) (h : Proper O s) (ht : s.Typed R G) (hs : s.Steady G) : ∀ (k : Count),
    ∃ S seg k', statPiece R G s k = .ok ((S, seg), k') ∧ k'.code = k.code + seg.length ∧ ∀ K T, Fits T k.code seg → Trans F O R G K T s S := by
  induction s with
  | skip => intro k; exact ⟨_, _, _, rfl, rfl, fun K T _ => .skip⟩
  | next => intro k; exact ⟨_, _, _, rfl, rfl, fun K T _ => .next⟩
  | last => intro k; exact ⟨_, _, _, rfl, rfl, fun K T _ => .last⟩
  | brk => intro k; exact ⟨_, _, _, rfl, rfl, fun K T _ => .brk⟩
  | decl v => intro k; exact ⟨_, _, _, rfl, rfl, fun K T hf => .decl (hf 0 _ rfl)⟩
  | ret =>
    intro k
    have ht : R = none := ht
    subst ht
    exact ⟨_, _, _, rfl, rfl, fun K T hf => .ret rfl (hf 0 _ rfl)⟩
  | give e =>
    intro k
    obtain ⟨t, rfl, ht⟩ := ht
    obtain ⟨S, seg, v, k', h1, h2, h3, h4⟩ := givePiece_sim F O e t h ht k
    refine ⟨_, _, k', h1, by rw [h2]; simp, fun K T hf => ?_⟩
    obtain ⟨f1, f2⟩ := hf.append
    exact .give rfl (h4 K T f1) h3 (f2 0 _ rfl)
  | call v f args =>
    intro k
    obtain ⟨g, h1, h2, h3, h4, h5⟩ := ht
    have hc : CallOK g v args := ⟨h, h2, h3, h4, h5, hs g h1⟩
    obtain ⟨seg, k', a1, a2, a3⟩ := call_run F O G v f args g h1 hc k
    exact ⟨_, seg, k', a1, a2, fun K T hf => .call h1 hc hf (a3 K)⟩
  | expr e =>
    intro k
    obtain ⟨S, seg, k', h1, h2, h3, h4⟩ := exprPiece_sim F O e h k
    exact ⟨S, seg, k', h1, h2, fun K T hf => .expr (h4 K T hf) h3⟩
  | seq s t ihs iht =>
    intro k
    obtain ⟨S, seg, k1, h1, h2, h7⟩ := ihs h.1 ht.1 hs.1 k
    obtain ⟨S', seg', k2, g1, g2, g7⟩ := iht h.2 ht.2 hs.2 k1
    refine ⟨.seq S S', seg ++ seg', k2, by simp only [statPiece, h1, Out.ok_bind, g1]; rfl, by rw [g2, h2, List.length_append]; omega, fun K T hf => ?_⟩
    obtain ⟨f1, f2⟩ := hf.append
    exact .seq (h7 K T f1) (g7 K T (by rw [h2]; exact f2))
  | block s ih =>
    intro k
    obtain ⟨S, seg, k1, h1, h2, h7⟩ := ih h ht hs k
    exact ⟨.block S, seg, k1, by simp only [statPiece, h1, Out.ok_bind]; rfl, h2, fun K T hf => .block (h7 K T hf)⟩
  | eval s ih =>
    intro k
    obtain ⟨S, seg, k1, h1, h2, h7⟩ := ih h ht hs k
    exact ⟨.eval S, seg, k1, by simp only [statPiece, h1, Out.ok_bind]; rfl, h2, fun K T hf => .eval (h7 K T hf)⟩
  | ifs u c t e iht ihe =>
    intro k
    obtain ⟨⟨hc, hO⟩, h1, he⟩ := h
    obtain ⟨X, gx, v, k1, x1, x2, x3, x4⟩ := operandPiece_sim F O c u hc hO k
    obtain ⟨Y, gy, k2, h1, h2, h7⟩ := iht h1 ht.1 hs.1 k1
    obtain ⟨Z, gz, k3, g1, g2, g7⟩ := ihe he ht.2 hs.2 k2
    refine ⟨.ifs X v Y Z, gx ++ gy ++ gz, k3, by simp only [statPiece, x1, h1, Out.ok_bind, g1]; rfl,
      by rw [g2, h2, x2, List.length_append, List.length_append]; omega, fun K T hf => ?_⟩
    obtain ⟨f, f3⟩ := hf.append
    obtain ⟨f1, f2⟩ := f.append
    refine .ifs (x4 K T f1) x3 (h7 K T (by rw [x2]; exact f2)) (g7 K T ?_)
    rw [h2, x2]
    rw [List.length_append, ← Nat.add_assoc] at f3
    exact f3
  | elif c t e iht ihe =>
    intro k
    obtain ⟨⟨hc, hO⟩, h1, he⟩ := h
    obtain ⟨X, gx, v, k1, x1, x2, x3, x4⟩ := operandPiece_sim F O c false hc hO k
    obtain ⟨Y, gy, k2, h1, h2, h7⟩ := iht h1 ht.1 hs.1 k1
    obtain ⟨Z, gz, k3, g1, g2, g7⟩ := ihe he ht.2 hs.2 k2
    refine ⟨.elif X v Y Z, gx ++ gy ++ gz, k3, by simp only [statPiece, x1, h1, Out.ok_bind, g1]; rfl,
      by rw [g2, h2, x2, List.length_append, List.length_append]; omega, fun K T hf => ?_⟩
    obtain ⟨f, f3⟩ := hf.append
    obtain ⟨f1, f2⟩ := f.append
    refine .elif (x4 K T f1) x3 (h7 K T (by rw [x2]; exact f2)) (g7 K T ?_)
    rw [h2, x2]
    rw [List.length_append, ← Nat.add_assoc] at f3
    exact f3
  | switch e cs ih =>
    intro k
    obtain ⟨X, gx, v, k1, x1, x2, x3, x4⟩ := switchPiece_sim F O e h.1 ht.1 k
    obtain ⟨Y, gy, k2, h1, h2, h7⟩ := ih h.2 ht.2 hs k1
    refine ⟨.switch X v.slot Y, gx ++ gy, k2, by simp only [statPiece, x1, h1, Out.ok_bind]; rfl,
      by rw [h2, x2, List.length_append]; omega, fun K T hf => ?_⟩
    obtain ⟨f1, f2⟩ := hf.append
    exact .switch (x4 K T f1) x3 (h7 K T (by rw [x2]; exact f2))
  | caseFall n rest ih =>
    intro k
    obtain ⟨S, seg, k1, h1, h2, h7⟩ := ih h ht hs k
    exact ⟨.caseFall n S, seg, k1, by simp only [statPiece, h1, Out.ok_bind]; rfl, h2, fun K T hf => .caseFall (h7 K T hf)⟩
  | caseRun n s t ihs iht =>
    intro k
    obtain ⟨S, seg, k1, h1, h2, h7⟩ := ihs h.1 ht.1 hs.1 k
    obtain ⟨S', seg', k2, g1, g2, g7⟩ := iht h.2 ht.2 hs.2 k1
    refine ⟨.caseRun n S S', seg ++ seg', k2, by simp only [statPiece, h1, Out.ok_bind, g1]; rfl, by rw [g2, h2, List.length_append]; omega, fun K T hf => ?_⟩
    obtain ⟨f1, f2⟩ := hf.append
    exact .caseRun (h7 K T f1) (g7 K T (by rw [h2]; exact f2))
  | dflt s ih =>
    intro k
    obtain ⟨S, seg, k1, h1, h2, h7⟩ := ih h ht hs k
    exact ⟨.dflt S, seg, k1, by simp only [statPiece, h1, Out.ok_bind]; rfl, h2, fun K T hf => .dflt (h7 K T hf)⟩
  | loop init c inc body ih =>
    intro k
    obtain ⟨hi, ⟨hc, hO⟩, hn, hb⟩ := h
    obtain ⟨W, gw, k0, w1, w2, w3, w4⟩ := optionPiece_sim F O init R G hi k
    obtain ⟨X, gx, v, k1, x1, x2, x3, x4⟩ := operandPiece_sim F O c false hc hO k0
    obtain ⟨Y, gy, k2, y1, y2, y3, y4⟩ := optionPiece_sim F O inc R G hn k1
    obtain ⟨Z, gz, k3, g1, g2, g7⟩ := ih hb ht hs k2
    refine ⟨.loop W X v Y Z, gw ++ gx ++ gy ++ gz, k3, by simp only [statPiece, w1, x1, y1, Out.ok_bind, g1]; rfl,
      by rw [g2, y2, x2, w2, List.length_append, List.length_append, List.length_append]; omega, fun K T hf => ?_⟩
    obtain ⟨f, f4⟩ := hf.append
    obtain ⟨f, f3⟩ := f.append
    obtain ⟨f1, f2⟩ := f.append
    rw [List.length_append, ← Nat.add_assoc] at f3
    rw [List.length_append, List.length_append, ← Nat.add_assoc, ← Nat.add_assoc] at f4
    exact .loop (w4 K T f1) w3 (x4 K T (by rw [w2]; exact f2)) x3 (y4 K T (by rw [x2, w2]; exact f3)) y3 (g7 K T (by rw [y2, x2, w2]; exact f4))

/-- Arguments that break the rules are rejected. -/
theorem args_rejected {φ} (F : Fl φ) (es : List (Expr φ)) : ∀ (ts : List NT) (k : Count), (∀ e ∈ es, Fine e) →
    ¬ (es.length ≤ ts.length ∧ ∀ p ∈ ts.zip es, (ty p.2).rank ≤ p.1.rank ∨ Narrows p.1 (litOf p.2)) → ∃ msg, argsCode ts es k = .die msg := by
  induction es with
  | nil => intro ts k _ h; exact absurd ⟨Nat.zero_le _, fun p hp => by simp at hp⟩ h
  | cons e es ih =>
    intro ts k hf h
    cases ts with
    | nil => exact ⟨_, rfl⟩
    | cons t ts =>
      have he := hf e (List.mem_cons_self ..)
      by_cases ht : (ty e).rank ≤ t.rank ∨ Narrows t (litOf e)
      · obtain ⟨c, c', a1, a2, a3⟩ := check_cast e t he ht k.old
        obtain ⟨code, v, k1, b1, _⟩ := value_code F (.cast t e) (he.cast t) k c' a3
        have b1 : valuePiece c' (build e k.old).2 k = .ok ((straight (code.map .op) k.code, code.map .op), ⟨t, v⟩, k1) := b1
        obtain ⟨msg, d1⟩ := ih ts k1 (fun e he => hf e (List.mem_cons_of_mem _ he)) (fun ⟨x, y⟩ => h ⟨by simpa using x, fun p hp => by
          rcases List.mem_cons.1 hp with rfl | hp
          · exact ht
          · exact y p hp⟩)
        exact ⟨msg, by simp only [argsCode, a1, a2, Out.ok_bind, b1, d1]; rfl⟩
      · obtain ⟨c, c1, c2⟩ := checked e k.old he.1 he.2.1
        have := checkAssign_die t c c2.narrow c2.okLit (by rw [c2.type, c2.lit]; exact ht)
        exact ⟨_, by simp only [argsCode, c1, Out.ok_bind, this]; rfl⟩

theorem callPiece_rejected {φ} (G : Nat → Option (Sig φ)) (v : Option Var) (f : Nat) (args : List (Expr φ)) (g : Sig φ) (hg : G f = some g) (h : ∀ e ∈ args, Fine e)
    (hs : (g.given args).Pairwise fun a b => ∀ v, holder a = some v → v ∉ assigned b)
    (ht : ¬ (args.length ≤ g.params.length ∧ g.params.length ≤ args.length + g.defaults.length ∧
      (∀ p ∈ g.params.zip args, (ty p.2).rank ≤ p.1.rank ∨ Narrows p.1 (litOf p.2)) ∧ ∀ w, v = some w → ∃ t, g.ret = some t ∧ t.rank ≤ w.ty.rank)) (F : Fl φ) (k : Count) :
    ∃ msg, callPiece G v f args k = .die msg := by
  by_cases h1 : args.length ≤ g.params.length ∧ ∀ p ∈ g.params.zip args, (ty p.2).rank ≤ p.1.rank ∨ Narrows p.1 (litOf p.2)
  · obtain ⟨code, ps, k1, a1, _⟩ := args_code F args g.params k h h1.1 h1.2 hs
    by_cases h2 : args.length + g.defaults.length < g.params.length
    · exact ⟨msgFew, by simp only [callPiece, hg, a1, Out.ok_bind, if_pos h2]⟩
    · have h3 : ¬ ∀ w, v = some w → ∃ t, g.ret = some t ∧ t.rank ≤ w.ty.rank := fun h3 => ht ⟨h1.1, by omega, h1.2, h3⟩
      have : resultCode (φ := φ) v g.ret k1.tmp = .die msgAssign := by
        cases v with
        | none => exact absurd (fun w hw => by cases hw) h3
        | some w =>
          cases hr : g.ret with
          | none => rfl
          | some t =>
            have h4 : ¬ t.rank ≤ w.ty.rank := fun h4 => h3 (fun w' hw => by cases hw; exact ⟨t, hr, h4⟩)
            simp only [resultCode]
            rw [if_neg (fun e => h4 (by rw [e]; exact Nat.le_refl _)), if_neg]
            rw [basicTypeId_eq, basicTypeId_eq]; omega
      exact ⟨msgAssign, by simp only [callPiece, hg, a1, Out.ok_bind, if_neg h2, this]; rfl⟩
  · obtain ⟨msg, a1⟩ := args_rejected F args g.params k h h1
    exact ⟨msg, by simp only [callPiece, hg, a1]; rfl⟩

/-- A statement that breaks the rules on types is rejected. -/
theorem statPiece_rejected {φ} (F : Fl φ) (O : Objs) (R : Option NT) (G : Nat → Option (Sig φ)) (s : Stat φ) (h : Proper O s) (ht : ¬ s.Typed R G) (hs : s.Steady G) : ∀ (k : Count),
    ∃ msg, statPiece R G s k = .die msg := by
  induction s with
  | skip => exact absurd trivial ht
  | next => exact absurd trivial ht
  | last => exact absurd trivial ht
  | brk => exact absurd trivial ht
  | decl v => exact absurd trivial ht
  | expr e => exact absurd trivial ht
  | ret =>
    intro k
    cases R with
    | none => exact absurd rfl ht
    | some t => exact ⟨_, rfl⟩
  | give e =>
    intro k
    obtain ⟨c, h1, h2⟩ := checked e k.old h.1 h.2.1
    cases R with
    | none => exact ⟨msgVoid, by show givePiece _ _ _ = _; simp only [givePiece, h1, Out.ok_bind]⟩
    | some t =>
      have ha := checkAssign_die t c h2.narrow h2.okLit (by rw [h2.type, h2.lit]; exact fun hh => ht ⟨t, rfl, hh⟩)
      exact ⟨msgAssign, by show givePiece _ _ _ = _; simp only [givePiece, h1, Out.ok_bind, ha]; rfl⟩
  | call v f args =>
    intro k
    show ∃ msg, callPiece G v f args k = .die msg
    cases hg : G f with
    | none => exact ⟨msgNoMethod, by simp only [callPiece, hg]⟩
    | some g =>
      exact callPiece_rejected G v f args g hg h (hs g hg) (fun ⟨a, b, c, d⟩ => ht ⟨g, hg, a, b, c, d⟩) F k
  | seq s t ihs iht =>
    intro k
    by_cases h1 : s.Typed R G
    · obtain ⟨S, seg, k1, a1, _⟩ := statPiece_sim F O R G s h.1 h1 hs.1 k
      obtain ⟨msg, a2⟩ := iht h.2 (fun h2 => ht ⟨h1, h2⟩) hs.2 k1
      exact ⟨msg, by simp only [statPiece, a1, Out.ok_bind, a2]; rfl⟩
    · obtain ⟨msg, a1⟩ := ihs h.1 h1 hs.1 k
      exact ⟨msg, by simp only [statPiece, a1]; rfl⟩
  | block s ih => intro k; obtain ⟨msg, a⟩ := ih h ht hs k; exact ⟨msg, by simp only [statPiece, a]; rfl⟩
  | eval s ih => intro k; obtain ⟨msg, a⟩ := ih h ht hs k; exact ⟨msg, by simp only [statPiece, a]; rfl⟩
  | ifs u c t e iht ihe =>
    intro k
    obtain ⟨⟨hc, hO⟩, h1, he⟩ := h
    obtain ⟨X, gx, v, k1, x1, _⟩ := operandPiece_sim F O c u hc hO k
    by_cases h2 : t.Typed R G
    · obtain ⟨S, seg, k2, a1, _⟩ := statPiece_sim F O R G t h1 h2 hs.1 k1
      obtain ⟨msg, a2⟩ := ihe he (fun h3 => ht ⟨h2, h3⟩) hs.2 k2
      exact ⟨msg, by simp only [statPiece, x1, a1, Out.ok_bind, a2]; rfl⟩
    · obtain ⟨msg, a1⟩ := iht h1 h2 hs.1 k1
      exact ⟨msg, by simp only [statPiece, x1, Out.ok_bind, a1]; rfl⟩
  | elif c t e iht ihe =>
    intro k
    obtain ⟨⟨hc, hO⟩, h1, he⟩ := h
    obtain ⟨X, gx, v, k1, x1, _⟩ := operandPiece_sim F O c false hc hO k
    by_cases h2 : t.Typed R G
    · obtain ⟨S, seg, k2, a1, _⟩ := statPiece_sim F O R G t h1 h2 hs.1 k1
      obtain ⟨msg, a2⟩ := ihe he (fun h3 => ht ⟨h2, h3⟩) hs.2 k2
      exact ⟨msg, by simp only [statPiece, x1, a1, Out.ok_bind, a2]; rfl⟩
    · obtain ⟨msg, a1⟩ := iht h1 h2 hs.1 k1
      exact ⟨msg, by simp only [statPiece, x1, Out.ok_bind, a1]; rfl⟩
  | switch e cs ih =>
    intro k
    by_cases h1 : (ty e).rank ≤ NT.int.rank
    · obtain ⟨X, gx, v, k1, x1, _⟩ := switchPiece_sim F O e h.1 h1 k
      obtain ⟨msg, a⟩ := ih h.2 (fun h2 => ht ⟨h1, h2⟩) hs k1
      exact ⟨msg, by simp only [statPiece, x1, Out.ok_bind, a]; rfl⟩
    · obtain ⟨c, c1, c2⟩ := checked e k.old h.1.1 h.1.2.1
      have : switchPiece e k = .die msgSwitch := by
        simp only [switchPiece, c1, Out.ok_bind]
        rw [if_neg]
        rw [c2.type]; revert h1; cases ty e <;> decide
      exact ⟨msgSwitch, by simp only [statPiece, this]; rfl⟩
  | caseFall n rest ih => intro k; obtain ⟨msg, a⟩ := ih h ht hs k; exact ⟨msg, by simp only [statPiece, a]; rfl⟩
  | dflt s ih => intro k; obtain ⟨msg, a⟩ := ih h ht hs k; exact ⟨msg, by simp only [statPiece, a]; rfl⟩
  | caseRun n s t ihs iht =>
    intro k
    by_cases h1 : s.Typed R G
    · obtain ⟨S, seg, k1, a1, _⟩ := statPiece_sim F O R G s h.1 h1 hs.1 k
      obtain ⟨msg, a2⟩ := iht h.2 (fun h2 => ht ⟨h1, h2⟩) hs.2 k1
      exact ⟨msg, by simp only [statPiece, a1, Out.ok_bind, a2]; rfl⟩
    · obtain ⟨msg, a1⟩ := ihs h.1 h1 hs.1 k
      exact ⟨msg, by simp only [statPiece, a1]; rfl⟩
  | loop init c inc body ih =>
    intro k
    obtain ⟨hi, ⟨hc, hO⟩, hn, hb⟩ := h
    obtain ⟨W, gw, k0, w1, _⟩ := optionPiece_sim F O init R G hi k
    obtain ⟨X, gx, v, k1, x1, _⟩ := operandPiece_sim F O c false hc hO k0
    obtain ⟨Y, gy, k2, y1, _⟩ := optionPiece_sim F O inc R G hn k1
    obtain ⟨msg, a⟩ := ih hb ht hs k2
    exact ⟨msg, by simp only [statPiece, w1, x1, y1, Out.ok_bind, a]; rfl⟩

/-! ## The shape of the translation -/

theorem operator_ok (S : Stmt) (h : S.isOperator = true) : ∀ a b c, S.ok a b c = true := by
  induction S with
  | seq s t ihs iht =>
    intro a b c
    simp only [Stmt.isOperator, Bool.and_eq_true] at h
    simp only [Stmt.ok, Bool.and_eq_true]
    exact ⟨ihs h.1 _ _ _, iht h.2 _ _ _⟩
  | choose => intro a b c; exact h
  | skip => intros; rfl
  | act => intros; rfl
  | call => intros; rfl
  | decl => intros; rfl
  | _ => cases h

theorem no_double_of_nodup : ∀ (l : List Int), l.Nodup → Flow.doubleCases l = false
  | [], _ => rfl
  | [_], _ => rfl
  | a :: b :: l, h => by
    have h1 := List.nodup_cons.1 h
    have ih := no_double_of_nodup (b :: l) h1.2
    simp only [Flow.doubleCases, ih, Bool.or_false, beq_eq_false_iff_ne, ne_eq]
    intro e
    exact h1.1 (by rw [e]; exact List.mem_cons_self ..)

theorem operator_values {S : Stmt} (h : S.isOperator = true) : S.caseValues = [] := by
  cases S <;> first | rfl | cases h

theorem trans_values {φ} {F : Fl φ} {O : Objs} {R : Option NT} {G : Nat → Option (Sig φ)} {K : Oracle φ} {T : List (XInstr φ)} {s S} (h : Trans F O R G K T s S) : S.caseValues = s.values := by
  induction h with
  | caseFall _ ih => simp only [Stmt.caseValues, Stat.values, ih]
  | caseRun _ _ _ ih => simp only [Stmt.caseValues, Stat.values, ih]
  | expr _ ho => rw [operator_values ho.1]; rfl
  | call _ _ _ _ => rw [operator_values (straight_operator _ _)]; rfl
  | _ => rfl

theorem trans_ok {φ} {F : Fl φ} {O : Objs} {R : Option NT} {G : Nat → Option (Sig φ)} {K : Oracle φ} {T : List (XInstr φ)} {s S} (h : Trans F O R G K T s S) :
    (∀ a b c, s.Placed a b c → S.ok a b c = true) ∧ ∀ a, s.PlacedCases a → S.okCases a = true := by
  induction h with
  | skip => exact ⟨fun _ _ _ _ => rfl, fun _ h => h.elim⟩
  | seq _ _ ih1 ih2 =>
    refine ⟨fun a b c h => ?_, fun _ h => h.elim⟩
    simp only [Stmt.ok, ih1.1 _ _ _ h.1, ih2.1 _ _ _ h.2, Bool.and_self]
  | expr _ ho => exact ⟨fun a b c _ => operator_ok _ ho.1 a b c, fun _ h => h.elim⟩
  | decl _ => exact ⟨fun _ _ _ _ => rfl, fun _ h => h.elim⟩
  | block _ ih => exact ⟨fun a b c h => ih.1 _ _ _ h, fun _ h => h.elim⟩
  | ifs _ ho _ _ ih1 ih2 =>
    refine ⟨fun a b c h => ?_, fun _ h => h.elim⟩
    simp only [Stmt.ok, ho.1, ih1.1 _ _ _ h.1, ih2.1 _ _ _ h.2, Bool.and_self]
  | elif _ ho _ _ ih1 ih2 =>
    refine ⟨fun a b c h => ?_, fun _ h => h.elim⟩
    simp only [Stmt.ok, ho.1, h.1, ih1.1 _ _ _ h.2.1, ih2.1 _ _ _ h.2.2, Bool.and_self]
  | loop _ h1 _ h2 _ h3 _ _ _ ih =>
    refine ⟨fun a b c h => ?_, fun _ h => h.elim⟩
    simp only [Stmt.ok, h1.1, h2.1, h3.1, ih.1 _ _ _ h, Bool.and_self]
  | switch _ ho ht ih =>
    refine ⟨fun a b c h => ?_, fun _ h => h.elim⟩
    have hn := no_double_of_nodup _ ((SPVM.Flow.sortCases_perm _).nodup_iff.2 h.1)
    simp only [Stmt.ok, ho.1, trans_values ht, hn, ih.2 _ h.2]
    rfl
  | caseFall _ ih => exact ⟨fun _ _ _ h => h.elim, fun a h => ih.2 a h⟩
  | caseRun _ _ ih1 ih2 =>
    refine ⟨fun _ _ _ h => h.elim, fun a h => ?_⟩
    simp only [Stmt.okCases, ih1.1 _ _ _ h.1, ih2.2 _ h.2, Bool.and_self]
  | dflt _ ih => exact ⟨fun _ _ _ h => h.elim, fun a h => ih.1 _ _ _ h⟩
  | next => exact ⟨fun _ _ _ h => h, fun _ h => h.elim⟩
  | last => exact ⟨fun _ _ _ h => h, fun _ h => h.elim⟩
  | brk => exact ⟨fun _ _ _ h => h, fun _ h => h.elim⟩
  | ret _ _ => exact ⟨fun _ _ _ _ => rfl, fun _ h => h.elim⟩
  | call _ _ _ _ => exact ⟨fun a b c _ => operator_ok _ (straight_operator _ _) a b c, fun _ h => h.elim⟩
  | give _ _ ho _ =>
    refine ⟨fun a b c h => ?_, fun _ h => h.elim⟩
    simp only [Stmt.ok, operator_ok _ ho.1]
    rfl
  | eval _ ih => exact ⟨fun a b c h => ih.1 _ _ _ h, fun _ h => h.elim⟩

theorem trans_flat {φ} {F : Fl φ} {O : Objs} {R : Option NT} {G : Nat → Option (Sig φ)} {K : Oracle φ} {T : List (XInstr φ)} {s S} (h : Trans F O R G K T s S) :
    ∀ b, s.Flat b → S.evalFlat b = true := by
  induction h with
  | seq _ _ ih1 ih2 => intro b h; simp only [Stmt.evalFlat, ih1 _ h.1, ih2 _ h.2, Bool.and_self]
  | expr _ ho => intro b _; exact ho.2.2.2 b
  | block _ ih => exact fun b h => ih b h
  | ifs _ ho _ _ ih1 ih2 => intro b h; simp only [Stmt.evalFlat, ho.2.2.2, ih1 _ h.1, ih2 _ h.2, Bool.and_self]
  | elif _ ho _ _ ih1 ih2 => intro b h; simp only [Stmt.evalFlat, ho.2.2.2, ih1 _ h.1, ih2 _ h.2, Bool.and_self]
  | loop _ h1 _ h2 _ h3 _ _ _ ih => intro b h; simp only [Stmt.evalFlat, h1.2.2.2, h2.2.2.2, h3.2.2.2, ih _ h, Bool.and_self]
  | switch _ ho _ ih => intro b h; simp only [Stmt.evalFlat, ho.2.2.2, ih _ h, Bool.and_self]
  | caseFall _ ih => exact fun b h => ih b h
  | caseRun _ _ ih1 ih2 => intro b h; simp only [Stmt.evalFlat, ih1 _ h.1, ih2 _ h.2, Bool.and_self]
  | dflt _ ih => exact fun b h => ih b h
  | give _ _ ho _ => intro b h; simp only [Stmt.evalFlat, ho.2.2.2, Bool.and_self]
  | call _ _ _ _ => intro b _; exact (plain_straight _ _).2.2.2 b
  | eval _ ih => intro b h; simp only [Stmt.evalFlat, h.1, ih _ h.2]; rfl
  | _ => intro b _; rfl

theorem trans_scoped {φ} {F : Fl φ} {O : Objs} {R : Option NT} {G : Nat → Option (Sig φ)} {K : Oracle φ} {T : List (XInstr φ)} {s S} (h : Trans F O R G K T s S) :
    S.scoped = true ∧ S.declares = false := by
  induction h with
  | seq _ _ ih1 ih2 => exact ⟨by simp only [Stmt.scoped, ih1.1, ih2.1, Bool.and_self], by simp only [Stmt.declares, ih1.2, ih2.2, Bool.or_self]⟩
  | expr _ ho => exact ⟨ho.2.2.1, ho.2.1⟩
  | block _ ih => exact ih
  | ifs _ ho _ _ ih1 ih2 =>
    exact ⟨by simp only [Stmt.scoped, ho.2.2.1, ih1.1, ih2.1, Bool.and_self], by simp only [Stmt.declares, ho.2.1, ih1.2, ih2.2, Bool.or_self]⟩
  | elif _ ho _ _ ih1 ih2 =>
    exact ⟨by simp only [Stmt.scoped, ho.2.2.1, ih1.1, ih2.1, Bool.and_self], by simp only [Stmt.declares, ho.2.1, ih1.2, ih2.2, Bool.or_self]⟩
  | loop _ h1 _ h2 _ h3 _ _ _ ih =>
    exact ⟨by simp only [Stmt.scoped, h1.2.2.1, h2.2.2.1, h3.2.2.1, h2.2.1, h3.2.1, ih.1]; rfl, by simp only [Stmt.declares, h1.2.1, h2.2.1, h3.2.1, ih.2, Bool.or_self]⟩
  | switch _ ho _ ih => exact ⟨by simp only [Stmt.scoped, ho.2.2.1, ih.1, Bool.and_self], by simp only [Stmt.declares, ho.2.1, ih.2, Bool.or_self]⟩
  | caseFall _ ih => exact ih
  | caseRun _ _ ih1 ih2 => exact ⟨by simp only [Stmt.scoped, ih1.1, ih2.1, Bool.and_self], by simp only [Stmt.declares, ih1.2, ih2.2, Bool.or_self]⟩
  | dflt _ ih => exact ih
  | give _ _ ho _ => exact ⟨by simp only [Stmt.scoped, ho.2.2.1, Bool.and_self], by simp only [Stmt.declares, ho.2.1, Bool.or_self]⟩
  | call _ _ _ _ => exact ⟨(plain_straight _ _).2.2.1, (plain_straight _ _).2.1⟩
  | eval _ ih => exact ih
  | _ => exact ⟨rfl, rfl⟩

/-! ## What the documentation says happens -/

def Stop.toEnd : Stop → Flow.End
  | .normal => .normal | .next => .next | .last => .last | .brk => .brk | .ret => .ret | .exc => .exc 1

theorem toEnd_normal {r : Stop} (h : r ≠ .normal) : r.toEnd ≠ .normal := by cases r <;> simp_all [Stop.toEnd]

theorem toEnd_inj {r r' : Stop} (h : r.toEnd = r'.toEnd) : r = r' := by
  cases r <;> cases r' <;> first | rfl | (simp [Stop.toEnd] at h)
theorem toEnd_ne {r r' : Stop} (h : r ≠ r') : r.toEnd ≠ r'.toEnd := fun e => h (toEnd_inj e)
theorem toEnd_atSwitch (r : Stop) : r.toEnd.atSwitch = r.atSwitch.toEnd := by cases r <;> rfl

theorem initial_ty {φ} (F : Fl φ) (t : NT) : HasTy t (initial F t) := by cases t <;> first | exact ⟨by decide, by decide⟩ | (intro h; revert h; decide)
theorem zero_eq {φ} (F : Fl φ) (t : NT) : zeroVal F t = initial F t := by cases t <;> rfl
theorem zero_store {φ} (F : Fl φ) (m : Mem φ) (v : Var) : storeOf (m.set v.ty (.user v.id) (zeroVal F v.ty)) = (storeOf m).set v (initial F v.ty) := by
  funext w
  rw [zero_eq]
  simp only [storeOf, Store.set, Mem.set]
  by_cases h : w = v
  · subst h; simp
  · rw [if_neg h, if_neg]
    intro hh
    apply h
    cases w; cases v
    simp at hh ⊢
    exact hh

/-- The blocks of the cases are translated. -/
theorem trans_call {φ} {F : Fl φ} {O : Objs} {R : Option NT} {G : Nat → Option (Sig φ)} {K : Oracle φ} {T : List (XInstr φ)} {v f args S} (h : Trans F O R G K T (.call v f args) S) :
    ∃ g seg n, S = straight seg n ∧ G f = some g ∧ CallOK g v args ∧ Fits T n seg ∧ ∀ m d, WellTyped (storeOf m) → CallRun F O K g v f args seg m d := by
  cases h with
  | call a b c d => exact ⟨_, _, _, rfl, a, b, c, d⟩

theorem trans_select {φ} {F : Fl φ} {O : Objs} {R : Option NT} {G : Nat → Option (Sig φ)} {K : Oracle φ} {T : List (XInstr φ)} {s S} (h : Trans F O R G K T s S) :
    Trans F O R G K T s.entry S.entry ∧ ∀ x, Trans F O R G K T (s.select x) (S.select x) := by
  induction h with
  | caseFall _ ih =>
    refine ⟨ih.1, fun x => ?_⟩
    simp only [Stat.select, Stmt.select]
    split
    · exact ih.1
    · exact ih.2 x
  | caseRun hb _ _ ih =>
    refine ⟨hb, fun x => ?_⟩
    simp only [Stat.select, Stmt.select]
    split
    · exact hb
    · exact ih.2 x
  | dflt hb _ => exact ⟨hb, fun x => hb⟩
  | @expr e S a ho =>
    have : S.entry = .skip ∧ ∀ x, S.select x = .skip := by
      have ho := ho.1
      cases S <;> first | exact ⟨rfl, fun _ => rfl⟩ | cases ho
    rw [this.1]
    exact ⟨.skip, fun x => by rw [this.2]; exact .skip⟩
  | call _ _ _ _ =>
    rename_i seg n _ _ _ _
    have : (straight seg n).entry = .skip ∧ ∀ x, (straight seg n).select x = .skip := by cases seg <;> exact ⟨rfl, fun _ => rfl⟩
    rw [this.1]
    exact ⟨.skip, fun x => by rw [this.2]; exact .skip⟩
  | _ => exact ⟨.skip, fun x => .skip⟩

theorem At.leave {φ} {p : Point (BMem φ)} {w : World φ} (h : At p w) (n : Nat) : At (p.leave n) w := h
theorem AtEnd.leave {φ} {R : Option NT} {r : Stop} {p : Point (BMem φ)} {w : World φ} (h : AtEnd R r p w) (n : Nat) : AtEnd R r (p.leave n) w := by
  cases r <;> exact h
theorem atEnd_go {φ} {R : Option NT} {r : Stop} {p : Point (BMem φ)} {w : World φ} (hr : r = .normal ∨ r = .next) (h : AtEnd R r p w) : At p w := by
  rcases hr with rfl | rfl <;> exact h
theorem AtEnd.atSwitch {φ} {R : Option NT} {r : Stop} {p : Point (BMem φ)} {w : World φ} (h : AtEnd R r p w) : AtEnd R r.atSwitch p w := by
  cases r <;> exact h

theorem forward {φ} (F : Fl φ) (O : Objs) (R : Option NT) (G : Nat → Option (Sig φ)) (C : Calls φ) (K : Oracle φ) (hK : Serves G C K) (T : List (XInstr φ)) {d : Doing φ} {w : World φ} {r : Stop} {w' : World φ} (h : Exec F O R G C d w r w') :
    match d with
    | .stat s => ∀ S, Trans F O R G K T s S → ∀ p, At p w → ∃ q, Runs (interp F O K T) (.stmt S) p r.toEnd q ∧ AtEnd R r q w'
    | .cond u c t e => ∀ X v Y Z, CondSim F O (interp F O K T) u c X v → Trans F O R G K T t Y → Trans F O R G K T e Z →
        ∀ p, At p w → ∃ q, Runs (interp F O K T) (.cond X v Y Z) p r.toEnd q ∧ AtEnd R r q w'
    | .iter c inc body => ∀ X v Y Z, CondSim F O (interp F O K T) false c X v → Trans F O R G K T (.ofOption inc) Y → Trans F O R G K T body Z →
        ∀ p, At p w → ∃ q, Runs (interp F O K T) (.iter X v Y Z) p r.toEnd q ∧ AtEnd R r q w' := by
  induction h with
  | skip w => intro S hS p hp; cases hS; exact ⟨p, .skip p, hp⟩
  | seq _ _ ih1 ih2 =>
    intro S hS p hp
    cases hS with
    | seq a b =>
      obtain ⟨q, h1, h2⟩ := ih1 _ a p hp
      obtain ⟨u, h3, h4⟩ := ih2 _ b q h2
      exact ⟨u, .seq h1 h3, h4⟩
  | seqExit _ hr ih =>
    intro S hS p hp
    cases hS with
    | seq a b =>
      obtain ⟨q, h1, h2⟩ := ih _ a p hp
      exact ⟨q, .seqExit h1 (toEnd_normal hr), h2⟩
  | expr he =>
    intro S hS p hp
    cases hS with
    | expr a _ =>
      have g := a p _ hp
      rw [he] at g
      exact g
  | exprThrows he =>
    intro S hS p hp
    cases hS with
    | expr a _ =>
      have g := a p _ hp
      rw [he] at g
      exact g
  | block _ ih =>
    intro S hS p hp
    cases hS with
    | block a =>
      obtain ⟨q, h1, h2⟩ := ih _ a p hp
      exact ⟨_, .block h1, h2.leave _⟩
  | decl v w =>
    intro S hS p hp
    cases hS with
    | decl hk =>
      obtain ⟨m, sd, m1, mx, mr, m2, m3⟩ := hp
      refine ⟨_, .seq (.act _ p) (.skip _), (m.set v.ty (.user v.id) (zeroVal F v.ty)), sd, by simp [interp, m1, execAt, hk, xstep, xexec, userVar], mx, mr, ?_, ?_⟩
      · rw [← m2]; exact zero_store F m v
      · exact TypedStore.set m3 v _ (initial_ty F v.ty)
  | @cond u c t e w s n r w1 hj _ ih =>
    intro X v Y Z hX hY hZ p hp
    have g := hX p _ hp
    rw [hj] at g
    obtain ⟨q, g1, g2, g3⟩ := g
    have ih : ∀ S, Trans F O R G K T (if n = 0 ↔ u = true then t else e) S → ∀ p, At p { w with store := s } →
        ∃ q, Runs (interp F O K T) (.stmt S) p r.toEnd q ∧ AtEnd R r q w1 := ih
    by_cases hn : n = 0 ↔ u = true
    · rw [if_pos hn] at ih
      obtain ⟨x, h1, h2⟩ := ih _ hY q g2
      exact ⟨_, .condTrue g1 (g3.2 hn) h1, h2⟩
    · rw [if_neg hn] at ih
      obtain ⟨x, h1, h2⟩ := ih _ hZ q g2
      exact ⟨_, .condFalse g1 (Classical.byContradiction fun h => hn (g3.1 h)) h1, h2⟩
  | whenThrows hj =>
    intro X v Y Z hX hY hZ p hp
    have g := hX p _ hp
    rw [hj] at g
    obtain ⟨q, g1, g2⟩ := g
    exact ⟨_, .condExit g1 (toEnd_normal (r := .exc) (by simp)), g2⟩
  | ifs _ ih =>
    intro S hS p hp
    cases hS with
    | ifs a _ b b' =>
      obtain ⟨q, h1, h2⟩ := ih _ _ _ _ a b b' p hp
      exact ⟨_, .ifs h1, h2.leave _⟩
  | elif _ ih =>
    intro S hS p hp
    cases hS with
    | elif a _ b b' =>
      obtain ⟨q, h1, h2⟩ := ih _ _ _ _ a b b' p hp
      exact ⟨_, .elif h1, h2.leave _⟩
  | loop _ _ ih1 ih2 =>
    intro S hS p hp
    cases hS with
    | loop a _ b _ c _ d =>
      obtain ⟨q, h1, h2⟩ := ih1 _ a p hp
      obtain ⟨x, h3, h4⟩ := ih2 _ _ _ _ b c d q h2
      exact ⟨_, .loop h1 h3, h4.leave _⟩
  | loopExit _ hr ih =>
    intro S hS p hp
    cases hS with
    | loop a _ b _ c _ d =>
      obtain ⟨q, h1, h2⟩ := ih _ a p hp
      exact ⟨_, .loopExit h1 (toEnd_normal hr), h2.leave _⟩
  | done hj =>
    intro X v Y Z hX hY hZ p hp
    have g := hX p _ hp
    rw [hj] at g
    obtain ⟨q, g1, g2, g3⟩ := g
    exact ⟨q, .iterDone g1 (Classical.byContradiction fun h => by simpa using g3.1 h), g2⟩
  | condThrows hj =>
    intro X v Y Z hX hY hZ p hp
    have g := hX p _ hp
    rw [hj] at g
    obtain ⟨q, g1, g2⟩ := g
    exact ⟨q, .iterCond g1 (toEnd_normal (r := .exc) (by simp)), g2⟩
  | bodyLast hj hn _ ih =>
    intro X v Y Z hX hY hZ p hp
    have g := hX p _ hp
    rw [hj] at g
    obtain ⟨q, g1, g2, g3⟩ := g
    obtain ⟨x, h1, h2⟩ := ih _ hZ q g2
    exact ⟨_, .iterLast g1 (g3.2 (by simp [hn])) (.block h1), h2.leave _⟩
  | bodyExit hj hn _ n1 n2 n3 ih =>
    intro X v Y Z hX hY hZ p hp
    have g := hX p _ hp
    rw [hj] at g
    obtain ⟨q, g1, g2, g3⟩ := g
    obtain ⟨x, h1, h2⟩ := ih _ hZ q g2
    exact ⟨_, .iterExit g1 (g3.2 (by simp [hn])) (.block h1) (toEnd_ne n1) (toEnd_ne (r' := .next) n2) (toEnd_ne (r' := .last) n3), h2.leave _⟩
  | again hj hn _ hr _ _ ih1 ih2 ih3 =>
    intro X v Y Z hX hY hZ p hp
    have g := hX p _ hp
    rw [hj] at g
    obtain ⟨q, g1, g2, g3⟩ := g
    obtain ⟨x, h1, h2⟩ := ih1 _ hZ q g2
    replace h2 := atEnd_go hr h2
    obtain ⟨y, h3, h4⟩ := ih2 _ hY _ (h2.leave q.open_.length)
    obtain ⟨z, h5, h6⟩ := ih3 _ _ _ _ hX hY hZ y h4
    refine ⟨z, .iterNext g1 (g3.2 (by simp [hn])) (.block h1) ?_ h3 h5, h6⟩
    rcases hr with rfl | rfl <;> simp [Stop.toEnd]
  | incExit hj hn _ hr _ hr' ih1 ih2 =>
    intro X v Y Z hX hY hZ p hp
    have g := hX p _ hp
    rw [hj] at g
    obtain ⟨q, g1, g2, g3⟩ := g
    obtain ⟨x, h1, h2⟩ := ih1 _ hZ q g2
    replace h2 := atEnd_go hr h2
    obtain ⟨y, h3, h4⟩ := ih2 _ hY _ (h2.leave q.open_.length)
    refine ⟨y, .iterInc g1 (g3.2 (by simp [hn])) (.block h1) ?_ h3 (toEnd_normal hr'), h4⟩
    rcases hr with rfl | rfl <;> simp [Stop.toEnd]
  | next w => intro S hS p hp; cases hS; exact ⟨p, .next p, hp⟩
  | last w => intro S hS p hp; cases hS; exact ⟨p, .last p, hp⟩
  | brk w => intro S hS p hp; cases hS; exact ⟨p, .brk p, hp⟩
  | ret w =>
    intro S hS p hp
    cases hS with
    | ret hR hk =>
      obtain ⟨m, sd, m1, mx, mr, m2, m3⟩ := hp
      subst hR
      exact ⟨_, .ret _ p, m, sd, by simp [interp, m1, execAt, hk, xstep, xexec], mx, mr, m2, m3⟩
  | @give e t w s x hR he =>
    intro S hS p hp
    cases hS with
    | give hR' a ho hk =>
      rw [hR] at hR'; injection hR' with hR'; subst hR'
      have g := a p _ hp
      rw [he] at g
      obtain ⟨q, g1, ⟨m, sd, m1, mx, mr, m2, m3⟩, gt, g3⟩ := g
      subst hR
      exact ⟨_, .seq g1 (.ret _ q), m, sd.set 0 (t, x), by simp [interp, m1, execAt, hk, xstep, xexec, g3 m _ m1], mx, ⟨x, rfl, rfl, gt⟩, m2, m3⟩
  | giveThrows hR he =>
    intro S hS p hp
    cases hS with
    | give hR' a ho hk =>
      rw [hR] at hR'; injection hR' with hR'; subst hR'
      have g := a p _ hp
      rw [he] at g
      obtain ⟨q, g1, g2⟩ := g
      exact ⟨q, .seqExit g1 (toEnd_normal (r := .exc) (by simp)), g2⟩
  | @switch e cs w s n r w1 he _ ih =>
    intro S hS p hp
    cases hS with
    | @switch _ _ X v CS a ho b =>
      have g := a p _ hp
      rw [he] at g
      obtain ⟨q, g1, g2, _, g3⟩ := g
      have hv : (interp F O K T).ival v.slot q.st = n := by
        obtain ⟨m, _, m1, _⟩ := g2
        exact ival_slot F O K T _ m n q.st _ m1 (g3 m _ m1)
      obtain ⟨u, h1, h2⟩ := ih _ ((trans_select b).2 n) q g2
      rw [← toEnd_atSwitch]
      exact ⟨_, .switch g1 (by rw [hv]; exact h1), h2.atSwitch.leave _⟩
  | switchThrows he =>
    intro S hS p hp
    cases hS with
    | switch a ho b =>
      have g := a p _ hp
      rw [he] at g
      obtain ⟨q, g1, g2⟩ := g
      exact ⟨q, .switchExit g1 (toEnd_normal (r := .exc) (by simp)), g2⟩
  | @call f args g w s vs a hg he hC ha =>
    intro S hS p hp
    obtain ⟨g', seg, n, rfl, hg', hok, hf, hrun⟩ := trans_call hS
    rw [hg] at hg'; cases hg'
    obtain ⟨m, sd, m1, mx, mr, m2, m3⟩ := hp
    have c := hrun m sd (by rw [m2]; exact m3)
    unfold CallRun at c
    rw [m2, he] at c
    obtain ⟨d1, c1, c2, c3, _, _, c6⟩ := c
    obtain ⟨d', k1, k2, k3⟩ := hK f g vs d1 a hg c2 (by rw [c1, mx]; exact hC)
    rw [ha] at k1
    obtain ⟨m', e1, e2⟩ := c6 d' k1 (fun t ht => by obtain ⟨x, _, y, z⟩ := k3 ha t ht; exact ⟨x, y, z⟩)
    have dd := straight_runs F O K T seg n m sd hf
    rw [e1] at dd
    obtain ⟨q, q1, q2⟩ := dd p m1
    exact ⟨q, q1, m', d', q2, k2, mr, e2, c3⟩
  | @callSet v f args g w s vs a t x y hg he hC ha hres hcv =>
    intro S hS p hp
    obtain ⟨g', seg, n, rfl, hg', hok, hf, hrun⟩ := trans_call hS
    rw [hg] at hg'; cases hg'
    obtain ⟨m, sd, m1, mx, mr, m2, m3⟩ := hp
    have c := hrun m sd (by rw [m2]; exact m3)
    unfold CallRun at c
    rw [m2, he] at c
    obtain ⟨d1, c1, c2, c3, _, _, c6⟩ := c
    obtain ⟨d', k1, k2, k3⟩ := hK f g vs d1 a hg c2 (by rw [c1, mx]; exact hC)
    rw [ha] at k1
    obtain ⟨m', e1, e2⟩ := c6 d' k1 (fun t ht => by obtain ⟨x, _, y, z⟩ := k3 ha t ht; exact ⟨x, y, z⟩)
    have dd := straight_runs F O K T seg n m sd hf
    rw [e1] at dd
    obtain ⟨q, q1, q2⟩ := dd p m1
    obtain ⟨t', ht', _⟩ := hok.dst v rfl
    obtain ⟨x', z1, z2, z3⟩ := k3 ha t' ht'
    obtain ⟨t2, x2, y2, u1, u2, u3, u4, u5⟩ := e2
    rw [ht'] at u1; cases u1
    rw [z2] at u2; cases u2
    rw [hres] at z1; cases z1
    rw [hcv] at u3; cases u3
    exact ⟨q, q1, m', d', q2, k2, mr, u5, TypedStore.set c3 v _ u4⟩
  | @callThrows v f args g w s vs a hg he hC ha =>
    intro S hS p hp
    obtain ⟨g', seg, n, rfl, hg', hok, hf, hrun⟩ := trans_call hS
    rw [hg] at hg'; cases hg'
    obtain ⟨m, sd, m1, mx, mr, m2, m3⟩ := hp
    have c := hrun m sd (by rw [m2]; exact m3)
    unfold CallRun at c
    rw [m2, he] at c
    obtain ⟨d1, c1, c2, c3, _, c5, _⟩ := c
    obtain ⟨d', k1, k2, k3⟩ := hK f g vs d1 a hg c2 (by rw [c1, mx]; exact hC)
    rw [ha] at k1
    obtain ⟨m', e1, e2⟩ := c5 d' 0 k1
    have dd := straight_runs F O K T seg n m sd hf
    rw [e1] at dd
    obtain ⟨q, q1, q2⟩ := dd p m1
    exact ⟨q, q1, m', d', q2, k2, mr, e2, c3⟩
  | @argsThrow v f args g w msg s hg he =>
    intro S hS p hp
    obtain ⟨g', seg, n, rfl, hg', hok, hf, hrun⟩ := trans_call hS
    rw [hg] at hg'; cases hg'
    obtain ⟨m, sd, m1, mx, mr, m2, m3⟩ := hp
    have c := hrun m sd (by rw [m2]; exact m3)
    unfold CallRun at c
    rw [m2, he] at c
    obtain ⟨m', e1, e2, e3⟩ := c
    have dd := straight_runs F O K T seg n m sd hf
    rw [e1] at dd
    obtain ⟨q, q1, q2⟩ := dd p m1
    exact ⟨q, q1, m', _, q2, rfl, mr, e2, e3⟩
  | eval _ hr ih =>
    intro S hS p hp
    cases hS with
    | eval a =>
      obtain ⟨m, sd, m1, mx, mr, m2, m3⟩ := hp
      obtain ⟨q, h1, h2⟩ := ih _ a { p with st := { p.st with mem := (interp F O K T).enter p.st.mem } } ⟨m, { sd with exc := none }, by simp [interp, m1], rfl, mr, m2, m3⟩
      refine ⟨_, .eval (.block h1) ?_, h2.leave _⟩
      intro e he
      cases hr' : (‹Stop› : Stop) <;> simp_all [Stop.toEnd]
  | caught _ ih =>
    intro S hS p hp
    cases hS with
    | eval a =>
      obtain ⟨m, sd, m1, mx, mr, m2, m3⟩ := hp
      obtain ⟨q, h1, h2⟩ := ih _ a { p with st := { p.st with mem := (interp F O K T).enter p.st.mem } } ⟨m, { sd with exc := none }, by simp [interp, m1], rfl, mr, m2, m3⟩
      exact ⟨_, .evalCatch (.block h1), h2.leave _⟩

/-! ## What happens is what the documentation says -/

theorem lost_stays {φ} (F : Fl φ) (O : Objs) (K : Oracle φ) (T : List (XInstr φ)) {t p r q} (h : Runs (interp F O K T) t p r q) : Lost p → Lost q := by
  unfold Lost
  induction h with
  | skip => exact id
  | seq _ _ a b => exact fun h => b (a h)
  | seqExit _ _ a => exact a
  | act k p => intro h; simp [interp, h, execAt]
  | @callOk k p _ => intro h; simp [interp, h, execAt]
  | @callThrow k p _ => intro h; simp [interp, h, execAt]
  | decl => exact id
  | next => exact id
  | last => exact id
  | brk => exact id
  | ret k p => intro h; simp [interp, h, execAt]
  | condTrue _ _ _ a b => exact fun h => b (a h)
  | condFalse _ _ _ a b => exact fun h => b (a h)
  | condExit _ _ a => exact a
  | choose _ a => exact a
  | block _ a => exact a
  | ifs _ a => exact a
  | elif _ a => exact a
  | loop _ _ a b => exact fun h => b (a h)
  | loopExit _ _ a => exact a
  | iterDone _ _ a => exact a
  | iterCond _ _ a => exact a
  | iterLast _ _ _ a b => exact fun h => b (a h)
  | iterExit _ _ _ _ _ _ a b => exact fun h => b (a h)
  | iterNext _ _ _ _ _ _ a b c d => exact fun h => d (c (b (a h)))
  | iterInc _ _ _ _ _ _ a b c => exact fun h => c (b (a h))
  | switch _ _ a b => exact fun h => b (a h)
  | switchExit _ _ a => exact a
  | eval _ _ a => exact fun h => a (by simp [interp, h])
  | evalCatch _ a => intro h; have := a (by simp [interp, h]); simp [interp, this]

/-- Whatever the code of `S` does is what the statement `s` does. -/
def Back {φ} (F : Fl φ) (O : Objs) (R : Option NT) (G : Nat → Option (Sig φ)) (C : Calls φ) (K : Oracle φ) (T : List (XInstr φ)) (s : Stat φ) (S : Stmt) : Prop :=
  ∀ p w r q, At p w → Runs (interp F O K T) (.stmt S) p r q → Lost q ∨ ∃ r' w', Exec F O R G C (.stat s) w r' w' ∧ r = r'.toEnd ∧ AtEnd R r' q w'

theorem iter_back {φ} {F : Fl φ} {O : Objs} {R : Option NT} {G : Nat → Option (Sig φ)} {C : Calls φ} {K : Oracle φ} {T : List (XInstr φ)} {c : Cond φ} {inc : Option (Expr φ)} {body : Stat φ} {X v Y Z}
    (hX : CondSim F O (interp F O K T) false c X v) (hop : X.isOperator = true) (hY : Back F O R G C K T (.ofOption inc) Y) (hZ : Back F O R G C K T body Z)
    {t p r q} (h : Runs (interp F O K T) t p r q) : t = .iter X v Y Z → ∀ w, At p w →
      Lost q ∨ ∃ r' w', Exec F O R G C (.iter c inc body) w r' w' ∧ r = r'.toEnd ∧ AtEnd R r' q w' := by
  -- The condition.
  have hc : ∀ p w r q, At p w → Runs (interp F O K T) (.stmt X) p r q → Lost q ∨
      (r = .normal ∧ ∃ s n, judge F O c w.store = .val s n ∧ At q { w with store := s } ∧ ((interp F O K T).ival v q.st ≠ 0 ↔ n ≠ 0)) ∨
      (r = .exc 1 ∧ ∃ msg s, judge F O c w.store = .throws msg s ∧ At q { w with store := s, exc := some msg }) := by
    intro p w r q hp hr
    have g := hX p w hp
    cases hj : judge F O c w.store with
    | undefined =>
      rw [hj] at g
      obtain ⟨q', g1, g2⟩ := g
      obtain ⟨_, rfl⟩ := operator_det _ X hop _ _ _ _ _ hr g1
      exact .inl g2
    | val s n =>
      rw [hj] at g
      obtain ⟨q', g1, g2, g3⟩ := g
      obtain ⟨rfl, rfl⟩ := operator_det _ X hop _ _ _ _ _ hr g1
      exact .inr (.inl ⟨rfl, s, n, rfl, g2, by rw [g3]; simp⟩)
    | throws msg s =>
      rw [hj] at g
      obtain ⟨q', g1, g2⟩ := g
      obtain ⟨rfl, rfl⟩ := operator_det _ X hop _ _ _ _ _ hr g1
      exact .inr (.inr ⟨rfl, msg, s, rfl, g2⟩)
  -- The body, with its block.
  have hb : ∀ p w r q, At p w → Runs (interp F O K T) (.stmt (.block Z)) p r q → Lost q ∨
      ∃ r' w', Exec F O R G C (.stat body) w r' w' ∧ r = r'.toEnd ∧ AtEnd R r' q w' := by
    intro p w r q hp hr
    cases hr with
    | block hr =>
      rcases hZ p w _ _ hp hr with h | ⟨r', w', h1, h2, h3⟩
      · exact .inl h
      · exact .inr ⟨r', w', h1, h2, h3.leave _⟩
  induction h with
  | iterDone h1 hv =>
    intro ht w hw; cases ht
    rcases hc _ w _ _ hw h1 with h | ⟨_, s, n, j, a, b⟩ | ⟨h, _⟩
    · exact .inl h
    · have hn : n = 0 := Classical.byContradiction fun h => b.2 h hv
      subst hn
      exact .inr ⟨.normal, _, .done j, rfl, a⟩
    · cases h
  | iterCond h1 hr =>
    intro ht w hw; cases ht
    rcases hc _ w _ _ hw h1 with h | ⟨h, _⟩ | ⟨h, msg, s, j, a⟩
    · exact .inl h
    · exact absurd h hr
    · exact .inr ⟨.exc, _, .condThrows j, h, a⟩
  | iterLast h1 hv h2 =>
    intro ht w hw; cases ht
    rcases hc _ w _ _ hw h1 with h | ⟨_, s, n, j, a, b⟩ | ⟨h, _⟩
    · exact .inl (by have := lost_stays F O K T h2 h; exact this)
    · rcases hb _ _ _ _ a h2 with h | ⟨r', w', e, hr, hq⟩
      · exact .inl h
      · cases r' <;> simp [Stop.toEnd] at hr
        exact .inr ⟨.normal, _, .bodyLast j (b.1 hv) e, rfl, hq⟩
    · cases h
  | iterExit h1 hv h2 n1 n2 n3 =>
    intro ht w hw; cases ht
    rcases hc _ w _ _ hw h1 with h | ⟨_, s, n, j, a, b⟩ | ⟨h, _⟩
    · exact .inl (by have := lost_stays F O K T h2 h; exact this)
    · rcases hb _ _ _ _ a h2 with h | ⟨r', w', e, hr, hq⟩
      · exact .inl h
      · subst hr
        exact .inr ⟨r', _, .bodyExit j (b.1 hv) e (fun h => n1 (by rw [h]; rfl)) (fun h => n2 (by rw [h]; rfl)) (fun h => n3 (by rw [h]; rfl)), rfl, hq⟩
    · cases h
  | iterNext h1 hv h2 hn h3 h4 _ _ _ ih =>
    intro ht w hw
    have ht' := ht
    cases ht
    rcases hc _ w _ _ hw h1 with h | ⟨_, s, n, j, a, b⟩ | ⟨h, _⟩
    · exact .inl (lost_stays F O K T h4 (lost_stays F O K T h3 (lost_stays F O K T h2 h)))
    · rcases hb _ _ _ _ a h2 with h | ⟨r1, w1, e1, hr1, hq1⟩
      · exact .inl (lost_stays F O K T h4 (lost_stays F O K T h3 h))
      · replace hq1 := atEnd_go (by subst hr1; exact hn.imp (fun h => toEnd_inj (r' := .normal) h) (fun h => toEnd_inj (r' := .next) h)) hq1
        rcases hY _ _ _ _ hq1 h3 with h | ⟨r2, w2, e2, hr2, hq2⟩
        · exact .inl (lost_stays F O K T h4 h)
        · have : r2 = .normal := (toEnd_inj (r := .normal) hr2).symm
          subst this
          rcases ih ht' w2 hq2 with h | ⟨r3, w3, e3, hr3, hq3⟩
          · exact .inl h
          · refine .inr ⟨r3, w3, .again j (b.1 hv) e1 ?_ e2 e3, hr3, hq3⟩
            subst hr1
            exact hn.imp (fun h => toEnd_inj (r' := .normal) h) (fun h => toEnd_inj (r' := .next) h)
    · cases h
  | iterInc h1 hv h2 hn h3 hr' =>
    intro ht w hw; cases ht
    rcases hc _ w _ _ hw h1 with h | ⟨_, s, n, j, a, b⟩ | ⟨h, _⟩
    · exact .inl (lost_stays F O K T h3 (lost_stays F O K T h2 h))
    · rcases hb _ _ _ _ a h2 with h | ⟨r1, w1, e1, hr1, hq1⟩
      · exact .inl (lost_stays F O K T h3 h)
      · replace hq1 := atEnd_go (by subst hr1; exact hn.imp (fun h => toEnd_inj (r' := .normal) h) (fun h => toEnd_inj (r' := .next) h)) hq1
        rcases hY _ _ _ _ hq1 h3 with h | ⟨r2, w2, e2, hr2, hq2⟩
        · exact .inl h
        · refine .inr ⟨r2, w2, .incExit j (b.1 hv) e1 ?_ e2 ?_, hr2, hq2⟩
          · cases r1 <;> simp_all [Stop.toEnd]
          · intro h; subst h; exact hr' hr2
    · cases h
  | _ => intro ht; cases ht

/-- A conditional. -/
theorem cond_back {φ} {F : Fl φ} {O : Objs} {R : Option NT} {G : Nat → Option (Sig φ)} {C : Calls φ} {K : Oracle φ} {T : List (XInstr φ)} {u : Bool} {c : Cond φ} {t e : Stat φ} {X v Y Z}
    (a : CondSim F O (interp F O K T) u c X v) (ho : Plain X) (iht : Back F O R G C K T t Y) (ihe : Back F O R G C K T e Z) {p w r q} (hp : At p w)
    (hr : Runs (interp F O K T) (.cond X v Y Z) p r q) : Lost q ∨ ∃ r' w', Exec F O R G C (.cond u c t e) w r' w' ∧ r = r'.toEnd ∧ AtEnd R r' q w' := by
  have g := a p w hp
  -- What the condition did.
  have key : ∀ r0 q0, Runs (interp F O K T) (.stmt X) p r0 q0 → Lost q0 ∨
      (r0 = .normal ∧ ∃ s n, judge F O c w.store = .val s n ∧ At q0 { w with store := s } ∧ ((interp F O K T).ival v q0.st ≠ 0 ↔ (n = 0 ↔ u = true))) ∨
      (r0 = .exc 1 ∧ ∃ msg s, judge F O c w.store = .throws msg s ∧ At q0 { w with store := s, exc := some msg }) := by
    intro r0 q0 hr0
    cases hj : judge F O c w.store with
    | undefined =>
      rw [hj] at g
      obtain ⟨q', g1, g2⟩ := g
      obtain ⟨_, rfl⟩ := operator_det _ X ho.1 _ _ _ _ _ hr0 g1
      exact .inl g2
    | val s n =>
      rw [hj] at g
      obtain ⟨q', g1, g2, g3⟩ := g
      obtain ⟨rfl, rfl⟩ := operator_det _ X ho.1 _ _ _ _ _ hr0 g1
      exact .inr (.inl ⟨rfl, s, n, rfl, g2, g3⟩)
    | throws msg s =>
      rw [hj] at g
      obtain ⟨q', g1, g2⟩ := g
      obtain ⟨rfl, rfl⟩ := operator_det _ X ho.1 _ _ _ _ _ hr0 g1
      exact .inr (.inr ⟨rfl, msg, s, rfl, g2⟩)
  cases hr with
  | condTrue h1 hv h2 =>
    rcases key _ _ h1 with h | ⟨_, s, n, j, b, hn⟩ | ⟨h, _⟩
    · exact .inl (by have := lost_stays F O K T h2 h; exact this)
    · rcases iht _ _ _ _ b h2 with h | ⟨r1, w1, e1, hr1, hq1⟩
      · exact .inl h
      · exact .inr ⟨r1, w1, .cond j (by rw [if_pos (hn.1 hv)]; exact e1), hr1, hq1⟩
    · cases h
  | condFalse h1 hv h2 =>
    rcases key _ _ h1 with h | ⟨_, s, n, j, b, hn⟩ | ⟨h, _⟩
    · exact .inl (by have := lost_stays F O K T h2 h; exact this)
    · rcases ihe _ _ _ _ b h2 with h | ⟨r1, w1, e1, hr1, hq1⟩
      · exact .inl h
      · exact .inr ⟨r1, w1, .cond j (by rw [if_neg (fun h => hn.2 h hv)]; exact e1), hr1, hq1⟩
    · cases h
  | condExit h1 hv =>
    rcases key _ _ h1 with h | ⟨h, _⟩ | ⟨h, msg, s, j, b⟩
    · exact .inl h
    · exact absurd h hv
    · exact .inr ⟨.exc, _, .whenThrows j, h, b⟩

theorem skip_back {φ} {F : Fl φ} {O : Objs} {R : Option NT} {G : Nat → Option (Sig φ)} {C : Calls φ} {K : Oracle φ} {T : List (XInstr φ)} : Back F O R G C K T .skip .skip := by
  intro p w r q hp hr; cases hr; exact .inr ⟨.normal, w, .skip w, rfl, hp⟩

theorem backward {φ} (F : Fl φ) (O : Objs) (R : Option NT) (G : Nat → Option (Sig φ)) (C : Calls φ) (K : Oracle φ) (hK : Reflects G C K) (T : List (XInstr φ)) {s : Stat φ} {S : Stmt} (h : Trans F O R G K T s S) :
    Back F O R G C K T s S ∧ Back F O R G C K T s.entry S.entry ∧ ∀ x, Back F O R G C K T (s.select x) (S.select x) := by
  induction h with
  | skip => exact ⟨skip_back, skip_back, fun _ => skip_back⟩
  | next => exact ⟨fun p w r q hp hr => by cases hr; exact .inr ⟨.next, w, .next w, rfl, hp⟩, skip_back, fun _ => skip_back⟩
  | brk => exact ⟨fun p w r q hp hr => by cases hr; exact .inr ⟨.brk, w, .brk w, rfl, hp⟩, skip_back, fun _ => skip_back⟩
  | last => exact ⟨fun p w r q hp hr => by cases hr; exact .inr ⟨.last, w, .last w, rfl, hp⟩, skip_back, fun _ => skip_back⟩
  | ret hR hk =>
    refine ⟨fun p w r q hp hr => ?_, skip_back, fun _ => skip_back⟩
    cases hr
    obtain ⟨m, sd, m1, mx, mr, m2, m3⟩ := hp
    subst hR
    exact .inr ⟨.ret, w, .ret w, rfl, m, sd, by simp [interp, m1, execAt, hk, xstep, xexec], mx, mr, m2, m3⟩
  | seq _ _ ih1 ih2 =>
    refine ⟨fun p w r q hp hr => ?_, skip_back, fun _ => skip_back⟩
    cases hr with
    | seq h1 h2 =>
      rcases ih1.1 _ _ _ _ hp h1 with h | ⟨r1, w1, e1, hr1, hq1⟩
      · exact .inl (by have := lost_stays F O K T h2 h; exact this)
      · have : r1 = .normal := (toEnd_inj (r := .normal) hr1).symm
        subst this
        rcases ih2.1 _ _ _ _ hq1 h2 with h | ⟨r2, w2, e2, hr2, hq2⟩
        · exact .inl h
        · exact .inr ⟨r2, w2, .seq e1 e2, hr2, hq2⟩
    | seqExit h1 hn =>
      rcases ih1.1 _ _ _ _ hp h1 with h | ⟨r1, w1, e1, hr1, hq1⟩
      · exact .inl h
      · exact .inr ⟨r1, w1, .seqExit e1 (by intro h; subst h; exact hn hr1), hr1, hq1⟩
  | @expr e S a ho =>
    have hskip : S.entry = .skip ∧ ∀ x, S.select x = .skip := by
      have ho := ho.1
      cases S <;> first | exact ⟨rfl, fun _ => rfl⟩ | cases ho
    refine ⟨fun p w r q hp hr => ?_, by rw [hskip.1]; exact skip_back, fun x => by rw [hskip.2]; exact skip_back⟩
    have g := a p w hp
    cases hj : Expr.eval F e w.store with
    | undefined =>
      rw [hj] at g
      obtain ⟨q', g1, g2⟩ := g
      obtain ⟨_, rfl⟩ := operator_det _ S ho.1 _ _ _ _ _ hr g1
      exact .inl g2
    | val s x =>
      rw [hj] at g
      obtain ⟨q', g1, g2⟩ := g
      obtain ⟨rfl, rfl⟩ := operator_det _ S ho.1 _ _ _ _ _ hr g1
      exact .inr ⟨.normal, _, .expr hj, rfl, g2⟩
    | throws msg s =>
      rw [hj] at g
      obtain ⟨q', g1, g2⟩ := g
      obtain ⟨rfl, rfl⟩ := operator_det _ S ho.1 _ _ _ _ _ hr g1
      exact .inr ⟨.exc, _, .exprThrows hj, rfl, g2⟩
  | @decl v k hk =>
    refine ⟨fun p w r q hp hr => ?_, skip_back, fun _ => skip_back⟩
    obtain ⟨m, sd, m1, mx, mr, m2, m3⟩ := hp
    have g : At { p with st := (interp F O K T).act k p.st } { w with store := w.store.set v (initial F v.ty) } :=
      ⟨m.set v.ty (.user v.id) (zeroVal F v.ty), sd, by simp [interp, m1, execAt, hk, xstep, xexec, userVar], mx, mr, by rw [← m2]; exact zero_store F m v,
        TypedStore.set m3 v _ (initial_ty F v.ty)⟩
    cases hr with
    | seq h1 h2 =>
      cases h1; cases h2
      exact .inr ⟨.normal, _, .decl v w, rfl, g⟩
    | seqExit h1 hn => cases h1; exact absurd rfl hn
  | @give e t X v k hR a ho hk =>
    refine ⟨fun p w r q hp hr => ?_, skip_back, fun _ => skip_back⟩
    have g := a p w hp
    cases hj : Expr.eval F (.cast t e) w.store with
    | undefined =>
      rw [hj] at g
      obtain ⟨q', g1, g2⟩ := g
      cases hr with
      | seq h1 h2 =>
        obtain ⟨_, rfl⟩ := operator_det _ X ho.1 _ _ _ _ _ h1 g1
        exact .inl (lost_stays F O K T h2 g2)
      | seqExit h1 hn => exact absurd (operator_det _ X ho.1 _ _ _ _ _ h1 g1).1 hn
    | throws msg s =>
      rw [hj] at g
      obtain ⟨q', g1, g2⟩ := g
      cases hr with
      | seq h1 h2 => cases (operator_det _ X ho.1 _ _ _ _ _ h1 g1).1
      | seqExit h1 hn =>
        obtain ⟨rfl, rfl⟩ := operator_det _ X ho.1 _ _ _ _ _ h1 g1
        exact .inr ⟨.exc, _, .giveThrows hR hj, rfl, g2⟩
    | val s x =>
      rw [hj] at g
      obtain ⟨q', g1, ⟨m, sd, m1, mx, mr, m2, m3⟩, gt, g3⟩ := g
      subst hR
      cases hr with
      | seq h1 h2 =>
        obtain ⟨_, rfl⟩ := operator_det _ X ho.1 _ _ _ _ _ h1 g1
        cases h2
        exact .inr ⟨.ret, _, .give rfl hj, rfl, m, sd.set 0 (t, x), by simp [interp, m1, execAt, hk, xstep, xexec, g3 m _ m1], mx, ⟨x, rfl, rfl, gt⟩, m2, m3⟩
      | seqExit h1 hn => exact absurd (operator_det _ X ho.1 _ _ _ _ _ h1 g1).1 hn
  | @switch e cs X v CS a ho _ ih =>
    refine ⟨fun p w r q hp hr => ?_, skip_back, fun _ => skip_back⟩
    have g := a p w hp
    cases hj : Expr.eval F (.cast .int e) w.store with
    | undefined =>
      rw [hj] at g
      obtain ⟨q', g1, g2⟩ := g
      cases hr with
      | switch h1 h2 =>
        obtain ⟨_, rfl⟩ := operator_det _ X ho.1 _ _ _ _ _ h1 g1
        exact .inl (by have := lost_stays F O K T h2 g2; exact this)
      | switchExit h1 hn => exact absurd (operator_det _ X ho.1 _ _ _ _ _ h1 g1).1 hn
    | throws msg s =>
      rw [hj] at g
      obtain ⟨q', g1, g2⟩ := g
      cases hr with
      | switch h1 h2 => cases (operator_det _ X ho.1 _ _ _ _ _ h1 g1).1
      | switchExit h1 hn =>
        obtain ⟨rfl, rfl⟩ := operator_det _ X ho.1 _ _ _ _ _ h1 g1
        exact .inr ⟨.exc, _, .switchThrows hj, rfl, g2⟩
    | val s x =>
      rw [hj] at g
      obtain ⟨q', g1, g2, hx, g3⟩ := g
      cases hr with
      | switch h1 h2 =>
        obtain ⟨_, e1⟩ := operator_det _ X ho.1 _ _ _ _ _ h1 g1
        rw [e1] at h2
        cases x with
        | f x => exact absurd (show NT.int.IsInt by decide) hx
        | i n =>
          have hv : (interp F O K T).ival v.slot q'.st = n := by
            obtain ⟨m, _, m1, _⟩ := g2
            exact ival_slot F O K T v m n q'.st _ m1 (g3 m _ m1)
          rw [hv] at h2
          rcases ih.2.2 n _ _ _ _ g2 h2 with h | ⟨r1, w1, e1, hr1, hq1⟩
          · exact .inl h
          · subst hr1
            exact .inr ⟨r1.atSwitch, w1, .switch hj e1, toEnd_atSwitch r1, hq1.atSwitch.leave _⟩
      | switchExit h1 hn => exact absurd (operator_det _ X ho.1 _ _ _ _ _ h1 g1).1 hn
  | caseFall _ ih =>
    refine ⟨fun p w r q hp hr => (by cases hr), ih.2.1, fun x => ?_⟩
    simp only [Stat.select, Stmt.select]
    split
    · exact ih.2.1
    · exact ih.2.2 x
  | caseRun _ _ ihb ihr =>
    refine ⟨fun p w r q hp hr => (by cases hr), ihb.1, fun x => ?_⟩
    simp only [Stat.select, Stmt.select]
    split
    · exact ihb.1
    · exact ihr.2.2 x
  | dflt _ ih => exact ⟨fun p w r q hp hr => (by cases hr), ih.1, fun x => ih.1⟩
  | block _ ih =>
    refine ⟨fun p w r q hp hr => ?_, skip_back, fun _ => skip_back⟩
    cases hr with
    | block h1 =>
      rcases ih.1 _ _ _ _ hp h1 with h | ⟨r1, w1, e1, hr1, hq1⟩
      · exact .inl h
      · exact .inr ⟨r1, w1, .block e1, hr1, hq1.leave _⟩
  | ifs a ho _ _ iht ihe =>
    refine ⟨fun p w r q hp hr => ?_, skip_back, fun _ => skip_back⟩
    cases hr with
    | ifs hr =>
      rcases cond_back a ho iht.1 ihe.1 hp hr with h | ⟨r1, w1, e1, hr1, hq1⟩
      · exact .inl h
      · exact .inr ⟨r1, w1, .ifs e1, hr1, hq1.leave _⟩
  | elif a ho _ _ iht ihe =>
    refine ⟨fun p w r q hp hr => ?_, skip_back, fun _ => skip_back⟩
    cases hr with
    | elif hr =>
      rcases cond_back a ho iht.1 ihe.1 hp hr with h | ⟨r1, w1, e1, hr1, hq1⟩
      · exact .inl h
      · exact .inr ⟨r1, w1, .elif e1, hr1, hq1.leave _⟩
  | loop _ _ a ho _ _ _ ih1 ih2 ih3 =>
    refine ⟨fun p w r q hp hr => ?_, skip_back, fun _ => skip_back⟩
    cases hr with
    | loop h1 h2 =>
      rcases ih1.1 _ _ _ _ hp h1 with h | ⟨r1, w1, e1, hr1, hq1⟩
      · exact .inl (by have := lost_stays F O K T h2 h; exact this)
      · have : r1 = .normal := (toEnd_inj (r := .normal) hr1).symm
        subst this
        rcases iter_back a ho.1 ih2.1 ih3.1 h2 rfl w1 hq1 with h | ⟨r2, w2, e2, hr2, hq2⟩
        · exact .inl h
        · exact .inr ⟨r2, w2, .loop e1 e2, hr2, hq2.leave _⟩
    | loopExit h1 hn =>
      rcases ih1.1 _ _ _ _ hp h1 with h | ⟨r1, w1, e1, hr1, hq1⟩
      · exact .inl h
      · exact .inr ⟨r1, w1, .loopExit e1 (by intro h; subst h; exact hn hr1), hr1, hq1.leave _⟩
  | @call v f args g seg n hg hok hf hrun =>
    have hsk : (straight seg n).entry = .skip ∧ ∀ x, (straight seg n).select x = .skip := by cases seg <;> exact ⟨rfl, fun _ => rfl⟩
    refine ⟨fun p w r q hp hr => ?_, by rw [hsk.1]; exact skip_back, fun x => by rw [hsk.2]; exact skip_back⟩
    obtain ⟨m, sd, m1, mx, mr, m2, m3⟩ := hp
    have c := hrun m sd (by rw [m2]; exact m3)
    have dd := straight_runs F O K T seg n m sd hf
    have det := operator_det (interp F O K T) _ (straight_operator seg n)
    unfold CallRun at c
    rw [m2] at c
    cases he : evalArgs F (g.given args) w.store with
    | undefined =>
      rw [he] at c
      have c : runS F O K seg m sd = .ub := c
      rw [c] at dd
      obtain ⟨q', q1, q2⟩ := dd p m1
      obtain ⟨_, rfl⟩ := det _ _ _ _ _ hr q1
      exact .inl q2
    | throws msg s =>
      rw [he] at c
      obtain ⟨m', e1, e2, e3⟩ := c
      rw [e1] at dd
      obtain ⟨q', q1, q2⟩ := dd p m1
      obtain ⟨rfl, rfl⟩ := det _ _ _ _ _ hr q1
      exact .inr ⟨.exc, _, .argsThrow hg he, rfl, m', _, q2, rfl, mr, e2, e3⟩
    | vals s vs =>
      rw [he] at c
      obtain ⟨d1, c1, c2, c3, c4, c5, c6⟩ := c
      cases hk : K f vs.length d1 with
      | none =>
        rw [c4 hk] at dd
        obtain ⟨q', q1, q2⟩ := dd p m1
        obtain ⟨_, rfl⟩ := det _ _ _ _ _ hr q1
        exact .inl q2
      | some k =>
        obtain ⟨d', e⟩ := k
        obtain ⟨a, k0, k1, k2, k3⟩ := hK f g vs d1 d' e hg c2 hk
        rw [c1, mx] at k0
        cases ha : a.threw with
        | true =>
          rw [ha] at k1; subst k1
          obtain ⟨m', e1, e2⟩ := c5 d' 0 hk
          rw [e1] at dd
          obtain ⟨q', q1, q2⟩ := dd p m1
          obtain ⟨rfl, rfl⟩ := det _ _ _ _ _ hr q1
          exact .inr ⟨.exc, _, .callThrows hg he k0 ha, rfl, m', d', q2, k2, mr, e2, c3⟩
        | false =>
          rw [ha] at k1; subst k1
          obtain ⟨m', e1, e2⟩ := c6 d' hk (fun t ht => by obtain ⟨x, _, y, z⟩ := k3 ha t ht; exact ⟨x, y, z⟩)
          rw [e1] at dd
          obtain ⟨q', q1, q2⟩ := dd p m1
          obtain ⟨rfl, rfl⟩ := det _ _ _ _ _ hr q1
          cases v with
          | none => exact .inr ⟨.normal, _, .call hg he k0 ha, rfl, m', d', q2, k2, mr, e2, c3⟩
          | some v =>
            obtain ⟨t', ht', _⟩ := hok.dst v rfl
            obtain ⟨x', z1, z2, z3⟩ := k3 ha t' ht'
            obtain ⟨t2, x2, y2, u1, u2, u3, u4, u5⟩ := e2
            rw [ht'] at u1; cases u1
            rw [z2] at u2; cases u2
            exact .inr ⟨.normal, _, .callSet hg he k0 ha z1 u3, rfl, m', d', q2, k2, mr, u5, TypedStore.set c3 v _ u4⟩
  | eval _ ih =>
    refine ⟨fun p w r q hp hr => ?_, skip_back, fun _ => skip_back⟩
    obtain ⟨m, sd, m1, mx, mr, m2, m3⟩ := hp
    have hp' : At (φ := φ) { p with st := { p.st with mem := (interp F O K T).enter p.st.mem } } { w with exc := none } := ⟨m, { sd with exc := none }, by simp [interp, m1], rfl, mr, m2, m3⟩
    cases hr with
    | eval h1 hn =>
      cases h1 with
      | block h1 =>
        rcases ih.1 _ _ _ _ hp' h1 with h | ⟨r1, w1, e1, hr1, hq1⟩
        · exact .inl h
        · exact .inr ⟨r1, w1, .eval e1 (by intro h; subst h; exact hn 1 hr1), hr1, hq1.leave _⟩
    | evalCatch h1 =>
      cases h1 with
      | block h1 =>
        rcases ih.1 _ _ _ _ hp' h1 with h | ⟨r1, w1, e1, hr1, hq1⟩
        · exact .inl (by exact h)
        · have : r1 = .exc := by cases r1 <;> simp_all [Stop.toEnd]
          subst this
          exact .inr ⟨.normal, w1, .caught e1, rfl, hq1⟩

end Expr
end SPVM
