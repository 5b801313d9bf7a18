import Verif.Lemmas.BodyCond
import Verif.Spec.Calls
/-!
# Method bodies: arguments and calls
-/
namespace SPVM
namespace Expr
open Flow (Runs Point Stmt)

/-- What code with the counters from `k` to `k'` leaves alone; `vs` are the variables it assigns to. -/
def Leave {φ} (k k' : Count) (vs : List Var) (m m' : Mem φ) : Prop :=
  Below k.tmp m m' ∧ OldFrame k.old k'.old m m' ∧ ∀ v, v ∉ vs → storeOf m' v = storeOf m v

/-- Where a value is: in the variable `h`, or in a hidden variable made between `k` and `k'`. -/
def Locus (k k' : Count) (h : Option Var) (p : MVar) : Prop :=
  (∃ v, h = some v ∧ p = userVar v) ∨ (∃ i, p.id = .old i ∧ k.old ≤ i ∧ i < k'.old) ∨ ∃ i, p.id = .tmp i ∧ k.tmp ≤ i ∧ i < k'.tmp

theorem Locus.stays {φ} {k k1 k2 : Count} {h : Option Var} {p : MVar} (hp : Locus k k1 h p) {vs : List Var} {m m' : Mem φ} (hm : Leave k1 k2 vs m m')
    (hv : ∀ v, h = some v → v ∉ vs) : m' p.ty p.id = m p.ty p.id := by
  rcases hp with ⟨v, h1, rfl⟩ | ⟨i, h1, _, h2⟩ | ⟨i, h1, _, h2⟩
  · exact hm.2.2 v (hv v h1)
  · rw [h1]; exact hm.2.1 _ _ (.inl h2)
  · rw [h1]; exact hm.1 _ _ h2

theorem userVar_inj {v w : Var} (h : userVar v = userVar w) : v = w := by
  obtain ⟨vt, vi⟩ := v
  obtain ⟨wt, wi⟩ := w
  simp only [userVar, MVar.mk.injEq, VarId.user.injEq] at h
  rw [h.1, h.2]

/-- An expression whose value is used. -/
theorem value_code {φ} (F : Fl φ) (e : Expr φ) (h : Fine e) (k : Count) (c : Op φ) (hc : check (build e k.old).1 = .ok c) :
    ∃ code v k', valuePiece c (build e k.old).2 k = .ok ((straight (code.map .op) k.code, code.map .op), ⟨ty e, v⟩, k') ∧ k'.code = k.code + code.length ∧
      k.tmp ≤ k'.tmp ∧ k.old ≤ k'.old ∧ Locus k k' (holder e) ⟨ty e, v⟩ ∧ ∀ m : Mem φ, WellTyped (storeOf m) → match eval F e (storeOf m) with
      | .val s x => ∃ m', run F code m = .ok m' ∧ storeOf m' = s ∧ WellTyped s ∧ m' (ty e) v = x ∧ HasTy (ty e) x ∧ Leave k k' (assigned e) m m'
      | .throws msg s => ∃ m', run F code m = .die msg m' ∧ storeOf m' = s ∧ WellTyped s
      | .undefined => run F code m = .ub := by
  obtain ⟨hl, ht, ha, hk⟩ := h
  obtain ⟨c', h1, h2⟩ := checked e k.old hl ht
  rw [hc] at h1; injection h1 with h1; subst h1
  obtain ⟨h3, _, code, ⟨pt, pv⟩, h4, h5, h6, h8, h7⟩ := (code_correct F c (h2.good True (fun _ => ha) (fun _ => hk))).1 k.tmp
  have h6 : pt = ty e := by rw [← h2.type]; exact h6
  subst h6
  refine ⟨code, pv, ⟨(build e k.old).2, (temps false c k.tmp).2, k.code + code.length⟩, by simp only [valuePiece, Out.ok_bind, h4, h5]; rfl, rfl, h3, h2.mono, ?_,
    fun m hm => ?_⟩
  · rcases h8 with ⟨a, _⟩ | ⟨i, a, b, c⟩
    · rcases h2.holder _ a with ⟨v, b, c⟩ | ⟨i, b⟩
      · exact .inl ⟨v, b, c⟩
      · exact .inr (.inl ⟨i, b⟩)
    · exact .inr (.inr ⟨i, a, b, c⟩)
  · have g := check_correct F e k.old c hl ht hc (storeOf m) m (fun _ => rfl) hm
    have f := h7 m m (fun _ _ _ => rfl)
    cases he : eval F e (storeOf m) with
    | undefined => rw [he] at g; rw [g] at f; exact f
    | throws msg s =>
      rw [he] at g; obtain ⟨ms1, g1, g2, g3⟩ := g
      rw [g1] at f
      obtain ⟨m4, f1, f2⟩ := f
      exact ⟨m4, f1, rel_eq g2 f2, g3⟩
    | val s x =>
      rw [he] at g; obtain ⟨ms1, g1, g2, go, gx, g3⟩ := g
      rw [g1] at f
      obtain ⟨m4, f1, f2, f3, f4⟩ := f
      refine ⟨m4, f1, rel_eq g2 f2, g3, f4, gx, f3, fun t i hi => ?_, fun v hv => ?_⟩
      · rw [f2 t (.old i) (fun j hj => by cases hj)]; exact go t i hi
      · show m4 v.ty (.user v.id) = _
        rw [f2 v.ty (.user v.id) (fun j hj => by cases hj)]
        refine sem_frame F c m ms1 x g1 v.ty (.user v.id) (fun hm => ?_)
        rcases h2.assigned _ hm with ⟨w, hw, e1⟩ | ⟨i, e1, _⟩
        · have : v = w := userVar_inj e1
          subst this
          exact hv hw
        · cases e1

/-- The operators that the checker adds to an operand that is assigned to type `t`. -/
theorem check_cast {φ} (e : Expr φ) (t : NT) (h : Fine e) (ht : (ty e).rank ≤ t.rank ∨ Narrows t (litOf e)) (k : Nat) :
    ∃ c c', check (build e k).1 = .ok c ∧ checkAssign t c = .ok c' ∧ check (build (.cast t e) k).1 = .ok c' := by
  obtain ⟨c, h1, h2⟩ := checked e k h.1 h.2.1
  refine ⟨c, castTo t c, h1, checkAssign_ok t c h2.narrow h2.okLit (by rw [h2.type, h2.lit]; exact ht), ?_⟩
  show (check (build e k).1 >>= fun e => Out.ok (if typeOf e = t then e else .cast t e)) = _
  rw [h1, Out.ok_bind, castTo]

theorem Fine.cast {φ} {e : Expr φ} (h : Fine e) (t : NT) : Fine (.cast t e) := ⟨h.1, h.2.1, h.2.2.1, h.2.2.2⟩

/-- The arguments. -/
theorem args_code {φ} (F : Fl φ) (es : List (Expr φ)) : ∀ (ts : List NT) (k : Count), (∀ e ∈ es, Fine e) → es.length ≤ ts.length →
    (∀ p ∈ ts.zip es, (ty p.2).rank ≤ p.1.rank ∨ Narrows p.1 (litOf p.2)) →
    (List.zipWith .cast ts es).Pairwise (fun a b => ∀ v, holder a = some v → v ∉ assigned b) →
    ∃ code ps k', argsCode ts es k = .ok (code.map .op, ps, k') ∧ k.tmp ≤ k'.tmp ∧ k.old ≤ k'.old ∧ ps.map MVar.ty = ts.take es.length ∧
      ∀ m : Mem φ, WellTyped (storeOf m) → match evalArgs F (List.zipWith .cast ts es) (storeOf m) with
      | .vals s vs => ∃ m', run F code m = .ok m' ∧ storeOf m' = s ∧ WellTyped s ∧ vs = ps.map (fun p => m' p.ty p.id) ∧ (∀ p ∈ ps, HasTy p.ty (m' p.ty p.id)) ∧
          Leave k k' ((List.zipWith .cast ts es).flatMap assigned) m m'
      | .throws msg s => ∃ m', run F code m = .die msg m' ∧ storeOf m' = s ∧ WellTyped s
      | .undefined => run F code m = .ub := by
  induction es with
  | nil =>
    intro ts k _ _ _ _
    refine ⟨[], [], k, by cases ts <;> rfl, Nat.le_refl _, Nat.le_refl _, by simp, fun m hm => ?_⟩
    have : evalArgs F (List.zipWith Expr.cast ts []) (storeOf m) = .vals (storeOf m) [] := by simp [evalArgs]
    rw [this]
    exact ⟨m, rfl, rfl, hm, rfl, fun p hp => (by cases hp), Below.refl _ _, OldFrame.refl _ _ _, fun _ _ => rfl⟩
  | cons e es ih =>
    intro ts k hf hn ht hs
    cases ts with
    | nil => simp at hn
    | cons t ts =>
      have he := hf e (List.mem_cons_self ..)
      obtain ⟨c, c', a1, a2, a3⟩ := check_cast e t he (ht (t, e) (List.mem_cons_self ..)) k.old
      obtain ⟨code, v, k1, b1, b2, b3, b4, b5, b6⟩ := value_code F (.cast t e) (he.cast t) k c' a3
      have b1 : valuePiece c' (build e k.old).2 k = .ok ((straight (code.map .op) k.code, code.map .op), ⟨t, v⟩, k1) := b1
      rw [List.zipWith_cons_cons, List.pairwise_cons] at hs
      obtain ⟨code', ps, k2, d1, d2, d3, d4, d5⟩ := ih ts k1 (fun e he => hf e (List.mem_cons_of_mem _ he)) (by simpa using hn)
        (fun p hp => ht p (List.mem_cons_of_mem _ hp)) hs.2
      refine ⟨code ++ code', ⟨t, v⟩ :: ps, k2, by simp only [argsCode, a1, a2, Out.ok_bind, b1, d1, List.map_append]; rfl, by omega, by omega, by simp [d4], fun m hm => ?_⟩
      have g := b6 m hm
      rw [List.zipWith_cons_cons, evalArgs]
      cases hv : eval F (.cast t e) (storeOf m) with
      | undefined => rw [hv] at g; exact run_append_ub _ g
      | throws msg s =>
        rw [hv] at g
        obtain ⟨m', g1, g2, g3⟩ := g
        exact ⟨m', run_append_die _ g1, g2, g3⟩
      | val s x =>
        rw [hv] at g
        obtain ⟨m1, g1, g2, g3, g4, g5, g6⟩ := g
        subst g2
        have f := d5 m1 g3
        simp only
        cases hw : evalArgs F (List.zipWith Expr.cast ts es) (storeOf m1) with
        | undefined => rw [hw] at f; simp only; rw [run_append_ok _ g1]; exact f
        | throws msg s =>
          rw [hw] at f
          obtain ⟨m', f1, f2, f3⟩ := f
          exact ⟨m', by rw [run_append_ok _ g1]; exact f1, f2, f3⟩
        | vals s vs =>
          rw [hw] at f
          obtain ⟨m', f1, f2, f3, f4, f5, f6⟩ := f
          have hx : m' t v = x := by
            rw [← g4]
            refine b5.stays f6 (fun w hw hm => ?_)
            obtain ⟨b, hb, hm⟩ := List.mem_flatMap.1 hm
            exact hs.1 b hb w hw hm
          have g5 : HasTy t x := g5
          refine ⟨m', by rw [run_append_ok _ g1]; exact f1, f2, f3, by simp [hx, f4], fun p hp => ?_, ?_, ?_, ?_⟩
          · rcases List.mem_cons.1 hp with rfl | hp
            · show HasTy t (m' t v); rw [hx]; exact g5
            · exact f5 p hp
          · exact g6.1.trans f6.1 b3
          · exact g6.2.1.trans f6.2.1 b4 d3
          · intro w hw
            simp only [List.flatMap_cons, List.mem_append, not_or] at hw
            rw [f6.2.2 w hw.2, g6.2.2 w hw.1]

/-- The arguments are copied to the stack. -/
theorem setArgs_run {φ} (F : Fl φ) (O : Objs) (K : Oracle φ) (ps : List MVar) : ∀ (i : Nat) (m : Mem φ) (d : Side φ),
    ∃ d', runS F O K (setArgs ps i) m d = .out m d' ∧ d'.exc = d.exc ∧ (∀ j p, ps[j]? = some p → d'.stack (i + j) = some (p.ty, m p.ty p.id)) ∧
      ∀ j, j < i → d'.stack j = d.stack j := by
  induction ps with
  | nil => intro i m d; exact ⟨d, rfl, rfl, fun j p h => by simp at h, fun _ _ => rfl⟩
  | cons p ps ih =>
    intro i m d
    obtain ⟨d', h1, h2, h3, h4⟩ := ih (i + 1) m (d.set i (p.ty, m p.ty p.id))
    refine ⟨d', h1, h2, fun j q hj => ?_, fun j hj => ?_⟩
    · cases j with
      | zero =>
        simp only [List.getElem?_cons_zero, Option.some.injEq] at hj
        subst hj
        rw [Nat.add_zero, h4 i (by omega)]
        simp [Side.set]
      | succ j =>
        have := h3 j q (by simpa using hj)
        rw [← this]; congr 1; omega
    · rw [h4 j (by omega)]
      simp only [Side.set]
      rw [if_neg (by omega)]

/-- What the operation codes after the call do. -/
theorem result_run {φ} (F : Fl φ) (O : Objs) (K : Oracle φ) (v : Option Var) (ret : Option NT) (tmp : Nat) (h : ∀ w, v = some w → ∃ t, ret = some t ∧ t.rank ≤ w.ty.rank) :
    ∃ y tmp', resultCode (φ := φ) v ret tmp = .ok (y, tmp') ∧ ∀ (m : Mem φ) (d : Side φ), WellTyped (storeOf m) →
      (∀ t, ret = some t → ∃ x, d.stack 0 = some (t, x) ∧ HasTy t x) →
      ∃ m', runS F O K y m d = .out m' d ∧ match v with
        | none => storeOf m' = storeOf m
        | some w => ∃ t x z, ret = some t ∧ d.stack 0 = some (t, x) ∧ conv F t w.ty x = .val z ∧ HasTy w.ty z ∧ storeOf m' = (storeOf m).set w z := by
  have tmpS : ∀ (m : Mem φ) t i x, storeOf (m.set t (.tmp i) x) = storeOf m := by
    intro m t i x; funext u; unfold storeOf; rw [Mem.set_ne _ _ _ _ _ _ (fun hh => by cases hh.2)]
  have userS : ∀ (m : Mem φ) (w : Var) x, storeOf (m.set w.ty (.user w.id) x) = (storeOf m).set w x := by
    intro m w x; funext u; exact (Rel.set (s := storeOf m) (ms := m) (fun _ => rfl) w x) u
  cases v with
  | none =>
    cases ret with
    | none => exact ⟨[], tmp, rfl, fun m d _ _ => ⟨m, rfl, rfl⟩⟩
    | some t =>
      refine ⟨[.getStack ⟨t, .tmp tmp⟩ 0], tmp + 1, rfl, fun m d _ hd => ?_⟩
      obtain ⟨x, h1, _⟩ := hd t rfl
      exact ⟨m.set t (.tmp tmp) x, by simp [runS, xexec, h1, oneS, SRes.next], tmpS m t tmp x⟩
  | some w =>
    obtain ⟨t, rfl, hr⟩ := h w rfl
    by_cases he : t = w.ty
    · refine ⟨[.getStack (userVar w) 0], tmp, by simp only [resultCode]; rw [if_pos he], fun m d _ hd => ?_⟩
      obtain ⟨x, h1, h2⟩ := hd t rfl
      refine ⟨m.set w.ty (.user w.id) x, by simp [runS, xexec, h1, oneS, SRes.next, he, userVar], t, x, x, rfl, h1, ?_, by rw [← he]; exact h2, userS m w x⟩
      rw [← he]; exact conv_same F h2
    · have hlt : w.ty.basicTypeId > t.basicTypeId := by
        rw [basicTypeId_eq, basicTypeId_eq]
        have : t.rank ≠ w.ty.rank := fun h => he (rank_inj h)
        omega
      refine ⟨[.getStack ⟨t, .tmp tmp⟩ 0, .op (.conv t w.ty (.user w.id) (.tmp tmp))], tmp + 1,
        by simp only [resultCode]; rw [if_neg he, if_pos hlt], fun m d _ hd => ?_⟩
      obtain ⟨x, h1, h2⟩ := hd t rfl
      obtain ⟨z, hz, hzt⟩ := conv_widen F h2 hr
      refine ⟨(m.set t (.tmp tmp) x).set w.ty (.user w.id) z, ?_, t, x, z, rfl, h1, hz, hzt, by rw [userS, tmpS]⟩
      simp only [runS, xexec, h1, oneS, SRes.next, if_pos, xstep, step, Mem.set_same, convVal_eq F he, hz, Ans.out, store]

/-- The rules for a call. -/
structure CallOK {φ} (g : Sig φ) (v : Option Var) (args : List (Expr φ)) : Prop where
  fine : ∀ e ∈ args, Fine e
  many : args.length ≤ g.params.length
  few : g.params.length ≤ args.length + g.defaults.length
  types : ∀ p ∈ g.params.zip args, (ty p.2).rank ≤ p.1.rank ∨ Narrows p.1 (litOf p.2)
  dst : ∀ w, v = some w → ∃ t, g.ret = some t ∧ t.rank ≤ w.ty.rank
  steady : (g.given args).Pairwise fun a b => ∀ v, holder a = some v → v ∉ assigned b

/-- What the variables are after a call that has returned. -/
def Assigned {φ} (F : Fl φ) (g : Sig φ) (v : Option Var) (d : Side φ) (s s' : Store φ) : Prop :=
  match v with
  | none => s' = s
  | some w => ∃ t x z, g.ret = some t ∧ d.stack 0 = some (t, x) ∧ conv F t w.ty x = .val z ∧ HasTy w.ty z ∧ s' = s.set w z

/-- What the operation codes `seg` of a call do, depending on what the method does. -/
def CallRun {φ} (F : Fl φ) (O : Objs) (K : Oracle φ) (g : Sig φ) (v : Option Var) (f : Nat) (args : List (Expr φ)) (seg : List (XInstr φ)) (m : Mem φ) (d : Side φ) : Prop :=
      match evalArgs F (g.given args) (storeOf m) with
      | .undefined => runS F O K seg m d = .ub
      | .throws msg s => ∃ m', runS F O K seg m d = .exc 1 m' { d with exc := some msg } ∧ storeOf m' = s ∧ WellTyped s
      | .vals s vs => ∃ d1, d1.exc = d.exc ∧ Fit g vs d1 ∧ WellTyped s ∧
          (K f vs.length d1 = none → runS F O K seg m d = .ub) ∧
          (∀ d' e, K f vs.length d1 = some (d', e + 1) → ∃ m', runS F O K seg m d = .exc (e + 1) m' d' ∧ storeOf m' = s) ∧
          ∀ d', K f vs.length d1 = some (d', 0) → (∀ t, g.ret = some t → ∃ x, d'.stack 0 = some (t, x) ∧ HasTy t x) →
            ∃ m', runS F O K seg m d = .out m' d' ∧ Assigned F g v d' s (storeOf m')

theorem call_run {φ} (F : Fl φ) (O : Objs) (S : Nat → Option (Sig φ)) (v : Option Var) (f : Nat) (args : List (Expr φ)) (g : Sig φ) (hS : S f = some g)
    (h : CallOK g v args) (k : Count) :
    ∃ seg k', callPiece S v f args k = .ok ((straight seg k.code, seg), k') ∧ k'.code = k.code + seg.length ∧
      ∀ (K : Oracle φ) (m : Mem φ) (d : Side φ), WellTyped (storeOf m) → CallRun F O K g v f args seg m d := by
  obtain ⟨code, ps, k1, a1, _, _, a4, a5⟩ := args_code F args g.params k h.fine h.many h.types h.steady
  obtain ⟨y, tmp, r1, _⟩ := result_run F O (fun _ _ _ => none) v g.ret k1.tmp h.dst
  refine ⟨code.map XInstr.op ++ setArgs ps 0 ++ .invoke f args.length :: y, ⟨k1.old, tmp, k.code + (code.map XInstr.op ++ setArgs ps 0 ++ XInstr.invoke f args.length :: y).length⟩, ?_, rfl,
    fun K m d hm => ?_⟩
  · have : ¬ (args.length + g.defaults.length < g.params.length) := by have := h.few; omega
    simp only [callPiece, hS, a1, Out.ok_bind, if_neg this, r1]
    rfl
  obtain ⟨y', tmp', r1', r2⟩ := result_run F O K v g.ret k1.tmp h.dst
  rw [r1] at r1'; injection r1' with r1'; injection r1' with r1' _; subst r1'
  have c := a5 m hm
  have hlen : ps.length = args.length := by
    have := congrArg List.length a4
    have hn := h.many
    simp only [List.length_map, List.length_take] at this
    omega
  unfold CallRun
  rw [List.append_assoc]
  unfold Sig.given
  cases he : evalArgs F (List.zipWith Expr.cast g.params args) (storeOf m) with
  | undefined => rw [he] at c; simp only; rw [runS_append, runS_ops, c]; rfl
  | throws msg s =>
    rw [he] at c
    obtain ⟨m', c1, c2, c3⟩ := c
    refine ⟨m', ?_, c2, c3⟩
    rw [runS_append, runS_ops, c1]; rfl
  | vals s vs =>
    rw [he] at c
    obtain ⟨m', c1, c2, c3, c4, c5, _⟩ := c
    obtain ⟨d1, e1, e2, e3, _⟩ := setArgs_run F O K ps 0 m' d
    have hv : vs.length = args.length := by rw [c4, List.length_map, hlen]
    have hrun : runS F O K (code.map XInstr.op ++ (setArgs ps 0 ++ XInstr.invoke f args.length :: y)) m d =
        (oneS (xexec F O K m' d1 (.invoke f args.length))).next (runS F O K y) := by
      rw [runS_append, runS_ops, c1]
      show runS F O K (setArgs ps 0 ++ XInstr.invoke f args.length :: y) m' d = _
      rw [runS_append, e1]
      rfl
    simp only [hrun, hv]
    refine ⟨d1, e2, ⟨by rw [hv]; exact h.many, by rw [hv]; exact h.few, fun i t x ht hx => ?_⟩, c3, fun hK => ?_, fun d' e hK => ?_, fun d' hK hd => ?_⟩
    · rw [c4, List.getElem?_map] at hx
      cases hp : ps[i]? with
      | none => rw [hp] at hx; cases hx
      | some p =>
        rw [hp] at hx
        simp only [Option.map_some, Option.some.injEq] at hx
        have hi : i < ps.length := (List.getElem?_eq_some_iff.1 hp).1
        have hty : p.ty = t := by
          have := congrArg (fun l => l[i]?) a4
          simp only [List.getElem?_map, hp, Option.map_some, List.getElem?_take] at this
          rw [if_pos (by omega), ht] at this
          injection this
        have := e3 i p hp
        rw [Nat.zero_add] at this
        rw [this, hx, hty]
        refine ⟨rfl, ?_⟩
        have := c5 p (List.mem_of_getElem? hp)
        rw [hx, hty] at this
        exact this
    · simp only [xexec, hK, oneS, SRes.next]
    · exact ⟨m', by simp only [xexec, hK, oneS, SRes.next], c2⟩
    · obtain ⟨m2, f1, f2⟩ := r2 m' d' (by rw [c2]; exact c3) hd
      refine ⟨m2, by simp only [xexec, hK, oneS, SRes.next]; exact f1, ?_⟩
      unfold Assigned
      cases v with
      | none => rw [← c2]; exact f2
      | some w => rw [← c2]; exact f2

end Expr
end SPVM
