import Verif.Model.Logic
import Verif.Props.Expr
/-!
# Logical operators: the code of a condition
-/
namespace SPVM
namespace Expr

/-- The opcode builder has a condition evaluation for the input. -/
def CVar.Wide : CVar → Prop
  | .num p => IsWide p.ty
  | .obj _ _ => True

theorem runL_skip {φ} (F : Fl φ) (O : Objs) (a b : List (LInstr φ)) (n : Nat) (m : Mem φ) : runL F O (a ++ b) (a.length + n) m = runL F O b n m := by
  induction a with
  | nil => simp
  | cons i is ih =>
    have : (i :: is).length + n = (is.length + n) + 1 := by simp only [List.length_cons]; omega
    rw [this]
    simp only [List.cons_append, runL]
    exact ih

theorem runL_ops {φ} (F : Fl φ) (O : Objs) (a : List (Instr φ)) (b : List (LInstr φ)) (m : Mem φ) :
    runL F O (a.map .op ++ b) 0 m = match run F a m with
      | .ok m => runL F O b 0 m
      | .die msg m => .die msg m
      | .ub => .ub := by
  induction a generalizing m with
  | nil => rfl
  | cons i is ih =>
    simp only [List.map_cons, List.cons_append, runL, run]
    cases step F m i with
    | ok m1 => exact ih m1
    | die msg m1 => rfl
    | ub => rfl

/-- The code `X` computes the condition and leaves it in `p`. -/
def Leads {φ} (F : Fl φ) (O : Objs) (X : List (LInstr φ)) (p : CVar) (m : Mem φ) : Verdict φ → Prop
  | .val s n => WellTyped s ∧ ∃ m', (∀ rest, runL F O (X ++ rest) 0 m = runL F O rest 0 m') ∧ storeOf m' = s ∧
      truthC F O m' p = .ok (.i n)
  | .throws msg s => WellTyped s ∧ ∃ m', (∀ rest, runL F O (X ++ rest) 0 m = .die msg m') ∧ storeOf m' = s
  | .undefined => ∀ rest, runL F O (X ++ rest) 0 m = .ub

theorem truthVal_promote {φ} (F : Fl φ) (t : NT) (x : Val φ) (h : HasTy t x) :
    ∃ y, conv F t (promote t) x = .val y ∧ truthVal F (promote t) y = .ok (.i (truth F t x)) := by
  have key : ∀ y, conv F t (promote t) x = .val y → y = x → truthVal F (promote t) y = .ok (.i (truth F t x)) := by
    intro y _ hy
    subst hy
    cases y with
    | i n => 
      obtain ⟨h1, h2⟩ := h
      cases t <;> simp_all [promote, NT.rank, truthVal, truth, NT.IsInt]
    | f z =>
      have h : ¬ t.IsInt := h
      cases t <;> simp_all [promote, NT.rank, truthVal, truth, NT.IsInt]
  have same : conv F t (promote t) x = .val x := by
    cases x with
    | i n =>
      obtain ⟨h1, h2⟩ := h
      unfold InRange at h2
      cases t <;> simp only [promote, NT.rank, NT.IsInt] at h1 ⊢
      · have : Int.bmod n 4294967296 = n := by rw [Int.bmod_eq_of_le] <;> simp [NT.bits] at h2 ⊢ <;> omega
        simp [conv, NT.IsInt, NT.rank, wrap, NT.bits, this]
      · have : Int.bmod n 4294967296 = n := by rw [Int.bmod_eq_of_le] <;> simp [NT.bits] at h2 ⊢ <;> omega
        simp [conv, NT.IsInt, NT.rank, wrap, NT.bits, this]
      · have : Int.bmod n 4294967296 = n := by rw [Int.bmod_eq_of_le] <;> simp [NT.bits] at h2 ⊢ <;> omega
        simp [conv, NT.IsInt, NT.rank, wrap, NT.bits, this]
      · have : Int.bmod n 18446744073709551616 = n := by rw [Int.bmod_eq_of_le] <;> simp [NT.bits] at h2 ⊢ <;> omega
        simp [conv, NT.IsInt, NT.rank, wrap, NT.bits, this]
      · omega
      · omega
    | f z =>
      have h : ¬ t.IsInt := h
      cases t <;> simp_all [promote, NT.rank, NT.IsInt, conv]
  exact ⟨x, same, key x same rfl⟩

/-- The rules for the numeric expressions of a condition. -/
def Fine {φ} (e : Expr φ) : Prop := Literals e ∧ Typed e ∧ Calm e ∧ Kept e

/-- The tree `l` of the condition `c` is compiled correctly. -/
def CondOK {φ} (F : Fl φ) (O : Objs) (c : Cond φ) (l : LOp φ) : Prop := ∀ k, ∃ X p, emitCond (tempsCond l k).1 = .ok X ∧ condVar (tempsCond l k).1 = .ok p ∧
  p.Wide ∧ ∀ m, WellTyped (storeOf m) → Leads F O X p m (judge F O c (storeOf m))

theorem condOK_num {φ} (F : Fl φ) (O : Objs) (e : Expr φ) (k : Nat) (h : Fine e) : ∃ l, checkCond (buildCond (.num e) k).1 = .ok l ∧ CondOK F O (.num e) l := by
  obtain ⟨hl, ht, hc, hk⟩ := h
  obtain ⟨c, h1, h2⟩ := checked e k hl ht
  refine ⟨.num (promoteOp c), by simp only [buildCond, checkCond, h1]; rfl, ?_⟩
  intro j
  have hg : Good True (promoteOp c) := by rw [promoteOp_eq]; exact good_castTo (h2.good True (fun _ => hc) (fun _ => hk))
  obtain ⟨_, _, code, p, h3, h4, h5, _, h7⟩ := (code_correct F _ hg).1 j
  have hpt : p.ty = promote (ty e) := by rw [h5, promoteOp_eq, typeOf_castTo, h2.type]
  refine ⟨code.map .op, .num p, by simp only [tempsCond, emitCond, h3]; rfl, by simp only [tempsCond, condVar, h4]; rfl,
    by show IsWide p.ty; rw [hpt]; exact promote_wide _, ?_⟩
  intro m hm
  have g := check_correct F e k c hl ht h1 (storeOf m) m (fun _ => rfl) hm
  have f := h7 m m (fun _ _ _ => rfl)
  rw [promoteOp_eq] at f
  simp only [judge]
  cases he : eval F e (storeOf m) with
  | undefined =>
    rw [he] at g
    rw [sem_castTo_ub F _ c m g] at f
    intro rest
    have f : run F code m = .ub := f
    rw [runL_ops, f]
  | throws msg s =>
    rw [he] at g; obtain ⟨ms1, g1, g2, g3⟩ := g
    rw [sem_castTo_die F _ c m ms1 msg g1] at f
    obtain ⟨m1, f1, f2⟩ := f
    exact ⟨g3, m1, fun rest => by rw [runL_ops, f1], rel_eq g2 f2⟩
  | val s x =>
    rw [he] at g; obtain ⟨ms1, g1, g2, _, g4, g5⟩ := g
    have g4' : HasTy (typeOf c) x := by rw [h2.type]; exact g4
    obtain ⟨y, y1, y2⟩ := truthVal_promote F (typeOf c) x g4'
    rw [sem_castTo F _ c m ms1 x g1 g4', y1] at f
    obtain ⟨m1, f1, f2, f3, f4⟩ := f
    refine ⟨g5, m1, fun rest => by rw [runL_ops, f1], rel_eq g2 f2, ?_⟩
    show truthVal F p.ty (m1 p.ty p.id) = _
    rw [f4, hpt, ← h2.type]; exact y2

/-- The opcodes at the end of a condition. -/
theorem cond_end {φ} (F : Fl φ) (O : Objs) (i : Nat) (p : CVar) (skip : Nat) (m : Mem φ) (n : Int) (h : truthC F O m p = .ok (.i n)) (rest : List (LInstr φ)) :
    ∃ m', runL F O ([.truth (.tmp i) p, .op (.move .int .flag (.tmp i)), .ifZero (.tmp i) skip] ++ rest) 0 m =
      runL F O rest (if n = 0 then skip else 0) m' ∧ storeOf m' = storeOf m ∧ m' .int .flag = .i n ∧
      m' = (m.set .int (.tmp i) (.i n)).set .int .flag (.i n) := by
  refine ⟨_, ?_, ?_, ?_, rfl⟩
  · simp only [List.cons_append, List.nil_append, runL, h, store, step]
    rw [Mem.set_same, Mem.set_ne _ _ _ _ _ _ (fun hh => by cases hh.2), Mem.set_same]
    simp only [isZero]
    by_cases hn : n = 0
    · simp [hn]
    · simp [hn]
  · funext v
    unfold storeOf
    rw [Mem.set_ne _ _ _ _ _ _ (fun hh => by cases hh.2), Mem.set_ne _ _ _ _ _ _ (fun hh => by cases hh.2)]
  · rw [Mem.set_same]

theorem condOpcodes_ok {φ} (tmp : VarId) (p : CVar) (skip : Nat) (h : p.Wide) :
    condOpcodes (φ := φ) tmp p skip = .ok [.truth tmp p, .op (.move .int .flag tmp), .ifZero tmp skip] := by
  cases p with
  | obj t n => rfl
  | num p =>
    obtain ⟨t, v⟩ := p
    obtain ⟨h1, h2⟩ := h
    cases t <;> first | rfl | (exact absurd rfl h1) | (exact absurd rfl h2)

/-- What a block of a logical operator does: from a memory in which the flag is `n` (if given) and the program's variables are `s`. -/
def BlockOK {φ} (F : Fl φ) (O : Objs) (v : MVar) (Y : List (LInstr φ)) (n : Option Int) (s : Store φ) : Verdict φ → Prop
  | .val s' n' => WellTyped s' ∧ ∀ m : Mem φ, (∀ j, n = some j → m .int .flag = .i j) → storeOf m = s →
      ∃ m', (∀ rest, runL F O (Y ++ rest) 0 m = runL F O rest 0 m') ∧ storeOf m' = s' ∧ m' .int v.id = .i n'
  | .throws msg s' => WellTyped s' ∧ ∀ m : Mem φ, (∀ j, n = some j → m .int .flag = .i j) → storeOf m = s → ∃ m', (∀ rest, runL F O (Y ++ rest) 0 m = .die msg m') ∧ storeOf m' = s'
  | .undefined => ∀ m : Mem φ, (∀ j, n = some j → m .int .flag = .i j) → storeOf m = s → ∀ rest, runL F O (Y ++ rest) 0 m = .ub

theorem block_flag {φ} (F : Fl φ) (O : Objs) (i : Nat) (n : Int) (s : Store φ) (hs : WellTyped s) :
    BlockOK F O ⟨.int, .old i⟩ [.op (.move .int (.old i) .flag)] (some n) s (.val s n) := by
  refine ⟨hs, fun m hf hm => ⟨m.set .int (.old i) (.i n), fun rest => ?_, ?_, Mem.set_same _ _ _ _⟩⟩
  · simp only [List.cons_append, List.nil_append, runL, step, hf n rfl]
  · rw [← hm]; funext w; exact Mem.set_ne _ _ _ _ _ _ (fun hh => by cases hh.2)

theorem block_const {φ} (F : Fl φ) (O : Objs) (i : Nat) (n : Option Int) (c : Int) (s : Store φ) (hs : WellTyped s) :
    BlockOK F O ⟨.int, .old i⟩ [.op (.const .int (.old i) (.i c))] n s (.val s c) := by
  refine ⟨hs, fun m hf hm => ⟨m.set .int (.old i) (.i c), fun rest => ?_, ?_, Mem.set_same _ _ _ _⟩⟩
  · simp only [List.cons_append, List.nil_append, runL, step]
  · rw [← hm]; funext w; exact Mem.set_ne _ _ _ _ _ _ (fun hh => by cases hh.2)

/-- The code of an `IF`. -/
def iteCode {φ} (X : List (LInstr φ)) (i : Nat) (p : CVar) (Y Z : List (LInstr φ)) : List (LInstr φ) :=
  X ++ [.truth (.tmp i) p, .op (.move .int .flag (.tmp i)), .ifZero (.tmp i) (Y.length + 1)] ++ Y ++ .goto Z.length :: Z

theorem run_then {φ} (F : Fl φ) (O : Objs) (Y Z rest : List (LInstr φ)) (m : Mem φ) (m' : Mem φ) (h : ∀ rest, runL F O (Y ++ rest) 0 m = runL F O rest 0 m') :
    runL F O (Y ++ .goto Z.length :: Z ++ rest) 0 m = runL F O rest 0 m' := by
  rw [List.append_assoc, h]
  simp only [List.cons_append, runL]
  exact runL_skip F O Z rest 0 m'

theorem run_else {φ} (F : Fl φ) (O : Objs) (Y Z rest : List (LInstr φ)) (m : Mem φ) :
    runL F O (Y ++ .goto Z.length :: Z ++ rest) (Y.length + 1) m = runL F O (Z ++ rest) 0 m := by
  rw [List.append_assoc, runL_skip]
  simp only [List.cons_append, runL]

theorem iteCode_append {φ} (X : List (LInstr φ)) (i p Y Z) (rest : List (LInstr φ)) : iteCode X i p Y Z ++ rest =
    X ++ ([.truth (.tmp i) p, .op (.move .int .flag (.tmp i)), .ifZero (.tmp i) (Y.length + 1)] ++ (Y ++ .goto Z.length :: Z ++ rest)) := by
  simp [iteCode]

/-- An `IF` goes to the right block. -/
theorem ite_ok {φ} (F : Fl φ) (O : Objs) (v : MVar) (c : Cond φ) (X : List (LInstr φ)) (i : Nat) (p : CVar) (Y Z : List (LInstr φ))
    (hX : ∀ m, WellTyped (storeOf m) → Leads F O X p m (judge F O c (storeOf m))) (s : Store φ) (hs : WellTyped s) (k : Store φ → Int → Verdict φ)
    (hY : ∀ s n, n ≠ 0 → WellTyped s → BlockOK F O v Y (some n) s (k s n)) (hZ : ∀ s, WellTyped s → BlockOK F O v Z (some 0) s (k s 0)) (n0 : Option Int) :
    BlockOK F O v (iteCode X i p Y Z) n0 s ((judge F O c s).andThen k) := by
  cases hj : judge F O c s with
  | undefined =>
    intro m _ hm rest
    have g := hX m (by rw [hm]; exact hs)
    rw [hm, hj] at g
    rw [iteCode_append]; exact g _
  | throws msg s' =>
    have hw : WellTyped s' := by
      have g := hX (fun t w => match w with | .user j => s ⟨t, j⟩ | _ => .i 0) hs
      have e : storeOf (fun t w => match w with | .user j => s ⟨t, j⟩ | _ => (.i 0 : Val φ)) = s := rfl
      rw [e, hj] at g
      exact g.1
    refine ⟨hw, fun m _ hm => ?_⟩
    have g := hX m (by rw [hm]; exact hs)
    rw [hm, hj] at g
    obtain ⟨_, m', g1, g2⟩ := g
    exact ⟨m', fun rest => by rw [iteCode_append]; exact g1 _, g2⟩
  | val s1 n =>
    have hw : WellTyped s1 := by
      have g := hX (fun t w => match w with | .user j => s ⟨t, j⟩ | _ => .i 0) hs
      have e : storeOf (fun t w => match w with | .user j => s ⟨t, j⟩ | _ => (.i 0 : Val φ)) = s := rfl
      rw [e, hj] at g
      exact g.1
    have hrun : ∀ m, storeOf m = s → ∃ m', (∀ rest, runL F O (iteCode X i p Y Z ++ rest) 0 m =
        runL F O (Y ++ .goto Z.length :: Z ++ rest) (if n = 0 then Y.length + 1 else 0) m') ∧ storeOf m' = s1 ∧ (∀ j, some n = some j → m' .int .flag = .i j) := by
      intro m hm
      have g := hX m (by rw [hm]; exact hs)
      rw [hm, hj] at g
      obtain ⟨_, m1, g1, g2, g3⟩ := g
      obtain ⟨m2, _, f2, f3, f4⟩ := cond_end F O i p (Y.length + 1) m1 n g3 []
      refine ⟨m2, fun rest => ?_, by rw [f2, g2], fun j hj => by injection hj with hj; rw [← hj]; exact f3⟩
      obtain ⟨m3, e1, _, _, e4⟩ := cond_end F O i p (Y.length + 1) m1 n g3 (Y ++ .goto Z.length :: Z ++ rest)
      rw [iteCode_append, g1, e1, e4, f4]
    show BlockOK F O v _ n0 s (k s1 n)
    by_cases hn : n = 0
    · subst hn
      have b := hZ s1 hw
      cases hk : k s1 0 with
      | undefined =>
        rw [hk] at b
        intro m _ hm rest
        obtain ⟨m', r1, r2, r3⟩ := hrun m hm
        rw [r1, if_pos rfl, run_else]
        exact b m' r3 r2 rest
      | throws msg s2 =>
        rw [hk] at b
        refine ⟨b.1, fun m _ hm => ?_⟩
        obtain ⟨m', r1, r2, r3⟩ := hrun m hm
        obtain ⟨m2, b1, b2⟩ := b.2 m' r3 r2
        exact ⟨m2, fun rest => by rw [r1, if_pos rfl, run_else]; exact b1 rest, b2⟩
      | val s2 n2 =>
        rw [hk] at b
        refine ⟨b.1, fun m _ hm => ?_⟩
        obtain ⟨m', r1, r2, r3⟩ := hrun m hm
        obtain ⟨m2, b1, b2, b3⟩ := b.2 m' r3 r2
        exact ⟨m2, fun rest => by rw [r1, if_pos rfl, run_else]; exact b1 rest, b2, b3⟩
    · have b := hY s1 n hn hw
      cases hk : k s1 n with
      | undefined =>
        rw [hk] at b
        intro m _ hm rest
        obtain ⟨m', r1, r2, r3⟩ := hrun m hm
        rw [r1, if_neg hn, List.append_assoc]
        exact b m' r3 r2 _
      | throws msg s2 =>
        rw [hk] at b
        refine ⟨b.1, fun m _ hm => ?_⟩
        obtain ⟨m', r1, r2, r3⟩ := hrun m hm
        obtain ⟨m2, b1, b2⟩ := b.2 m' r3 r2
        exact ⟨m2, fun rest => by rw [r1, if_neg hn, List.append_assoc]; exact b1 _, b2⟩
      | val s2 n2 =>
        rw [hk] at b
        refine ⟨b.1, fun m _ hm => ?_⟩
        obtain ⟨m', r1, r2, r3⟩ := hrun m hm
        obtain ⟨m2, b1, b2, b3⟩ := b.2 m' r3 r2
        exact ⟨m2, fun rest => by rw [r1, if_neg hn]; exact run_then F O Y Z rest m' m2 b1, b2, b3⟩

/-- The value of a logical operator is in its variable. -/
theorem leads_of_block {φ} (F : Fl φ) (O : Objs) (i : Nat) (Y : List (LInstr φ)) (m : Mem φ) (r : Verdict φ)
    (b : BlockOK F O ⟨.int, .old i⟩ Y none (storeOf m) r) : Leads F O Y (.num ⟨.int, .old i⟩) m r := by
  cases r with
  | undefined => exact b m (fun _ h => by cases h) rfl
  | throws msg s2 => exact ⟨b.1, b.2 m (fun _ h => by cases h) rfl⟩
  | val s2 n2 =>
    obtain ⟨m2, b1, b2, b3⟩ := b.2 m (fun _ h => by cases h) rfl
    exact ⟨b.1, m2, b1, b2, by show truthVal F .int (m2 .int (.old i)) = _; rw [b3]; rfl⟩

theorem emit_ite {φ} (c t e : LOp φ) (k : Nat) (X Y Z : List (LInstr φ)) (p : CVar) (tm : Option VarId) (h1 : emitCond (tempsCond c k).1 = .ok X)
    (h2 : condVar (tempsCond c k).1 = .ok p) (h3 : p.Wide) (h4 : emitCond (tempsCond t ((tempsCond c k).2 + 1)).1 = .ok Y)
    (h5 : emitCond (tempsCond e (tempsCond t ((tempsCond c k).2 + 1)).2).1 = .ok Z) :
    emitCond (tempsCond (.ite tm c t e) k).1 = .ok (iteCode X (tempsCond c k).2 p Y Z) := by
  simp only [tempsCond, emitCond, h1, h2, h4, h5, Out.ok_bind, condOpcodes_ok _ p _ h3]
  rfl

theorem wide_int : IsWide .int := by decide

/-- Every condition is compiled to code that gives its documented value. -/
theorem cond_correct {φ} (F : Fl φ) (O : Objs) (c : Cond φ) (h : c.All Fine) (hO : c.BoolsDefined O) : ∀ k, ∃ l, checkCond (buildCond c k).1 = .ok l ∧ CondOK F O c l := by
  induction c with
  | num e => intro k; exact condOK_num F O e k h
  | obj t n =>
    intro k
    refine ⟨.obj t n, rfl, fun j => ⟨[], .obj t n, rfl, rfl, trivial, fun m hm => ⟨hm, m, fun rest => rfl, rfl, ?_⟩⟩⟩
    show truthObj t (O n) = .ok (.i (truthHeld t (O n)))
    cases t with
    | bool => obtain ⟨b, hb⟩ := hO; rw [hb]; rfl
    | object => cases O n <;> rfl
    | ref => cases O n <;> rfl
  | undef =>
    intro k
    obtain ⟨l, h1, h2⟩ := condOK_num F O (.lit .int (.i 0)) k ⟨⟨.inr (.inl rfl), by decide⟩, trivial, trivial, trivial⟩
    injection h1 with h1
    subst h1
    exact ⟨_, rfl, h2⟩
  | and a b iha ihb =>
    intro k
    obtain ⟨la, a1, a2⟩ := iha h.1 hO.1 k
    obtain ⟨lb, b1, b2⟩ := ihb h.2 hO.2 (buildCond a k).2
    refine ⟨buildAnd la lb ⟨.int, .old (buildCond b (buildCond a k).2).2⟩, ?_, ?_⟩
    · simp only [buildCond, buildAnd, checkCond, a1, b1, Out.ok_bind]; rfl
    · intro j
      obtain ⟨X, p, x1, x2, x3, x4⟩ := a2 j
      obtain ⟨Y, q, y1, y2, y3, y4⟩ := b2 ((tempsCond la j).2 + 1)
      refine ⟨_, .num ⟨.int, .old (buildCond b (buildCond a k).2).2⟩, emit_ite la _ (.setFlag _) j X _ _ p none x1 x2 x3
        (emit_ite lb (.setFlag _) (.setFlag _) _ Y _ _ q none y1 y2 y3 rfl rfl) rfl, rfl, wide_int, fun m hm => ?_⟩
      refine leads_of_block F O _ _ m _ ?_
      refine ite_ok F O _ a X _ p _ _ x4 (storeOf m) hm (fun s n => if n = 0 then .val s 0 else judge F O b s) ?_ ?_ none
      · intro s n hn hs
        rw [if_neg hn]
        have := ite_ok F O ⟨.int, .old (buildCond b (buildCond a k).2).2⟩ b Y (tempsCond lb ((tempsCond la j).2 + 1)).2 q
          _ _ y4 s hs (fun s n => .val s n) (fun s n _ hs => block_flag F O _ n s hs) (fun s hs => block_flag F O _ 0 s hs) (some n)
        have e : (judge F O b s).andThen (fun s n => .val s n) = judge F O b s := by cases judge F O b s <;> rfl
        rw [e] at this
        exact this
      · intro s hs
        rw [if_pos rfl]
        exact block_flag F O _ 0 s hs
  | or a b iha ihb =>
    intro k
    obtain ⟨la, a1, a2⟩ := iha h.1 hO.1 k
    obtain ⟨lb, b1, b2⟩ := ihb h.2 hO.2 (buildCond a k).2
    refine ⟨buildOr la lb ⟨.int, .old (buildCond b (buildCond a k).2).2⟩, ?_, ?_⟩
    · simp only [buildCond, buildOr, checkCond, a1, b1, Out.ok_bind]; rfl
    · intro j
      obtain ⟨X, p, x1, x2, x3, x4⟩ := a2 j
      obtain ⟨Y, q, y1, y2, y3, y4⟩ := b2 ((tempsCond la j).2 + 1)
      refine ⟨_, .num ⟨.int, .old (buildCond b (buildCond a k).2).2⟩, emit_ite la (.setFlag _) _ j X _ _ p none x1 x2 x3 rfl
        (emit_ite lb (.setFlag _) (.setFlag _) _ Y _ _ q none y1 y2 y3 rfl rfl), rfl, wide_int, fun m hm => ?_⟩
      refine leads_of_block F O _ _ m _ ?_
      refine ite_ok F O _ a X _ p _ _ x4 (storeOf m) hm (fun s n => if n ≠ 0 then .val s n else judge F O b s) ?_ ?_ none
      · intro s n hn hs
        rw [if_pos hn]
        exact block_flag F O _ n s hs
      · intro s hs
        rw [if_neg (by simp)]
        have := ite_ok F O ⟨.int, .old (buildCond b (buildCond a k).2).2⟩ b Y (tempsCond lb ((tempsCond la j).2 + 1)).2 q
          _ _ y4 s hs (fun s n => .val s n) (fun s n _ hs => block_flag F O _ n s hs) (fun s hs => block_flag F O _ 0 s hs) (some 0)
        have e : (judge F O b s).andThen (fun s n => .val s n) = judge F O b s := by cases judge F O b s <;> rfl
        rw [e] at this
        exact this
  | not a iha =>
    intro k
    obtain ⟨la, a1, a2⟩ := iha h hO k
    refine ⟨buildNot la ⟨.int, .old (buildCond a k).2⟩, ?_, ?_⟩
    · simp only [buildCond, buildNot, checkCond, a1, Out.ok_bind]; rfl
    · intro j
      obtain ⟨X, p, x1, x2, x3, x4⟩ := a2 j
      refine ⟨_, .num ⟨.int, .old (buildCond a k).2⟩, emit_ite la (.setConst _ 0) (.setConst _ 1) j X _ _ p none x1 x2 x3 rfl rfl, rfl, wide_int,
        fun m hm => ?_⟩
      refine leads_of_block F O _ _ m _ ?_
      refine ite_ok F O _ a X _ p _ _ x4 (storeOf m) hm (fun s n => .val s (if n = 0 then 1 else 0)) ?_ ?_ none
      · intro s n hn hs
        rw [if_neg hn]
        exact block_const F O _ _ 0 s hs
      · intro s hs
        rw [if_pos rfl]
        exact block_const F O _ _ 1 s hs

/-- There is code for every checked condition. -/
def CondEmits {φ} (l : LOp φ) : Prop := ∀ k, ∃ X p, emitCond (tempsCond l k).1 = .ok X ∧ condVar (tempsCond l k).1 = .ok p ∧ p.Wide

theorem opVar_type {φ} (K : Prop) (c : Op φ) (h : Good K c) : ∀ (k : Nat) (p : MVar), opVar (temps false c k).1 = .ok p → p.ty = typeOf c := by
  induction c with
  | var v => intro k p hp; injection hp with hp; subst hp; rfl
  | const t c => intro k p hp; injection hp with hp; subst hp; rfl
  | cast t e ih => intro k p hp; injection hp with hp; subst hp; rfl
  | un o e ih =>
    intro k p hp; injection hp with hp; rw [← hp]
    show typeOf (temps false e k).1 = typeOf e
    exact ((emits K e h.1).1 k).1
  | bin o n a b iha ihb =>
    intro k p hp; injection hp with hp; rw [← hp]
    show typeOf (.bin o n (temps false a k).1 (temps false b (temps false a k).2).1) = _
    rw [typeOf_bin, typeOf_bin, ((emits K a h.1).1 k).1]
  | assign v e ih =>
    intro k p hp
    show p.ty = v.ty
    cases hc : opCopies e with
    | false =>
      have hp : opVar (.assign v (temps true e k).1) = .ok p := hp
      rw [temps_true_not e k hc v] at hp
      injection hp with hp; rw [hp]
    | true =>
      have hp : opVar (.assign v (temps true e k).1) = .ok p := hp
      rw [temps_true e k (.inl hc)] at hp
      have hp' : opVar (temps false e k).1 = .ok p := by
        have hcc : opCopies (temps false e k).1 = true := temps_copies e k (by cases e <;> first | rfl | cases hc)
        cases hx : (temps false e k).1 with
        | var w => rw [hx] at hp; exact hp
        | assign w f => rw [hx, opVar] at hp; exact hp
        | _ => rw [hx] at hcc; cases hcc
      rw [ih h.1 k p hp', h.2.2.1]
  | seq a b iha ihb => intro k p hp; exact ihb h.2 _ p hp

theorem condEmits_ite {φ} (tm) (c t e : LOp φ) (h1 : CondEmits c) (h2 : ∀ k, ∃ Y, emitCond (tempsCond t k).1 = .ok Y)
    (h3 : ∀ k, ∃ Y, emitCond (tempsCond e k).1 = .ok Y) : ∀ k, ∃ Y, emitCond (tempsCond (.ite tm c t e) k).1 = .ok Y := by
  intro k
  obtain ⟨X, p, x1, x2, x3⟩ := h1 k
  obtain ⟨Y, hY⟩ := h2 ((tempsCond c k).2 + 1)
  obtain ⟨Z, hZ⟩ := h3 (tempsCond t ((tempsCond c k).2 + 1)).2
  exact ⟨_, emit_ite c t e k X Y Z p tm x1 x2 x3 hY hZ⟩

/-- A condition is accepted if its expressions are. -/
theorem cond_checked {φ} (c : Cond φ) (hl : c.All Literals) (ht : c.All Typed) : ∀ k, ∃ l, checkCond (buildCond c k).1 = .ok l ∧ CondEmits l := by
  induction c with
  | num e =>
    intro k
    obtain ⟨l, h1, h2⟩ := checked e k hl ht
    refine ⟨.num (promoteOp l), by simp only [buildCond, checkCond, h1]; rfl, fun j => ?_⟩
    have hg : Good False (promoteOp l) := by rw [promoteOp_eq]; exact good_castTo (h2.good False False.elim False.elim)
    obtain ⟨_, code, p, h3, h4⟩ := (emits False _ hg).1 j
    refine ⟨code.map .op, .num p, by simp only [tempsCond, emitCond, h3]; rfl, by simp only [tempsCond, condVar, h4]; rfl, ?_⟩
    show IsWide p.ty
    rw [opVar_type False _ hg j p h4, promoteOp_eq, typeOf_castTo]
    exact promote_wide _
  | obj t n => intro k; exact ⟨_, rfl, fun j => ⟨_, _, rfl, rfl, trivial⟩⟩
  | undef => intro k; exact ⟨_, rfl, fun j => ⟨_, _, rfl, rfl, wide_int⟩⟩
  | and a b iha ihb =>
    intro k
    obtain ⟨la, a1, a2⟩ := iha hl.1 ht.1 k
    obtain ⟨lb, b1, b2⟩ := ihb hl.2 ht.2 (buildCond a k).2
    refine ⟨buildAnd la lb ⟨.int, .old (buildCond b (buildCond a k).2).2⟩, by simp only [buildCond, buildAnd, checkCond, a1, b1, Out.ok_bind]; rfl, fun j => ?_⟩
    obtain ⟨Y, hY⟩ := condEmits_ite none la _ (.setFlag ⟨.int, .old (buildCond b (buildCond a k).2).2⟩) a2
      (condEmits_ite none lb (.setFlag ⟨.int, .old (buildCond b (buildCond a k).2).2⟩) (.setFlag ⟨.int, .old (buildCond b (buildCond a k).2).2⟩) b2
        (fun _ => ⟨_, rfl⟩) (fun _ => ⟨_, rfl⟩)) (fun _ => ⟨_, rfl⟩) j
    exact ⟨Y, .num _, hY, rfl, wide_int⟩
  | or a b iha ihb =>
    intro k
    obtain ⟨la, a1, a2⟩ := iha hl.1 ht.1 k
    obtain ⟨lb, b1, b2⟩ := ihb hl.2 ht.2 (buildCond a k).2
    refine ⟨buildOr la lb ⟨.int, .old (buildCond b (buildCond a k).2).2⟩, by simp only [buildCond, buildOr, checkCond, a1, b1, Out.ok_bind]; rfl, fun j => ?_⟩
    obtain ⟨Y, hY⟩ := condEmits_ite none la (.setFlag ⟨.int, .old (buildCond b (buildCond a k).2).2⟩) _ a2 (fun _ => ⟨_, rfl⟩)
      (condEmits_ite none lb (.setFlag ⟨.int, .old (buildCond b (buildCond a k).2).2⟩) (.setFlag ⟨.int, .old (buildCond b (buildCond a k).2).2⟩) b2
        (fun _ => ⟨_, rfl⟩) (fun _ => ⟨_, rfl⟩)) j
    exact ⟨Y, .num _, hY, rfl, wide_int⟩
  | not a iha =>
    intro k
    obtain ⟨la, a1, a2⟩ := iha hl ht k
    refine ⟨buildNot la ⟨.int, .old (buildCond a k).2⟩, by simp only [buildCond, buildNot, checkCond, a1, Out.ok_bind]; rfl, fun j => ?_⟩
    obtain ⟨Y, hY⟩ := condEmits_ite none la (.setConst ⟨.int, .old (buildCond a k).2⟩ 0) (.setConst ⟨.int, .old (buildCond a k).2⟩ 1) a2
      (fun _ => ⟨_, rfl⟩) (fun _ => ⟨_, rfl⟩) j
    exact ⟨Y, .num _, hY, rfl, wide_int⟩

/-- A condition with an ill-typed expression is rejected. -/
theorem cond_rejected {φ} (c : Cond φ) (hl : c.All Literals) (h : ¬ c.All Typed) : ∀ k, ∃ msg, checkCond (buildCond c k).1 = .die msg := by
  induction c with
  | num e =>
    intro k
    obtain ⟨msg, h1⟩ := rejected e k hl h
    exact ⟨msg, by simp only [buildCond, checkCond, h1]; rfl⟩
  | obj t n => intro k; exact absurd trivial h
  | undef => intro k; exact absurd trivial h
  | and a b iha ihb =>
    intro k
    by_cases ha : a.All Typed
    · obtain ⟨la, a1, _⟩ := cond_checked a hl.1 ha k
      obtain ⟨msg, b1⟩ := ihb hl.2 (fun hb => h ⟨ha, hb⟩) (buildCond a k).2
      exact ⟨msg, by simp only [buildCond, buildAnd, checkCond, a1, b1, Out.ok_bind]; rfl⟩
    · obtain ⟨msg, a1⟩ := iha hl.1 ha k
      exact ⟨msg, by simp only [buildCond, buildAnd, checkCond, a1]; rfl⟩
  | or a b iha ihb =>
    intro k
    by_cases ha : a.All Typed
    · obtain ⟨la, a1, _⟩ := cond_checked a hl.1 ha k
      obtain ⟨msg, b1⟩ := ihb hl.2 (fun hb => h ⟨ha, hb⟩) (buildCond a k).2
      exact ⟨msg, by simp only [buildCond, buildOr, checkCond, a1, b1, Out.ok_bind]; rfl⟩
    · obtain ⟨msg, a1⟩ := iha hl.1 ha k
      exact ⟨msg, by simp only [buildCond, buildOr, checkCond, a1]; rfl⟩
  | not a iha =>
    intro k
    obtain ⟨msg, a1⟩ := iha hl h k
    exact ⟨msg, by simp only [buildCond, buildNot, checkCond, a1]; rfl⟩

end Expr
end SPVM
