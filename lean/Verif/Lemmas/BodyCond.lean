import Verif.Lemmas.BodyRun
/-!
# Method bodies: conditions and expressions
-/
namespace SPVM
namespace Expr
open Flow (Runs Point Stmt)

theorem bind_eq_ok {α β} {x : Out α} {f : α → Out β} {b : β} (h : (x >>= f) = .ok b) : ∃ a, x = .ok a ∧ f a = .ok b := by
  cases x with
  | ok a => exact ⟨a, rfl, h⟩
  | die msg => cases h
  | ub => cases h

/-- No variable is declared. -/
def NoDecl (S : Stmt) : Prop := S.declares = false ∧ S.scoped = true ∧ ∀ b, S.evalFlat b = true

theorem straight_noDecl {φ} (seg : List (XInstr φ)) : ∀ n, NoDecl (straight seg n) := by
  induction seg with
  | nil => intro n; exact ⟨rfl, rfl, fun _ => rfl⟩
  | cons i is ih =>
    intro n
    obtain ⟨h1, h2, h3⟩ := ih (n + 1)
    unfold NoDecl
    simp only [straight]
    cases i.mayThrow
    · exact ⟨by simp [Stmt.declares, h1], by simp [Stmt.scoped, h2], fun b => by simp [Stmt.evalFlat, h3]⟩
    · exact ⟨by simp [Stmt.declares, h1], by simp [Stmt.scoped, h2], fun b => by simp [Stmt.evalFlat, h3]⟩

theorem NoDecl.seq {S S' : Stmt} (h : NoDecl S) (h' : NoDecl S') : NoDecl (.seq S S') :=
  ⟨by simp [Stmt.declares, h.1, h'.1], by simp [Stmt.scoped, h.2.1, h'.2.1], fun b => by simp [Stmt.evalFlat, h.2.2, h'.2.2]⟩

/-- An operator without declarations. -/
def Plain (S : Stmt) : Prop := S.isOperator = true ∧ NoDecl S

theorem plain_straight {φ} (seg : List (XInstr φ)) (n : Nat) : Plain (straight seg n) := ⟨straight_operator seg n, straight_noDecl seg n⟩
theorem Plain.seq {S S' : Stmt} (h : Plain S) (h' : Plain S') : Plain (.seq S S') := ⟨by simp [Stmt.isOperator, h.1, h'.1], h.2.seq h'.2⟩
theorem plain_skip : Plain .skip := ⟨rfl, rfl, rfl, fun _ => rfl⟩

/-- The condition evaluations have their variables. -/
def HasTmps {φ} : LOp φ → Prop
  | .value _ i => HasTmps i
  | .ite tmp c t e => (∃ j, tmp = some (.tmp j)) ∧ HasTmps c ∧ HasTmps t ∧ HasTmps e
  | _ => True

theorem hasTmps {φ} (l : LOp φ) : ∀ k, HasTmps (tempsCond l k).1 := by
  induction l with
  | value v i ih => intro k; exact ih k
  | ite tmp c t e ihc iht ihe => intro k; exact ⟨⟨_, rfl⟩, ihc _, iht _, ihe _⟩
  | _ => intro k; exact trivial

theorem evalCode_eq {φ} (tmp : VarId) (p : CVar) (skip : Nat) (w : List (LInstr φ)) (h : condOpcodes tmp p skip = .ok w) :
    evalCode (φ := φ) tmp p = .ok [.truth tmp p, .op (.move .int .flag tmp)] ∧ w = [.truth tmp p, .op (.move .int .flag tmp), .ifZero tmp skip] := by
  cases p with
  | obj t n => injection h with h; exact ⟨rfl, h.symm⟩
  | num p =>
    obtain ⟨t, v⟩ := p
    cases t <;> first | (cases h; done) | (injection h with h; exact ⟨rfl, h.symm⟩)

/-- The condition evaluation and the copy to the flag. -/
theorem eval_does {φ} (F : Fl φ) (O : Objs) (j : Nat) (p : CVar) (m : Mem φ) :
    (truthC F O m p = .ub ∧ runI F O [.truth (.tmp j) p, .op (.move .int .flag (.tmp j))] m = .ub) ∨
    ∃ n, truthC F O m p = .ok (.i n) ∧ runI F O [.truth (.tmp j) p, .op (.move .int .flag (.tmp j))] m =
      .out 0 ((m.set .int (.tmp j) (.i n)).set .int .flag (.i n)) := by
  rcases truthC_cases F O m p with ⟨n, h⟩ | h
  · refine .inr ⟨n, h, ?_⟩
    simp only [runI, xstep, h, store, step, Mem.set_same]
  · exact .inl ⟨h, by simp only [runI, xstep, h, store]⟩

theorem ofSlot_slot (v : VarId) : VarId.ofSlot v.slot = v := by
  cases v with
  | tmp n => show VarId.ofSlot (4 * n) = _; unfold VarId.ofSlot; rw [if_pos (by omega)]; congr 1; omega
  | user n => show VarId.ofSlot (4 * n + 1) = _; unfold VarId.ofSlot; rw [if_neg (by omega), if_pos (by omega)]; congr 1; omega
  | old n => show VarId.ofSlot (4 * n + 2) = _; unfold VarId.ofSlot; rw [if_neg (by omega), if_neg (by omega), if_pos (by omega)]; congr 1; omega
  | flag => rfl

/-- The value of an `int` variable. -/
theorem ival_slot {φ} (F : Fl φ) (O : Objs) (K : Oracle φ) (T : List (XInstr φ)) (v : VarId) (m : Mem φ) (n : Int) (s : Flow.State (BMem φ)) (ex)
    (h : s.mem = some (m, ex)) (hn : m .int v = .i n) : (interp F O K T).ival v.slot s = n := by
  show (match s.mem with | some (m, _) => (match m .int (.ofSlot v.slot) with | .i n => n | .f _ => 0) | none => 0) = n
  rw [h, ofSlot_slot]
  show (match m .int v with | .i n => n | .f _ => 0) = n
  rw [hn]

theorem ival_eval {φ} (F : Fl φ) (O : Objs) (K : Oracle φ) (T : List (XInstr φ)) (j : Nat) (m : Mem φ) (n : Int) (s : Flow.State (BMem φ)) (ex) 
    (h : s.mem = some ((m.set .int (.tmp j) (.i n)).set .int .flag (.i n), ex)) : (interp F O K T).ival (VarId.tmp j).slot s = n :=
  ival_slot F O K T (.tmp j) _ n s ex h (by rw [Mem.set_ne _ _ _ _ _ _ (fun hh => by cases hh.2), Mem.set_same])

theorem quiet_eval {φ} (j : Nat) (p : CVar) : ∀ i ∈ ([.truth (.tmp j) p, .op (.move .int .flag (.tmp j))] : List (XInstr φ)), Quiet i := by
  intro i hi
  simp only [List.mem_cons, List.not_mem_nil, or_false] at hi
  rcases hi with rfl | rfl <;> (intro F O K m d; rfl)

/-- A conditional operator. -/
theorem choose_does {φ} (F : Fl φ) (O : Objs) (K : Oracle φ) (T : List (XInstr φ)) (C Y Z : Stmt) (j : Nat) (m : Mem φ) (r : XRes φ)
    (k : Nat → Mem φ → XRes φ) (hY : Y.isOperator = true) (hZ : Z.isOperator = true) (hC : Does (interp F O K T) C m r)
    (h : ∀ m', r = .out 0 m' → ∃ n, (∀ (s : Flow.State (BMem φ)) ex, s.mem = some (m', ex) → (interp F O K T).ival j s = n) ∧
      (n ≠ 0 → Does (interp F O K T) Y m' (k 0 m')) ∧ (n = 0 → Does (interp F O K T) Z m' (k 0 m'))) :
    Does (interp F O K T) (.choose C j Y Z) m (r.next k) := by
  cases r with
  | out i m' =>
    cases i with
    | succ i => exact hC.elim
    | zero =>
      obtain ⟨n, h1, h2, h3⟩ := h m' rfl
      show Does _ _ _ (k 0 m')
      by_cases hn : n = 0
      · have h3 := h3 hn
        cases hk : k 0 m' with
        | out i m2 =>
          rw [hk] at h3
          cases i with
          | succ i => exact h3.elim
          | zero =>
            intro p ex hp
            obtain ⟨q, a, b⟩ := hC p ex hp
            obtain ⟨u, c, d⟩ := h3 q ex b
            exact ⟨u, .choose (.condFalse a (by rw [h1 _ ex b]; exact hn) c), d⟩
        | die msg m2 =>
          rw [hk] at h3
          intro p ex hp
          obtain ⟨q, a, b⟩ := hC p ex hp
          obtain ⟨u, c, d⟩ := h3 q ex b
          exact ⟨u, .choose (.condFalse a (by rw [h1 _ ex b]; exact hn) c), d⟩
        | ub =>
          rw [hk] at h3
          intro p ex hp
          obtain ⟨q, a, b⟩ := hC p ex hp
          obtain ⟨u, c, d⟩ := h3 q ex b
          exact ⟨u, .choose (.condFalse a (by rw [h1 _ ex b]; exact hn) c), d⟩
      · have h3 := h2 hn
        cases hk : k 0 m' with
        | out i m2 =>
          rw [hk] at h3
          cases i with
          | succ i => exact h3.elim
          | zero =>
            intro p ex hp
            obtain ⟨q, a, b⟩ := hC p ex hp
            obtain ⟨u, c, d⟩ := h3 q ex b
            exact ⟨u, .choose (.condTrue a (by rw [h1 _ ex b]; exact hn) c), d⟩
        | die msg m2 =>
          rw [hk] at h3
          intro p ex hp
          obtain ⟨q, a, b⟩ := hC p ex hp
          obtain ⟨u, c, d⟩ := h3 q ex b
          exact ⟨u, .choose (.condTrue a (by rw [h1 _ ex b]; exact hn) c), d⟩
        | ub =>
          rw [hk] at h3
          intro p ex hp
          obtain ⟨q, a, b⟩ := hC p ex hp
          obtain ⟨u, c, d⟩ := h3 q ex b
          exact ⟨u, .choose (.condTrue a (by rw [h1 _ ex b]; exact hn) c), d⟩
  | die msg m' =>
    intro p ex hp
    obtain ⟨q, a, b⟩ := hC p ex hp
    exact ⟨q, .choose (.condExit a (by simp)), b⟩
  | ub =>
    intro p ex hp
    obtain ⟨q, a, b⟩ := hC p ex hp
    obtain ⟨u, c, d⟩ := operator_none F O K T Z hZ q b
    exact ⟨u, .choose (.condFalse a (by simp [interp, b]) c), d⟩

/-- The operators of a condition do what its code in Model/Logic does. -/
theorem condPiece_does {φ} (F : Fl φ) (O : Objs) (l : LOp φ) (ht : HasTmps l) : ∀ (n : Nat) (X : List (LInstr φ)), emitCond l = .ok X →
    ∃ S seg, condPiece l n = .ok (S, seg) ∧ Plain S ∧
      ∀ K T, Fits T n seg → ∀ m, Does (interp F O K T) S m (runX F O X 0 m) := by
  induction l with
  | num e =>
    intro n X hX
    simp only [emitCond] at hX
    cases he : emit e with
    | die msg => rw [he] at hX; cases hX
    | ub => rw [he] at hX; cases hX
    | ok x =>
      rw [he] at hX; injection hX with hX; subst hX
      refine ⟨straight (x.map .op) n, x.map .op, by simp only [condPiece, he]; rfl, plain_straight _ _, fun K T hf m => ?_⟩
      rw [← runI_ops]
      exact straight_does F O K T _ (quiet_ops x) n m hf
  | obj t i =>
    intro n X hX; injection hX with hX; subst hX
    exact ⟨_, _, rfl, plain_skip, fun K T hf m p ex hp => ⟨p, .skip p, hp⟩⟩
  | undef =>
    intro n X hX; injection hX with hX; subst hX
    exact ⟨_, _, rfl, plain_skip, fun K T hf m p ex hp => ⟨p, .skip p, hp⟩⟩
  | value v i ih => intro n X hX; exact ih ht n X hX
  | setFlag v =>
    intro n X hX; injection hX with hX; subst hX
    exact ⟨_, _, rfl, plain_straight _ _, fun K T hf m => straight_does F O K T _ (fun i hi => by rw [List.mem_singleton.1 hi]; intro F O K m d; rfl) n m hf⟩
  | setConst v c =>
    intro n X hX; injection hX with hX; subst hX
    exact ⟨_, _, rfl, plain_straight _ _, fun K T hf m => straight_does F O K T _ (fun i hi => by rw [List.mem_singleton.1 hi]; intro F O K m d; rfl) n m hf⟩
  | ite tmp c t e ihc iht ihe =>
    intro n X hX
    obtain ⟨⟨j, rfl⟩, htc, htt, hte⟩ := ht
    simp only [emitCond] at hX
    obtain ⟨x, hx, hX⟩ := bind_eq_ok hX
    obtain ⟨p, hp, hX⟩ := bind_eq_ok hX
    obtain ⟨y, hy, hX⟩ := bind_eq_ok hX
    obtain ⟨z, hz, hX⟩ := bind_eq_ok hX
    obtain ⟨w, hw, hX⟩ := bind_eq_ok hX
    injection hX with hX
    obtain ⟨ew, rfl⟩ := evalCode_eq _ _ _ _ hw
    obtain ⟨Sx, gx, x1, x2, x3⟩ := ihc htc n x hx
    obtain ⟨Sy, gy, y1, y2, y3⟩ := iht htt (n + gx.length + 2) y hy
    obtain ⟨Sz, gz, z1, z2, z3⟩ := ihe hte (n + gx.length + 2 + gy.length) z hz
    refine ⟨.choose (.seq Sx (straight (φ := φ) [.truth (.tmp j) p, .op (.move .int .flag (.tmp j))] (n + gx.length))) (VarId.tmp j).slot Sy Sz,
      gx ++ [.truth (.tmp j) p, .op (.move .int .flag (.tmp j))] ++ gy ++ gz, ?_, ?_, ?_⟩
    · simp only [condPiece, x1, Out.ok_bind, hp, ew, List.length_cons, List.length_nil, Nat.zero_add, Nat.reduceAdd, y1, z1]
      rfl
    · have hc : Plain (.seq Sx (straight (φ := φ) [.truth (.tmp j) p, .op (.move .int .flag (.tmp j))] (n + gx.length))) := x2.seq (plain_straight _ _)
      refine ⟨by simp only [Stmt.isOperator, y2.1, z2.1, Bool.and_true]; exact hc.1, ?_, ?_, fun b => ?_⟩
      · simp only [Stmt.declares, y2.2.1, z2.2.1, Bool.or_false]; exact hc.2.1
      · simp only [Stmt.scoped, y2.2.1, z2.2.1, y2.2.2.1, z2.2.2.1, Bool.and_true, Bool.not_false]; exact hc.2.2.1
      · simp only [Stmt.evalFlat, y2.2.2.2, z2.2.2.2, Bool.and_true]; exact hc.2.2.2 b
    · intro K T hf m
      obtain ⟨hf, hfz⟩ := hf.append
      obtain ⟨hf, hfy⟩ := hf.append
      obtain ⟨hfx, hfw⟩ := hf.append
      simp only [List.length_append, List.length_cons, List.length_nil, Nat.zero_add, Nat.reduceAdd] at hfy hfz
      have ey : n + (gx.length + 2) = n + gx.length + 2 := by omega
      have ez : n + (gx.length + 2 + gy.length) = n + gx.length + 2 + gy.length := by omega
      rw [ey] at hfy
      rw [ez] at hfz
      have hcode : X = x ++ ([.truth (.tmp j) p, .op (.move .int .flag (.tmp j)), .ifZero (.tmp j) (y.length + 1)] ++ (y ++ .goto z.length :: z)) := by
        rw [← hX]; simp
      rw [hcode, runX_append]
      -- the condition with its evaluation
      have hC := Does.seq (k := fun _ m => runI F O [.truth (.tmp j) p, .op (.move .int .flag (.tmp j))] m) (x3 K T hfx m)
        (straight_operator (φ := φ) [.truth (.tmp j) p, .op (.move .int .flag (.tmp j))] (n + gx.length))
        (fun m' _ => straight_does F O K T _ (quiet_eval j p) (n + gx.length) m' hfw)
      have g := choose_does F O K T _ Sy Sz (VarId.tmp j).slot m _ (fun _ m' => runX F O (.ifZero (.tmp j) (y.length + 1) :: (y ++ .goto z.length :: z)) 0 m')
        y2.1 z2.1 hC ?_
      · have e : ((runX F O x 0 m).next fun _ m => runI F O [.truth (.tmp j) p, .op (.move .int .flag (.tmp j))] m).next
            (fun _ m' => runX F O (.ifZero (.tmp j) (y.length + 1) :: (y ++ .goto z.length :: z)) 0 m') =
          (runX F O x 0 m).next (runX F O ([.truth (.tmp j) p, .op (.move .int .flag (.tmp j)), .ifZero (.tmp j) (y.length + 1)] ++ (y ++ .goto z.length :: z))) := by
          cases hr : runX F O x 0 m with
          | die msg m1 => rfl
          | ub => rfl
          | out i m1 =>
            cases i with
            | succ i => have := x3 K T hfx m; rw [hr] at this; exact this.elim
            | zero =>
              simp only [XRes.next, List.cons_append, List.nil_append, runI, runX, xstep]
              cases store m1 .int (.tmp j) (truthC F O m1 p) <;> rfl
        rw [e] at g
        exact g
      · intro m' hm'
        -- the memory after the evaluation
        have : ∃ (m1 : Mem φ) (v : Int), m' = (m1.set .int (.tmp j) (.i v)).set .int .flag (.i v) := by
          cases hr : runX F O x 0 m with
          | die msg m1 => rw [hr] at hm'; cases hm'
          | ub => rw [hr] at hm'; cases hm'
          | out i m1 =>
            rw [hr] at hm'
            rcases eval_does F O j p m1 with ⟨_, h⟩ | ⟨v, _, h⟩
            · have hm' : runI F O [.truth (.tmp j) p, .op (.move .int .flag (.tmp j))] m1 = .out 0 m' := hm'
              rw [h] at hm'; cases hm'
            · have hm' : runI F O [.truth (.tmp j) p, .op (.move .int .flag (.tmp j))] m1 = .out 0 m' := hm'
              rw [h] at hm'; injection hm' with _ hm'
              exact ⟨m1, v, hm'.symm⟩
        obtain ⟨m1, v, rfl⟩ := this
        have hz0 : isZero (((m1.set .int (.tmp j) (.i v)).set .int .flag (.i v)) .int (.tmp j)) = (v == 0) := by
          rw [Mem.set_ne _ _ _ _ _ _ (fun hh => by cases hh.2), Mem.set_same]; rfl
        refine ⟨v, fun s ex hs => ival_eval F O K T j m1 v s ex hs, fun hv => ?_, fun hv => ?_⟩
        · have e : runX F O (.ifZero (.tmp j) (y.length + 1) :: (y ++ .goto z.length :: z)) 0 ((m1.set .int (.tmp j) (.i v)).set .int .flag (.i v)) =
              runX F O y 0 ((m1.set .int (.tmp j) (.i v)).set .int .flag (.i v)) := by
            simp only [runX, hz0]
            rw [if_neg (by simpa using hv), runX_append]
            have hd := y3 K T hfy ((m1.set .int (.tmp j) (.i v)).set .int .flag (.i v))
            cases hr : runX F O y 0 ((m1.set .int (.tmp j) (.i v)).set .int .flag (.i v)) with
            | die msg m2 => rfl
            | ub => rfl
            | out i m2 =>
              rw [hr] at hd
              cases i with
              | succ i => exact hd.elim
              | zero => exact runX_skip F O z 0 m2
          rw [e]
          exact y3 K T hfy _
        · have e : runX F O (.ifZero (.tmp j) (y.length + 1) :: (y ++ .goto z.length :: z)) 0 ((m1.set .int (.tmp j) (.i v)).set .int .flag (.i v)) =
              runX F O z 0 ((m1.set .int (.tmp j) (.i v)).set .int .flag (.i v)) := by
            simp only [runX, hz0]
            rw [if_pos (by simpa using hv), runX_append, runX_skip]
            rfl
          rw [e]
          exact z3 K T hfz _

end Expr
end SPVM
