import Verif.Lemmas.Logic
/-!
# C62: logical operators and conditions
-/
namespace SPVM
namespace Expr

/-- Executing `code` gives the verdict: the value is in the variable `p`, an exception is thrown, or C does not define what happens.  The variables
of the program have the values of the verdict. -/
def GivesCond {φ} (F : Fl φ) (O : Objs) (code : List (LInstr φ)) (p : MVar) (m : Mem φ) : Verdict φ → Prop
  | .val s n => ∃ m', runL F O code 0 m = .ok m' ∧ storeOf m' = s ∧ m' p.ty p.id = .i n
  | .throws msg s => ∃ m', runL F O code 0 m = .die msg m' ∧ storeOf m' = s
  | .undefined => runL F O code 0 m = .ub

def Cond.IsLogical {φ} : Cond φ → Prop
  | .and _ _ | .or _ _ | .not _ => True
  | _ => False

theorem condVar_int {φ} (c : Cond φ) (h : c.IsLogical) (k j : Nat) (l : LOp φ) (hl : checkCond (buildCond c k).1 = .ok l) (p : CVar)
    (hp : condVar (tempsCond l j).1 = .ok p) : ∃ v : MVar, p = .num v ∧ v.ty = .int := by
  have key : ∀ (v : MVar) (i : LOp φ), v.ty = .int → checkCond (.value v i) = .ok l → ∃ v : MVar, p = .num v ∧ v.ty = .int := by
    intro v i hv hi
    simp only [checkCond] at hi
    cases hc : checkCond i with
    | ok i' =>
      rw [hc] at hi; injection hi with hi; subst hi
      injection hp with hp; exact ⟨v, hp.symm, hv⟩
    | die msg => rw [hc] at hi; cases hi
    | ub => rw [hc] at hi; cases hi
  cases c with
  | num e => cases h
  | obj t n => cases h
  | undef => cases h
  | and a b => exact key _ _ rfl hl
  | or a b => exact key _ _ rfl hl
  | not a => exact key _ _ rfl hl

/-- **C62**: `&&`, `||` and `!` have their documented value, of type `int`, and evaluate the right operand only if it is needed.

Partial: the operands are numeric expressions for which C61 holds, object variables, reference variables and `undef`; variables of type `Bool` are
not `undef` (see `bool_undef_violated`). -/
theorem logic_correct_partial {φ} (F : Fl φ) (O : Objs) (c : Cond φ) (hc : c.IsLogical)
    (h : c.All fun e => Literals e ∧ Typed e ∧ Calm e ∧ Kept e) (hO : c.BoolsDefined O) :
    ∃ code p, compileCond c = .ok (code, .num p) ∧ p.ty = .int ∧ ∀ m, WellTyped (storeOf m) → GivesCond F O code p m (judge F O c (storeOf m)) := by
  obtain ⟨l, h1, h2⟩ := cond_correct F O c h hO 0
  obtain ⟨X, p, x1, x2, x3, x4⟩ := h2 0
  obtain ⟨p, rfl, hp⟩ := condVar_int c hc 0 0 l h1 p x2
  refine ⟨X, p, by simp only [compileCond, h1, Out.ok_bind, x1, x2]; rfl, hp, fun m hm => ?_⟩
  have g := x4 m hm
  cases hj : judge F O c (storeOf m) with
  | undefined => rw [hj] at g; have := g []; rw [List.append_nil] at this; exact this
  | throws msg s =>
    rw [hj] at g; obtain ⟨_, m', g1, g2⟩ := g
    exact ⟨m', by have := g1 []; rwa [List.append_nil] at this, g2⟩
  | val s n =>
    rw [hj] at g; obtain ⟨_, m', g1, g2, g3⟩ := g
    refine ⟨m', by have := g1 []; rw [List.append_nil] at this; exact this, g2, ?_⟩
    simp only [truthC] at g3
    rw [hp] at g3 ⊢
    cases hx : m' .int p.id with
    | i j =>
      rw [hx] at g3
      simp only [truthVal, if_pos] at g3
      injection g3
    | f x => rw [hx] at g3; simp [truthVal] at g3

/-- A condition is compiled exactly if its expressions keep the rules about types; otherwise there is a compile error. -/
theorem compileCond_iff {φ} (c : Cond φ) (hl : c.All Literals) :
    ((∃ code p, compileCond c = .ok (code, p)) ↔ c.All Typed) ∧ ((∃ msg, compileCond c = .die msg) ↔ ¬ c.All Typed) := by
  have h1 : c.All Typed → ∃ code p, compileCond c = .ok (code, p) := by
    intro ht
    obtain ⟨l, h1, h2⟩ := cond_checked c hl ht 0
    obtain ⟨X, p, x1, x2, _⟩ := h2 0
    exact ⟨X, p, by simp only [compileCond, h1, Out.ok_bind, x1, x2]; rfl⟩
  have h2 : ¬ c.All Typed → ∃ msg, compileCond c = .die msg := by
    intro ht
    obtain ⟨msg, h1⟩ := cond_rejected c hl ht 0
    exact ⟨msg, by simp only [compileCond, h1]; rfl⟩
  refine ⟨⟨fun ⟨code, p, h⟩ => Classical.byContradiction fun ht => ?_, h1⟩, ⟨fun ⟨msg, h⟩ ht => ?_, h2⟩⟩
  · obtain ⟨msg, h'⟩ := h2 ht; rw [h] at h'; cases h'
  · obtain ⟨code, p, h'⟩ := h1 ht; rw [h] at h'; cases h'

/-! ## `if` and `unless` -/

/-- Executing `code` is the evaluation of the condition followed by one of the blocks, from a memory with the variables the condition leaves. -/
def Branches {φ} (F : Fl φ) (O : Objs) (code : List (LInstr φ)) (m : Mem φ) (t e : List (Instr φ)) : Verdict φ → Prop
  | .val s n => ∃ m', storeOf m' = s ∧ runL F O code 0 m = run F (if n = 0 then e else t) m'
  | .throws msg s => ∃ m', runL F O code 0 m = .die msg m' ∧ storeOf m' = s
  | .undefined => runL F O code 0 m = .ub

theorem if_lemma {φ} (F : Fl φ) (O : Objs) (c : Cond φ) (l : LOp φ) (hc : CondOK F O c l) (t e : List (Instr φ)) :
    ∃ code p w, emitCond (tempsCond l 0).1 = .ok code ∧ condVar (tempsCond l 0).1 = .ok p ∧
      condOpcodes (.tmp (tempsCond l 0).2) p ((t.map LInstr.op).length + 1) = .ok w ∧
      ∀ m, WellTyped (storeOf m) → Branches F O (code ++ w ++ t.map .op ++ .goto (e.map LInstr.op).length :: e.map .op) m t e (judge F O c (storeOf m)) := by
  obtain ⟨X, p, x1, x2, x3, x4⟩ := hc 0
  refine ⟨X, p, _, x1, x2, condOpcodes_ok _ p _ x3, fun m hm => ?_⟩
  have g := x4 m hm
  have hcode := iteCode_append X (tempsCond l 0).2 p (t.map LInstr.op) (e.map LInstr.op) []
  rw [List.append_nil, List.append_nil] at hcode
  unfold iteCode at hcode
  cases hj : judge F O c (storeOf m) with
  | undefined => rw [hj] at g; show runL F O _ 0 m = .ub; rw [hcode]; exact g _
  | throws msg s =>
    rw [hj] at g; obtain ⟨_, m', g1, g2⟩ := g
    exact ⟨m', by rw [hcode]; exact g1 _, g2⟩
  | val s n =>
    rw [hj] at g; obtain ⟨_, m', g1, g2, g3⟩ := g
    obtain ⟨m2, e1, e2, e3, _⟩ := cond_end F O (tempsCond l 0).2 p ((t.map LInstr.op).length + 1) m' n g3
      (t.map .op ++ .goto (e.map LInstr.op).length :: e.map .op)
    refine ⟨m2, by rw [e2, g2], ?_⟩
    rw [hcode, g1, e1]
    by_cases hn : n = 0
    · rw [if_pos hn, if_pos hn]
      have h1 := run_else F O (t.map LInstr.op) (e.map LInstr.op) [] m2
      rw [List.append_nil] at h1
      rw [h1, runL_ops]
      cases run F e m2 <;> rfl
    · rw [if_neg hn, if_neg hn, runL_ops]
      cases run F t m2 with
      | ok m3 =>
        have h2 := runL_skip F O (e.map LInstr.op) [] 0 m3
        rw [List.append_nil, Nat.add_zero] at h2
        simp only [runL]
        exact h2
      | die msg m3 => rfl
      | ub => rfl

/-- **C62**: `if (c) { t } else { e }` evaluates the condition and executes `t` if it is not 0, `e` if it is; `unless` is the other way round. -/
theorem if_correct_partial {φ} (F : Fl φ) (O : Objs) (isUnless : Bool) (c : Cond φ) (h : c.All fun e => Literals e ∧ Typed e ∧ Calm e ∧ Kept e)
    (hO : c.BoolsDefined O)
    (t e : List (Instr φ)) :
    ∃ code, compileIf isUnless c (t.map .op) (e.map .op) = .ok code ∧
      ∀ m, WellTyped (storeOf m) → Branches F O code m (if isUnless then e else t) (if isUnless then t else e) (judge F O c (storeOf m)) := by
  cases isUnless with
  | false =>
    obtain ⟨l, h1, h2⟩ := cond_correct F O c h hO 0
    obtain ⟨code, p, w, c1, c2, c3, c4⟩ := if_lemma F O c l h2 t e
    have h1' : checkCond (ifOperand false c 0).1 = .ok l := h1
    exact ⟨_, by simp only [compileIf, h1', Out.ok_bind, c1, c2, c3]; rfl, c4⟩
  | true =>
    obtain ⟨l, h1, h2⟩ := cond_correct F O (.not c) h hO 0
    obtain ⟨code, p, w, c1, c2, c3, c4⟩ := if_lemma F O (.not c) l h2 t e
    have h1' : checkCond (ifOperand true c 0).1 = .ok l := h1
    refine ⟨_, by simp only [compileIf, h1', Out.ok_bind, c1, c2, c3]; rfl, fun m hm => ?_⟩
    have g := c4 m hm
    simp only [judge] at g
    cases hj : judge F O c (storeOf m) with
    | undefined => rw [hj] at g; exact g
    | throws msg s => rw [hj] at g; exact g
    | val s n =>
      rw [hj] at g
      obtain ⟨m', g1, g2⟩ := g
      refine ⟨m', g1, ?_⟩
      rw [g2]
      by_cases hn : n = 0 <;> simp [hn]

/-! ## Consequences -/

/-- The right operand of `&&` has no effect, not even an exception, if the left one is 0; the right operand of `||` has none if the left one is
not 0. -/
theorem short_circuit_partial {φ} (F : Fl φ) (O : Objs) (a b : Cond φ) (ha : a.All fun e => Literals e ∧ Typed e ∧ Calm e ∧ Kept e)
    (hb : b.All fun e => Literals e ∧ Typed e ∧ Calm e ∧ Kept e) (hO : a.BoolsDefined O ∧ b.BoolsDefined O) (m : Mem φ) (hm : WellTyped (storeOf m)) (s : Store φ) (n : Int)
    (h : judge F O a (storeOf m) = .val s n) :
    (n = 0 → ∃ code p m', compileCond (.and a b) = .ok (code, .num p) ∧ runL F O code 0 m = .ok m' ∧ storeOf m' = s ∧ m' p.ty p.id = .i 0) ∧
    (n ≠ 0 → ∃ code p m', compileCond (.or a b) = .ok (code, .num p) ∧ runL F O code 0 m = .ok m' ∧ storeOf m' = s ∧ m' p.ty p.id = .i n) := by
  constructor
  · intro hn
    obtain ⟨code, p, h1, _, h2⟩ := logic_correct_partial F O (.and a b) trivial ⟨ha, hb⟩ hO
    have g := h2 m hm
    simp only [judge, h, Verdict.andThen, if_pos hn] at g
    obtain ⟨m', g1, g2, g3⟩ := g
    exact ⟨code, p, m', h1, g1, g2, g3⟩
  · intro hn
    obtain ⟨code, p, h1, _, h2⟩ := logic_correct_partial F O (.or a b) trivial ⟨ha, hb⟩ hO
    have g := h2 m hm
    simp only [judge, h, Verdict.andThen, if_pos hn] at g
    obtain ⟨m', g1, g2, g3⟩ := g
    exact ⟨code, p, m', h1, g1, g2, g3⟩

/-- `!(A && B)` and `!A || !B` have the same meaning, also for exceptions and effects; likewise `!(A || B)` and `!A && !B`. -/
theorem de_morgan {φ} (F : Fl φ) (O : Objs) (a b : Cond φ) (s : Store φ) :
    judge F O (.not (.and a b)) s = judge F O (.or (.not a) (.not b)) s ∧ judge F O (.not (.or a b)) s = judge F O (.and (.not a) (.not b)) s := by
  constructor <;>
  · simp only [judge]
    cases judge F O a s with
    | undefined => rfl
    | throws msg s => rfl
    | val s n =>
      by_cases hn : n = 0
      · subst hn; simp [Verdict.andThen]
      · simp [Verdict.andThen, hn]

/-- Two conditions with the same meaning can be exchanged in an `if` statement. -/
theorem if_congr_partial {φ} (F : Fl φ) (O : Objs) (c d : Cond φ) (hc : c.All fun e => Literals e ∧ Typed e ∧ Calm e ∧ Kept e)
    (hd : d.All fun e => Literals e ∧ Typed e ∧ Calm e ∧ Kept e) (hO : c.BoolsDefined O ∧ d.BoolsDefined O)
    (he : ∀ s, judge F O c s = judge F O d s) (t e : List (Instr φ)) :
    ∃ code code', compileIf false c (t.map .op) (e.map .op) = .ok code ∧ compileIf false d (t.map .op) (e.map .op) = .ok code' ∧
      ∀ m, WellTyped (storeOf m) → ∃ r, Branches F O code m t e r ∧ Branches F O code' m t e r := by
  obtain ⟨code, h1, h2⟩ := if_correct_partial F O false c hc hO.1 t e
  obtain ⟨code', h3, h4⟩ := if_correct_partial F O false d hd hO.2 t e
  exact ⟨code, code', h1, h3, fun m hm => ⟨judge F O c (storeOf m), h2 m hm, by rw [he]; exact h4 m hm⟩⟩

/-! ## A violation -/

/-- A variable of type `Bool` that is `undef` in a condition: C does not define what happens (the field of a null pointer is read), although an
undefined value is false; the same variable declared as `object` is false. -/
theorem bool_undef_violated {φ} (F : Fl φ) (O : Objs) (n : Nat) (h : O n = .null) (s : Store φ) :
    judge F O (.obj .bool n) s = .val s 0 ∧
    (∃ code p, compileCond (φ := φ) (.not (.obj .bool n)) = .ok (code, p) ∧ ∀ m, runL F O code 0 m = .ub) ∧
    ∃ code p, compileCond (φ := φ) (.not (.obj .object n)) = .ok (code, .num p) ∧ ∀ m, ∃ m', runL F O code 0 m = .ok m' ∧ m' p.ty p.id = .i 1 := by
  refine ⟨by simp only [judge, h]; rfl, ⟨_, _, rfl, fun m => ?_⟩, ⟨_, _, rfl, fun m => ⟨((m.set .int (.tmp 0) (.i 0)).set .int .flag (.i 0)).set .int (.old 0) (.i 1), ?_, ?_⟩⟩⟩
  · simp only [List.nil_append, List.cons_append, runL, truthC, h, truthObj, store]
  · simp only [List.nil_append, List.cons_append, runL, truthC, h, truthObj, store, step, Mem.set_same, List.length_cons, List.length_nil]
    rw [Mem.set_ne _ _ _ _ _ _ (fun hh => by cases hh.2), Mem.set_same]
    rfl
  · exact Mem.set_same _ _ _ _

/-! ## The theorems are not vacuous -/

/-- The operations on floating point numbers of the examples. -/
def noFloat : Fl Unit := ⟨fun _ _ _ => (), fun _ _ _ => (), fun _ _ _ => (), fun _ _ _ => (), fun _ _ => (), fun _ _ _ => true, fun _ _ _ => false,
      fun _ _ _ => true, fun _ _ => (), fun _ _ => some 0, fun _ _ _ => ()⟩

/-- Variable 0 is `undef`, 1 is `true`, 2 is `false`, the others are other objects. -/
def objs : Objs
  | 0 => .null
  | 1 => .bool true
  | 2 => .bool false
  | _ => .other

/-- The value of a condition and of a variable after executing it. -/
def condResult (c : Cond Unit) (m : Mem Unit) (v : Var) : Option (Val Unit × Val Unit) :=
  match compileCond c with
  | .ok (code, .num p) =>
    match runL noFloat objs code 0 m with
    | .ok m' => some (m' p.ty p.id, storeOf m' v)
    | _ => none
  | _ => none

/-- `$x - 1 && 1 % 0 || !($x++ > 7) && $y + 4`: `$x` and `$y` are 1. -/
def sampleCond : Cond Unit :=
  .or (.and (.num (.bin .sub (.var x) (num 1))) (.num (.bin .mod (num 1) (num 0))))
    (.and (.not (.num (.bin .gt (.post true x) (num 7)))) (.num (.bin .add (.var y) (num 4))))

example : sampleCond.IsLogical ∧ sampleCond.All fun e => Literals e ∧ Typed e ∧ Calm e ∧ Kept e := by
  refine ⟨trivial, ⟨⟨?_, ?_⟩, ?_, ?_⟩⟩
  · exact ⟨⟨trivial, .inr (.inl rfl), by decide⟩, ⟨trivial, trivial, trivial⟩, ⟨trivial, trivial, fun _ v _ h => by cases h⟩, trivial, trivial⟩
  · exact ⟨⟨⟨.inr (.inl rfl), by decide⟩, .inr (.inl rfl), by decide⟩, ⟨trivial, trivial, by decide, by decide⟩,
      ⟨trivial, trivial, fun _ v h => by cases h⟩, trivial, trivial⟩
  · exact ⟨⟨trivial, .inr (.inl rfl), by decide⟩, ⟨trivial, trivial, trivial⟩, ⟨trivial, trivial, fun _ v _ h => by cases h⟩, trivial, trivial⟩
  · exact ⟨⟨trivial, .inr (.inl rfl), by decide⟩, ⟨trivial, trivial, trivial⟩, ⟨trivial, trivial, fun _ v _ h => by cases h⟩, trivial, trivial⟩

/-- The division by 0 is not evaluated, the value is that of the last operand, and `$x` is incremented. -/
example : condResult sampleCond ones x = some (.i 5, .i 2) := by decide +kernel
/-- `long` values become 0 or 1, `int` values are kept. -/
example : condResult (.or (.num (.lit .long (.i 7))) (.num (num 1))) ones x = some (.i 1, .i 1) ∧
    condResult (.or (.num (num 7)) (.num (num 1))) ones x = some (.i 7, .i 1) ∧ condResult (.not (.num (num 7))) ones x = some (.i 0, .i 1) := by
  refine ⟨?_, ?_, ?_⟩ <;> decide +kernel
/-- `$o && 1 % 0 || $true && !$false && $o3` and `!undef`, where `$o` is `undef` and `$o3` is some object. -/
example : condResult (.or (.and (.obj .object 0) (.num (.bin .mod (num 1) (num 0)))) (.and (.obj .bool 1) (.and (.not (.obj .bool 2)) (.obj .ref 3))))
      ones x = some (.i 1, .i 1) ∧ condResult (.not .undef) ones x = some (.i 1, .i 1) ∧ condResult (.not (.obj .bool 1)) ones x = some (.i 0, .i 1) := by
  refine ⟨?_, ?_, ?_⟩ <;> decide +kernel
/-- The rule about `Bool` variables holds for that condition. -/
example : (Cond.and (.obj .bool 1) (.and (.not (.obj .bool 2)) (.obj .ref 3)) : Cond Unit).BoolsDefined objs := ⟨⟨_, rfl⟩, ⟨_, rfl⟩, trivial⟩
/-- `if ($x) { $y = 5 } else { $y = 6 }`. -/
example : (match compileIf false (.num (.var x)) [LInstr.op (.const .int (.user 1) (.i 5))] [.op (.const .int (.user 1) (.i 6))] with
    | .ok code => (match runL noFloat objs code 0 ones with | .ok m => some (storeOf m y) | _ => none)
    | _ => none) = some (.i 5) := by decide +kernel

end Expr
end SPVM
