import Verif.Lemmas.ExprCheck
/-!
# C61: numeric expressions mean what the documentation says
-/
namespace SPVM
namespace Expr

/-- The values of the variables that are in the memory. -/
def storeOf {φ} (m : Mem φ) : Store φ := fun v => m v.ty (.user v.id)

/-- Every variable holds a value of its type. -/
def WellTyped {φ} (s : Store φ) : Prop := ∀ v : Var, HasTy v.ty (s v)

/-- Executing `code` gives the outcome: the value is in the variable `p`, an exception is thrown, or C does not define what happens.
The variables of the program have the values of the outcome. -/
def Gives {φ} (F : Fl φ) (code : List (Instr φ)) (p : MVar) (m : Mem φ) : Outcome φ → Prop
  | .val s x => ∃ m', run F code m = .ok m' ∧ storeOf m' = s ∧ m' p.ty p.id = x
  | .throws msg s => ∃ m', run F code m = .die msg m' ∧ storeOf m' = s
  | .undefined => run F code m = .ub

theorem rel_eq {φ} {s : Store φ} {ms m : Mem φ} (h : Rel s ms) (ha : Agree m ms) : storeOf m = s := by
  funext v
  unfold storeOf
  rw [ha _ _ (by intro i h; cases h)]
  exact h v

/-- **C61**: the code of an expression computes its documented value and effects.

Partial: expressions with an operand that is a variable which a later operand assigns to (`$x + ($x = 5)`, not `Calm`), and assignments of
a sequence that ends in a sequence (`$x = (1, $y++)`, not `Kept`); see `late_read_violated` and `lost_assignment_violated`. -/
theorem expr_correct_partial {φ} (F : Fl φ) (e : Expr φ) (hl : Literals e) (ht : Typed e) (hc : Calm e) (hk : Kept e) :
    ∃ code p, compile e = .ok (code, p) ∧ p.ty = ty e ∧ ∀ m, WellTyped (storeOf m) → Gives F code p m (eval F e (storeOf m)) := by
  obtain ⟨c, h1, h2⟩ := checked e 0 hl ht
  obtain ⟨_, _, code, p, h3, h4, h5, _, h7⟩ := (code_correct F c (h2.good True (fun _ => hc) (fun _ => hk))).1 0
  refine ⟨code, p, by simp only [compile, h1, Out.ok_bind, h3, h4]; rfl, by rw [h5, h2.type], ?_⟩
  intro m hm
  have g := check_correct F e 0 c hl ht h1 (storeOf m) m (fun _ => rfl) hm
  have f := h7 m m (fun _ _ _ => rfl)
  cases he : eval F e (storeOf m) with
  | undefined => rw [he] at g; rw [g] at f; exact f
  | throws msg s =>
    rw [he] at g; obtain ⟨ms1, g1, g2, _⟩ := g
    rw [g1] at f; obtain ⟨m1, f1, f2⟩ := f
    exact ⟨m1, f1, rel_eq g2 f2⟩
  | val s x =>
    rw [he] at g; obtain ⟨ms1, g1, g2, _⟩ := g
    rw [g1] at f; obtain ⟨m1, f1, f2, f3, f4⟩ := f
    exact ⟨m1, f1, rel_eq g2 f2, f4⟩

/-- An expression is compiled exactly if it keeps the rules about types; otherwise there is a compile error. -/
theorem compile_iff {φ} (e : Expr φ) (hl : Literals e) :
    ((∃ code p, compile e = .ok (code, p)) ↔ Typed e) ∧ ((∃ msg, compile e = .die msg) ↔ ¬ Typed e) := by
  have h1 : Typed e → ∃ code p, compile e = .ok (code, p) := by
    intro ht
    obtain ⟨c, h1, h2⟩ := checked e 0 hl ht
    obtain ⟨_, code, p, h3, h4⟩ := (emits False c (h2.good False False.elim False.elim)).1 0
    exact ⟨code, p, by simp only [compile, h1, Out.ok_bind, h3, h4]; rfl⟩
  have h2 : ¬ Typed e → ∃ msg, compile e = .die msg := by
    intro ht
    obtain ⟨msg, h1⟩ := rejected e 0 hl ht
    exact ⟨msg, by simp only [compile, h1]; rfl⟩
  refine ⟨⟨fun ⟨code, p, h⟩ => Classical.byContradiction fun ht => ?_, h1⟩, ⟨fun ⟨msg, h⟩ ht => ?_, h2⟩⟩
  · obtain ⟨msg, h'⟩ := h2 ht; rw [h] at h'; cases h'
  · obtain ⟨code, p, h'⟩ := h1 ht; rw [h] at h'; cases h'

/-! ## Consequences -/

/-- The variables of an outcome. -/
def Outcome.After {φ} (Q : Store φ → Prop) : Outcome φ → Prop
  | .val s _ => Q s
  | .throws _ s => Q s
  | .undefined => True

theorem after_andThen {φ} {Q : Store φ → Prop} (o : Outcome φ) (k : Store φ → Val φ → Outcome φ) (h : o.After Q)
    (hk : ∀ s x, Q s → (k s x).After Q) : (o.andThen k).After Q := by
  cases o with
  | val s x => exact hk s x h
  | throws msg s => exact h
  | undefined => exact h

theorem after_ans {φ} {Q : Store φ → Prop} (a : Ans (Val φ)) (s : Store φ) (k : Val φ → Outcome φ) (h : Q s)
    (hk : ∀ x, (k x).After Q) : (a.andThen s k).After Q := by
  cases a with
  | val x => exact hk x
  | throws msg => exact h
  | undefined => trivial

theorem after_update {φ} {Q : Store φ → Prop} (F : Fl φ) (o v old tx x) (s : Store φ) (r) (h : Q s) (hv : ∀ s y, Q s → Q (s.set v y)) :
    (update F o v old tx x s r).After Q :=
  after_ans _ _ _ h fun _ => after_ans _ _ _ h fun _ => after_ans _ _ _ h fun _ => after_ans _ _ _ h fun y => hv s y h

theorem eval_after {φ} (F : Fl φ) (Q : Store φ → Prop) (e : Expr φ) : ∀ s, Q s → (∀ v ∈ assigned e, ∀ s y, Q s → Q (s.set v y)) →
    (eval F e s).After Q := by
  induction e with
  | var v => intro s h _; exact h
  | lit t c => intro s h _; exact h
  | cast t e ih => intro s h hv; exact after_andThen _ _ (ih s h hv) fun s x h => after_ans _ _ _ h fun _ => h
  | un o e ih =>
    intro s h hv
    exact after_andThen _ _ (ih s h hv) fun s x h => after_ans _ _ _ h fun _ => after_ans _ _ _ h fun _ => h
  | bin o a b iha ihb =>
    intro s h hv
    refine after_andThen _ _ (iha s h fun v hm => hv v (List.mem_append_left _ hm)) fun s x h => ?_
    refine after_andThen _ _ (ihb s h fun v hm => hv v (List.mem_append_right _ hm)) fun s y h => ?_
    exact after_ans _ _ _ h fun _ => after_ans _ _ _ h fun _ => after_ans _ _ _ h fun _ => h
  | assign v e ih =>
    intro s h hv
    refine after_andThen _ _ (ih s h fun w hm => hv w (List.mem_cons_of_mem _ hm)) fun s x h => ?_
    exact after_ans _ _ _ h fun y => hv v List.mem_cons_self s y h
  | special o v e ih =>
    intro s h hv
    refine after_andThen _ _ (ih s h fun w hm => hv w (List.mem_cons_of_mem _ hm)) fun s' x h => ?_
    exact after_update F _ v _ _ _ s' _ h (hv v List.mem_cons_self)
  | pre up v => intro s h hv; exact after_update F _ v _ _ _ s _ h (hv v List.mem_cons_self)
  | post up v => intro s h hv; exact after_update F _ v _ _ _ s _ h (hv v List.mem_cons_self)
  | seq a b iha ihb =>
    intro s h hv
    refine after_andThen _ _ (iha s h fun v hm => hv v (List.mem_append_left _ hm)) fun s x h => ?_
    exact ihb s h fun v hm => hv v (List.mem_append_right _ hm)

/-- Only the variables an expression assigns to change, also if it throws an exception. -/
theorem expr_frame_partial {φ} (F : Fl φ) (e : Expr φ) (hl : Literals e) (ht : Typed e) (hc : Calm e) (hk : Kept e) (code p) (h : compile e = .ok (code, p))
    (m : Mem φ) (hm : WellTyped (storeOf m)) (v : Var) (hv : v ∉ assigned e) :
    (∀ m', run F code m = .ok m' → storeOf m' v = storeOf m v) ∧ (∀ msg m', run F code m = .die msg m' → storeOf m' v = storeOf m v) := by
  obtain ⟨code', p', h1, _, h2⟩ := expr_correct_partial F e hl ht hc hk
  rw [h] at h1; injection h1 with h1; injection h1 with h1 h1'; subst h1 h1'
  have g := h2 m hm
  have a := eval_after F (fun s => s v = storeOf m v) e (storeOf m) rfl (fun w hw s y hs => by
    show (if v = w then y else s v) = _
    rw [if_neg (show ¬ v = w from fun hh => hv (by rw [hh]; exact hw))]; exact hs)
  cases he : eval F e (storeOf m) with
  | val s x =>
    rw [he] at g a; obtain ⟨m1, g1, g2, _⟩ := g
    constructor
    · intro m' hr; rw [g1] at hr; injection hr with hr; subst hr; rw [g2]; exact a
    · intro msg m' hr; rw [g1] at hr; cases hr
  | throws msg s =>
    rw [he] at g a; obtain ⟨m1, g1, g2⟩ := g
    constructor
    · intro m' hr; rw [g1] at hr; cases hr
    · intro msg m' hr; rw [g1] at hr; injection hr with _ hr; subst hr; rw [g2]; exact a
  | undefined =>
    rw [he] at g
    have g : run F code m = .ub := g
    constructor
    · intro m' hr; rw [g] at hr; cases hr
    · intro msg m' hr; rw [g] at hr; cases hr

/-- Type safety: afterwards every variable and the result hold a value of their type. -/
theorem expr_types_partial {φ} (F : Fl φ) (e : Expr φ) (hl : Literals e) (ht : Typed e) (hc : Calm e) (hk : Kept e) (code p) (h : compile e = .ok (code, p))
    (m : Mem φ) (hm : WellTyped (storeOf m)) :
    (∀ m', run F code m = .ok m' → WellTyped (storeOf m') ∧ HasTy (ty e) (m' p.ty p.id)) ∧
    (∀ msg m', run F code m = .die msg m' → WellTyped (storeOf m')) := by
  obtain ⟨code', p', h1, _, h2⟩ := expr_correct_partial F e hl ht hc hk
  rw [h] at h1; injection h1 with h1; injection h1 with h1 h1'; subst h1 h1'
  have g := h2 m hm
  obtain ⟨c, hc1, _⟩ := checked e 0 hl ht
  have a := check_correct F e 0 c hl ht hc1 (storeOf m) m (fun _ => rfl) hm
  cases he : eval F e (storeOf m) with
  | val s x =>
    rw [he] at g a; obtain ⟨m1, g1, g2, g3⟩ := g; obtain ⟨_, _, _, _, a1, a2⟩ := a
    constructor
    · intro m' hr; rw [g1] at hr; injection hr with hr; subst hr; rw [g2, g3]; exact ⟨a2, a1⟩
    · intro msg m' hr; rw [g1] at hr; cases hr
  | throws msg s =>
    rw [he] at g a; obtain ⟨m1, g1, g2⟩ := g; obtain ⟨_, _, _, a2⟩ := a
    constructor
    · intro m' hr; rw [g1] at hr; cases hr
    · intro msg m' hr; rw [g1] at hr; injection hr with _ hr; subst hr; rw [g2]; exact a2
  | undefined =>
    rw [he] at g
    have g : run F code m = .ub := g
    constructor
    · intro m' hr; rw [g] at hr; cases hr
    · intro msg m' hr; rw [g] at hr; cases hr

/-- The exceptions of an outcome. -/
def Outcome.Throws {φ} (msg : String) : Outcome φ → Prop
  | .throws m _ => m = msg
  | _ => True

theorem throws_andThen {φ} {msg} (o : Outcome φ) (k : Store φ → Val φ → Outcome φ) (h : o.Throws msg) (hk : ∀ s x, (k s x).Throws msg) :
    (o.andThen k).Throws msg := by
  cases o with
  | val s x => exact hk s x
  | throws m s => exact h
  | undefined => exact h

theorem throws_conv {φ} {msg} (F : Fl φ) (t u : NT) (x : Val φ) (s : Store φ) (k : Val φ → Outcome φ) (hk : ∀ x, (k x).Throws msg) :
    ((conv F t u x).andThen s k).Throws msg := by
  cases h : conv F t u x with
  | val x => exact hk x
  | throws m => exact absurd h (conv_not_throws F _ _ _ _)
  | undefined => trivial

theorem throws_unary {φ} {msg} (F : Fl φ) (o : UnOp) (t : NT) (x : Val φ) (s : Store φ) (k : Val φ → Outcome φ) (hk : ∀ x, (k x).Throws msg) :
    ((unary F o t x).andThen s k).Throws msg := by
  cases h : unary F o t x with
  | val x => exact hk x
  | throws m => cases x <;> cases o <;> simp only [unary, fits] at h <;> first | cases h | (split at h <;> cases h)
  | undefined => trivial

theorem throws_binary {φ} (F : Fl φ) (o : BinOp) (t : NT) (x y : Val φ) (s : Store φ) (k : Val φ → Outcome φ) (hk : ∀ x, (k x).Throws msgZero) :
    ((binary F o t x y).andThen s k).Throws msgZero := by
  cases h : binary F o t x y with
  | val x => exact hk x
  | throws m =>
    cases x with
    | i a =>
      cases y with
      | f b => cases h
      | i b =>
        simp only [binary] at h
        cases o <;> simp only [arith, fits, bits, bool] at h <;> first
          | cases h
          | (split at h <;> first | cases h | (split at h <;> cases h))
        all_goals rfl
    | f a =>
      cases y with
      | i b => cases h
      | f b => simp only [binary] at h; cases o <;> cases h
  | undefined => trivial

theorem eval_throws {φ} (F : Fl φ) (e : Expr φ) : ∀ s, (eval F e s).Throws msgZero := by
  have hu : ∀ (o v old tx x) (s : Store φ) (r), (update F o v old tx x s r).Throws msgZero := fun o v old tx x s r =>
    throws_conv F _ _ _ _ _ fun _ => throws_conv F _ _ _ _ _ fun _ => throws_binary F _ _ _ _ _ _ fun _ => throws_conv F _ _ _ _ _ fun _ => trivial
  induction e with
  | var v => intro s; trivial
  | lit t c => intro s; trivial
  | cast t e ih => intro s; exact throws_andThen _ _ (ih s) fun s x => throws_conv F _ _ _ _ _ fun _ => trivial
  | un o e ih =>
    intro s
    exact throws_andThen _ _ (ih s) fun s x => throws_conv F _ _ _ _ _ fun _ => throws_unary F _ _ _ _ _ fun _ => trivial
  | bin o a b iha ihb =>
    intro s
    exact throws_andThen _ _ (iha s) fun s x => throws_andThen _ _ (ihb s) fun s y => throws_conv F _ _ _ _ _ fun _ =>
      throws_conv F _ _ _ _ _ fun _ => throws_binary F _ _ _ _ _ _ fun _ => trivial
  | assign v e ih => intro s; exact throws_andThen _ _ (ih s) fun s x => throws_conv F _ _ _ _ _ fun _ => trivial
  | special o v e ih => intro s; exact throws_andThen _ _ (ih s) fun s' x => hu _ _ _ _ _ _ _
  | pre up v => intro s; exact hu _ _ _ _ _ _ _
  | post up v => intro s; exact hu _ _ _ _ _ _ _
  | seq a b iha ihb => intro s; exact throws_andThen _ _ (iha s) fun s x => ihb s

/-- The only exception is the one for the division by 0. -/
theorem expr_throws_partial {φ} (F : Fl φ) (e : Expr φ) (hl : Literals e) (ht : Typed e) (hc : Calm e) (hk : Kept e) (code p) (h : compile e = .ok (code, p))
    (m : Mem φ) (hm : WellTyped (storeOf m)) (msg m') (hr : run F code m = .die msg m') : msg = "Integral type values cannot be divided by 0." := by
  obtain ⟨code', p', h1, _, h2⟩ := expr_correct_partial F e hl ht hc hk
  rw [h] at h1; injection h1 with h1; injection h1 with h1 h1'; subst h1 h1'
  have g := h2 m hm
  have a := eval_throws F e (storeOf m)
  cases he : eval F e (storeOf m) with
  | val s x => rw [he] at g; obtain ⟨m1, g1, _⟩ := g; rw [g1] at hr; cases hr
  | throws msg' s =>
    rw [he] at g a; obtain ⟨m1, g1, _⟩ := g; rw [g1] at hr; injection hr with hr; rw [← hr]; exact a
  | undefined => rw [he] at g; have g : run F code m = .ub := g; rw [g] at hr; cases hr

/-! ## Expressions without assignments -/

theorem lastOf_assigned {φ} (e b : Expr φ) (h : lastOf e = some b) (ha : assigned e = []) : assigned b = [] := by
  induction e with
  | cast t e ih =>
    simp only [lastOf] at h
    split at h
    · exact ih h ha
    · cases h
  | seq x y _ _ =>
    injection h with h; subst h
    exact (List.append_eq_nil_iff.1 ha).2
  | _ => cases h

theorem calm_of_pure {φ} (e : Expr φ) (h : assigned e = []) : Calm e ∧ Kept e := by
  induction e with
  | var v => exact ⟨trivial, trivial⟩
  | lit t c => exact ⟨trivial, trivial⟩
  | cast t e ih => exact ih h
  | un o e ih => exact ih h
  | bin o a b iha ihb =>
    have h := List.append_eq_nil_iff.1 h
    refine ⟨⟨(iha h.1).1, (ihb h.2).1, fun _ v _ => ?_⟩, (iha h.1).2, (ihb h.2).2⟩
    rw [h.2]; exact List.not_mem_nil
  | assign v e ih => cases h
  | special o v e ih => cases h
  | pre up v => cases h
  | post up v => cases h
  | seq a b iha ihb =>
    have h := List.append_eq_nil_iff.1 h
    exact ⟨⟨(iha h.1).1, (ihb h.2).1⟩, (iha h.1).2, (ihb h.2).2⟩

/-- **C61** for expressions that assign nothing, and for a special assignment, `++` and `--` of such expressions: without exceptions. -/
theorem pure_correct {φ} (F : Fl φ) (e : Expr φ) (hp : assigned e = []) (hl : Literals e) (o : SpOp) (v : Var) (up : Bool) :
    ∀ e' ∈ [e, .special o v e, .pre up v, .post up v], Typed e' →
      ∃ code p, compile e' = .ok (code, p) ∧ p.ty = ty e' ∧ ∀ m, WellTyped (storeOf m) → Gives F code p m (eval F e' (storeOf m)) := by
  intro e' hm ht
  simp only [List.mem_cons, List.not_mem_nil, or_false] at hm
  have h := calm_of_pure e hp
  rcases hm with hm | hm | hm | hm <;> subst hm
  · exact expr_correct_partial F _ hl ht h.1 h.2
  · exact expr_correct_partial F _ hl ht h.1 h.2
  · exact expr_correct_partial F _ trivial ht trivial trivial
  · exact expr_correct_partial F _ trivial ht trivial trivial

/-! ## Where the documentation and the code differ -/

/-- The value and a variable after executing an expression. -/
def result (e : Expr Unit) (m : Mem Unit) (v : Var) : Option (Val Unit × Val Unit) :=
  match compile e with
  | .ok (code, p) =>
    match run ⟨fun _ _ _ => (), fun _ _ _ => (), fun _ _ _ => (), fun _ _ _ => (), fun _ _ => (), fun _ _ _ => true, fun _ _ _ => false,
      fun _ _ _ => true, fun _ _ => (), fun _ _ => some 0, fun _ _ _ => ()⟩ code m with
    | .ok m' => some (m' p.ty p.id, storeOf m' v)
    | _ => none
  | _ => none

/-- The same by the documentation. -/
def expected (e : Expr Unit) (m : Mem Unit) (v : Var) : Option (Val Unit × Val Unit) :=
  match eval ⟨fun _ _ _ => (), fun _ _ _ => (), fun _ _ _ => (), fun _ _ _ => (), fun _ _ => (), fun _ _ _ => true, fun _ _ _ => false,
      fun _ _ _ => true, fun _ _ => (), fun _ _ => some 0, fun _ _ _ => ()⟩ e (storeOf m) with
  | .val s x => some (x, s v)
  | _ => none

/-- `$x` and `$y` are 1. -/
def ones : Mem Unit := fun t _ => if t.IsInt then .i 1 else .f ()
def x : Var := ⟨.int, 0⟩
def y : Var := ⟨.int, 1⟩
def num (n : Int) : Expr Unit := .lit .int (.i n)

theorem ones_typed : WellTyped (storeOf ones) := by
  intro v
  unfold storeOf ones
  split
  · rename_i h
    refine ⟨h, ?_⟩
    cases hv : v.ty <;> decide
  · assumption

/-- `$x + ($x = 5)`: the left operand is read after the assignment, as in `++$x + ++$x`. -/
theorem late_read_violated :
    (Typed (.bin .add (.var x) (.assign x (num 5))) ∧ expected (.bin .add (.var x) (.assign x (num 5))) ones x = some (.i 6, .i 5) ∧
      result (.bin .add (.var x) (.assign x (num 5))) ones x = some (.i 10, .i 5)) ∧
    (expected (.bin .add (.pre true x) (.pre true x)) ones x = some (.i 5, .i 3) ∧
      result (.bin .add (.pre true x) (.pre true x)) ones x = some (.i 6, .i 3)) :=
  ⟨⟨⟨trivial, ⟨trivial, .inl (by decide)⟩, trivial⟩, by decide +kernel, by decide +kernel⟩, by decide +kernel, by decide +kernel⟩

/-- With operands of different types the same expression is evaluated from left to right: `$x + ($x = 5) * 1L` is 6. -/
theorem late_read_converted :
    result (.bin .add (.var x) (.bin .mul (.assign x (num 5)) (.lit .long (.i 1)))) ones x = some (.i 6, .i 5) := by decide +kernel

/-- `($x = $y) + ($y = 3)`: the value of an assignment of a variable is the variable that was read, not the one assigned to. -/
theorem assigned_read_violated :
    expected (.bin .add (.assign x (.var y)) (.assign y (num 3))) ones x = some (.i 4, .i 1) ∧
    result (.bin .add (.assign x (.var y)) (.assign y (num 3))) ones x = some (.i 6, .i 1) := by
  constructor <;> decide +kernel

/-- `$x = (7, $y--)`: there is no code for the assignment. -/
theorem lost_assignment_violated :
    expected (.assign x (.seq (num 7) (.post false y))) (ones.set .int (.user 1) (.i 9)) x = some (.i 9, .i 9) ∧
    (result (.assign x (.seq (num 7) (.post false y))) (ones.set .int (.user 1) (.i 9)) x).map Prod.snd = some (.i 1) := by
  constructor <;> decide +kernel

/-! ## The theorems are not vacuous -/

/-- `$b = 3; $y = ($x += 2) * -$x + ~$b`, with a conversion, a sequence and two assignments. -/
def sample : Expr Unit :=
  .seq (.assign ⟨.byte, 2⟩ (num 3))
    (.assign y (.bin .add (.bin .mul (.special .add x (num 2)) (.un .minus (.var x))) (.un .bitNot (.var ⟨.byte, 2⟩))))

example : Typed sample ∧ Literals sample ∧ Calm sample ∧ Kept sample := by
  refine ⟨?_, ?_, ?_, ?_⟩
  · exact ⟨⟨trivial, .inr (by decide)⟩, ⟨⟨⟨trivial, trivial⟩, ⟨trivial, fun h => by cases h⟩, trivial⟩, ⟨trivial, fun _ => by decide⟩, trivial⟩, .inl (by decide)⟩
  · exact ⟨⟨.inr (.inl rfl), by decide⟩, ⟨⟨.inr (.inl rfl), by decide⟩, trivial⟩, trivial⟩
  · exact ⟨trivial, ⟨trivial, trivial, fun _ v _ h => by cases h⟩, trivial, fun _ v h => by cases h⟩
  · exact ⟨⟨trivial, fun _ b h => by cases h⟩, ⟨⟨trivial, trivial⟩, trivial⟩, fun _ b h => by cases h⟩
example : result sample ones x = some (.i (-13), .i 3) ∧ result sample ones y = some (.i (-13), .i (-13)) ∧
    expected sample ones y = some (.i (-13), .i (-13)) := by
  refine ⟨?_, ?_, ?_⟩ <;> decide +kernel

/-- `byte` operands are converted to `int`, a `byte` variable wraps around. -/
example : result (.bin .add (.var ⟨.byte, 0⟩) (.var ⟨.byte, 1⟩)) (fun _ _ => .i 100) x = some (.i 200, .i 100) ∧
    result (.special .add ⟨.byte, 0⟩ (num 100)) (fun _ _ => .i 100) ⟨.byte, 0⟩ = some (.i (-56), .i (-56)) ∧
    result (.post true ⟨.byte, 0⟩) (fun _ _ => .i 127) ⟨.byte, 0⟩ = some (.i 127, .i (-128)) := by
  refine ⟨?_, ?_, ?_⟩ <;> decide +kernel

/-- `1 % 0` throws, `$byte = $int` and `1.0 % 2` are compile errors. -/
example : result (.bin .mod (num 1) (num 0)) ones x = none ∧ ¬ Typed (.assign ⟨.byte, 0⟩ (.var x) : Expr Unit) ∧
    ¬ Typed (.bin .mod (.lit .double (.f ())) (num 2)) := by
  refine ⟨by decide +kernel, fun h => ?_, fun h => ?_⟩
  · rcases h.2 with h | h
    · exact absurd h (by decide)
    · exact h
  · exact absurd h.2.2.1 (by decide)

end Expr
end SPVM
