import Verif.Lemmas.Program
/-!
# C78: programs of numeric class methods that call each other

`ProgramOk O P`: each method of `P` obeys the rules of C77, and the default values of its optional arguments have the types of these arguments.  A program is a list of methods, and a
method is called by its place in the list; recursion is allowed, and at most `c` calls may be nested (`max_call_depth`).
-/
namespace SPVM
namespace Expr
open Flow (Vm)

structure ProgramOk {φ} (O : Objs) (P : List (Meth φ)) : Prop where
  obeys : ∀ g ∈ P, g.Obeys O (sigs P)
  optional : ∀ g ∈ P, g.defaults.length ≤ g.params.length
  defaults : ∀ g ∈ P, ∀ i v x, g.params[g.params.length - g.defaults.length + i]? = some v → g.defaults[i]? = some x → HasTy v.ty x

/-- C78: every such program is compiled. -/
theorem program_compiles_partial {φ} (F : Fl φ) (O : Objs) (P : List (Meth φ)) (h : ProgramOk O P) : ∃ R, compileProgram P = .ok R :=
  compileAll_ok _ P fun g hg => body_compiles_partial O _ g (h.obeys g hg) F

/-- C78: and a program in which a method breaks the rules on the types of `switch`, `return` and calls, or has more than 255 arguments, is rejected. -/
theorem program_rejects_partial {φ} (F : Fl φ) (O : Objs) (P : List (Meth φ))
    (h : ∀ g ∈ P, g.body.Follows O ∧ g.body.Steady (sigs P) ∧ g.body.Placed false false false ∧ g.body.Flat false) (g : Meth φ) (hg : g ∈ P)
    (hb : ¬ (g.body.Typed g.ret (sigs P) ∧ g.params.length ≤ 255)) : ∃ msg, compileProgram P = .die msg := by
  refine compileAll_die _ P (fun g hg => ?_) g hg (body_rejects_partial O _ g (h g hg).1 (h g hg).2.1 hb F)
  by_cases ht : g.body.Typed g.ret (sigs P) ∧ g.params.length ≤ 255
  · exact .inl (body_compiles_partial O _ g ⟨(h g hg).1, ht.1, (h g hg).2.1, (h g hg).2.2.1, (h g hg).2.2.2, ht.2⟩ F)
  · exact .inr (body_rejects_partial O _ g (h g hg).1 (h g hg).2.1 ht F)

/-- C78: what happens in a call is what the documentation says: if the call of method number `f` with the arguments `vs` ends, `$@`, the return value and whether an exception is
thrown are those of the statements of the method with these arguments and the default values of the others, at every depth of calls. -/
theorem program_reflects_partial {φ} (F : Fl φ) (O : Objs) (P : List (Meth φ)) (h : ProgramOk O P) (R : List (RMeth φ)) (hR : compileProgram P = .ok R) (n c : Nat) :
    ∀ f g vs d d' e, P[f]? = some g → Fit g.sig vs d → callMethod F O R n c f vs.length d = some (d', e) →
      ∃ a, ProgramCalls F O P c f (g.sig.fill vs) d.exc a ∧ e = (if a.threw then 1 else 0) ∧ Left g.ret a d' := by
  induction c with
  | zero =>
    intro f g vs d d' e hg _ hc
    cases hc
    refine ⟨⟨true, some msgDeep, none⟩, ⟨?_, rfl⟩, rfl, rfl, fun h => by cases h⟩
    rcases Nat.lt_or_ge f P.length with h | h
    · exact h
    · rw [List.getElem?_eq_none h] at hg; cases hg
  | succ c ih =>
    intro f g vs d d' e hg hv hc
    obtain ⟨M, T, h1, h2⟩ := compileAll_get _ P R hR f g hg
    have hm : g ∈ P := List.mem_of_getElem? hg
    have hK : Reflects (sigs P) (ProgramCalls F O P c) (callMethod F O R n c) := by
      intro f s vs d d' e hs
      cases hp : P[f]? with
      | none => rw [sigs, hp] at hs; cases hs
      | some g => rw [sigs, hp] at hs; cases hs; exact ih f g vs d d' e hp
    rw [callMethod, h2] at hc
    simp only at hc
    cases hr : runBody F O (callMethod F O R n c) M T { d with stack := setDefaults ⟨g.params.map Var.ty, g.defaults, M, T⟩ vs.length d.stack } n with
    | go v => rw [hr] at hc; cases hc
    | ub => rw [hr] at hc; cases hc
    | done v =>
      rw [hr] at hc
      simp only at hc
      cases hmem : v.st.mem with
      | none => rw [hmem] at hc; cases hc
      | some x =>
        rw [hmem] at hc
        cases hc
        obtain ⟨t, w', a1, a2, a3, a4⟩ := body_reflects_partial F O _ g (h.obeys g hm) M T h1 _ _ hK _ _ (passed g (h.optional g hm) (h.defaults g hm) M T vs d hv) n v hr x.1 x.2 hmem
        exact ⟨⟨t, w'.exc, w'.result⟩, ⟨g, w', hg, a1, rfl, rfl⟩, a3, a4⟩

/-- The calls with a limit of `c`, as the number of operation codes grows. -/
theorem limit_serves {φ} (F : Fl φ) (O : Objs) (P : List (Meth φ)) (h : ProgramOk O P) (R : List (RMeth φ)) (hR : compileProgram P = .ok R) (c : Nat) :
    ∃ L, Settles (fun n => callMethod F O R n c) L ∧ Serves (sigs P) (ProgramCalls F O P c) L := by
  induction c with
  | zero =>
    refine ⟨callMethod F O R 0 0, fun f w d r hr => ⟨0, fun n _ => hr⟩, fun f s vs d a _ _ ha => ?_⟩
    obtain ⟨_, rfl⟩ := ha
    exact ⟨_, rfl, rfl, fun h => by cases h⟩
  | succ c ih =>
    obtain ⟨L0, s1, s2⟩ := ih
    obtain ⟨L, t1, t2⟩ := limit_exists fun n => callMethod F O R n (c + 1)
    refine ⟨L, t1, fun f s vs d a hs hv ha => ?_⟩
    obtain ⟨g, w', hg, hb, e1, e2⟩ := ha
    rw [sigs, hg] at hs; cases hs
    obtain ⟨M, T, h1, h2⟩ := compileAll_get _ P R hR f g hg
    have hm : g ∈ P := List.mem_of_getElem? hg
    have hp := passed g (h.optional g hm) (h.defaults g hm) M T vs d hv
    obtain ⟨k, v, m', d', a1, a2, _, a4, a5, _⟩ := body_ends_partial F O _ g (h.obeys g hm) M T h1 _ _ s2 _ _ hp a.threw w' hb
    obtain ⟨n0, b1⟩ := run_settles F O T M.code M.mortalLength s1 k _ v (a1 k (Nat.le_refl _)) (by rw [a2]; simp)
    refine ⟨d', t2 f vs.length d (d', v.err) ⟨n0 + k, fun n hn => ?_⟩ |>.trans (by rw [a4]), ?_⟩
    · have b2 := run_more _ _ _ k n _ v (by omega) (b1 n (by omega))
      show callMethod F O R n (c + 1) f vs.length d = _
      rw [callMethod, h2]
      simp only
      rw [show runBody F O (callMethod F O R n c) M T _ n = .done v from b2]
      simp [a2]
    · rw [← e1, ← e2] at a5
      exact a5

/-- C78: if, by the documentation, the call of method number `f` with the arguments `vs` ends as `a` says, at most `c` calls being nested, then the call ends that way when
the compiled program is run: with this `$@`, with this return value on the stack, and with an exception exactly if `a` has one.  Missing: what is missing in C77. -/
theorem program_ends_partial {φ} (F : Fl φ) (O : Objs) (P : List (Meth φ)) (h : ProgramOk O P) (R : List (RMeth φ)) (hR : compileProgram P = .ok R) (c f : Nat) (g : Meth φ)
    (vs : List (Val φ)) (d : Side φ) (a : Answer φ) (hg : P[f]? = some g) (hv : Fit g.sig vs d) (ha : ProgramCalls F O P c f (g.sig.fill vs) d.exc a) :
    ∃ n0 d', (∀ n, n0 ≤ n → callMethod F O R n c f vs.length d = some (d', if a.threw then 1 else 0)) ∧ Left g.ret a d' := by
  obtain ⟨L, s1, s2⟩ := limit_serves F O P h R hR c
  obtain ⟨d', e1, e2⟩ := s2 f g.sig vs d a (by rw [sigs, hg]; rfl) hv ha
  obtain ⟨n0, e3⟩ := s1 f vs.length d _ e1
  exact ⟨n0, d', e3, e2⟩

/-- C78: the documented result of a call is unique. -/
theorem program_unique_partial {φ} (F : Fl φ) (O : Objs) (P : List (Meth φ)) (h : ProgramOk O P) (c f : Nat) (g : Meth φ) (vs : List (Val φ)) (d : Side φ) (a a' : Answer φ)
    (hg : P[f]? = some g) (hv : Fit g.sig vs d) (h1 : ProgramCalls F O P c f (g.sig.fill vs) d.exc a) (h2 : ProgramCalls F O P c f (g.sig.fill vs) d.exc a') : a = a' := by
  cases c with
  | zero => exact h1.2.trans h2.2.symm
  | succ c =>
    obtain ⟨R, hR⟩ := program_compiles_partial F O P h
    obtain ⟨L, _, s2⟩ := limit_serves F O P h R hR c
    obtain ⟨M, T, _, _⟩ := compileAll_get _ P R hR f g hg
    have hm : g ∈ P := List.mem_of_getElem? hg
    obtain ⟨g1, w1, k1, b1, c1, c2⟩ := h1
    obtain ⟨g2, w2, k2, b2, c3, c4⟩ := h2
    rw [hg] at k1 k2; cases k1; cases k2
    have := body_unique_partial F O _ g (h.obeys g hm) _ L s2 _ _ (passed g (h.optional g hm) (h.defaults g hm) M T vs d hv) _ _ _ _ b1 b2
    obtain ⟨t, x, y⟩ := a
    obtain ⟨t', x', y'⟩ := a'
    obtain ⟨e1, e2⟩ := this
    simp only at e1 c1 c2 c3 c4
    subst e1; subst e2
    rw [c1, c2, c3, c4]

/-- C78: a call that, by the documentation, never ends and never does anything undefined never ends. -/
theorem program_stays_partial {φ} (F : Fl φ) (O : Objs) (P : List (Meth φ)) (h : ProgramOk O P) (R : List (RMeth φ)) (hR : compileProgram P = .ok R) (n c f : Nat) (g : Meth φ)
    (vs : List (Val φ)) (d : Side φ) (hg : P[f]? = some g) (hv : Fit g.sig vs d) (ha : ∀ a, ¬ ProgramCalls F O P c f (g.sig.fill vs) d.exc a) :
    callMethod F O R n c f vs.length d = none := by
  cases hc : callMethod F O R n c f vs.length d with
  | none => rfl
  | some r =>
    obtain ⟨a, h1, _⟩ := program_reflects_partial F O P h R hR n c f g vs d r.1 r.2 hg hv hc
    exact absurd h1 (ha a)

/-! ### Examples -/

/-- `static method fact : int ($x : int = 5) { if ($x <= 1) { return 1; } $y = &fact($x - 1); return $y * $x; }`. -/
def fact : Meth Unit :=
  ⟨[x], [.i 5], some .int, .seq (.ifs false (.num (.bin .le (.var x) (num 1))) (.give (num 1)) .skip)
    (.seq (.call (some y) 0 [.bin .sub (.var x) (num 1)]) (.give (.bin .mul (.var y) (.var x))))⟩

/-- `static method down : void ($x : int) { eval { &up($x - 1); } }` -/
def down : Meth Unit := ⟨[x], [], none, .eval (.call none 2 [.bin .sub (.var x) (num 1)])⟩

/-- `static method up : long ($x : int) { if ($x == 0) { return 1 / $x; } &down($x); }`. -/
def up : Meth Unit := ⟨[x], [], some .long, .seq (.ifs false (.num (.bin .eq (.var x) (num 0))) (.give (.bin .div (num 1) (.var x))) .skip) (.call none 1 [.var x])⟩

def sampleProgram : List (Meth Unit) := [fact, down, up]

/-- The result of a call with the arguments `vs`, if the limit on the depth is `c`: the value at the bottom of the stack, `$@` and the error. -/
def callResult (P : List (Meth Unit)) (n c f : Nat) (vs : List (NT × Val Unit)) : Option (Option (NT × Val Unit) × Option String × Nat) :=
  match compileProgram P with
  | .ok R => (callMethod noFloat objs R n c f vs.length ⟨none, fun i => vs[i]?⟩).map fun r => (r.1.stack 0, r.1.exc, r.2)
  | _ => none

/-- With an argument, and with the default value. -/
example : callResult sampleProgram 60 1000 0 [(.int, .i 6)] = some (some (.int, .i 720), none, 0) ∧ callResult sampleProgram 60 1000 0 [] = some (some (.int, .i 120), none, 0) := by
  decide +kernel
/-- Six calls are needed for 6. -/
example : callResult sampleProgram 60 6 0 [(.int, .i 6)] = some (some (.int, .i 720), none, 0) ∧ callResult sampleProgram 60 5 0 [(.int, .i 6)] = some (some (.int, .i 1), some msgDeep, 1) := by
  decide +kernel
/-- The exception is thrown in `up(0)` and caught in `down(1)`; `up(1)`, which called it, returns 0, the initial value. -/
example : callResult sampleProgram 60 1000 2 [(.int, .i 1)] = some (some (.long, .i 0), some "Integral type values cannot be divided by 0.", 0) := by decide +kernel
/-- The hypotheses hold for the program, and for a call with the default value. -/
theorem sampleProgram_ok : ProgramOk objs sampleProgram := by
  have lit : ∀ n : Int, InRange .int n → Literal (φ := Unit) .int (.i n) := fun n h => ⟨.inr (.inl rfl), h⟩
  have cmp : ∀ (o : BinOp) (n : Int), InRange .int n → Accepts o .int .int →
      Literals (.bin o (.var x) (num n)) ∧ Expr.Typed (.bin o (.var x) (num n)) ∧ Calm (.bin o (.var x) (num n)) ∧ Kept (.bin o (.var x) (num n)) := by
    intro o n hn ho
    exact ⟨⟨trivial, lit n hn⟩, ⟨trivial, trivial, ho⟩, ⟨trivial, trivial, fun _ w _ h => by cases h⟩, trivial, trivial⟩
  have steady : ∀ (f : Nat) (e : Expr Unit) (v : Option Var), (Stat.call v f [e]).Steady (sigs sampleProgram) := by
    intro f e v g _
    unfold Sig.given
    cases g.params <;> simp
  refine ⟨fun g hg => ?_, fun g hg => ?_, fun g hg => ?_⟩
  · rcases List.mem_cons.1 hg with rfl | hg
    · refine ⟨⟨⟨⟨cmp .le 1 (by decide) trivial, trivial⟩, ⟨lit 1 (by decide), trivial, trivial, trivial⟩, trivial⟩, fun e he => ?_, ?_⟩,
        ⟨⟨⟨.int, rfl, .inl (by decide)⟩, trivial⟩, ⟨fact.sig, rfl, by decide, by decide, ?_, ?_⟩, ⟨.int, rfl, .inl (by decide)⟩⟩, ⟨⟨trivial, trivial⟩, steady _ _ _, trivial⟩,
        ⟨⟨trivial, trivial⟩, trivial, trivial⟩, ⟨⟨trivial, trivial⟩, trivial, trivial⟩, by decide⟩
      · cases List.mem_singleton.1 he; exact cmp .sub 1 (by decide) trivial
      · exact ⟨⟨trivial, trivial⟩, ⟨trivial, trivial, trivial⟩, ⟨trivial, trivial, fun _ w _ h => by cases h⟩, trivial, trivial⟩
      · intro p hp; cases List.mem_singleton.1 hp; exact .inl (by decide)
      · intro w hw; cases hw; exact ⟨.int, rfl, by decide⟩
    rcases List.mem_cons.1 hg with rfl | hg
    · refine ⟨fun e he => ?_, ⟨up.sig, rfl, by decide, by decide, ?_, fun w hw => by cases hw⟩, steady 2 _ none, trivial, ⟨rfl, trivial⟩, by decide⟩
      · cases List.mem_singleton.1 he; exact cmp .sub 1 (by decide) trivial
      · intro p hp; cases List.mem_singleton.1 hp; exact .inl (by decide)
    · cases List.mem_singleton.1 hg
      refine ⟨⟨⟨⟨cmp .eq 0 (by decide) trivial, trivial⟩, ?_, trivial⟩, fun e he => ?_⟩,
        ⟨⟨⟨.long, rfl, .inl (by decide)⟩, trivial⟩, down.sig, rfl, by decide, by decide, ?_, fun w hw => by cases hw⟩, ⟨⟨trivial, trivial⟩, steady _ _ _⟩,
        ⟨⟨trivial, trivial⟩, trivial⟩, ⟨⟨trivial, trivial⟩, trivial⟩, by decide⟩
      · exact ⟨⟨lit 1 (by decide), trivial⟩, ⟨trivial, trivial, trivial⟩, ⟨trivial, trivial, fun _ w h => by cases h⟩, trivial, trivial⟩
      · cases List.mem_singleton.1 he; exact ⟨trivial, trivial, trivial, trivial⟩
      · intro p hp; cases List.mem_singleton.1 hp; exact .inl (by decide)
  · simp only [sampleProgram, List.mem_cons, List.not_mem_nil, or_false] at hg
    rcases hg with rfl | rfl | rfl <;> decide
  · simp only [sampleProgram, List.mem_cons, List.not_mem_nil, or_false] at hg
    rcases hg with rfl | rfl | rfl <;> intro i v a h1 h2
    · cases i with
      | zero => cases h1; cases h2; exact ⟨by decide, by decide⟩
      | succ i => cases h2
    · cases h2
    · cases h2
example : Fit fact.sig [] (⟨none, fun _ => none⟩ : Side Unit) := ⟨by decide, by decide, fun i t x _ h => by cases h⟩
/-- So 720 is what the documentation says. -/
example : ∃ a, ProgramCalls noFloat objs sampleProgram 1000 0 [.i 6] none a ∧ a.result = some (.int, .i 720) ∧ a.threw = false ∧ a.exc = none := by
  obtain ⟨R, hR⟩ := program_compiles_partial noFloat objs _ sampleProgram_ok
  have h : callResult sampleProgram 60 1000 0 [(.int, .i 6)] = some (some (.int, .i 720), none, 0) := by decide +kernel
  rw [callResult, hR] at h
  simp only at h
  cases hc : callMethod noFloat objs R 60 1000 0 1 ⟨none, fun i => [(NT.int, (Val.i 6 : Val Unit))][i]?⟩ with
  | none => rw [show ([(NT.int, (Val.i 6 : Val Unit))]).length = 1 from rfl, hc] at h; cases h
  | some r =>
    rw [show ([(NT.int, (Val.i 6 : Val Unit))]).length = 1 from rfl, hc] at h
    simp only [Option.map_some, Option.some.injEq, Prod.mk.injEq] at h
    obtain ⟨a, h1, h2, h3⟩ := program_reflects_partial noFloat objs _ sampleProgram_ok R hR 60 1000 0 fact [.i 6] _ r.1 r.2 rfl
      ⟨by decide, by decide, fun i t v h1 h2 => by
        cases i with
        | zero => cases h1; cases h2; exact ⟨rfl, by decide, by decide⟩
        | succ i => cases h2⟩ hc
    have ht : a.threw = false := by
      cases ha : a.threw with
      | false => rfl
      | true => rw [ha, h.2.2] at h2; exact absurd h2 (by decide)
    obtain ⟨v, b1, b2, _⟩ := h3.2 ht .int rfl
    rw [h.1] at b2; cases b2
    exact ⟨a, h1, b1, ht, h3.1.symm.trans h.2.1⟩

/-! ### Arguments that later arguments change -/

/-- `static method pair : int ($x : int, $y : int) { return $x * 10 + $y; }`. -/
def pair : Meth Unit := ⟨[x, y], [], some .int, .give (.bin .add (.bin .mul (.var x) (num 10)) (.var y))⟩

/-- `static method late : int ($x : int) { $y = &pair($x, $x = 5); return $y; }`. -/
def late : Meth Unit := ⟨[x], [], some .int, .seq (.call (some y) 0 [.var x, .assign x (num 5)]) (.give (.var y))⟩

/-- C78: the restriction on arguments is needed: the arguments of `&pair($x, $x = 5)` with `$x` 1 have the values 1 and 5, but the method gets 5 and 5. -/
theorem late_argument_violated :
    ProgramCalls noFloat objs [pair, late] 2 1 [.i 1] none ⟨false, none, some (.int, .i 15)⟩ ∧
    callResult [pair, late] 60 2 1 [(.int, .i 1)] = some (some (.int, .i 55), none, 0) := by
  refine ⟨⟨late, _, rfl, ⟨.ret, _, .seq (.callSet (a := ⟨false, none, some (.int, .i 15)⟩) (vs := [.i 1, .i 5]) (y := .i 15) rfl rfl ?_ rfl rfl rfl) (.give rfl rfl), by simp, rfl⟩, rfl, rfl⟩, by decide +kernel⟩
  exact ⟨pair, _, rfl, ⟨.ret, _, .give rfl rfl, by simp, rfl⟩, rfl, rfl⟩

end Expr
end SPVM
