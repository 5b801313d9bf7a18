import Verif.Lemmas.Body
import Verif.Spec.Calls
import Verif.Props.Flow
import Verif.Props.Logic
/-!
# C77: a method body of numeric statements does what the documentation says

`b.Follows O`: the expressions keep the rules of C61, the conditions those of C62.  `b.Typed R S`: the operands of `switch` and `return` and the arguments of calls have types that
the documentation allows in a method with the return type `R`, if the methods that can be called have the signatures `S`.  `b.Steady S`: no argument of a call is changed by a later one.
`Placed false false false`: `next` and `last` stand in loops, `break` in a switch, `elsif` after `if`, and the cases of a switch are different.  `Flat false`: there is no `eval` inside
an `eval`.  What calls do is given: `C` is what the documentation says, `K` what happens, and `Serves` and `Reflects` (Spec/Calls) say that they agree; C78 is about whole programs.
-/
namespace SPVM
namespace Expr
open Flow (Vm)

/-- The rules of C61 for the expressions and of C62 for the conditions. -/
def Stat.Follows {φ} (O : Objs) (b : Stat φ) : Prop :=
  b.All (fun e => Literals e ∧ Expr.Typed e ∧ Calm e ∧ Kept e) fun c => (c.All fun e => Literals e ∧ Expr.Typed e ∧ Calm e ∧ Kept e) ∧ c.BoolsDefined O

/-- The rules for a method `g`, if the methods that can be called have the signatures `S`. -/
structure Meth.Obeys {φ} (O : Objs) (S : Nat → Option (Sig φ)) (g : Meth φ) : Prop where
  follows : g.body.Follows O
  typed : g.body.Typed g.ret S
  steady : g.body.Steady S
  placed : g.body.Placed false false false
  flat : g.body.Flat false
  width : g.params.length ≤ 255

/-- The start of the method: the arguments come from the stack. -/
theorem enter_run {φ} (F : Fl φ) (O : Objs) (K : Oracle φ) (d : Side φ) (ps : List Var) : ∀ (vs : List (Val φ)) (i : Nat) (m : Mem φ), vs.length = ps.length →
    i + ps.length ≤ 256 → WellTyped (storeOf m) → (∀ j v x, ps[j]? = some v → vs[j]? = some x → d.stack (i + j) = some (v.ty, x) ∧ HasTy v.ty x) →
    ∃ m', runS F O K (enterCode ps i) m d = .out m' d ∧ storeOf m' = (ps.zip vs).foldl (fun s p => s.set p.1 p.2) (storeOf m) ∧ WellTyped (storeOf m') := by
  induction ps with
  | nil => intro vs i m _ _ hm _; exact ⟨m, rfl, by simp, hm⟩
  | cons v ps ih =>
    intro vs i m hl hi hm h
    cases vs with
    | nil => cases hl
    | cons x vs =>
      have h0 := h 0 v x rfl rfl
      rw [Nat.add_zero] at h0
      simp only [List.length_cons] at hi hl
      have hs : storeOf (m.set v.ty (.user v.id) x) = (storeOf m).set v x := by
        funext w
        simp only [storeOf, Mem.set, Store.set]
        by_cases hw : w = v
        · subst hw; simp
        · rw [if_neg hw, if_neg]
          rintro ⟨a, b⟩
          injection b with b
          exact hw (by cases w; cases v; simp_all)
      obtain ⟨m', a1, a2, a3⟩ := ih vs (i + 1) (m.set v.ty (.user v.id) x) (by omega) (by omega) (by rw [hs]; exact TypedStore.set hm v _ h0.2)
        (fun j w y h1 h2 => by rw [show i + 1 + j = i + (j + 1) by omega]; exact h (j + 1) w y h1 h2)
      refine ⟨m', ?_, by rw [a2, hs]; rfl, a3⟩
      rw [← a1]
      simp [enterCode, runS, Nat.mod_eq_of_lt (show i < 256 by omega), xexec, h0.1, userVar, oneS, SRes.next]

theorem zeroMem_store {φ} (F : Fl φ) : storeOf (zeroMem F) = fun v => initial F v.ty := by
  funext v; exact zero_eq F v.ty

/-- The end of the body. -/
theorem end_runs {φ} (F : Fl φ) (O : Objs) (K : Oracle φ) (R : Option NT) (k : Count) (T : List (XInstr φ)) (hf : Fits T k.code (endPiece R k).2) (p : Flow.Point (BMem φ)) (w : World φ)
    (hp : At p w) : ∃ q, Flow.Runs (interp F O K T) (.stmt (endPiece (φ := φ) R k).1) p .ret q ∧ Ended R q (w.atEnd F R) ∧
      ∀ r q', Flow.Runs (interp F O K T) (.stmt (endPiece (φ := φ) R k).1) p r q' → r = .ret ∧ q' = q := by
  obtain ⟨m, sd, m1, mx, mr, m2, m3⟩ := hp
  cases R with
  | none =>
    have h0 : T[k.code]? = some .nothing := hf 0 _ rfl
    exact ⟨_, .ret _ p, ⟨m, sd, by simp [interp, m1, execAt, h0, xstep, xexec], mx, mr, m2, m3⟩, fun r q' h => by cases h; exact ⟨rfl, rfl⟩⟩
  | some t =>
    have h0 : T[k.code]? = some (.zero ⟨t, .tmp k.tmp⟩) := hf 0 _ rfl
    have h1 : T[k.code + 1]? = some (.give ⟨t, .tmp k.tmp⟩) := hf 1 _ rfl
    refine ⟨_, .seq (.seq (.act _ p) (.skip _)) (.ret _ _), ⟨m.set t (.tmp k.tmp) (zeroVal F t), sd.set 0 (t, zeroVal F t), ?_, mx, ⟨initial F t, rfl, ?_, initial_ty F t⟩, ?_, m3⟩, fun r q' h => ?_⟩
    · simp [interp, m1, execAt, h0, h1, xstep, xexec, Mem.set]
    · rw [← zero_eq]; rfl
    · show _ = w.store
      rw [← m2]; funext v; simp [storeOf, Mem.set]
    · cases h with
      | seq a b =>
        cases b
        cases a with
        | seq a b => cases a; cases b; exact ⟨rfl, rfl⟩
        | seqExit a hm => exact absurd rfl hm
      | seqExit a hn =>
        cases a with
        | seq a b => cases a; cases b; exact absurd rfl hn
        | seqExit a hm => cases a; exact absurd rfl hm

theorem end_shape {φ} (R : Option NT) (k : Count) : (∀ a b c, (endPiece (φ := φ) R k).1.ok a b c = true) ∧ (∀ b, (endPiece (φ := φ) R k).1.evalFlat b = true) ∧
    (endPiece (φ := φ) R k).1.scoped = true := by
  cases R <;> exact ⟨fun _ _ _ => rfl, fun _ => rfl, rfl⟩

/-- What the two directions need. -/
theorem compiled {φ} (F : Fl φ) (O : Objs) (G : Nat → Option (Sig φ)) (g : Meth φ) (h : g.Obeys O G) :
    ∃ S k B M T, B = Flow.Stmt.seq (straight (enterCode (φ := φ) g.params 0) 0) (.seq S (endPiece (φ := φ) g.ret k).1) ∧ compileMeth G g = .ok (M, T) ∧ Flow.compile B = some M ∧
      B.ok false false false = true ∧ B.evalFlat false = true ∧ B.scoped = true ∧ (∀ K, Trans F O g.ret G K T g.body S) ∧ Fits T 0 (enterCode (φ := φ) g.params 0) ∧
      Fits T k.code (endPiece (φ := φ) g.ret k).2 ∧ S.ok false false false = true := by
  obtain ⟨S, seg, k, h1, h2, h3⟩ := statPiece_sim F O g.ret G g.body h.follows h.typed h.steady ⟨0, 0, (enterCode (φ := φ) g.params 0).length⟩
  obtain ⟨f0, f1⟩ := (Fits.self (enterCode g.params 0 ++ (seg ++ (endPiece (φ := φ) g.ret k).2))).append
  rw [Nat.zero_add] at f1
  obtain ⟨f1, f2⟩ := f1.append
  have hT := fun K => h3 K _ f1
  have e := end_shape (φ := φ) g.ret k
  have hT0 := hT (fun _ _ _ => none)
  have p := plain_straight (enterCode (φ := φ) g.params 0) 0
  have a0 := (trans_ok hT0).1 _ _ _ h.placed
  have a1 : (Flow.Stmt.seq (straight (enterCode (φ := φ) g.params 0) 0) (.seq S (endPiece (φ := φ) g.ret k).1)).ok false false false = true := by
    simp only [Flow.Stmt.ok, a0, e.1, operator_ok _ p.1, Bool.and_self]
  have a2 : (Flow.Stmt.seq (straight (enterCode (φ := φ) g.params 0) 0) (.seq S (endPiece (φ := φ) g.ret k).1)).evalFlat false = true := by
    simp only [Flow.Stmt.evalFlat, trans_flat hT0 _ h.flat, e.2.1, p.2.2.2, Bool.and_self]
  have a3 : (Flow.Stmt.seq (straight (enterCode (φ := φ) g.params 0) 0) (.seq S (endPiece (φ := φ) g.ret k).1)).scoped = true := by
    simp only [Flow.Stmt.scoped, (trans_scoped hT0).1, e.2.2, p.2.2.1, Bool.and_self]
  obtain ⟨M, hM⟩ := Flow.flow_compiles _ a1 a2
  exact ⟨S, k, _, M, _, rfl, by simp only [compileMeth, if_pos h.width, h1, Out.ok_bind, hM], hM, a1, a2, a3, hT, f0, by rw [h2]; exact f2, a0⟩

/-- C77: every such method is compiled. -/
theorem body_compiles_partial {φ} (O : Objs) (S : Nat → Option (Sig φ)) (g : Meth φ) (h : g.Obeys O S) (F : Fl φ) : ∃ M T, compileMeth S g = .ok (M, T) := by
  obtain ⟨_, _, _, M, T, _, h1, _⟩ := compiled F O S g h
  exact ⟨M, T, h1⟩

/-- C77: and every method that breaks the rules on the types of `switch`, `return` and calls, or has more than 255 arguments, is rejected. -/
theorem body_rejects_partial {φ} (O : Objs) (S : Nat → Option (Sig φ)) (g : Meth φ) (h : g.body.Follows O) (hs : g.body.Steady S)
    (ht : ¬ (g.body.Typed g.ret S ∧ g.params.length ≤ 255)) (F : Fl φ) : ∃ msg, compileMeth S g = .die msg := by
  by_cases hw : g.params.length ≤ 255
  · obtain ⟨msg, h1⟩ := statPiece_rejected F O g.ret S g.body h (fun h => ht ⟨h, hw⟩) hs ⟨0, 0, (enterCode (φ := φ) g.params 0).length⟩
    exact ⟨msg, by simp only [compileMeth, if_pos hw, h1]; rfl⟩
  · exact ⟨msgWidth, by simp only [compileMeth, if_neg hw]⟩

/-- A statement of a method body does not end with `next`, `last` or `break`. -/
theorem end_of_body {φ} {F : Fl φ} {O : Objs} {R : Option NT} {G : Nat → Option (Sig φ)} {K : Oracle φ} {T : List (XInstr φ)} {p q} {r : Stop} {S : Flow.Stmt}
    (hS : S.ok false false false = true) (h : Flow.Runs (interp F O K T) (.stmt S) p r.toEnd q) : r = .normal ∨ r = .ret ∨ r = .exc := by
  have := Flow.end_ok h
  simp only [Flow.EndOk] at this
  cases r <;> simp_all [Stop.toEnd]

/-- The entry of the method. -/
theorem entered {φ} (F : Fl φ) (O : Objs) (K : Oracle φ) (T : List (XInstr φ)) (g : Meth φ) (hw : g.params.length ≤ 255) (hf : Fits T 0 (enterCode (φ := φ) g.params 0)) (vs : List (Val φ)) (d : Side φ)
    (hd : Passed g.params vs d) : ∃ q, Flow.Runs (interp F O K T) (.stmt (straight (enterCode (φ := φ) g.params 0) 0)) ⟨⟨fun _ => none, some (zeroMem F, d)⟩, []⟩ .normal q ∧
      At q ⟨g.enter F vs, d.exc, none⟩ := by
  have hz : WellTyped (storeOf (zeroMem F)) := by rw [zeroMem_store]; exact fun v => initial_ty F v.ty
  obtain ⟨m', a1, a2, a3⟩ := enter_run F O K d g.params vs 0 (zeroMem F) hd.1 (by omega) hz (fun j v x h1 h2 => by rw [Nat.zero_add]; exact hd.2 j v x h1 h2)
  have dd := straight_runs F O K T _ 0 (zeroMem F) d hf
  rw [a1] at dd
  obtain ⟨q, q1, q2⟩ := dd ⟨⟨fun _ => none, some (zeroMem F, d)⟩, []⟩ rfl
  rw [zeroMem_store] at a2
  exact ⟨q, q1, m', d, q2, rfl, rfl, a2, by show WellTyped (g.enter F vs); rw [Meth.enter, ← a2]; exact a3⟩

/-- C77: if the statements of the body, started with the arguments `vs`, end with the variables `w'`, then the compiled method ends with these variables, this `$@` and this
return value on the stack, and with an exception exactly if the statements do.  Missing: the rules of C61 and C62, arguments of calls that are changed by later arguments, and
`eval` inside `eval`. -/
theorem body_ends_partial {φ} (F : Fl φ) (O : Objs) (S : Nat → Option (Sig φ)) (g : Meth φ) (h : g.Obeys O S) (M : Flow.Method) (T : List (XInstr φ))
    (hM : compileMeth S g = .ok (M, T)) (C : Calls φ) (K : Oracle φ) (hK : Serves S C K) (vs : List (Val φ)) (d : Side φ) (hd : Passed g.params vs d) (threw : Bool) (w' : World φ)
    (hb : BodyEnds F O g.ret S C g.body ⟨g.enter F vs, d.exc, none⟩ threw w') :
    ∃ n v m' d', (∀ k, n ≤ k → runBody F O K M T d k = .done v) ∧ v.st.mem = some (m', d') ∧ storeOf m' = w'.store ∧ v.err = (if threw then 1 else 0) ∧
      Left g.ret ⟨threw, w'.exc, w'.result⟩ d' ∧ (threw = true ∨ g.ret = none → w'.result = none) := by
  obtain ⟨S', k, B, M', T', hB, h1, h2, h3, h4, h5, h6, h7, h8, h9⟩ := compiled F O S g h
  rw [hM] at h1; injection h1 with h1; injection h1 with e1 e2; subst e1; subst e2
  obtain ⟨r, w1, he, hr, rfl⟩ := hb
  obtain ⟨q0, x1, x2⟩ := entered F O K T g h.width h7 vs d hd
  obtain ⟨q, g1, g2⟩ := forward F O g.ret S C K hK T he S' (h6 K) q0 x2
  have hend := end_of_body (G := S) (R := g.ret) h9 g1
  have g : ∃ r' q' m' d', Flow.Runs (interp F O K T) (.stmt B) ⟨⟨fun _ => none, some (zeroMem F, d)⟩, []⟩ r' q' ∧
      r'.error = (if threw then 1 else 0) ∧ q'.st.mem = some (m', d') ∧ storeOf m' = (if r = .normal then w1.atEnd F g.ret else w1).store ∧
      Left g.ret ⟨threw, (if r = .normal then w1.atEnd F g.ret else w1).exc, (if r = .normal then w1.atEnd F g.ret else w1).result⟩ d' ∧
      (threw = true ∨ g.ret = none → (if r = .normal then w1.atEnd F g.ret else w1).result = none) := by
    have key : ∀ (q' : Flow.Point (BMem φ)) (w2 : World φ), Ended g.ret q' w2 → ∃ m' d', q'.st.mem = some (m', d') ∧ storeOf m' = w2.store ∧ Left g.ret ⟨false, w2.exc, w2.result⟩ d' ∧
        (g.ret = none → w2.result = none) := by
      rintro q' w2 ⟨m', d', a1, a2, a3, a4, a5⟩
      refine ⟨m', d', a1, a4, ⟨a2, fun _ t ht => ?_⟩, fun hn => ?_⟩
      · rw [ht] at a3; exact a3
      · rw [hn] at a3; exact a3
    subst hB
    rcases hend with rfl | rfl | rfl
    · have : threw = false := by cases threw <;> simp_all
      subst this
      obtain ⟨q', e1, e2, _⟩ := end_runs F O K g.ret k T h8 q w1 g2
      obtain ⟨m', d', b1, b2, b3, b4⟩ := key q' _ e2
      exact ⟨_, q', m', d', .seq x1 (.seq g1 e1), rfl, b1, by rw [if_pos rfl]; exact b2, by rw [if_pos rfl]; exact b3, by rw [if_pos rfl]; simpa using b4⟩
    · have : threw = false := by cases threw <;> simp_all
      subst this
      obtain ⟨m', d', b1, b2, b3, b4⟩ := key q _ g2
      exact ⟨_, q, m', d', .seq x1 (.seqExit g1 (by simp [Stop.toEnd])), rfl, b1, b2, b3, by simpa using b4⟩
    · have : threw = true := by cases threw <;> simp_all
      subst this
      obtain ⟨m', d', b1, b2, b3, b4, _⟩ := g2
      exact ⟨_, q, m', d', .seq x1 (.seqExit g1 (by simp [Stop.toEnd])), rfl, b1, b4, ⟨b2, fun h => by cases h⟩, fun _ => b3⟩
  obtain ⟨r', q', m', d', e1, e2, e3, e4, e5, e6⟩ := g
  obtain ⟨n, v, a1, a2, a3, _⟩ := Flow.flow_ends_partial _ h3 h4 h5 M h2 (interp F O K T) ⟨fun _ => none, some (zeroMem F, d)⟩ r'.error _
    ⟨_, _, .block e1, rfl, rfl⟩
  exact ⟨n, v, m', d', a1, by rw [a2]; exact e3, e4, by rw [a3]; exact e2, e5, e6⟩

/-- C77: if the compiled method ends and nothing undefined has happened, the statements of the body end with the same variables, the same `$@`, the return value that is on the
stack, and an exception exactly if the method does. -/
theorem body_reflects_partial {φ} (F : Fl φ) (O : Objs) (S : Nat → Option (Sig φ)) (g : Meth φ) (h : g.Obeys O S) (M : Flow.Method) (T : List (XInstr φ))
    (hM : compileMeth S g = .ok (M, T)) (C : Calls φ) (K : Oracle φ) (hK : Reflects S C K) (vs : List (Val φ)) (d : Side φ) (hd : Passed g.params vs d) (n : Nat) (v : Vm (BMem φ))
    (hr : runBody F O K M T d n = .done v) (m' : Mem φ) (d' : Side φ) (hv : v.st.mem = some (m', d')) :
    ∃ threw w', BodyEnds F O g.ret S C g.body ⟨g.enter F vs, d.exc, none⟩ threw w' ∧ storeOf m' = w'.store ∧ v.err = (if threw then 1 else 0) ∧
      Left g.ret ⟨threw, w'.exc, w'.result⟩ d' := by
  obtain ⟨S', k, B, M', T', hB, h1, h2, h3, h4, h5, h6, h7, h8, h9⟩ := compiled F O S g h
  rw [hM] at h1; injection h1 with h1; injection h1 with e1 e2; subst e1; subst e2
  obtain ⟨r, q, g1, g2, g3⟩ := Flow.flow_reflects_partial _ h3 h4 h5 M h2 (interp F O K T) ⟨fun _ => none, some (zeroMem F, d)⟩ n v hr
  obtain ⟨q0, x1, x2⟩ := entered F O K T g h.width h7 vs d hd
  subst hB
  cases g1 with
  | block g1 =>
    rename_i q
    have hq : q.st.mem = some (m', d') := by rw [← hv, ← g3]; rfl
    have lost : ¬ Lost q := by
      intro hl
      have hl : q.st.mem = none := hl
      rw [hq] at hl; cases hl
    have ended : ∀ {w' : World φ}, Ended g.ret q w' → storeOf m' = w'.store ∧ Left g.ret ⟨false, w'.exc, w'.result⟩ d' := by
      rintro w' ⟨m2, d2, a1, a2, a3, a4, _⟩
      rw [hq] at a1
      injection a1 with a1; injection a1 with b1 b2
      subst b1; subst b2
      exact ⟨a4, a2, fun _ t ht => by rw [ht] at a3; exact a3⟩
    have det := operator_det (interp F O K T) _ (straight_operator (enterCode (φ := φ) g.params 0) 0)
    cases g1 with
    | seqExit c1 hn => exact absurd (det _ _ _ _ _ c1 x1).1 hn
    | seq c1 c2 =>
      obtain ⟨_, e0⟩ := det _ _ _ _ _ c1 x1
      rw [e0] at c2
      cases c2 with
      | seq c1 c2 =>
        rename_i q1
        rcases (backward F O g.ret S C K hK T (h6 K)).1 _ _ _ _ x2 c1 with hl | ⟨r', w', he, hr', ha⟩
        · exact absurd (lost_stays F O K T c2 hl) lost
        · have hr' : r' = .normal := toEnd_inj hr'.symm
          subst hr'
          obtain ⟨q2, e1, e2, e3⟩ := end_runs F O K g.ret k T h8 q1 w' ha
          obtain ⟨rfl, rfl⟩ := e3 _ _ c2
          obtain ⟨b1, b2⟩ := ended e2
          exact ⟨false, _, ⟨.normal, w', he, by simp, by rw [if_pos rfl]⟩, b1, by rw [← g2]; rfl, b2⟩
      | seqExit c1 hn =>
        rcases (backward F O g.ret S C K hK T (h6 K)).1 _ _ _ _ x2 c1 with hl | ⟨r', w', he, rfl, ha⟩
        · exact absurd hl lost
        · rcases end_of_body (G := S) (R := g.ret) h9 c1 with rfl | rfl | rfl
          · exact absurd rfl hn
          · obtain ⟨b1, b2⟩ := ended ha
            exact ⟨false, w', ⟨.ret, w', he, by simp, rfl⟩, b1, by rw [← g2]; rfl, b2⟩
          · obtain ⟨m2, d2, a1, a2, a3, a4, _⟩ := ha
            rw [hq] at a1
            injection a1 with a1; injection a1 with b1 b2
            subst b1; subst b2
            exact ⟨true, w', ⟨.exc, w', he, by simp, rfl⟩, a4, by rw [← g2]; rfl, a2, fun h => by cases h⟩

/-- C77: a body that, by the documentation, never ends and never does anything undefined is never left by the compiled method either, and whatever happens the
method stays within its operation codes. -/
theorem body_stays_partial {φ} (F : Fl φ) (O : Objs) (S : Nat → Option (Sig φ)) (g : Meth φ) (h : g.Obeys O S) (M : Flow.Method) (T : List (XInstr φ))
    (hM : compileMeth S g = .ok (M, T)) (C : Calls φ) (K : Oracle φ) (hK : Reflects S C K) (vs : List (Val φ)) (d : Side φ) (hd : Passed g.params vs d) (n : Nat) :
    runBody F O K M T d n ≠ .ub ∧
    ((∀ threw w', ¬ BodyEnds F O g.ret S C g.body ⟨g.enter F vs, d.exc, none⟩ threw w') → ∀ v, runBody F O K M T d n = .done v → v.st.mem = none) := by
  constructor
  · obtain ⟨S', k, B, M', T', hB, h1, h2, h3, h4, h5, h6, h7, h8, h9⟩ := compiled F O S g h
    rw [hM] at h1; injection h1 with h1; injection h1 with e1 e2; subst e1; subst e2
    exact Flow.flow_defined_partial _ h3 h4 h5 M h2 _ _ n
  · intro hn v hv
    cases hm' : v.st.mem with
    | none => rfl
    | some x =>
      obtain ⟨t, w', hb, _⟩ := body_reflects_partial F O S g h M T hM C K hK vs d hd n v hv x.1 x.2 hm'
      exact absurd hb (hn _ _)

/-- C77: the documented result is unique if the results of the calls are. -/
theorem body_unique_partial {φ} (F : Fl φ) (O : Objs) (S : Nat → Option (Sig φ)) (g : Meth φ) (h : g.Obeys O S) (C : Calls φ) (K : Oracle φ) (hK : Serves S C K)
    (vs : List (Val φ)) (d : Side φ) (hd : Passed g.params vs d) (t t' : Bool) (w w' : World φ)
    (h1 : BodyEnds F O g.ret S C g.body ⟨g.enter F vs, d.exc, none⟩ t w) (h2 : BodyEnds F O g.ret S C g.body ⟨g.enter F vs, d.exc, none⟩ t' w') :
    t = t' ∧ w = w' := by
  obtain ⟨M, T, hM⟩ := body_compiles_partial O S g h F
  obtain ⟨n, v, m1, d1, a1, a2, a3, a4, a5, a6⟩ := body_ends_partial F O S g h M T hM C K hK vs d hd t w h1
  obtain ⟨n', v', m2, d2, b1, b2, b3, b4, b5, b6⟩ := body_ends_partial F O S g h M T hM C K hK vs d hd t' w' h2
  have e := a1 (n + n') (by omega)
  rw [b1 (n + n') (by omega)] at e
  injection e with e; subst e
  rw [a2] at b2; injection b2 with b2; injection b2 with c1 c2
  subst c1; subst c2
  have ht : t = t' := by rw [a4] at b4; cases t <;> cases t' <;> simp_all
  subst ht
  refine ⟨rfl, ?_⟩
  obtain ⟨s, x, y⟩ := w
  obtain ⟨s', x', y'⟩ := w'
  have e1 : s = s' := a3.symm.trans b3
  have e2 : x = x' := a5.1.symm.trans b5.1
  have e3 : y = y' := by
    cases t with
    | true => exact (a6 (.inl rfl)).trans (b6 (.inl rfl)).symm
    | false =>
      cases hr : g.ret with
      | none => exact (a6 (.inr hr)).trans (b6 (.inr hr)).symm
      | some t =>
        obtain ⟨u, p1, p2, _⟩ := a5.2 rfl t hr
        obtain ⟨u', p3, p4, _⟩ := b5.2 rfl t hr
        rw [p2] at p4; injection p4 with p4; injection p4 with _ p4; subst p4
        exact p1.trans p3.symm
  subst e1; subst e2; subst e3; rfl

/-! ### Examples -/

/-- `for ($x = 0; $x < 10; $x++) { if ($x == 3) { next } if ($x == 6) { last } $y += $x }; eval { $y / 0; $x = 99 }; unless ($x == 6) { return }; $x = 7`. -/
def sampleBody : Stat Unit :=
  .seq (.loop (some (.assign x (num 0))) (.num (.bin .lt (.var x) (num 10))) (some (.post true x))
    (.seq (.ifs false (.num (.bin .eq (.var x) (num 3))) .next .skip)
      (.seq (.ifs false (.num (.bin .eq (.var x) (num 6))) .last .skip) (.expr (.special .add y (.var x))))))
    (.seq (.eval (.seq (.expr (.bin .div (.var y) (num 0))) (.expr (.assign x (num 99)))))
      (.seq (.ifs true (.num (.bin .eq (.var x) (num 6))) .ret .skip) (.expr (.assign x (num 7)))))

/-- What a method leaves in `$x`, `$y`, `$@` and at the bottom of the stack, and its error. -/
structure Seen where
  x : Val Unit
  y : Val Unit
  exc : Option String
  stack0 : Option (NT × Val Unit)
  err : Nat
  deriving DecidableEq

/-- A method with the arguments `$x` and `$y` that calls no other method. -/
def methXY (R : Option NT) (b : Stat Unit) : Meth Unit := ⟨[x, y], [], R, b⟩

/-- The arguments 1 and 1. -/
def stack11 : Side Unit := ⟨none, fun i => if i < 2 then some (.int, .i 1) else none⟩

/-- The result of the compiled method. -/
def bodyResult (R : Option NT) (b : Stat Unit) (n : Nat) : Option Seen :=
  match compileMeth (fun _ => none) (methXY R b) with
  | .ok (M, T) => (match runBody noFloat objs (fun _ _ _ => none) M T stack11 n with
    | .done v => v.st.mem.map fun m => ⟨storeOf m.1 Expr.x, storeOf m.1 y, m.2.exc, m.2.stack 0, v.err⟩
    | _ => none)
  | _ => none

/-- `my $y : int; for ($x = 0; $x < 9; $x++) { switch ($x) { case 7: { return $y; } case 1: case 2: { $y += 10; break; } default: { $y++ } } }`, and then
`if ($x == 8) { } elsif ($x == 4) { $y = 77 }`, with `n` in place of 9. -/
def switchBody (n : Int) : Stat Unit :=
  .seq (.decl y)
    (.seq (.loop (some (.assign x (num 0))) (.num (.bin .lt (.var x) (num n))) (some (.post true x))
        (.switch (.var x) (.caseRun 7 (.give (.var y)) (.caseFall 1 (.caseRun 2 (.seq (.expr (.special .add y (num 10))) .brk) (.dflt (.expr (.post true y))))))))
      (.ifs false (.num (.bin .eq (.var x) (num 8))) .skip (.elif (.num (.bin .eq (.var x) (num 4))) (.expr (.assign y (num 77))) .skip)))

/-- The loop stops at 6 and skips 3, so `$y` is 0 + 1 + 2 + 4 + 5 more than before; the division is caught, `$x` is still 6 then, so the method goes on. -/
example : bodyResult none sampleBody 300 = some ⟨.i 7, .i 13, some "Integral type values cannot be divided by 0.", some (.int, .i 1), 0⟩ := by decide +kernel
/-- The exception leaves the method: `$x++; if ($x % ($y - 1)) { $x = 50 }`. -/
example : bodyResult none (.seq (.expr (.post true x)) (.ifs false (.num (.bin .mod (.var x) (.bin .sub (.var y) (num 1)))) (.expr (.assign x (num 50))) .skip)) 100 =
    some ⟨.i 2, .i 1, some "Integral type values cannot be divided by 0.", some (.int, .i 1), 1⟩ := by decide +kernel
/-- The loop returns at 7: 10 for each of 1 and 2, and 1 for each of 0, 3, 4, 5 and 6. -/
example : bodyResult (some .long) (switchBody 9) 400 = some ⟨.i 7, .i 25, none, some (.long, .i 25), 0⟩ := by decide +kernel
/-- The end of the body is reached: the method returns 0. -/
example : bodyResult (some .long) (switchBody 4) 400 = some ⟨.i 4, .i 77, none, some (.long, .i 0), 0⟩ := by decide +kernel
/-- The hypotheses hold for the first body. -/
example : (methXY none sampleBody).Obeys objs (fun _ => none) ∧ Passed [x, y] [.i 1, .i 1] stack11 := by
  have lit : ∀ n : Int, InRange .int n → Literal (φ := Unit) .int (.i n) := fun n h => ⟨.inr (.inl rfl), h⟩
  have cmp : ∀ (o : BinOp) (v : Var) (n : Int), v.ty = .int → InRange .int n → Accepts o .int .int → (o = .div ∨ o = .lt ∨ o = .eq) →
      Literals (.bin o (.var v) (num n)) ∧ Expr.Typed (.bin o (.var v) (num n)) ∧ Calm (.bin o (.var v) (num n)) ∧ Kept (.bin o (.var v) (num n)) := by
    intro o v n hv hn ho _
    exact ⟨⟨trivial, lit n hn⟩, ⟨trivial, trivial, by rw [show ty (.var v : Expr Unit) = .int from hv]; exact ho⟩, ⟨trivial, trivial, fun _ w _ h => by cases h⟩, trivial, trivial⟩
  have set : ∀ (v : Var) (n : Int), v.ty = .int → InRange .int n →
      Literals (.assign v (num n)) ∧ Typed (.assign v (num n)) ∧ Calm (.assign v (num n)) ∧ Kept (.assign v (num n)) := by
    intro v n hv hn
    exact ⟨lit n hn, ⟨trivial, .inl (by rw [hv]; exact Nat.le_refl _)⟩, trivial, trivial, fun _ b h => by cases h⟩
  refine ⟨⟨⟨⟨?_, ⟨?_, trivial⟩, ?_, ⟨⟨?_, trivial⟩, trivial, trivial⟩, ⟨⟨?_, trivial⟩, trivial, trivial⟩, ?_⟩, ⟨?_, ?_⟩, ⟨⟨?_, trivial⟩, trivial, trivial⟩, ?_⟩,
    ⟨⟨⟨trivial, trivial⟩, ⟨trivial, trivial⟩, trivial⟩, ⟨trivial, trivial⟩, ⟨rfl, trivial⟩, trivial⟩,
    ⟨⟨⟨trivial, trivial⟩, ⟨trivial, trivial⟩, trivial⟩, ⟨trivial, trivial⟩, ⟨trivial, trivial⟩, trivial⟩,
    ⟨⟨⟨rfl, trivial⟩, ⟨rfl, trivial⟩, trivial⟩, ⟨trivial, trivial⟩, ⟨trivial, trivial⟩, trivial⟩,
    ⟨⟨⟨trivial, trivial⟩, ⟨trivial, trivial⟩, trivial⟩, ⟨rfl, trivial, trivial⟩, ⟨trivial, trivial⟩, trivial⟩, by decide⟩, rfl, fun i v a h1 h2 => ?_⟩
  · intro e he; cases he; exact set x 0 rfl (by decide)
  · exact cmp .lt x 10 rfl (by decide) trivial (.inr (.inl rfl))
  · intro e he; cases he; exact ⟨trivial, trivial, trivial, trivial⟩
  · exact cmp .eq x 3 rfl (by decide) trivial (.inr (.inr rfl))
  · exact cmp .eq x 6 rfl (by decide) trivial (.inr (.inr rfl))
  · exact ⟨trivial, ⟨trivial, trivial⟩, trivial, trivial⟩
  · exact cmp .div y 0 rfl (by decide) trivial (.inl rfl)
  · exact set x 99 rfl (by decide)
  · exact cmp .eq x 6 rfl (by decide) trivial (.inr (.inr rfl))
  · exact set x 7 rfl (by decide)
  · rcases i with _ | _ | i
    · cases h1; cases h2; exact ⟨rfl, by decide, by decide⟩
    · cases h1; cases h2; exact ⟨rfl, by decide, by decide⟩
    · cases h1
/-- The hypotheses hold for the second body in a method that returns `long`. -/
example : (methXY (some .long) (switchBody 9)).Obeys objs (fun _ => none) := by
  have lit : ∀ n : Int, InRange .int n → Literal (φ := Unit) .int (.i n) := fun n h => ⟨.inr (.inl rfl), h⟩
  have cmp : ∀ (o : BinOp) (n : Int), InRange .int n → Accepts o .int .int → 
      Literals (.bin o (.var x) (num n)) ∧ Expr.Typed (.bin o (.var x) (num n)) ∧ Calm (.bin o (.var x) (num n)) ∧ Kept (.bin o (.var x) (num n)) := by
    intro o n hn ho
    exact ⟨⟨trivial, lit n hn⟩, ⟨trivial, trivial, ho⟩, ⟨trivial, trivial, fun _ w _ h => by cases h⟩, trivial, trivial⟩
  have set : ∀ (v : Var) (n : Int), v.ty = .int → InRange .int n →
      Literals (.assign v (num n)) ∧ Expr.Typed (.assign v (num n)) ∧ Calm (.assign v (num n)) ∧ Kept (.assign v (num n)) := by
    intro v n hv hn
    exact ⟨lit n hn, ⟨trivial, .inl (by rw [hv]; exact Nat.le_refl _)⟩, trivial, trivial, fun _ b h => by cases h⟩
  refine ⟨⟨trivial, ⟨?_, ⟨?_, trivial⟩, ?_, ?_, ?_, ⟨?_, trivial⟩, ?_⟩, ⟨?_, trivial⟩, trivial, ⟨?_, trivial⟩, ?_, trivial⟩, ?_, ?_, ?_, ?_, by decide⟩
  · intro e he; cases he; exact set x 0 rfl (by decide)
  · exact cmp .lt 9 (by decide) trivial
  · intro e he; cases he; exact ⟨trivial, trivial, trivial, trivial⟩
  · exact ⟨trivial, trivial, trivial, trivial⟩
  · exact ⟨trivial, trivial, trivial, trivial⟩
  · exact ⟨lit 10 (by decide), ⟨trivial, trivial⟩, trivial, trivial⟩
  · exact ⟨trivial, trivial, trivial, trivial⟩
  · exact cmp .eq 8 (by decide) trivial
  · exact cmp .eq 4 (by decide) trivial
  · exact set y 77 rfl (by decide)
  · exact ⟨trivial, ⟨by decide, ⟨_, rfl, .inl (by decide)⟩, ⟨trivial, trivial⟩, trivial⟩, trivial, trivial, trivial⟩
  · exact ⟨trivial, ⟨trivial, ⟨trivial, trivial⟩, trivial⟩, trivial, trivial, trivial⟩
  · exact ⟨trivial, ⟨by decide, trivial, ⟨trivial, rfl⟩, trivial⟩, trivial, rfl, trivial, trivial⟩
  · exact ⟨trivial, ⟨trivial, ⟨trivial, trivial⟩, trivial⟩, trivial, trivial, trivial⟩
/-- `return 1;` in a method that returns nothing, `return;` in one that returns `int`, and `switch` on a `long`. -/
example : (∃ msg, compileMeth (fun _ => none) (methXY none (.give (num 1))) = .die msg) ∧ (∃ msg, compileMeth (fun _ => none) (methXY (some .int) .ret) = .die msg) ∧
    (∃ msg, compileMeth (fun _ => none) (methXY none (.switch (.cast .long (num 1)) (.dflt .skip))) = .die msg) := by
  have lit : Literal (φ := Unit) .int (.i 1) := ⟨.inr (.inl rfl), by decide⟩
  refine ⟨body_rejects_partial objs _ _ ⟨lit, trivial, trivial, trivial⟩ trivial (fun ⟨⟨t, h, _⟩, _⟩ => by cases h) noFloat,
    body_rejects_partial objs _ _ trivial trivial (fun h => by cases h.1) noFloat,
    body_rejects_partial objs _ _ ⟨⟨lit, trivial, trivial, trivial⟩, trivial⟩ trivial (fun h => absurd h.1.1 (by decide)) noFloat⟩
/-- `&f(1, 2)` and `$x = &f(1)` of a method `f` with one argument and no return value, `&f()`, and a call of a method that does not exist. -/
example : ∀ s : Stat Unit, s = .call none 0 [num 1, num 2] ∨ s = .call (some x) 0 [num 1] ∨ s = .call none 0 [] ∨ s = .call none 1 [] →
    ∃ msg, compileMeth (fun f => if f = 0 then some ⟨[.int], [], none⟩ else none) (methXY none s) = .die msg := by
  have lit : ∀ n : Int, InRange .int n → Literal (φ := Unit) .int (.i n) := fun n h => ⟨.inr (.inl rfl), h⟩
  have one : Literals (num 1) ∧ Expr.Typed (num 1) ∧ Calm (num 1) ∧ Kept (num 1) := ⟨lit 1 (by decide), trivial, trivial, trivial⟩
  have two : Literals (num 2) ∧ Expr.Typed (num 2) ∧ Calm (num 2) ∧ Kept (num 2) := ⟨lit 2 (by decide), trivial, trivial, trivial⟩
  rintro s (rfl | rfl | rfl | rfl)
  · refine body_rejects_partial objs _ _ (fun e he => ?_) (fun g hg => by cases hg; simp [Sig.given]) (fun ⟨⟨g, hg, h, _⟩, _⟩ => by cases hg; simp at h) noFloat
    rcases List.mem_cons.1 he with rfl | he
    · exact one
    · cases List.mem_singleton.1 he; exact two
  · refine body_rejects_partial objs _ _ (fun e he => by cases List.mem_singleton.1 he; exact one) (fun g hg => by cases hg; simp [Sig.given])
      (fun ⟨⟨g, hg, _, _, _, h⟩, _⟩ => by cases hg; obtain ⟨t, ht, _⟩ := h x rfl; cases ht) noFloat
  · exact body_rejects_partial objs _ _ (fun e he => by cases he) (fun g hg => by cases hg; simp [Sig.given]) (fun ⟨⟨g, hg, _, h, _⟩, _⟩ => by cases hg; simp at h) noFloat
  · exact body_rejects_partial objs _ _ (fun e he => by cases he) (fun g hg => by cases hg) (fun ⟨⟨g, hg, _⟩, _⟩ => by cases hg) noFloat

end Expr
end SPVM
