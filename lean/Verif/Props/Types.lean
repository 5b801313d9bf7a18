import Verif.Lemmas.TypesCheck
/-!
# C35, C36: assignability and method lookup
-/
set_option linter.unusedSimpArgs false
namespace SPVM
namespace Types
open VM (Bytes)
open Spec.Types

/-! ## C35: assignability -/

theorem assignPlain_true {w : World} {n : Nat} {d s : Ty} :
    assignPlain w n d s = .ok true ↔ assign w n false false d s = .ok .yes := plain_true

theorem assignPlain_mono {w : World} {n m : Nat} (h : n ≤ m) (d s : Ty) : Le (assignPlain w n d s) (assignPlain w m d s) := by
  intro b e
  unfold assignPlain at *
  cases hx : assign w n false false d s with
  | ok a => rw [hx] at e; rw [assign_mono h _ _ _ _ a hx]; exact e
  | die m => rw [hx] at e; cases e
  | ub => rw [hx] at e; cases e

/-- **C35.** For every program the compiler accepts and all types, the compiler's assignability test answers "yes" exactly
when the specification says that the value can be stored as it is; and when it answers "no" the specification says no. -/
theorem c35_assignable_iff {w : World} (hw : Wf w) {d s : Ty} (hd : WfTy w d) (hs : WfTy w s) :
    ((∃ n, assignPlain w n d s = .ok true) ↔ Assignable w false d s) ∧
    ((∃ n, assignPlain w n d s = .ok false) → ¬ Assignable w false d s) := by
  have h1 : (∃ n, assignPlain w n d s = .ok true) ↔ Assignable w false d s := by
    constructor
    · rintro ⟨n, h⟩
      exact assign_sub hw (hasInterface_sound hw n) hd hs (assignPlain_true.1 h)
    · intro h
      obtain ⟨n, h⟩ := sub_complete hw h hd hs
      exact ⟨n, assignPlain_true.2 h⟩
  refine ⟨h1, ?_⟩
  rintro ⟨n, h⟩ ha
  obtain ⟨m, h'⟩ := h1.2 ha
  have e1 := assignPlain_mono (Nat.le_max_left n m) d s _ h
  have e2 := assignPlain_mono (Nat.le_max_right n m) d s _ h'
  rw [e1] at e2
  cases e2

/-- **C35.** The compiler asks for a conversion exactly in the cases of the specification: widening (or narrowing of a constant
that fits), boxing, unboxing, number to string. -/
theorem c35_converts_iff {w : World} (hw : Wf w) {d s : Ty} (hd : WfTy w d) (hs : WfTy w s) (n : Nat) (narrow im : Bool) :
    assign w n narrow im d s = .ok .conv ↔ Converts w narrow d s := by
  rw [convWith_iff]
  refine assignWith_conv (facts hw hd) (facts hw hs) ?_ ?_
  · intro i h1 h2
    exact (hasCat_iff (by simp)).1 (hw.numericObject i h1 h2)
  · intro i
    rw [← hasCat_iff (by simp)]
    exact hw.numeric i

/-- **C35.** The inheritance test between two classes always answers, and answers by ancestry: for a class that is not a
numeric object class, and equal dimensions, assignability is "the same class or a super class". -/
theorem c35_class_assignable {w : World} (hw : Wf w) {d s : Nat} (hd : HasCat w d .cls) (hs : HasCat w s .cls) (dim : Nat)
    (hno : dim = 0 → ¬ (11 ≤ d ∧ d ≤ 16)) :
    ∃ N, ∀ n, N ≤ n → ∃ b, assignPlain w n { bt := d, dim := dim } { bt := s, dim := dim } = .ok b ∧
      (b = true ↔ d = s ∨ Ancestor w d s) := by
  refine ⟨rank w s + 1, fun n hn => ?_⟩
  obtain ⟨b, e1, e2⟩ := isSuperClass_ok hw d s n (by omega)
  have kd := (hasCat_iff (by simp)).1 hd
  have ks := (hasCat_iff (by simp)).1 hs
  have q1 := (hw.numeric d)
  have q2 := (hw.numeric s)
  have q3 := (hw.string d)
  have q4 := (hw.string s)
  have q5 := (hw.anyObject d)
  have q6 := (hw.undef d)
  rw [hasCat_iff (by simp)] at q1 q2 q3 q4 q5 q6
  rw [kd] at q1 q3 q5 q6
  rw [ks] at q2 q4
  have n1 : btNumeric d = false := by
    have : ¬ (3 ≤ d ∧ d ≤ 8) := fun h => by have := q1.2 h; cases this
    simp only [btNumeric, Bool.and_eq_false_iff, decide_eq_false_iff_not]; omega
  have n3 : (d == 9) = false := by simpa using fun h => by have := q3.2 h; cases this
  have n5 : (d == 10) = false := by simpa using fun h => by have := q5.2 h; cases this
  have n6 : (d == 1) = false := by simpa using fun h => by have := q6.2 h; cases this
  have n7 : dim = 0 → btNumericObject d = false := by
    intro h0
    have := hno h0
    simp only [btNumericObject, Bool.and_eq_false_iff, decide_eq_false_iff_not]; omega
  have hb : (do let b ← isSuperClass w n d s; Out.ok (Ans.ofBool b)) = Out.ok (Ans.ofBool b) := by rw [e1]; rfl
  have hpl : ∀ b, (Ans.ofBool b).plain = b := by intro b; cases b <;> rfl
  by_cases hds : d = s
  · subst hds
    refine ⟨true, assignPlain_true.2 ?_, by simp⟩
    unfold assign assignWith
    rcases dim with _ | _ | dim
    · simp [isNumeric, n1, isMulnum, kd, isString, n3, isNumericObject, n7, isClass]
    · simp [isNumeric, n1, isMulnum, kd, isString, n3, isNumericObject, n7, isClass, isInterface, isAnyObject, isUndef,
        isNumericArray, isMulnumArray, isStringArray, isClassArray]
    · simp [isNumeric, n1, isMulnum, kd, isString, n3, isNumericObject, n7, isClass, isInterface, isAnyObject, isUndef,
        isNumericArray, isMulnumArray, isStringArray, isClassArray, isInterfaceArray, isAnyObjectArray, isMuldim]
  · have hds' : ¬ s = d := fun h => hds h.symm
    refine ⟨b, ?_, by rw [e2]; simp [hd, hs, hds]⟩
    unfold assignPlain assign assignWith
    rcases dim with _ | _ | dim
    · simp [isNumeric, n1, isMulnum, kd, ks, isString, n3, isNumericObject, n7, isClass, hds', e1, hpl]
    · simp [isNumeric, n1, isMulnum, kd, ks, isString, n3, isNumericObject, n7, isClass, isInterface, isAnyObject, isUndef,
        isNumericArray, isMulnumArray, isStringArray, isClassArray, hds, e1, hpl]
    · simp [isNumeric, n1, isMulnum, kd, ks, isString, n3, isNumericObject, n7, isClass, isInterface, isAnyObject, isUndef,
        isNumericArray, isMulnumArray, isStringArray, isClassArray, isInterfaceArray, isAnyObjectArray, isMuldim, hds', e1]
      cases b <;> simp [Ans.plain]

/-- **C35.** Every type except `undef` can be assigned to itself. -/
theorem c35_reflexive {w : World} (hw : Wf w) {t : Ty} (ht : WfTy w t) (hu : ¬ HasCat w t.bt .undef) (n : Nat) :
    assignPlain w n t t = .ok true := by
  rw [assignPlain_true]
  rw [hasCat_iff (by simp)] at hu
  exact assign_yes hw ht ht (.inr (.inl ⟨hu, rfl, rfl, rfl, fun _ h => h⟩))

/-- Nothing is assignable to `undef`. -/
theorem not_assignable_undef {w : World} (hw : Wf w) {im : Bool} {d s : Ty} (hd : WfTy w d) (h : HasCat w d.bt .undef) :
    ¬ Assignable w im d s := by
  intro ha
  have f := facts hw hd
  rw [hasCat_iff (by simp)] at h
  have hdim : d.dim = 0 := by
    by_cases h0 : 0 < d.dim
    · exact absurd h (f.dim h0).1
    · omega
  cases ha with
  | undef _ h2 => have := (isObj_iff.1 h2).2; rw [h] at this; simp [hdim] at this
  | same h1 _ _ _ _ => rw [hasCat_iff (by simp)] at h1; exact h1 h
  | subclass _ _ _ _ h1 _ _ => rw [hasCat_iff (by simp), h] at h1; cases h1
  | iface _ _ _ _ h1 _ => rw [hasCat_iff (by simp), h] at h1; cases h1
  | any h1 _ _ => rw [hasCat_iff (by simp), h] at h1; cases h1
  | anyArray h1 _ _ _ => rw [hasCat_iff (by simp), h] at h1; cases h1

/-- What can be assigned to an object type is an object type or `undef`. -/
theorem assignable_obj {w : World} {im : Bool} {d s : Ty} (hd : IsObj w d) (h : Assignable w im d s) :
    IsObj w s ∨ HasCat w s.bt .undef := by
  obtain ⟨r, k⟩ := hd
  cases h with
  | undef h1 _ => exact .inr h1
  | same _ h2 h3 h4 _ => exact .inl ⟨by rw [← h4]; exact r, by rw [← h2, ← h3]; exact k⟩
  | subclass _ h2 _ _ _ h6 _ => exact .inl ⟨h2, .inr (.inr (.inl h6))⟩
  | iface _ h2 _ _ _ h6 =>
    rcases Implements.src h6 with h | h
    · exact .inl ⟨h2, .inr (.inr (.inl h))⟩
    · exact .inl ⟨h2, .inr (.inr (.inr (.inl h)))⟩
  | any _ _ h3 => exact .inl h3
  | anyArray _ _ h3 h4 => exact .inl ⟨h4.1, .inl h3⟩

theorem hasCat_inj {w : World} {i : Nat} {k k' : Cat} (h : HasCat w i k) (h' : HasCat w i k') : k = k' := by
  obtain ⟨b, e, r⟩ := h
  obtain ⟨b', e', r'⟩ := h'
  rw [e] at e'; cases e'
  rw [← r, r']

theorem assignable_trans {w : World} (hw : Wf w) {a b c : Ty} (ha : WfTy w a) (hb : WfTy w b) (hc : WfTy w c)
    (hi : ¬ HasCat w a.bt .iface) (h1 : Assignable w false a b) (h2 : Assignable w false b c) : Assignable w false a c := by
  cases h1 with
  | undef k1 k2 => exact absurd h2 (not_assignable_undef hw hb k1)
  | same k1 k2 k3 k4 k5 =>
    cases h2 with
    | undef q1 q2 => exact .undef q1 ⟨by rw [k4]; exact q2.1, by rw [k2, k3]; exact q2.2⟩
    | same q1 q2 q3 q4 q5 =>
      exact .same k1 (by rw [k2, q2]) (by rw [k3, q3]) (by rw [k4, q4]) (fun h0 hm => q5 (by rw [← k3]; exact h0) (k5 h0 hm))
    | subclass q1 q2 q3 q4 q5 q6 q7 =>
      exact .subclass (by rw [k4]; exact q1) q2 (by rw [k3, q3]) (by rw [k2, k3]; exact q4) (by rw [k2]; exact q5) q6
        (by rw [k2]; exact q7)
    | iface q1 q2 q3 q4 q5 q6 => rw [k2] at hi; exact absurd q5 hi
    | any q1 q2 q3 => exact .any (by rw [k2]; exact q1) (by rw [k3]; exact q2) q3
    | anyArray q1 q2 q3 q4 => exact .anyArray (by rw [k2]; exact q1) (by rw [k3]; exact q2) q3 q4
  | subclass k1 k2 k3 k4 k5 k6 k7 =>
    have hmb : b.isMut = false := by
      cases hm : b.isMut with
      | false => rfl
      | true => have := hasCat_inj (hb.mutable hm) k6; cases this
    have hma : a.isMut = false := by
      cases hm : a.isMut with
      | false => rfl
      | true => have := hasCat_inj (ha.mutable hm) k5; cases this
    cases h2 with
    | undef q1 q2 => exact .undef q1 ⟨k1, .inr (.inr (.inl k5))⟩
    | same q1 q2 q3 q4 q5 =>
      exact .subclass k1 (by rw [← q4]; exact k2) (by rw [k3, q3]) k4 k5 (by rw [← q2]; exact k6) (by rw [← q2]; exact k7)
    | subclass q1 q2 q3 q4 q5 q6 q7 => exact .subclass k1 q2 (by rw [k3, q3]) k4 k5 q6 (ancestor_trans k7 q7)
    | iface q1 q2 q3 q4 q5 q6 => have := hasCat_inj q5 k6; cases this
    | any q1 q2 q3 => have := hasCat_inj q1 k6; cases this
    | anyArray q1 q2 q3 q4 => have := hasCat_inj q1 k6; cases this
  | iface k1 k2 k3 k4 k5 k6 => exact absurd k5 hi
  | any k1 k2 k3 =>
    have hao : IsObj w a := by
      refine ⟨?_, .inr (.inr (.inr (.inr k1)))⟩
      cases hr : a.ref with
      | false => rfl
      | true => rcases (ha.ref hr).2 with h | h <;> (have := hasCat_inj h k1; cases this)
    rcases assignable_obj k3 h2 with h | h
    · exact .any k1 k2 h
    · exact .undef h hao
  | anyArray k1 k2 k3 k4 =>
    have hao : IsObj w a := by
      refine ⟨?_, .inl (by omega)⟩
      cases hr : a.ref with
      | false => rfl
      | true => rcases (ha.ref hr).2 with h | h <;> (have := hasCat_inj h k1; cases this)
    cases h2 with
    | undef q1 q2 => exact .undef q1 hao
    | same q1 q2 q3 q4 q5 =>
      refine .anyArray k1 k2 (by omega) ⟨by rw [← q4]; exact k4.1, ?_⟩
      have := k4.2
      simp only at this ⊢
      rw [← q2, ← q3]; exact this
    | subclass q1 q2 q3 q4 q5 q6 q7 => exact .anyArray k1 k2 (by omega) ⟨q2, .inr (.inr (.inl q6))⟩
    | iface q1 q2 q3 q4 q5 q6 =>
      rcases Implements.src q6 with h | h
      · exact .anyArray k1 k2 (by omega) ⟨q2, .inr (.inr (.inl h))⟩
      · exact .anyArray k1 k2 (by omega) ⟨q2, .inr (.inr (.inr (.inl h)))⟩
    | any q1 q2 q3 => omega
    | anyArray q1 q2 q3 q4 => exact .anyArray k1 k2 q3 q4

/-- **C35** (without interfaces on the left). If `b` can be assigned to `a` and `c` to `b`, then `c` can be assigned to `a`,
whenever `a` is not an interface type or an array of interfaces.  For interfaces this is false, see
`c35_interface_transitivity_violated`. -/
theorem c35_transitive_partial {w : World} (hw : Wf w) {a b c : Ty} (ha : WfTy w a) (hb : WfTy w b) (hc : WfTy w c)
    (hi : ¬ HasCat w a.bt .iface) {n m : Nat} (h1 : assignPlain w n a b = .ok true) (h2 : assignPlain w m b c = .ok true) :
    ∃ k, assignPlain w k a c = .ok true :=
  (c35_assignable_iff hw ha hc).1.2
    (assignable_trans hw ha hb hc hi ((c35_assignable_iff hw ha hb).1.1 ⟨n, h1⟩) ((c35_assignable_iff hw hb hc).1.1 ⟨m, h2⟩))

/-- **C35.** A sub class that declares none of the methods of an interface implements it whenever its parent does. -/
theorem c35_interface_inherited {w : World} (hw : Wf w) {i p c : Nat} {bi bc : BT} (hi : HasCat w i .iface)
    (hbi : w[i]? = some bi) (hbc : w[c]? = some bc) (hp : Parent w p c)
    (hnone : ∀ m ∈ bi.methods, ∀ m' ∈ bc.methods, m'.name ≠ m.name) {n : Nat}
    (h : assignPlain w n { bt := i } { bt := p } = .ok true) :
    ∃ k, assignPlain w k { bt := i } { bt := c } = .ok true := by
  have hcls : HasCat w c .cls ∧ ∃ q, Parent w q c ∧ HasCat w q .cls := by
    obtain ⟨b1, b2, e1, e2, e3⟩ := hp
    exact hw.parent c b1 _ e1 e3
  obtain ⟨hcc, q, hq, hqc⟩ := hcls
  have := parent_unique hw hq hp
  subst this
  have wfi : WfTy w { bt := i } := by
    obtain ⟨b, e, k⟩ := hi
    exact ⟨⟨b, e, by rw [k]; simp⟩, by simp, by simp, by simp⟩
  have wfc : ∀ {x}, HasCat w x .cls → WfTy w { bt := x } := by
    rintro x ⟨b, e, k⟩
    exact ⟨⟨b, e, by rw [k]; simp⟩, by simp, by simp, by simp⟩
  rw [(c35_assignable_iff hw wfi (wfc hcc)).1]
  have ha := (c35_assignable_iff hw wfi (wfc hqc)).1.1 ⟨n, h⟩
  cases ha with
  | undef h1 _ => have := hasCat_inj h1 hqc; cases this
  | same _ h2 _ _ _ => simp only at h2; subst h2; have := hasCat_inj hi hqc; cases this
  | subclass _ _ _ _ h1 _ _ => have := hasCat_inj h1 hi; cases this
  | any h1 _ _ => have := hasCat_inj h1 hi; cases this
  | anyArray h1 _ _ _ => have := hasCat_inj h1 hi; cases this
  | iface _ _ _ _ _ h6 =>
    refine .iface rfl rfl rfl (by simp) hi ?_
    simp only at h6 ⊢
    have res : ∀ m ∈ bi.methods, ∀ o sm, Resolves w m.name c o sm ↔ Resolves w m.name q o sm := by
      intro m hm o sm
      constructor
      · intro hr
        cases hr with
        | here e1 e2 e3 => rw [hbc] at e1; cases e1; exact absurd e3 (hnone m hm _ e2)
        | up e1 e2 e3 e4 => rw [parent_unique hw hq e3]; exact e4
      · intro hr
        exact .up hbc (fun m' hm' => hnone m hm m' hm') hq hr
    cases h6 with
    | mk g1 g2 g3 g4 g5 g6 g7 g8 =>
      rw [hbi] at g3; cases g3
      refine .mk (.inl hcc) g2 hbi ?_ ?_ ?_ ?_ ?_
      · intro m hm k1 k2
        obtain ⟨o, sm, hr⟩ := g4 m hm k1 k2
        exact ⟨o, sm, (res m hm o sm).2 hr⟩
      · exact fun m hm k1 o sm hr => g5 m hm k1 o sm ((res m hm o sm).1 hr)
      · exact fun m hm k1 o sm hr => g6 m hm k1 o sm ((res m hm o sm).1 hr)
      · exact fun m hm k1 o sm hr => g7 m hm k1 o sm ((res m hm o sm).1 hr)
      · exact fun m hm k1 o sm hr => g8 m hm k1 o sm ((res m hm o sm).1 hr)

/-- **C35.** The hierarchy check: when the compiler accepts the `extends` declarations, parents are loaded classes and no
class is its own ancestor. -/
theorem c35_accepted_acyclic {w : World} (hw : Names w) {n : Nat} (h : checkRelation w n = .ok true) :
    (∀ (c : Nat) (b : BT) (p : Bytes), w[c]? = some b → b.parentName = some p →
      HasCat w c .cls ∧ ∃ q, Parent w q c ∧ HasCat w q .cls) ∧ ∀ c, ¬ Ancestor w c c :=
  checkRelation_true hw h

/-! ### Concrete programs -/

/-- The built-in basic types 0 to 16 (names abbreviated). -/
def builtins : World :=
  [⟨[0], .unknown, none, []⟩, ⟨[1], .undef, none, []⟩, ⟨[2], .void, none, []⟩, ⟨[3], .numeric, none, []⟩,
   ⟨[4], .numeric, none, []⟩, ⟨[5], .numeric, none, []⟩, ⟨[6], .numeric, none, []⟩, ⟨[7], .numeric, none, []⟩,
   ⟨[8], .numeric, none, []⟩, ⟨[9], .string, none, []⟩, ⟨[10], .anyObject, none, []⟩, ⟨[11], .cls, none, []⟩,
   ⟨[12], .cls, none, []⟩, ⟨[13], .cls, none, []⟩, ⟨[14], .cls, none, []⟩, ⟨[15], .cls, none, []⟩, ⟨[16], .cls, none, []⟩]

/-- `void` and `int`. -/
def tVoid : Ty := { bt := 2 }
def tInt : Ty := { bt := 5 }

/-- `interface I { required method m : void (); }` (17), `class P { method m : void ($x : int = 0) {} }` (18) and
`class C extends P { method m : void ($x : int) {} }` (19), `class D extends P {}` (20). -/
def exWorld : World := builtins ++
  [⟨[73], .iface, none, [⟨[109], false, true, [{ bt := 17 }], 1, tVoid⟩]⟩,
   ⟨[80], .cls, none, [⟨[109], false, false, [{ bt := 18 }, tInt], 1, tVoid⟩]⟩,
   ⟨[67], .cls, some [80], [⟨[109], false, false, [{ bt := 19 }, tInt], 2, tVoid⟩]⟩,
   ⟨[68], .cls, some [80], []⟩]

theorem exWorld_wf : Wf exWorld := wfB_true (n := 30) (by decide +kernel)

/-- The hypotheses are met: `D` inherits `m`, hence implements `I`; arrays of `D` go into `P[]` and `object[]`. -/
example : assignPlain exWorld 9 { bt := 17 } { bt := 20 } = .ok true ∧
    assignPlain exWorld 9 { bt := 18, dim := 2 } { bt := 20, dim := 2 } = .ok true ∧
    assignPlain exWorld 9 { bt := 10, dim := 1 } { bt := 20, dim := 2 } = .ok true ∧
    assignPlain exWorld 9 { bt := 20 } { bt := 18 } = .ok false := by decide +kernel

/-- `long` from `int`, `int` from `long` only as a constant, `string` from `int`, `Int` and `object` from `int` and back. -/
example : assign exWorld 9 false false { bt := 6 } { bt := 5 } = .ok .conv ∧
    assign exWorld 9 false false { bt := 5 } { bt := 6 } = .ok .no ∧
    assign exWorld 9 true false { bt := 5 } { bt := 6 } = .ok .conv ∧
    assign exWorld 9 false false { bt := 9 } { bt := 5 } = .ok .conv ∧
    assign exWorld 9 false false { bt := 13 } { bt := 5 } = .ok .conv ∧
    assign exWorld 9 false false { bt := 14 } { bt := 5 } = .ok .no ∧
    assign exWorld 9 false false { bt := 10 } { bt := 5 } = .ok .conv ∧
    assign exWorld 9 false false { bt := 5 } { bt := 13 } = .ok .conv ∧
    assign exWorld 9 false false { bt := 5 } { bt := 10 } = .ok .conv := by decide +kernel

/-- **C35** fails for interfaces, even along class inheritance: `C` is a sub class of `P` that the compiler accepts (its
method is checked against the one of `P`), `P` implements `I`, and yet `C` does not implement `I` - so a variable of the type
`I` can be assigned from a variable of the type `P` that holds an object of which `isa I` is false. -/
theorem c35_interface_transitivity_violated :
    Wf exWorld ∧ (∀ id < 21, checkSupers exWorld 30 id 30 (parent exWorld id) = .ok true) ∧ Ancestor exWorld 18 19 ∧
    assignPlain exWorld 9 { bt := 17 } { bt := 18 } = .ok true ∧
    assignPlain exWorld 9 { bt := 18 } { bt := 19 } = .ok true ∧
    ¬ Assignable exWorld false { bt := 17 } { bt := 19 } := by
  refine ⟨exWorld_wf, by decide +kernel, ?_, by decide +kernel, by decide +kernel, ?_⟩
  · exact .parent ⟨_, _, rfl, rfl, rfl⟩
  · exact (c35_assignable_iff exWorld_wf (wfTyB_true (by decide +kernel)) (wfTyB_true (by decide +kernel))).2
      ⟨9, by decide +kernel⟩

/-- `class A extends B {}` (18), `class B extends A {}` (19), and `class M extends A {}` (17) compiled first. -/
def cycWorld : World := builtins ++
  [⟨[77], .cls, some [65], []⟩, ⟨[65], .cls, some [66], []⟩, ⟨[66], .cls, some [65], []⟩]

theorem andAll_append (f : Nat → Out Bool) (l m : List Nat) (h : andAll f l = .ok true) : andAll f (l ++ m) = andAll f m := by
  induction l with
  | nil => rfl
  | cons a l ih =>
    rw [andAll_true] at h
    simp only [List.cons_append, andAll, h a (by simp), Out.ok_bind, if_true]
    exact ih (andAll_true.2 fun x hx => h x (by simp [hx]))

theorem cycle_hangs {w : World} (p18 : parent w 18 = some 19) (p19 : parent w 19 = some 18)
    (n18 : w[18]?.map BT.name ≠ some [77]) (n19 : w[19]?.map BT.name ≠ some [77]) (small : ∀ i < 17, parent w i = none)
    (hp : parent w 17 = some 18) (hn : w[17]?.map BT.name = some [77]) (hl : w.length = 20)
    (e1 : andAll (checkParent w) w = .ok true) (n : Nat) : checkRelation w n = .ub := by
  have loop : ∀ n, cycleLoop w [77] n (some 18) = .ub ∧ cycleLoop w [77] n (some 19) = .ub := by
    intro n
    induction n with
    | zero => exact ⟨by simp only [cycleLoop], by simp only [cycleLoop]⟩
    | succ n ih =>
      constructor
      · unfold cycleLoop; rw [if_neg n18, p18]; exact ih.2
      · unfold cycleLoop; rw [if_neg n19, p19]; exact ih.1
  have hr : List.range 20 = List.range 17 ++ [17, 18, 19] := by decide
  have e2 : checkRelation w n = checkCycles w n := by
    unfold checkRelation
    rw [e1, Out.ok_bind, if_pos rfl]
  rw [e2]
  unfold checkCycles
  rw [hl]
  cases n with
  | zero =>
    have h0 : List.range 20 = 0 :: (List.range 20).tail := by decide
    rw [h0]
    simp only [andAll, cycleLoop, Out.ub_bind]
  | succ n =>
    rw [hr, andAll_append]
    · simp only [andAll, hp, hn, Option.getD_some, (loop (n + 1)).1, Out.ub_bind]
    · rw [andAll_true]
      intro i hi
      rw [small i (List.mem_range.1 hi)]
      simp only [cycleLoop]

/-- **C35.** The cycle check itself does not always end: for a class that inherits from a cycle it is not part of, the loop
never finds the name it looks for and runs forever - the compiler hangs instead of reporting the error. -/
theorem c35_cycle_check_hangs_violated (n : Nat) : checkRelation cycWorld n = .ub :=
  cycle_hangs (by decide +kernel) (by decide +kernel) (by decide +kernel) (by decide +kernel) (by decide +kernel)
    (by decide +kernel) (by decide +kernel) (by decide +kernel) (by decide +kernel) n

/-- A cycle that contains the class itself is reported. -/
example : checkRelation (builtins ++ [⟨[65], .cls, some [66], []⟩, ⟨[66], .cls, some [65], []⟩]) 5 = .ok false := by
  decide +kernel

/-- `interface I { required method m : void ($x : I[]); }` (17) and `class C { method m : void ($x : C[]) {} }` (18). -/
def recWorld : World := builtins ++
  [⟨[73], .iface, none, [⟨[109], false, true, [{ bt := 17 }, { bt := 17, dim := 1 }], 2, tVoid⟩]⟩,
   ⟨[67], .cls, none, [⟨[109], false, false, [{ bt := 18 }, { bt := 18, dim := 1 }], 2, tVoid⟩]⟩]

/-- **C35.** The interface test does not always answer: in this well-formed program the question whether `C` implements `I`
asks itself again (through the array types of the arguments), so the compiler overflows its stack. -/
theorem c35_interface_recursion_violated : Wf recWorld ∧ ∀ n, assignPlain recWorld n { bt := 17 } { bt := 18 } = .ub := by
  refine ⟨wfB_true (n := 30) (by decide +kernel), ?_⟩
  have hi : ∀ n, hasInterface recWorld n 18 17 = .ub := by
    intro n
    induction n with
    | zero => rfl
    | succ n ih =>
      have hf : findLoop recWorld [109] n (some 18) = .ub ∨
          findLoop recWorld [109] n (some 18) = .ok (some ⟨[109], false, false, [{ bt := 18 }, { bt := 18, dim := 1 }], 2, tVoid⟩) := by
        cases n with
        | zero => exact .inl rfl
        | succ n => exact .inr rfl
      have hasg : assignWith recWorld (isSuperClass recWorld n) (hasInterface recWorld n) false true { bt := 17, dim := 1 } { bt := 18, dim := 1 } = .ub := by
        have k1 : cat recWorld 17 = .iface := rfl
        have k2 : cat recWorld 18 = .cls := rfl
        simp [assignWith, isNumeric, btNumeric, isMulnum, k1, k2, isString, isNumericObject, btNumericObject, isClass, isInterface,
          isAnyObject, isUndef, isNumericArray, isMulnumArray, isStringArray, isClassArray, isInterfaceArray, ih]
      have k1 : cat recWorld 17 = .iface := rfl
      have k2 : cat recWorld 18 = .cls := rfl
      have km : (recWorld[17]?.map BT.methods).getD [] = [⟨[109], false, true, [{ bt := 17 }, { bt := 17, dim := 1 }], 2, tVoid⟩] := rfl
      simp only [hasInterface, hasInterfaceCommonWith, k1, k2, km, andAll, checkMethod]
      rcases hf with hf | hf
      · simp [hf]
      · simp [hf, satisfyMethod, argPairs, andAll, hasg]
  intro n
  have k1 : cat recWorld 17 = .iface := rfl
  have k2 : cat recWorld 18 = .cls := rfl
  simp [assignPlain, assign, assignWith, isNumeric, btNumeric, isMulnum, k1, k2, isString, isNumericObject, btNumericObject,
    isClass, isInterface, hi n]

/-! ## C36: method lookup -/

theorem strcmp_self (a : Bytes) : strcmp a a = 0 := by
  induction a with
  | nil => rfl
  | cons x a ih => simp [strcmp, ih]

/-- The order of `strcmp` on strings without `NUL`. -/
def NoNul (a : Bytes) : Prop := ∀ x ∈ a, x ≠ 0

theorem toNat_pos {x : UInt8} (h : x ≠ 0) : 0 < x.toNat := by
  rcases Nat.eq_zero_or_pos x.toNat with h0 | h0
  · exact absurd (UInt8.toNat_inj.1 (by simpa using h0)) h
  · exact h0

theorem strcmp_eq_zero {a b : Bytes} (ha : NoNul a) (hb : NoNul b) : strcmp a b = 0 ↔ a = b := by
  induction a generalizing b with
  | nil =>
    cases b with
    | nil => simp [strcmp]
    | cons y b => have := toNat_pos (hb y (by simp)); simp [strcmp]; omega
  | cons x a ih =>
    cases b with
    | nil => have := toNat_pos (ha x (by simp)); simp [strcmp]; omega
    | cons y b =>
      simp only [strcmp, List.cons.injEq]
      split
      · rename_i h; simp [h, ih (b := b) (fun z hz => ha z (.tail _ hz)) (fun z hz => hb z (.tail _ hz))]
      · rename_i h
        simp only [h, false_and, iff_false]
        intro h'
        exact h (UInt8.toNat_inj.1 (by omega))

theorem strcmp_neg {a b : Bytes} (ha : NoNul a) (hb : NoNul b) : strcmp a b < 0 ↔ 0 < strcmp b a := by
  induction a generalizing b with
  | nil =>
    cases b with
    | nil => simp [strcmp]
    | cons y b => simp [strcmp]
  | cons x a ih =>
    cases b with
    | nil => simp [strcmp]
    | cons y b =>
      simp only [strcmp]
      by_cases h : x = y
      · subst h
        simp only [if_true]
        exact ih (fun z hz => ha z (by simp [hz])) (fun z hz => hb z (by simp [hz]))
      · rw [if_neg h, if_neg (Ne.symm h)]; omega

theorem strcmp_trans {a b c : Bytes} (ha : NoNul a) (hb : NoNul b) (hc : NoNul c) (h1 : strcmp a b < 0) (h2 : strcmp b c < 0) :
    strcmp a c < 0 := by
  induction a generalizing b c with
  | nil =>
    cases c with
    | nil =>
      cases b with
      | nil => simp [strcmp] at h1
      | cons y b => simp [strcmp] at h2; omega
    | cons z c => have := toNat_pos (hc z (by simp)); simp [strcmp]; omega
  | cons x a ih =>
    cases b with
    | nil => simp [strcmp] at h1; omega
    | cons y b =>
      cases c with
      | nil => simp [strcmp] at h2; omega
      | cons z c =>
        simp only [strcmp] at *
        by_cases hxy : x = y
        · subst hxy
          by_cases hxz : x = z
          · subst hxz
            simp only [if_true] at *
            exact ih (fun z hz => ha z (by simp [hz])) (fun z hz => hb z (by simp [hz])) (fun z hz => hc z (by simp [hz])) h1 h2
          · rw [if_neg hxz] at *; exact h2
        · rw [if_neg hxy] at h1
          by_cases hyz : y = z
          · subst hyz; rw [if_neg hxy]; exact h1
          · rw [if_neg hyz] at h2
            have : x ≠ z := by rintro rfl; omega
            rw [if_neg this]; omega

/-- The methods of a class as the compiler leaves them for the runtime: sorted by name with `strcmp` (`qsort`,
spvm_check.c 818), no two of the same name. -/
def Sorted (ms : List Method) : Prop :=
  (∀ m ∈ ms, NoNul m.name) ∧ ∀ (i j : Nat) (mi mj : Method), ms[i]? = some mi → ms[j]? = some mj → i < j → strcmp mi.name mj.name < 0

theorem bsearch_ok {ms : List Method} (hs : Sorted ms) {name : Bytes} (hname : NoNul name) (n : Nat) (lo hi : Int)
    (h0 : 0 ≤ lo) (h1 : hi < ms.length) (h2 : lo ≤ hi + 1) (hn : hi - lo + 1 < n)
    (hlo : ∀ (i : Nat) m, ms[i]? = some m → (i : Int) < lo → strcmp name m.name > 0)
    (hhi : ∀ (i : Nat) m, ms[i]? = some m → (i : Int) > hi → strcmp name m.name < 0) :
    ∃ r, bsearch ms name n lo hi = .ok r ∧ ∀ m, r = some m ↔ m ∈ ms ∧ m.name = name := by
  induction n generalizing lo hi with
  | zero => omega
  | succ n ih =>
    unfold bsearch
    by_cases hlt : hi < lo
    · rw [if_pos hlt]
      refine ⟨none, rfl, fun m => ⟨by simp, ?_⟩⟩
      rintro ⟨hm, he⟩
      obtain ⟨i, hi'⟩ := List.mem_iff_getElem?.1 hm
      subst he
      by_cases hil : (i : Int) < lo
      · have := hlo i m hi' hil; rw [strcmp_self] at this; omega
      · have := hhi i m hi' (by omega); rw [strcmp_self] at this; omega
    · rw [if_neg hlt]
      have hh1 : lo ≤ lo + (hi - lo) / 2 := by omega
      have hh2 : lo + (hi - lo) / 2 ≤ hi := by omega
      simp only []
      generalize lo + (hi - lo) / 2 = half at *
      have hlen : half.toNat < ms.length := by omega
      have hget : ms[half.toNat]? = some ms[half.toNat] := by simp [hlen]
      have hmem : ms[half.toNat] ∈ ms := List.getElem_mem hlen
      have hm : methodAt ms half = .ok ms[half.toNat] := by
        unfold methodAt
        rw [if_neg (by omega), hget]
      rw [hm]
      simp only [Out.ok_bind]
      generalize ms[half.toNat] = m at *
      have hmn := hs.1 m hmem
      by_cases hc1 : strcmp name m.name > 0
      · rw [if_pos hc1]
        refine ih (half + 1) hi (by omega) h1 (by omega) (by omega) ?_ hhi
        intro i m' hi' hlt'
        by_cases hih : i < half.toNat
        · have := hs.2 i half.toNat m' m hi' hget hih
          have hm'n := hs.1 m' (List.mem_of_getElem? hi')
          rw [gt_iff_lt, ← strcmp_neg hm'n hname]
          exact strcmp_trans hm'n hmn hname this ((strcmp_neg hmn hname).2 hc1)
        · have : i = half.toNat := by omega
          subst this
          rw [hget] at hi'; cases hi'; exact hc1
      · rw [if_neg hc1]
        by_cases hc2 : strcmp name m.name < 0
        · rw [if_pos hc2]
          refine ih lo (half - 1) h0 (by omega) (by omega) (by omega) hlo ?_
          intro i m' hi' hgt'
          by_cases hih : half.toNat < i
          · have := hs.2 half.toNat i m m' hget hi' hih
            exact strcmp_trans hname hmn (hs.1 m' (List.mem_of_getElem? hi')) hc2 this
          · have : i = half.toNat := by omega
            subst this
            rw [hget] at hi'; cases hi'; exact hc2
        · rw [if_neg hc2]
          have he : name = m.name := (strcmp_eq_zero hname hmn).1 (by omega)
          refine ⟨some m, rfl, fun m' => ⟨?_, ?_⟩⟩
          · intro h; cases h; exact ⟨hmem, he.symm⟩
          · rintro ⟨hm', he'⟩
            obtain ⟨i, hi'⟩ := List.mem_iff_getElem?.1 hm'
            rcases Nat.lt_trichotomy i half.toNat with h | h | h
            · have := hs.2 i half.toNat m' m hi' hget h
              rw [he', he, strcmp_self] at this; omega
            · subst h; rw [hget] at hi'; exact hi'
            · have := hs.2 half.toNat i m m' hget hi' h
              rw [he', he, strcmp_self] at this; omega

/-- **C36.** The binary search of the runtime finds a method exactly when the class declares one of that name. -/
theorem c36_binary_search {ms : List Method} (hs : Sorted ms) {name : Bytes} (hname : NoNul name) :
    ∃ r, getMethodByName ms name = .ok r ∧ ∀ m, r = some m ↔ m ∈ ms ∧ m.name = name := by
  unfold getMethodByName
  by_cases h : ms.length > 0
  · rw [if_pos h]
    refine bsearch_ok hs hname _ _ _ (by omega) (by omega) (by omega) (by omega) (by omega) ?_
    intro i m hi hgt
    have := (List.getElem?_eq_some_iff.1 hi).1
    omega
  · rw [if_neg h]
    have : ms = [] := List.eq_nil_of_length_eq_zero (by omega)
    subst this
    exact ⟨none, rfl, by simp⟩

example : Sorted [⟨[97], false, false, [], 0, tVoid⟩, ⟨[97, 98], true, false, [], 0, tVoid⟩, ⟨[200], false, false, [], 0, tVoid⟩] := by
  refine ⟨by simp [NoNul], ?_⟩
  intro i j mi mj hi hj hij
  have h1 := (List.getElem?_eq_some_iff.1 hj).1
  simp only [List.length_cons, List.length_nil] at h1
  have : (i = 0 ∧ j = 1) ∨ (i = 0 ∧ j = 2) ∨ (i = 1 ∧ j = 2) := by omega
  rcases this with ⟨rfl, rfl⟩ | ⟨rfl, rfl⟩ | ⟨rfl, rfl⟩ <;>
    (simp at hi hj; subst hi; subst hj; decide)

theorem getInstanceMethod_ok {w : World} (hw : Wf w) (hsorted : ∀ (i : Nat) (b : BT), w[i]? = some b → Sorted b.methods)
    {name : Bytes} (hname : NoNul name) (c : Nat) (b : BT) (hc : w[c]? = some b) (n : Nat) (hn : rank w c + 1 < n) :
    ∃ r, getInstanceMethod w name n (some c) = .ok r ∧
      ∀ o m, r = some (o, m) ↔ Resolves w name c o m ∧ m.isClass = false := by
  induction n generalizing c b with
  | zero => omega
  | succ n ih =>
    obtain ⟨q, e, hq⟩ := c36_binary_search (hsorted c b hc) hname
    have hmo : methodsOf w c = b.methods := by simp [methodsOf, hc]
    simp only [getInstanceMethod, hmo, e, Out.ok_bind]
    cases q with
    | some m =>
      have hm := (hq m).1 rfl
      refine ⟨_, rfl, fun o m' => ?_⟩
      constructor
      · intro h
        split at h
        · cases h
        · rename_i hcl; cases h; exact ⟨.here hc hm.1 hm.2, by simpa using hcl⟩
      · rintro ⟨hr, hcl⟩
        obtain ⟨rfl, rfl⟩ := resolves_unique hw (.here hc hm.1 hm.2) hr
        simp [hcl]
    | none =>
      have hnone : ∀ m ∈ b.methods, m.name ≠ name := fun m hm he => by have := (hq m).2 ⟨hm, he⟩; cases this
      cases hp : parent w c with
      | none =>
        obtain ⟨n, rfl⟩ : ∃ k, n = k + 1 := ⟨n - 1, by omega⟩
        refine ⟨none, rfl, fun o m => ⟨by simp, ?_⟩⟩
        rintro ⟨hr, _⟩
        cases hr with
        | here k1 k2 k3 => rw [hc] at k1; cases k1; exact absurd k3 (hnone _ k2)
        | up _ _ k3 _ => rw [(parent_iff hw).2 k3] at hp; cases hp
      | some p =>
        have hp' := (parent_iff hw).1 hp
        have hr := rank_lt hw hp'
        obtain ⟨_, bp, _, h2, _⟩ := hp'
        obtain ⟨r, e1, e2⟩ := ih p bp h2 (by omega)
        refine ⟨r, e1, fun o m => ?_⟩
        rw [e2]
        constructor
        · rintro ⟨h, h'⟩; exact ⟨.up hc hnone ((parent_iff hw).1 hp) h, h'⟩
        · rintro ⟨h, h'⟩
          cases h with
          | here k1 k2 k3 => rw [hc] at k1; cases k1; exact absurd k3 (hnone _ k2)
          | up _ _ k3 k4 => rw [(parent_iff hw).2 k3] at hp; cases hp; exact ⟨k4, h'⟩

/-- **C36.** Calling an instance method on a defined object always ends in one of two ways: the definition in the most
derived class that has one (the first found from the class of the object upwards) is run, if it is an instance method;
otherwise an exception is thrown.  Calling on `undef` throws. -/
theorem c36_call_resolves {w : World} (hw : Wf w) (hsorted : ∀ (i : Nat) (b : BT), w[i]? = some b → Sorted b.methods)
    {name : Bytes} (hname : NoNul name) (c : Nat) (b : BT) (hc : w[c]? = some b) :
    ∃ N, ∀ n, N ≤ n →
      (∀ o m, resolveCall w n (some c) name = .ok (o, m) ↔ Resolves w name c o m ∧ m.isClass = false) ∧
      ((¬ ∃ o m, Resolves w name c o m ∧ m.isClass = false) → (resolveCall w n (some c) name).isDie = true) ∧
      (resolveCall w n none name).isDie = true := by
  refine ⟨rank w c + 2, fun n hn => ?_⟩
  obtain ⟨r, e, h⟩ := getInstanceMethod_ok hw hsorted hname c b hc n (by omega)
  unfold resolveCall
  simp only [e, Out.ok_bind]
  refine ⟨fun o m => ?_, fun hno => ?_, rfl⟩
  · rw [← h]
    cases r with
    | none => simp
    | some r => simp
  · cases r with
    | none => rfl
    | some r => exact absurd ⟨r.1, r.2, (h r.1 r.2).1 rfl⟩ hno

/-- **C36.** A sub class inherits what it does not redefine: if `c` declares no method `name`, the lookup from `c` finds what
the lookup from its parent finds. -/
theorem c36_inherits {w : World} (hw : Wf w) {name : Bytes} {p c : Nat} {b : BT} (hc : w[c]? = some b) (hp : Parent w p c)
    (hno : ∀ m ∈ b.methods, m.name ≠ name) (o : Nat) (m : Method) :
    Resolves w name c o m ↔ Resolves w name p o m := by
  constructor
  · intro h
    cases h with
    | here k1 k2 k3 => rw [hc] at k1; cases k1; exact absurd k3 (hno _ k2)
    | up _ _ k3 k4 => rw [parent_unique hw hp k3]; exact k4
  · exact fun h => .up hc hno hp h

theorem checkSupers_true {w : World} (hw : Wf w) {n k c : Nat} {id : Nat} (h : checkSupers w n id k (parent w c) = .ok true)
    {a : Nat} (ha : Ancestor w a c) : Implements w id a := by
  induction k generalizing c with
  | zero => simp [checkSupers] at h
  | succ k ih =>
    have step : ∀ {p}, Parent w p c → Implements w id p ∧ checkSupers w n id k (parent w p) = .ok true := by
      intro p hp
      rw [(parent_iff hw).2 hp] at h
      simp only [checkSupers] at h
      cases hx : hasInterfaceCommon w n id p with
      | ok b =>
        rw [hx] at h
        cases b with
        | false => cases h
        | true => exact ⟨hasInterfaceCommon_sound hw (hasInterface_sound hw n) hx, h⟩
      | die m => rw [hx] at h; cases h
      | ub => rw [hx] at h; cases h
    cases ha with
    | parent hp => exact (step hp).1
    | up hp h' => exact ih (step hp).2 h'

theorem resolves_ancestor {w : World} {name : Bytes} {c : Nat} {b : BT} (hc : w[c]? = some b) {a : Nat} {ba : BT}
    (ha : Ancestor w a c) (hba : w[a]? = some ba) {m : Method} (hm : m ∈ ba.methods) (hn : m.name = name) :
    ∃ o m', Resolves w name c o m' := by
  induction ha generalizing b with
  | @parent a c hp =>
    by_cases hex : ∃ m' ∈ b.methods, m'.name = name
    · obtain ⟨m', h1, h2⟩ := hex; exact ⟨_, m', .here hc h1 h2⟩
    · exact ⟨_, m, .up hc (fun m' hm' he => hex ⟨m', hm', he⟩) hp (.here hba hm hn)⟩
  | @up p c a hp _ ih =>
    by_cases hex : ∃ m' ∈ b.methods, m'.name = name
    · obtain ⟨m', h1, h2⟩ := hex; exact ⟨_, m', .here hc h1 h2⟩
    · have ⟨_, bp, _, hbp, _⟩ := hp
      obtain ⟨o, m', hr⟩ := ih hbp hba
      exact ⟨o, m', .up hc (fun m'' hm'' he => hex ⟨m'', hm'', he⟩) hp hr⟩

/-- **C36.** In a program that passes the compiler's check of a class against its super classes, every instance method that
some super class declares can be called on the objects of the class: the lookup finds an instance method, and its arguments
and return type are compatible with the declaration in the super class. -/
theorem c36_super_methods_callable {w : World} (hw : Wf w) {n k c : Nat} {b : BT} (hc : w[c]? = some b)
    (hchk : checkSupers w n c k (parent w c) = .ok true) {a : Nat} {ba : BT} (ha : Ancestor w a c) (hba : w[a]? = some ba)
    {m : Method} (hm : m ∈ ba.methods) (hcl : m.isClass = false) :
    ∃ o m', Resolves w m.name c o m' ∧ m'.isClass = false ∧ m'.required ≤ m.args.length ∧
      Assignable w true m.ret m'.ret := by
  obtain ⟨o, m', hr⟩ := resolves_ancestor hc ha hba hm rfl
  have hi := checkSupers_true hw hchk ha
  cases hi with
  | mk g1 g2 g3 g4 g5 g6 g7 g8 =>
    rw [hba] at g3; cases g3
    exact ⟨o, m', hr, g5 m hm hcl o m' hr, g6 m hm hcl o m' hr, g8 m hm hcl o m' hr⟩

/-- In the example, `m` called on an object of `D` runs the definition of `P`, on an object of `C` its own. -/
example : resolveCall exWorld 9 (some 20) [109] = .ok (18, ⟨[109], false, false, [{ bt := 18 }, tInt], 1, tVoid⟩) ∧
    resolveCall exWorld 9 (some 19) [109] = .ok (19, ⟨[109], false, false, [{ bt := 19 }, tInt], 2, tVoid⟩) ∧
    (resolveCall exWorld 9 (some 20) [110]).isDie = true ∧
    checkSupers exWorld 9 19 9 (parent exWorld 19) = .ok true := by decide +kernel

end Types
end SPVM
