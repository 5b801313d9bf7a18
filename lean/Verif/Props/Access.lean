import Verif.Lemmas.Access
/-!
# C67: access control

`private`, `protected`, `public` and `allow` are enforced at every `new`, class variable, method call and field access.
-/
namespace SPVM
namespace Access
open Spec.Access
open Spec.Types (HasCat Parent Ancestor)
open VM (Bytes)

/-! ## A program for the examples

Class 17 `A` (protected, allows `D`) has a private, a protected and a public member of each kind; 18 `B extends A`; 19 `C` is
another class; 20 `D` is allowed by `A`; 21 is an anon method class of `B`; 22 is an anon method class of `D`; 23 is an
interface `I`; 24 `E extends A` allows `C` and declares `p` of `A` again as public; 25 `F extends B`. -/

/-- The basic types. -/
def exW : Types.World :=
  [⟨[0], .unknown, none, []⟩, ⟨[1], .undef, none, []⟩, ⟨[2], .void, none, []⟩, ⟨[3], .numeric, none, []⟩, ⟨[4], .numeric, none, []⟩,
   ⟨[5], .numeric, none, []⟩, ⟨[6], .numeric, none, []⟩, ⟨[7], .numeric, none, []⟩, ⟨[8], .numeric, none, []⟩, ⟨[9], .string, none, []⟩,
   ⟨[10], .anyObject, none, []⟩, ⟨[11], .cls, none, []⟩, ⟨[12], .cls, none, []⟩, ⟨[13], .cls, none, []⟩, ⟨[14], .cls, none, []⟩,
   ⟨[15], .cls, none, []⟩, ⟨[16], .cls, none, []⟩,
   ⟨[65], .cls, none, []⟩, ⟨[66], .cls, some [65], []⟩, ⟨[67], .cls, none, []⟩, ⟨[68], .cls, none, []⟩, ⟨[66, 58, 58, 97], .cls, none, []⟩,
   ⟨[68, 58, 58, 97], .cls, none, []⟩, ⟨[73], .iface, none, []⟩, ⟨[69], .cls, some [65], []⟩, ⟨[70], .cls, some [66], []⟩]

/-- The members. -/
def exI : Nat → Info
  | 17 => { acc := .prot, allows := [[68]],
            fields := [⟨[112], .priv⟩, ⟨[113], .prot⟩, ⟨[114], .pub⟩],
            vars := [⟨[36, 112], .priv⟩, ⟨[36, 113], .prot⟩, ⟨[36, 114], .pub⟩],
            methods := [⟨[112], false, .priv⟩, ⟨[113], false, .prot⟩, ⟨[114], false, .pub⟩, ⟨[115], true, .prot⟩] }
  | 18 => { fields := [⟨[120], .priv⟩] }
  | 21 => { outmost := some 18, acc := .pub }
  | 22 => { outmost := some 20, acc := .pub }
  | 24 => { allows := [[67]], fields := [⟨[112], .pub⟩] }
  | _ => {}

/-- The program. -/
def ex : Classes := ⟨exW, exI⟩

theorem ex_cat (i : Nat) (k : Types.Cat) (hk : k ≠ .unknown) : HasCat exW i k ↔ Types.cat exW i = k := Types.hasCat_iff hk

theorem ex_big (i : Nat) (h : 26 ≤ i) : exW[i]? = none := by
  rw [List.getElem?_eq_none_iff]; exact h

theorem below {p : Nat → Prop} (h : ∀ i, i < 26 → p i) (h' : ∀ i, 26 ≤ i → p i) (i : Nat) : p i :=
  if k : i < 26 then h i k else h' i (by omega)

theorem ex_catIff (k : Types.Cat) (hk : k ≠ .unknown) (q : Nat → Bool) (h : ∀ i, i < 26 → (Types.cat exW i = k ↔ q i = true))
    (h' : ∀ i, 26 ≤ i → q i = false) (i : Nat) : HasCat exW i k ↔ q i = true := by
  rw [ex_cat i k hk]
  refine below (p := fun i => Types.cat exW i = k ↔ q i = true) h (fun i hi => ?_) i
  rw [h' i hi]
  simp only [Types.cat, ex_big i hi, Option.map_none, Option.getD_none]
  exact ⟨fun e => absurd e.symm hk, fun e => by cases e⟩

/-- `p` is the parent of `c`, as a Boolean. -/
def exParent (p c : Nat) : Bool := (p == 17 && (c == 18 || c == 24)) || (p == 18 && c == 25)

theorem ex_parent (p c : Nat) : Parent exW p c ↔ exParent p c = true := by
  have hb : ∀ p, p < 26 → ∀ c, c < 26 → ((match exW[c]?, exW[p]? with | some a, some b => decide (a.parentName = some b.name) | _, _ => false) = exParent p c) := by
    decide +kernel
  constructor
  · rintro ⟨bc, bp, h1, h2, h3⟩
    have k1 : c < 26 := (List.getElem?_eq_some_iff.1 h1).1
    have k2 : p < 26 := (List.getElem?_eq_some_iff.1 h2).1
    have := hb p k2 c k1
    rw [h1, h2] at this
    rw [← this]; simpa using h3
  · intro h
    have k : p < 26 ∧ c < 26 := by
      simp only [exParent, Bool.or_eq_true, Bool.and_eq_true, beq_iff_eq] at h; omega
    have := hb p k.1 c k.2
    rw [h] at this
    obtain ⟨bc, h1⟩ : ∃ b, exW[c]? = some b := ⟨_, List.getElem?_eq_getElem (show c < exW.length from k.2)⟩
    obtain ⟨bp, h2⟩ : ∃ b, exW[p]? = some b := ⟨_, List.getElem?_eq_getElem (show p < exW.length from k.1)⟩
    rw [h1, h2] at this
    exact ⟨_, _, h1, h2, by simpa using this⟩

theorem ex_wfTypes : Spec.Types.Wf exW where
  undef i := by rw [ex_catIff .undef (by simp) (fun i => i == 1) (by decide +kernel) (by simp; omega)]; simp
  void i := by rw [ex_catIff .void (by simp) (fun i => i == 2) (by decide +kernel) (by simp; omega)]; simp
  numeric i := by
    rw [ex_catIff .numeric (by simp) (fun i => decide (3 ≤ i) && decide (i ≤ 8)) (by decide +kernel) (by simp; omega)]; simp
  string i := by rw [ex_catIff .string (by simp) (fun i => i == 9) (by decide +kernel) (by simp; omega)]; simp
  anyObject i := by rw [ex_catIff .anyObject (by simp) (fun i => i == 10) (by decide +kernel) (by simp; omega)]; simp
  numericObject i h1 h2 := by
    rw [ex_cat i .cls (by simp)]
    have : ∀ i, i < 17 → 11 ≤ i → Types.cat exW i = .cls := by decide +kernel
    exact this i (by omega) h1
  names i j bi bj h1 h2 h3 := by
    have k1 : i < 26 := (List.getElem?_eq_some_iff.1 h1).1
    have k2 : j < 26 := (List.getElem?_eq_some_iff.1 h2).1
    have : ∀ i, i < 26 → ∀ j, j < 26 → (exW[i]?.map Types.BT.name) = (exW[j]?.map Types.BT.name) → i = j := by decide +kernel
    exact this i k1 j k2 (by rw [h1, h2]; simp [h3])
  parent c b p h1 h2 := by
    have k1 : c < 26 := (List.getElem?_eq_some_iff.1 h1).1
    have : ∀ c, c < 26 → (exW[c]?.bind Types.BT.parentName).isSome = true →
        Types.cat exW c = .cls ∧ (exParent 17 c = true ∨ exParent 18 c = true) := by decide +kernel
    obtain ⟨e1, e2⟩ := this c k1 (by rw [h1]; simp [h2])
    refine ⟨(ex_cat _ _ (by simp)).2 e1, ?_⟩
    rcases e2 with e | e
    · exact ⟨17, (ex_parent _ _).2 e, (ex_cat _ _ (by simp)).2 (by decide +kernel)⟩
    · exact ⟨18, (ex_parent _ _).2 e, (ex_cat _ _ (by simp)).2 (by decide +kernel)⟩
  acyclic c h := by
    have : ∀ {a c : Nat}, Ancestor exW a c → a < c := by
      have par : ∀ {a c : Nat}, Parent exW a c → a < c := by
        intro a c h
        have := (ex_parent a c).1 h
        simp only [exParent, Bool.or_eq_true, Bool.and_eq_true, beq_iff_eq] at this
        omega
      intro a c h
      induction h with
      | parent h => exact par h
      | up h _ ih => exact Nat.lt_trans ih (par h)
    exact absurd (this h) (by omega)
  methods i b h := by
    have k1 : i < 26 := (List.getElem?_eq_some_iff.1 h).1
    have : ∀ i, i < 26 → (exW[i]?.map Types.BT.methods) = some [] := by decide +kernel
    have := this i k1
    rw [h] at this
    simp at this
    simp [this]
  types i b h m hm := by
    have k1 : i < 26 := (List.getElem?_eq_some_iff.1 h).1
    have : ∀ i, i < 26 → (exW[i]?.map Types.BT.methods) = some [] := by decide +kernel
    have := this i k1
    rw [h] at this
    simp at this
    rw [this] at hm; cases hm

theorem ex_info (q : Info → Prop) (h17 : q (exI 17)) (h18 : q (exI 18)) (h21 : q (exI 21)) (h22 : q (exI 22)) (h24 : q (exI 24))
    (h : q {}) (c : Nat) : q (exI c) := by
  unfold exI
  split <;> assumption

theorem ex_wf : Spec.Access.Wf ex where
  types := ex_wfTypes
  outmost c o h := by
    have h' : (exI c).outmost = some o := h
    have : (exI c).outmost = some o → o = 18 ∨ o = 20 := by
      refine ex_info (fun i => i.outmost = some o → o = 18 ∨ o = 20) ?_ ?_ ?_ ?_ ?_ ?_ c <;> intro k <;> simp [exI] at k <;> omega
    rcases this h' with e | e <;> subst e <;> exact ⟨⟨_, rfl⟩, rfl⟩
  allows d c o h := by
    have h' : (exI c).outmost = some o := h
    have hc : c = 21 ∨ c = 22 := by
      unfold exI at h'
      split at h' <;> simp at h' <;> omega
    rintro ⟨x, ⟨b, hb, e⟩, hx⟩
    have hx' : x ∈ (exI d).allows := hx
    have : x = [68] ∨ x = [67] := by
      revert hx'
      refine ex_info (fun i => x ∈ i.allows → x = [68] ∨ x = [67]) ?_ ?_ ?_ ?_ ?_ ?_ d <;> intro k <;> simp [exI] at k <;> simp [k]
    rcases hc with k | k <;> subst k <;> simp [ex, exW] at hb <;> subst hb <;> rcases this with k | k <;> subst k <;> simp at e
  fields c := ex_info (fun i => (i.fields.map Member.name).Nodup) (by decide) (by decide) (by decide) (by decide) (by decide) (by decide) c
  vars c := ex_info (fun i => (i.vars.map Member.name).Nodup) (by decide) (by decide) (by decide) (by decide) (by decide) (by decide) c
  methods c := ex_info (fun i => (i.methods.map Meth.name).Nodup) (by decide) (by decide) (by decide) (by decide) (by decide) (by decide) c

theorem ex_AB : Ancestor exW 17 18 := .parent ((ex_parent _ _).2 (by decide))
theorem ex_AF : Ancestor exW 17 25 := .up ((ex_parent 18 25).2 (by decide)) ex_AB
theorem ex_anc {a c : Nat} (h : Ancestor exW a c) : (a = 17 ∧ (c = 18 ∨ c = 24 ∨ c = 25)) ∨ (a = 18 ∧ c = 25) := by
  have par : ∀ {a c : Nat}, Parent exW a c → (a = 17 ∧ (c = 18 ∨ c = 24)) ∨ (a = 18 ∧ c = 25) := by
    intro a c h
    have := (ex_parent a c).1 h
    simp only [exParent, Bool.or_eq_true, Bool.and_eq_true, beq_iff_eq] at this
    omega
  induction h with
  | parent h => have := par h; omega
  | up h _ ih => have := par h; omega

/-! ## `new` -/

/-- **C67.** `new C` in code of the class `cur`: accepted if the class `C` is public, or the code is written in `C`, or `C` is
protected and a super class, or `C` allows it; otherwise it is a compile error.  Missing: `allow` does not reach the anon methods of
the allowed class, see `allow_anon_violated`. -/
theorem new_access_partial {P : Classes} (hw : Spec.Access.Wf P) {n cur o c : Nat} (hn : P.w.length + 1 < n)
    (ho : Outmost P cur o) (hcur : ∃ x, P.w[cur]? = some x) (hc : HasCat P.w c .cls) :
    (Permitted P cur c (P.info c).acc → (Allows P c o → cur = o) → checkNew P n cur c = .ok ()) ∧
    (¬ Permitted P cur c (P.info c).acc → ∃ m, checkNew P n cur c = .die m) := by
  have hcat := (Types.hasCat_iff (by simp)).1 hc
  obtain ⟨b, hb, _⟩ := hc
  have e : checkNew P n cur c = check P n cur c (P.info c).acc false := by
    unfold checkNew; rw [hcat, if_neg (by simp), if_neg (by simp)]
  obtain ⟨h1, h2⟩ := check_permitted hw (n := n) (by omega) ho hcur ⟨b, hb⟩ (P.info c).acc
  rw [e]
  exact ⟨h1, fun h => ⟨_, h2 h⟩⟩

/-- `B` and the anon methods of `B` make objects of the protected class `A`, `D` too because it is allowed, `C` does not. -/
example : checkNew ex 100 18 17 = .ok () ∧ checkNew ex 100 21 17 = .ok () ∧ checkNew ex 100 20 17 = .ok () ∧
    checkNew ex 100 19 17 = .die err := by decide +kernel
example : Permitted ex 21 17 .prot ∧ ¬ Permitted ex 19 17 .prot := by
  refine ⟨.child (o := 18) (.anon rfl) ex_AB, fun h => ?_⟩
  have ho : ∀ o, Outmost ex 19 o → o = 19 := by
    intro o h; cases h with
    | self _ => rfl
    | anon h => cases h
  cases h with
  | own h => cases h
  | outmost h => cases ho _ h
  | child h k => cases ho _ h; rcases ex_anc k with ⟨_, h⟩ | ⟨_, h⟩ <;> omega
  | allow h k =>
    cases ho _ h
    obtain ⟨x, ⟨b, hb, e⟩, hx⟩ := k
    simp [ex, exW] at hb
    simp [ex, exI] at hx
    subst hb; subst hx; simp at e

/-- **C67.** No object of an interface or of a multi-numeric type is created. -/
theorem new_refused {P : Classes} {c : Nat} (hc : HasCat P.w c .iface ∨ HasCat P.w c .mulnum) (n cur : Nat) :
    ∃ m, checkNew P n cur c = .die m := by
  unfold checkNew
  rcases hc with h | h
  · rw [(Types.hasCat_iff (by simp)).1 h, if_pos rfl]; exact ⟨_, rfl⟩
  · rw [(Types.hasCat_iff (by simp)).1 h, if_neg (by simp), if_pos rfl]; exact ⟨_, rfl⟩

example : HasCat ex.w 23 .iface := ⟨_, rfl, rfl⟩

/-! ## Class variables -/

/-- **C67.** `$C::x`: found exactly if the class named `C` declares `$x`; accepted exactly if the access is permitted.  Missing as in
`new_access_partial`. -/
theorem class_var_access_partial {P : Classes} (hw : Spec.Access.Wf P) {n cur o d : Nat} (hn : P.w.length + 1 < n)
    (ho : Outmost P cur o) (hcur : ∃ x, P.w[cur]? = some x) {cls x : Bytes} (hd : Named P d cls) (hx : Plain x) :
    (∀ v ∈ (P.info d).vars, v.name = 36 :: x →
      (Permitted P cur d v.acc → (Allows P d o → cur = o) → checkVar P n cur (36 :: cls ++ 58 :: 58 :: x) = .ok (d, v)) ∧
      (¬ Permitted P cur d v.acc → ∃ m, checkVar P n cur (36 :: cls ++ 58 :: 58 :: x) = .die m)) ∧
    ((∀ v ∈ (P.info d).vars, v.name ≠ 36 :: x) → ∃ m, checkVar P n cur (36 :: cls ++ 58 :: 58 :: x) = .die m) := by
  obtain ⟨b, hb, e⟩ := hd
  have hs : rsplit (36 :: cls ++ 58 :: 58 :: x) = some (36 :: cls ++ [58], x) := by
    have := rsplit_last (pre := 36 :: cls ++ [58]) hx
    rw [List.append_assoc] at this
    exact this
  have hr : resolveVar P cur (36 :: cls ++ 58 :: 58 :: x) = .ok ((findMember (P.info d).vars (36 :: x)).map fun v => (d, v)) := by
    unfold resolveVar
    rw [hs]
    show (if (36 :: cls ++ [58]).length < 2 then Out.ub else _) = _
    rw [if_neg (by simp)]
    have : ((36 :: cls ++ [58]).drop 1).take ((36 :: cls ++ [58]).length - 2) = cls := by simp
    rw [this, ← e, Types.lookup_eq hw.types hb]
  unfold checkVar
  rw [hr]
  refine ⟨fun v hv hvn => ?_, fun h => ?_⟩
  · rw [(find_member (hw.vars d)).2 ⟨hv, hvn⟩]
    obtain ⟨h1, h2⟩ := check_permitted hw (n := n) (by omega) ho hcur ⟨b, hb⟩ v.acc
    show (Permitted P cur d v.acc → _ → ((check P n cur d v.acc false).bind fun _ => Out.ok (d, v)) = _) ∧
      (¬ Permitted P cur d v.acc → ∃ m, ((check P n cur d v.acc false).bind fun _ => Out.ok (d, v)) = _)
    exact ⟨fun h ha => by rw [h1 h ha]; rfl, fun h => ⟨err, by rw [h2 h]; rfl⟩⟩
  · rw [find_member_none.2 h]
    exact ⟨_, rfl⟩

/-- `$A::q` (protected) in `B`, in an anon method of `B`, in `C`; `$A::p` (private) in `B` and in `D`. -/
example : checkVar ex 100 18 [36, 65, 58, 58, 113] = .ok (17, ⟨[36, 113], .prot⟩) ∧
    checkVar ex 100 21 [36, 65, 58, 58, 113] = .ok (17, ⟨[36, 113], .prot⟩) ∧ checkVar ex 100 19 [36, 65, 58, 58, 113] = .die err ∧
    checkVar ex 100 18 [36, 65, 58, 58, 112] = .die err ∧ checkVar ex 100 20 [36, 65, 58, 58, 112] = .ok (17, ⟨[36, 112], .priv⟩) := by
  decide +kernel
example : Named ex 17 [65] ∧ Plain [113] := ⟨⟨_, rfl, rfl⟩, by simp [Plain]⟩

/-- **C67.** `$x` that is no local variable is the class variable of the class the code is written in, which it may always access. -/
theorem own_class_var {P : Classes} (hw : Spec.Access.Wf P) {n cur o : Nat} (hn : P.w.length + 1 < n)
    (ho : Outmost P cur o) (hcur : ∃ x, P.w[cur]? = some x) {x : Bytes} (hx : Plain x) :
    (∀ v ∈ (P.info o).vars, v.name = x → checkVar P n cur x = .ok (o, v)) ∧
    ((∀ v ∈ (P.info o).vars, v.name ≠ x) → ∃ m, checkVar P n cur x = .die m) := by
  obtain ⟨e, b, hb⟩ := outmost_getD hw ho hcur
  have hr : resolveVar P cur x = .ok ((findMember (P.info o).vars x).map fun v => (o, v)) := by
    unfold resolveVar
    rw [rsplit_plain hx, e, named_name hb, Types.lookup_eq hw.types hb]
  unfold checkVar
  rw [hr]
  refine ⟨fun v hv hvn => ?_, fun h => ?_⟩
  · rw [(find_member (hw.vars o)).2 ⟨hv, hvn⟩]
    have h1 := (check_ok hw (n := n) (by omega) ho hcur ⟨b, hb⟩ v.acc false).1
    show ((check P n cur o v.acc false).bind fun _ => Out.ok (o, v)) = _
    rw [h1]
    · rfl
    · cases v.acc
      · exact .inr (.inr (.inl ⟨rfl, rfl, rfl⟩))
      · exact .inr (.inl ⟨rfl, .inl rfl⟩)
      · exact .inl rfl
  · rw [find_member_none.2 h]
    exact ⟨_, rfl⟩

example : checkVar ex 100 17 [36, 112] = .ok (17, ⟨[36, 112], .priv⟩) ∧ checkVar ex 100 18 [36, 112] = .die err := by decide +kernel

/-- **C67.** A class that is not loaded has no class variables. -/
theorem class_var_unknown {P : Classes} {n cur : Nat} {cls x : Bytes} (h : ∀ d, ¬ Named P d cls) (hx : Plain x) :
    ∃ m, checkVar P n cur (36 :: cls ++ 58 :: 58 :: x) = .die m := by
  have hs : rsplit (36 :: cls ++ 58 :: 58 :: x) = some (36 :: cls ++ [58], x) := by
    have := rsplit_last (pre := 36 :: cls ++ [58]) hx
    rw [List.append_assoc] at this
    exact this
  have hl : Types.lookup P.w cls = none := by
    cases hl : Types.lookup P.w cls with
    | none => rfl
    | some i =>
      obtain ⟨b, h1, h2⟩ := Types.lookup_some hl
      exact absurd ⟨b, h1, h2⟩ (h i)
  unfold checkVar resolveVar
  rw [hs]
  show ∃ m, ((if (36 :: cls ++ [58]).length < 2 then Out.ub else _).bind _) = _
  rw [if_neg (by simp)]
  have : ((36 :: cls ++ [58]).drop 1).take ((36 :: cls ++ [58]).length - 2) = cls := by simp
  rw [this, hl]
  exact ⟨_, rfl⟩

example : checkVar ex 100 17 [36, 90, 58, 58, 112] = .die err := by decide +kernel

/-! ## Method calls -/

/-- **C67.** `C->m`, and `&m` for the class the code is written in: a class method that `C` itself declares, if the access is
permitted.  Missing as in `new_access_partial`. -/
theorem class_call_partial {P : Classes} (hw : Spec.Access.Wf P) {n cur o d : Nat} (hn : P.w.length + 1 < n)
    (ho : Outmost P cur o) (hcur : ∃ x, P.w[cur]? = some x) (hd : ∃ x, P.w[d]? = some x) {c : Option Nat} (name : Bytes)
    (hc : c = some d ∨ (c = none ∧ d = o)) :
    (∀ m ∈ (P.info d).methods, m.name = name → m.isClass = true →
      (Permitted P cur d m.acc → (Allows P d o → cur = o) → checkClassCall P n cur c name = .ok (d, m)) ∧
      (¬ Permitted P cur d m.acc → ∃ e, checkClassCall P n cur c name = .die e)) ∧
    ((∀ m ∈ (P.info d).methods, m.name = name → m.isClass = false) → ∃ e, checkClassCall P n cur c name = .die e) := by
  have e : c.getD ((P.info cur).outmost.getD cur) = d := by
    rcases hc with h | ⟨h, k⟩
    · rw [h]; rfl
    · rw [h, k]; exact (outmost_getD hw ho hcur).1
  unfold checkClassCall
  rw [e]
  show (∀ m ∈ (P.info d).methods, m.name = name → m.isClass = true →
      (Permitted P cur d m.acc → (Allows P d o → cur = o) → (match findMeth (P.info d).methods name with
        | none => Out.die err
        | some m => if !m.isClass then .die err else (check P n cur d m.acc false).bind fun _ => .ok (d, m)) = .ok (d, m)) ∧
      (¬ Permitted P cur d m.acc → ∃ e, (match findMeth (P.info d).methods name with
        | none => Out.die err
        | some m => if !m.isClass then .die err else (check P n cur d m.acc false).bind fun _ => .ok (d, m)) = .die e)) ∧
    ((∀ m ∈ (P.info d).methods, m.name = name → m.isClass = false) → ∃ e, (match findMeth (P.info d).methods name with
        | none => Out.die err
        | some m => if !m.isClass then .die err else (check P n cur d m.acc false).bind fun _ => .ok (d, m)) = .die e)
  refine ⟨fun m hm hmn hcl => ?_, fun h => ?_⟩
  · rw [(find_meth (hw.methods d)).2 ⟨hm, hmn⟩]
    obtain ⟨h1, h2⟩ := check_permitted hw (n := n) (by omega) ho hcur hd m.acc
    simp only [hcl]
    exact ⟨fun h ha => by rw [h1 h ha]; rfl, fun h => ⟨err, by rw [h2 h]; rfl⟩⟩
  · cases hf : findMeth (P.info d).methods name with
    | none => exact ⟨_, rfl⟩
    | some m =>
      obtain ⟨h1, h2⟩ := (find_meth (hw.methods d)).1 hf
      exact ⟨err, by simp [h m h1 h2]⟩

example : checkClassCall ex 100 18 (some 17) [115] = .ok (17, ⟨[115], true, .prot⟩) ∧ checkClassCall ex 100 19 (some 17) [115] = .die err ∧
    checkClassCall ex 100 18 (some 18) [115] = .die err ∧ checkClassCall ex 100 17 none [115] = .ok (17, ⟨[115], true, .prot⟩) ∧
    checkClassCall ex 100 17 (some 17) [114] = .die err := by decide +kernel

/-- What happens after the method has been found. -/
theorem found_call {P : Classes} (hw : Spec.Access.Wf P) {n cur o d : Nat} (hn : P.w.length + 1 < n)
    (ho : Outmost P cur o) (hcur : ∃ x, P.w[cur]? = some x) (hd : ∃ x, P.w[d]? = some x) (m : Meth) {r : Out (Nat × Meth)}
    (hr : r = if m.isClass then .die err else (check P n cur d m.acc false).bind fun _ => .ok (d, m)) :
    (m.isClass = false → Permitted P cur d m.acc → (Allows P d o → cur = o) → r = .ok (d, m)) ∧
    (m.isClass = true ∨ ¬ Permitted P cur d m.acc → ∃ e, r = .die e) := by
  obtain ⟨h1, h2⟩ := check_permitted hw (n := n) (by omega) ho hcur hd m.acc
  subst hr
  cases hcl : m.isClass with
  | true => exact ⟨fun h => absurd h (by simp), fun _ => ⟨_, rfl⟩⟩
  | false =>
    refine ⟨fun _ h ha => by rw [h1 h ha]; rfl, fun h => ?_⟩
    rcases h with h | h
    · cases h
    · exact ⟨err, by rw [h2 h]; rfl⟩

theorem inv_cat {P : Classes} {inv : Nat} (h : HasCat P.w inv .cls ∨ HasCat P.w inv .iface) :
    ¬ (Types.cat P.w inv ≠ .cls ∧ Types.cat P.w inv ≠ .iface) := by
  rintro ⟨h1, h2⟩
  rcases h with h | h
  · exact h1 ((Types.hasCat_iff (by simp)).1 h)
  · exact h2 ((Types.hasCat_iff (by simp)).1 h)

theorem inv_exists {P : Classes} {inv : Nat} (h : HasCat P.w inv .cls ∨ HasCat P.w inv .iface) : ∃ x, P.w[inv]? = some x := by
  rcases h with ⟨b, h, _⟩ | ⟨b, h, _⟩ <;> exact ⟨b, h⟩

/-- **C67.** `$inv->m`: the method found first in the class of the invocant and its super classes; accepted exactly if it is an
instance method and the access is permitted.  Missing as in `new_access_partial`. -/
theorem instance_call_partial {P : Classes} (hw : Spec.Access.Wf P) {n cur o inv : Nat} (hn : P.w.length + 1 < n)
    (ho : Outmost P cur o) (hcur : ∃ x, P.w[cur]? = some x) (hinv : HasCat P.w inv .cls ∨ HasCat P.w inv .iface) {name : Bytes}
    (hp : Plain name) :
    (∀ d m, FindsMethod P name inv d m →
      (m.isClass = false → Permitted P cur d m.acc → (Allows P d o → cur = o) → checkInstanceCall P n cur inv name = .ok (d, m)) ∧
      (m.isClass = true ∨ ¬ Permitted P cur d m.acc → ∃ e, checkInstanceCall P n cur inv name = .die e)) ∧
    ((∀ d m, ¬ FindsMethod P name inv d m) → ∃ e, checkInstanceCall P n cur inv name = .die e) := by
  obtain ⟨i1, i2⟩ := searchMeth_ok hw name n inv (Nat.lt_of_le_of_lt (Nat.succ_le_succ (rank_le _ _)) hn) (inv_exists hinv)
  unfold checkInstanceCall
  rw [if_neg (inv_cat hinv), rsplit_plain hp]
  refine ⟨fun d m h => ?_, fun h => ?_⟩
  · obtain ⟨e, hd⟩ := i1 d m h
    refine found_call hw hn ho hcur hd m ?_
    simp only [e]; rfl
  · simp only [i2 h]; exact ⟨_, rfl⟩

/-- `$f->q` (protected, of `A`) in `B` on an `F`; `$f->p` (private) in `F`; `$a->s` is a class method. -/
example : checkInstanceCall ex 100 18 25 [113] = .ok (17, ⟨[113], false, .prot⟩) ∧ checkInstanceCall ex 100 25 25 [112] = .die err ∧
    checkInstanceCall ex 100 17 25 [112] = .ok (17, ⟨[112], false, .priv⟩) ∧ checkInstanceCall ex 100 17 17 [115] = .die err := by
  decide +kernel
example : FindsMethod ex [113] 25 17 ⟨[113], false, .prot⟩ :=
  .up (by intro m h; cases h) ((ex_parent 18 25).2 (by decide)) (.up (by intro m h; cases h) ((ex_parent 17 18).2 (by decide)) (.here (by decide) rfl))

/-- **C67.** `$inv->SUPER::m`: the search begins in the parent of the class of the invocant. -/
theorem super_call_partial {P : Classes} (hw : Spec.Access.Wf P) {n cur o inv : Nat} (hn : P.w.length + 1 < n)
    (ho : Outmost P cur o) (hcur : ∃ x, P.w[cur]? = some x) (hinv : HasCat P.w inv .cls ∨ HasCat P.w inv .iface) {name : Bytes}
    (hp : Plain name) :
    (∀ p d m, Parent P.w p inv → FindsMethod P name p d m →
      (m.isClass = false → Permitted P cur d m.acc → (Allows P d o → cur = o) →
        checkInstanceCall P n cur inv ([83, 85, 80, 69, 82, 58, 58] ++ name) = .ok (d, m)) ∧
      (m.isClass = true ∨ ¬ Permitted P cur d m.acc → ∃ e, checkInstanceCall P n cur inv ([83, 85, 80, 69, 82, 58, 58] ++ name) = .die e)) ∧
    ((∀ p d m, Parent P.w p inv → ¬ FindsMethod P name p d m) →
      ∃ e, checkInstanceCall P n cur inv ([83, 85, 80, 69, 82, 58, 58] ++ name) = .die e) := by
  have hs : rsplit ([83, 85, 80, 69, 82, 58, 58] ++ name) = some ([83, 85, 80, 69, 82, 58], name) :=
    rsplit_last (pre := [83, 85, 80, 69, 82, 58]) hp
  have hst : resolveStatic P n inv ([83, 85, 80, 69, 82, 58, 58] ++ name) [83, 85, 80, 69, 82, 58] name =
      match Types.parent P.w inv with
      | none => .ok none
      | some p => searchMeth P name n (some p) := by
    unfold resolveStatic
    rw [if_pos (by simp [super])]
    cases Types.parent P.w inv <;> rfl
  unfold checkInstanceCall
  rw [if_neg (inv_cat hinv), hs]
  simp only [hst]
  cases hpar : Types.parent P.w inv with
  | none =>
    refine ⟨fun p d m h => ?_, fun _ => ⟨_, rfl⟩⟩
    rw [(Types.parent_iff hw.types).2 h] at hpar; cases hpar
  | some p =>
    have hp' := (Types.parent_iff hw.types).1 hpar
    obtain ⟨i1, i2⟩ := searchMeth_ok hw name n p (Nat.lt_of_le_of_lt (Nat.succ_le_succ (rank_le _ _)) hn)
      (by obtain ⟨_, bp, _, h, _⟩ := hp'; exact ⟨bp, h⟩)
    refine ⟨fun q d m hq h => ?_, fun h => ?_⟩
    · cases Types.parent_unique hw.types hp' hq
      obtain ⟨e, hd⟩ := i1 d m h
      refine found_call hw hn ho hcur hd m ?_
      simp only [e]; rfl
    · simp only [i2 fun d m => h p d m hp']; exact ⟨_, rfl⟩

example : checkInstanceCall ex 100 25 25 ([83, 85, 80, 69, 82, 58, 58] ++ [113]) = .ok (17, ⟨[113], false, .prot⟩) ∧
    checkInstanceCall ex 100 17 17 ([83, 85, 80, 69, 82, 58, 58] ++ [113]) = .die err := by decide +kernel

/-- **C67.** `$inv->C::m`: an instance method that the class `C` itself declares, if the access is permitted; that the invocant can be
assigned to `C` is checked with the arguments (C65).  Missing as in `new_access_partial`, and class names that begin with
`SUPER::`. -/
theorem static_call_partial {P : Classes} (hw : Spec.Access.Wf P) {n cur o inv d : Nat} (hn : P.w.length + 1 < n)
    (ho : Outmost P cur o) (hcur : ∃ x, P.w[cur]? = some x) (hinv : HasCat P.w inv .cls ∨ HasCat P.w inv .iface) {cls name : Bytes}
    (hp : Plain name) (hd : Named P d cls) (hsup : ¬ [83, 85, 80, 69, 82, 58, 58] <+: cls ++ 58 :: 58 :: name) :
    (∀ m ∈ (P.info d).methods, m.name = name →
      (m.isClass = false → Permitted P cur d m.acc → (Allows P d o → cur = o) →
        checkInstanceCall P n cur inv (cls ++ 58 :: 58 :: name) = .ok (d, m)) ∧
      (m.isClass = true ∨ ¬ Permitted P cur d m.acc → ∃ e, checkInstanceCall P n cur inv (cls ++ 58 :: 58 :: name) = .die e)) ∧
    ((∀ m ∈ (P.info d).methods, m.name ≠ name) → ∃ e, checkInstanceCall P n cur inv (cls ++ 58 :: 58 :: name) = .die e) := by
  obtain ⟨b, hb, e⟩ := hd
  have hs : rsplit (cls ++ 58 :: 58 :: name) = some (cls ++ [58], name) := by
    have := rsplit_last (pre := cls ++ [58]) hp
    rw [List.append_assoc] at this
    exact this
  have hst : resolveStatic P n inv (cls ++ 58 :: 58 :: name) (cls ++ [58]) name =
      .ok ((findMeth (P.info d).methods name).map fun m => (d, m)) := by
    unfold resolveStatic
    rw [if_neg (by rw [List.isPrefixOf_iff_prefix]; exact hsup)]
    have : (cls ++ [58]).take ((cls ++ [58]).length - 1) = cls := by simp
    rw [this, ← e, Types.lookup_eq hw.types hb]
  unfold checkInstanceCall
  rw [if_neg (inv_cat hinv), hs]
  simp only [hst]
  refine ⟨fun m hm hmn => ?_, fun h => ?_⟩
  · rw [(find_meth (hw.methods d)).2 ⟨hm, hmn⟩]
    exact found_call hw hn ho hcur ⟨b, hb⟩ m rfl
  · rw [find_meth_none.2 h]; exact ⟨_, rfl⟩

example : checkInstanceCall ex 100 18 18 [65, 58, 58, 113] = .ok (17, ⟨[113], false, .prot⟩) ∧
    checkInstanceCall ex 100 18 18 [65, 58, 58, 112] = .die err := by decide +kernel

/-! ## Fields -/

/-- What a field access depends on if no field of the invocant's type is declared twice. -/
theorem field_core {P : Classes} (hw : Spec.Access.Wf P) {n cur o t d : Nat} (hn : P.w.length + 1 < n) (ho : Outmost P cur o)
    (hcur : ∃ x, P.w[cur]? = some x) (ht : ∃ x, P.w[t]? = some x) {f : Member} (hf : HasField P t d f) (hu : NoRedeclaration P t) :
    ∃ ipf : Bool, (ipf = true ↔ (∀ g ∈ (P.info cur).fields, g.name ≠ f.name) ∧ (P.info cur).outmost = none) ∧
      (Core P cur o t f.acc ipf → checkField P n cur t f.name = .ok f.acc) ∧
      (¬ Core P cur o t f.acc ipf → ∃ e, checkField P n cur t f.name = .die e) := by
  obtain ⟨l, e, hl⟩ := supers_ok hw n t (Nat.lt_of_le_of_lt (Nat.succ_le_succ (rank_le _ _)) hn)
  refine ⟨(findMember (P.info cur).fields f.name).isNone && (P.info cur).outmost.isNone, ?_, ?_⟩
  · rw [Bool.and_eq_true, Option.isNone_iff_eq_none, Option.isNone_iff_eq_none, find_member_none]
  · have h := check_ok hw (n := n) (by omega) ho hcur ht f.acc
      ((findMember (P.info cur).fields f.name).isNone && (P.info cur).outmost.isNone)
    unfold checkField
    rw [e]
    simp only [Out.bind, resolveField_ok hw hl hu hf]
    exact ⟨fun k => by rw [h.1 k], fun k => ⟨err, by rw [h.2 k]⟩⟩

/-- **C67.** `$inv->{f}` where the class of the invocant itself declares the field: accepted exactly if the access is permitted.
Missing: as in `new_access_partial`, and fields that are declared again in a sub class, see `redeclared_field_violated`. -/
theorem field_access_partial {P : Classes} (hw : Spec.Access.Wf P) {n cur o d : Nat} (hn : P.w.length + 1 < n) (ho : Outmost P cur o)
    (hcur : ∃ x, P.w[cur]? = some x) (hd : ∃ x, P.w[d]? = some x) {f : Member} (hf : f ∈ (P.info d).fields) (hu : NoRedeclaration P d) :
    (Permitted P cur d f.acc → (Allows P d o → cur = o) → checkField P n cur d f.name = .ok f.acc) ∧
    (¬ Permitted P cur d f.acc → ∃ e, checkField P n cur d f.name = .die e) := by
  obtain ⟨ipf, h0, h1, h2⟩ := field_core hw hn ho hcur hd ⟨.inl rfl, hf⟩ hu
  refine ⟨fun h ha => h1 ?_, fun h => h2 fun k => h (core_permitted hw ho k)⟩
  have hc := permitted_core ho ha h
  cases ipf with
  | false => exact hc
  | true =>
    obtain ⟨k1, k2⟩ := h0.1 rfl
    have hne : cur ≠ d := fun k => by subst k; exact k1 f hf rfl
    have ho' : o = cur := outmost_unique ho (.self k2)
    rcases hc with k | k | ⟨k, _, k'⟩ | ⟨_, k⟩ | k
    · exact .inl k
    · exact .inr (.inl k)
    · exact absurd (ho' ▸ k') hne
    · exact absurd k hne
    · exact .inr (.inr (.inr (.inr k)))

/-- `$a->{q}` (protected) in `B` and its anon method, in `C`; `$a->{p}` (private) in `A`, in `B`, in `D`; `$a->{r}` (public) in
`C`. -/
example : checkField ex 100 18 17 [113] = .ok .prot ∧ checkField ex 100 21 17 [113] = .ok .prot ∧ checkField ex 100 19 17 [113] = .die err ∧
    checkField ex 100 17 17 [112] = .ok .priv ∧ checkField ex 100 18 17 [112] = .die err ∧ checkField ex 100 20 17 [112] = .ok .priv ∧
    checkField ex 100 19 17 [114] = .ok .pub := by decide +kernel

theorem ex_noRedeclaration : NoRedeclaration ex 18 := by
  rintro d e f g ⟨h1, h2⟩ ⟨h3, h4⟩ hn
  have hd : ∀ d, d = 18 ∨ Ancestor ex.w d 18 → d = 18 ∨ d = 17 := by
    rintro d (h | h)
    · exact .inl h
    · rcases ex_anc h with h | h <;> omega
  rcases hd d h1 with k | k <;> rcases hd e h3 with k' | k' <;> subst k <;> subst k' <;> first | rfl | skip
  · simp [ex, exI] at h2 h4
    subst h2
    rcases h4 with h | h | h <;> subst h <;> simp at hn
  · simp [ex, exI] at h2 h4
    subst h4
    rcases h2 with h | h | h <;> subst h <;> simp at hn

/-- **C67.** `$inv->{f}` where a super class `d` of the class `t` of the invocant declares the field.  An accepted access from a
method that is no anon method is permitted, unless `t` allows the current class and `d` does not, see `child_allow_violated`.  A
permitted access is accepted if the field is public, or it is protected and the current class is `t` or a sub class of `t`.
Missing: anon methods (`anon_private_violated`), the other permitted accesses (`private_own_violated`, `sibling_violated`). -/
theorem inherited_field_partial {P : Classes} (hw : Spec.Access.Wf P) {n cur t d : Nat} (hn : P.w.length + 1 < n)
    (hcur : ∃ x, P.w[cur]? = some x) (ht : ∃ x, P.w[t]? = some x) {f : Member} (hd : Ancestor P.w d t) (hf : f ∈ (P.info d).fields)
    (hu : NoRedeclaration P t) (ho : (P.info cur).outmost = none) (ha : Allows P t cur → Allows P d cur) :
    (¬ Permitted P cur d f.acc → ∃ e, checkField P n cur t f.name = .die e) ∧
    (f.acc = .pub → checkField P n cur t f.name = .ok .pub) ∧
    (f.acc = .prot → cur = t ∨ Ancestor P.w t cur → checkField P n cur t f.name = .ok .prot) := by
  obtain ⟨ipf, h0, h1, h2⟩ := field_core hw hn (.self ho) hcur ht ⟨.inr hd, hf⟩ hu
  refine ⟨fun h => h2 fun k => h ?_, fun h => ?_, fun h k => ?_⟩
  · have hself : cur = t → ipf = true := by
      intro e
      refine h0.2 ⟨fun g hg hgn => ?_, ho⟩
      have : d = cur := hu d cur f g ⟨.inr hd, hf⟩ ⟨.inl e, hg⟩ hgn.symm
      subst this; subst e
      exact hw.types.acyclic _ hd
    rcases k with k | ⟨k1, k | k⟩ | ⟨k1, k2, k3⟩ | ⟨k2, k3⟩ | k
    · rw [k]; exact .pub
    · rw [k1]; exact .child (.self ho) (by rw [k]; exact hd)
    · rw [k1]; exact .child (.self ho) (Types.ancestor_trans hd k)
    · rw [hself k3] at k2; cases k2
    · rw [hself k3] at k2; cases k2
    · exact .allow (.self ho) (ha k)
  · have := h1 (.inl h); rw [h] at this; exact this
  · have := h1 (.inr (.inl ⟨h, k⟩)); rw [h] at this; exact this

/-- `$b->{q}` in `B` and `F` and in `C`, `$b->{p}` in `B`, `$b->{r}` in `C`. -/
example : checkField ex 100 18 18 [113] = .ok .prot ∧ checkField ex 100 25 18 [113] = .ok .prot ∧ checkField ex 100 19 18 [113] = .die err ∧
    checkField ex 100 18 18 [112] = .die err ∧ checkField ex 100 19 18 [114] = .ok .pub := by decide +kernel

/-- **C67.** A field that neither the class of the invocant nor a super class declares is a compile error. -/
theorem field_unknown {P : Classes} (hw : Spec.Access.Wf P) {n cur t : Nat} (hn : P.w.length + 1 < n)
    {name : Bytes} (h : ∀ d f, HasField P t d f → f.name ≠ name) : ∃ e, checkField P n cur t name = .die e := by
  obtain ⟨l, e, hl⟩ := supers_ok hw n t (Nat.lt_of_le_of_lt (Nat.succ_le_succ (rank_le _ _)) hn)
  unfold checkField
  rw [e]
  cases hr : resolveField P name (t :: l) with
  | none => simp only [Out.bind, hr]; exact ⟨_, rfl⟩
  | some df =>
    obtain ⟨d, f⟩ := df
    obtain ⟨h1, c, h2, h3⟩ := resolveField_sub hr
    refine absurd h1 (h c f ⟨?_, h3⟩)
    rcases List.mem_cons.1 h2 with k | k
    · exact .inl k
    · exact .inr ((chain_mem hw hl rfl c).1 k)

example : checkField ex 100 17 18 [90] = .die err := by decide +kernel

/-! ## Attributes -/

/-- **C67.** The access control of an accepted declaration is the one given by its attributes, or the default: private for classes,
class variables and fields, public for methods, enumerations, and for the classes and fields of anon methods and the fields of
multi-numeric types. -/
theorem attributes {d : Decl} {anon mulnum : Bool} {attrs : List Attr} {a : Acc} (h : declAcc d anon mulnum attrs = .ok a) :
    Declared attrs (Default d anon mulnum) a ∧
    (∀ b, Attr.acc b ∈ attrs → b = a) := by
  unfold declAcc at h
  by_cases h1 : (attrs.any fun a => !attrKnown d a) = true
  · rw [if_pos h1] at h; cases h
  rw [if_neg h1] at h
  by_cases h2 : (attrs.filter attrKind).length > 1
  · rw [if_pos h2] at h; cases h
  rw [if_neg h2] at h
  by_cases h3 : (attrs.filterMap Attr.access).length > 1
  · rw [if_pos h3] at h; cases h
  rw [if_neg h3] at h
  by_cases h4 : d = .method ∧ .native ∈ attrs ∧ .precompile ∈ attrs
  · rw [if_pos h4] at h; cases h
  rw [if_neg h4] at h
  have hmem : ∀ b, Attr.acc b ∈ attrs ↔ b ∈ (attrs.filterMap Attr.access) := by
    intro b
    rw [List.mem_filterMap]
    constructor
    · intro k; exact ⟨_, k, rfl⟩
    · rintro ⟨x, k1, k2⟩
      cases x <;> first | (cases k2; exact k1) | cases k2
  generalize (attrs.filterMap Attr.access) = l at h h3 hmem
  cases l with
  | nil =>
    injection h with h
    have hno : ∀ b, Attr.acc b ∉ attrs := fun b k => by have := (hmem b).1 k; cases this
    refine ⟨.inr ⟨hno, ?_⟩, fun b k => absurd k (hno b)⟩
    rw [← h]
    show defaultAcc d anon mulnum = _
    cases d <;> cases anon <;> cases mulnum <;> rfl
  | cons x l =>
    cases l with
    | cons y l => simp at h3
    | nil =>
      injection h with h
      have h' : x = a := h
      subst h'
      exact ⟨.inl ((hmem x).2 (by simp)), fun b k => by simpa using (hmem b).1 k⟩

example : declAcc .field false false [.ro, .acc .prot] = .ok .prot ∧ declAcc .field false false [.rw] = .ok .priv ∧
    declAcc .field false true [] = .ok .pub ∧ declAcc .method false false [.static] = .ok .pub := by decide

/-- **C67.** Two access attributes, two accessor attributes or an attribute that the declaration does not have are refused. -/
theorem attributes_refused {d : Decl} {anon mulnum : Bool} {pre mid post : List Attr} {x y : Attr}
    (h : (∃ a b, x = .acc a ∧ y = .acc b) ∨ (x ∈ [Attr.rw, .ro, .wo] ∧ y ∈ [Attr.rw, .ro, .wo]) ∨
      (x ∈ [Attr.rw, .ro, .wo] ∧ d ≠ .classVar ∧ d ≠ .field) ∨ (x = .static ∧ d ≠ .method)) :
    ∃ m, declAcc d anon mulnum (pre ++ x :: mid ++ y :: post) = .die m := by
  unfold declAcc
  by_cases h1 : ((pre ++ x :: mid ++ y :: post).any fun a => !attrKnown d a) = true
  · rw [if_pos h1]; exact ⟨_, rfl⟩
  rw [if_neg h1]
  by_cases h2 : ((pre ++ x :: mid ++ y :: post).filter attrKind).length > 1
  · rw [if_pos h2]; exact ⟨_, rfl⟩
  rw [if_neg h2]
  by_cases h3 : ((pre ++ x :: mid ++ y :: post).filterMap Attr.access).length > 1
  · rw [if_pos h3]; exact ⟨_, rfl⟩
  exfalso
  rcases h with ⟨a, b, e1, e2⟩ | ⟨hx, hy⟩ | ⟨hx, hd1, hd2⟩ | ⟨hx, hd⟩
  · subst e1; subst e2
    apply h3
    simp only [List.filterMap_append, List.filterMap_cons, Attr.access, List.length_append, List.length_cons]
    omega
  · apply h2
    have kx : attrKind x = true := by simp at hx; rcases hx with e | e | e <;> subst e <;> rfl
    have ky : attrKind y = true := by simp at hy; rcases hy with e | e | e <;> subst e <;> rfl
    simp only [List.filter_append, List.filter_cons, kx, ky, if_true, List.length_append, List.length_cons]
    omega
  · apply h1
    rw [List.any_eq_true]
    refine ⟨x, by simp, ?_⟩
    simp at hx
    rcases hx with e | e | e <;> subst e <;> cases d <;> simp_all [attrKnown]
  · apply h1
    rw [List.any_eq_true]
    refine ⟨x, by simp, ?_⟩
    subst hx
    cases d <;> simp_all [attrKnown]

example : declAcc .field false false [.acc .priv, .rw, .acc .pub] = .die err := by decide

theorem atMostOne_iff {α : Type} {q : α → Bool} : ∀ {l : List α}, AtMostOne (fun x => q x = true) l ↔ (l.filter q).length ≤ 1 := by
  intro l
  induction l with
  | nil => exact ⟨fun _ => by simp, fun _ pre mid post x y e => by simp at e⟩
  | cons z l ih =>
    constructor
    · intro h
      have hl : (l.filter q).length ≤ 1 := ih.1 fun pre mid post x y e => h (z :: pre) mid post x y (by rw [e]; rfl)
      rw [List.filter_cons]
      by_cases hz : q z = true
      · rw [if_pos hz, List.length_cons]
        have : l.filter q = [] := by
          rw [List.filter_eq_nil_iff]
          intro y hy hq
          obtain ⟨mid, post, e⟩ := List.append_of_mem hy
          exact h [] mid post z y (by rw [e]; rfl) ⟨hz, hq⟩
        simp [this]
      · rw [if_neg hz]; exact hl
    · rintro h pre mid post x y e ⟨hx, hy⟩
      rw [e] at h
      simp only [List.filter_append, List.filter_cons, hx, hy, if_true, List.length_append, List.length_cons] at h
      omega

theorem legal_iff {d : Decl} {x : Attr} : Legal d x ↔ attrKnown d x = true := by
  constructor
  · intro h
    cases h with
    | acc => cases d <;> rfl
    | cls h | method h => simp at h; rcases h with e | e | e | e <;> subst e <;> rfl
    | classVar h | field h => simp at h; rcases h with e | e | e <;> subst e <;> rfl
  · intro h
    cases d <;> cases x <;> first
      | exact .acc _ _
      | exact .cls (by decide)
      | exact .classVar (by decide)
      | exact .field (by decide)
      | exact .method (by decide)
      | cases h

/-- **C67.** A declaration is accepted exactly if it has every one of its attributes, at most one of them is an access attribute, at
most one is `rw`, `ro`, `wo`, `pointer`, `mulnum_t` or `interface_t`, and a method is not both `native` and `precompile`. -/
theorem attributes_accepted {d : Decl} {anon mulnum : Bool} {attrs : List Attr} :
    (∃ a, declAcc d anon mulnum attrs = .ok a) ↔
      (∀ x ∈ attrs, Legal d x) ∧ AtMostOne (fun x => ∃ a, x = .acc a) attrs ∧
      AtMostOne (fun x => x ∈ [Attr.rw, .ro, .wo, .pointer, .mulnumT, .interfaceT]) attrs ∧
      ¬ (d = .method ∧ .native ∈ attrs ∧ .precompile ∈ attrs) := by
  have e1 : (attrs.any fun a => !attrKnown d a) = true ↔ ¬ ∀ x ∈ attrs, Legal d x := by
    rw [List.any_eq_true]
    constructor
    · rintro ⟨x, hx, hk⟩ h
      rw [legal_iff.1 (h x hx)] at hk; cases hk
    · intro h
      apply Classical.byContradiction
      intro h'
      apply h
      intro x hx
      rw [legal_iff]
      cases hk : attrKnown d x with
      | true => rfl
      | false => exact absurd ⟨x, hx, by rw [hk]; rfl⟩ h'
  have e2 : (attrs.filterMap Attr.access).length = (attrs.filter fun x => x.access.isSome).length := by
    clear e1
    induction attrs with
    | nil => rfl
    | cons z l ih =>
      rw [List.filterMap_cons, List.filter_cons]
      cases z <;> simp only [Attr.access, Option.isSome, if_true, Bool.false_eq_true, if_false, List.length_cons, Nat.add_right_cancel_iff] <;>
        exact ih
  have e3 : (fun x : Attr => ∃ a, x = .acc a) = fun x => (x.access.isSome = true) := by
    funext x; cases x <;> simp [Attr.access]
  have e4 : (fun x : Attr => x ∈ [Attr.rw, .ro, .wo, .pointer, .mulnumT, .interfaceT]) = fun x => attrKind x = true := by
    funext x; cases x <;> simp [attrKind]
  rw [e3, e4, atMostOne_iff, atMostOne_iff, ← e2]
  unfold declAcc
  by_cases h1 : ∀ x ∈ attrs, Legal d x
  · rw [if_neg (fun x => e1.1 x h1)]
    by_cases h2 : (attrs.filter attrKind).length ≤ 1
    · rw [if_neg (by omega)]
      by_cases h3 : (attrs.filterMap Attr.access).length ≤ 1
      · rw [if_neg (by omega)]
        by_cases h4 : d = .method ∧ .native ∈ attrs ∧ .precompile ∈ attrs
        · rw [if_pos h4]; exact ⟨fun ⟨_, e⟩ => (nomatch e), fun h => absurd h4 h.2.2.2⟩
        · rw [if_neg h4]; exact ⟨fun _ => ⟨h1, h3, h2, h4⟩, fun _ => ⟨_, rfl⟩⟩
      · rw [if_pos (by omega)]; exact ⟨fun ⟨_, e⟩ => (nomatch e), fun h => absurd h.2.1 h3⟩
    · rw [if_pos (by omega)]; exact ⟨fun ⟨_, e⟩ => (nomatch e), fun h => absurd h.2.2.1 h2⟩
  · rw [if_pos (e1.2 h1)]; exact ⟨fun ⟨_, e⟩ => (nomatch e), fun h => absurd h.1 h1⟩

example : ∃ a, declAcc .classVar false false [.rw, .acc .prot] = .ok a := ⟨_, rfl⟩

/-! ## Violations -/

/-- **C67, violated.** `A` allows `D`, but an anon method in `D` may neither create an `A` nor access its private members:
`SPVM_OP_is_allowed` compares the name of the anon method class.  (spvm_op.c 3684) -/
theorem allow_anon_violated : Permitted ex 22 17 .priv ∧ checkNew ex 100 22 17 = .die err ∧ checkField ex 100 22 17 [112] = .die err ∧
    checkInstanceCall ex 100 22 17 [112] = .die err ∧ checkVar ex 100 22 [36, 65, 58, 58, 112] = .die err ∧
    checkField ex 100 20 17 [112] = .ok .priv :=
  ⟨.allow (o := 20) (.anon rfl) ⟨[68], ⟨_, rfl, rfl⟩, by decide⟩, by decide +kernel⟩

/-- **C67, violated.** An anon method of `B extends A` reads the private field `p` of `A` through a `B`; a method of `B` does not.
(spvm_check.c 3281: an anon method never sees a parent field) -/
theorem anon_private_violated : checkField ex 100 21 18 [112] = .ok .priv ∧ ¬ Permitted ex 21 17 .priv ∧
    checkField ex 100 18 18 [112] = .die err := by
  refine ⟨by decide +kernel, fun h => ?_, by decide +kernel⟩
  have ho : ∀ o, Outmost ex 21 o → o = 18 := by
    intro o h
    cases h with
    | self h => cases h
    | anon h => cases h; rfl
  cases h with
  | own h => cases h
  | outmost h => cases ho _ h
  | allow h k =>
    cases ho _ h
    obtain ⟨x, ⟨b, hb, e⟩, hx⟩ := k
    simp [ex, exW] at hb
    simp [ex, exI] at hx
    subst hb; subst hx; simp at e

/-- **C67, violated.** `E extends A` declares the private field `p` of `A` again, as a public field; other classes cannot access it.
(spvm_check.c 354-362: the field of the super class is kept) -/
theorem redeclared_field_violated : (⟨[112], .pub⟩ : Member) ∈ (ex.info 24).fields ∧ checkField ex 100 18 24 [112] = .die err := by
  decide +kernel

/-- **C67, violated.** `A` cannot access its own private field in an object whose static type is the child class `B`.  (spvm_check.c
366-376: the copy of the field belongs to the child class) -/
theorem private_own_violated : Permitted ex 17 17 .priv ∧ checkField ex 100 17 17 [112] = .ok .priv ∧
    checkField ex 100 17 18 [112] = .die err :=
  ⟨.own rfl, by decide +kernel⟩

/-- **C67, violated.** The protected field `q` of `A` in a `B` is not accessible from `E extends A`, but it is in an `A`. -/
theorem sibling_violated : Permitted ex 24 17 .prot ∧ checkField ex 100 24 17 [113] = .ok .prot ∧ checkField ex 100 24 18 [113] = .die err :=
  ⟨.child (o := 24) (.self rfl) (.parent ((ex_parent _ _).2 (by decide))), by decide +kernel⟩

/-- **C67, violated.** `E extends A` allows `C`; that opens the private fields of `A` to `C` in every `E`, although `A` does not allow
`C`. -/
theorem child_allow_violated : checkField ex 100 19 24 [112] = .ok .priv ∧ ¬ Permitted ex 19 17 .priv ∧
    checkField ex 100 19 17 [112] = .die err := by
  refine ⟨by decide +kernel, fun h => ?_, by decide +kernel⟩
  have ho : ∀ o, Outmost ex 19 o → o = 19 := by
    intro o h
    cases h with
    | self h => rfl
    | anon h => cases h
  cases h with
  | own h => cases h
  | outmost h => cases ho _ h
  | allow h k =>
    cases ho _ h
    obtain ⟨x, ⟨b, hb, e⟩, hx⟩ := k
    simp [ex, exW] at hb
    simp [ex, exI] at hx
    subst hb; subst hx; simp at e

end Access
end SPVM
