import Verif.Lemmas.SafetyRun
/-!
# Type safety: operations and executions
-/
set_option linter.unusedSimpArgs false
set_option linter.unusedVariables false
namespace SPVM
namespace Safety
open Types Spec.Types Spec.Safety

theorem objOk_str {P : Program} (hw : Wf P.w) {h : List Obj} {ro : Bool} {xs : List Nat} : ObjOk P h { bt := 9, dim := 0, ro := ro, body := .data xs } :=
  ⟨wf_string hw, Or.inl ⟨rfl, rfl⟩⟩

theorem objOk_data {P : Program} {h : List Obj} {b d : Nat} {ro : Bool} {xs : List Nat} (hw : WfTy P.w { bt := b, dim := d })
    (hd : (b = 9 ∧ d = 0) ∨ (0 < d ∧ ¬ IsObj P.w { bt := b, dim := d - 1 })) : ObjOk P h { bt := b, dim := d, ro := ro, body := .data xs } :=
  ⟨hw, hd⟩

theorem objOk_refs {P : Program} {h : List Obj} {b d : Nat} {ro : Bool} {xs : List (Option Nat)} (hw : WfTy P.w { bt := b, dim := d })
    (hd : 0 < d) (ho : IsObj P.w { bt := b, dim := d - 1 }) (hx : ∀ v ∈ xs, Holds P.w h { bt := b, dim := d - 1 } v) :
    ObjOk P h { bt := b, dim := d, ro := ro, body := .refs xs } :=
  ⟨hw, hd, ho, hx⟩

theorem objOk_inst {P : Program} {h : List Obj} {b : Nat} {ro : Bool} {f : Nat → Option Nat} (hw : WfTy P.w { bt := b, dim := 0 })
    (hc : HasCat P.w b .cls) (hf : ∀ k, Holds P.w h (P.fty k) (f k)) : ObjOk P h { bt := b, dim := 0, ro := ro, body := .inst f } :=
  ⟨hw, rfl, hc, hf⟩

theorem hasField_iff {P : Program} (hw : Wf P.w) (he : Ends P.w P.n) {c k : Nat} :
    hasField P c k = true ↔ P.owner k = c ∨ (HasCat P.w (P.owner k) .cls ∧ HasCat P.w c .cls ∧ Ancestor P.w (P.owner k) c) := by
  obtain ⟨r, e, hr⟩ := super_ends hw he (P.owner k) c
  unfold hasField
  rw [e, Bool.or_eq_true, beq_iff_eq, ← hr]
  rfl

/-- The object in a variable of a class type is an instance that has the fields of the class. -/
theorem inst_of {P : Program} (hw : Wf P.w) (he : Ends P.w P.n) {h : List Obj} {ob : Obj} (ho : ObjOk P h ob) {t : Ty} (ht : isClass P.w t = true)
    (hf : Fits P.w t ob.bt ob.dim) : ∃ f, ob.body = .inst f ∧ ob.dim = 0 ∧ (∀ k, Holds P.w h (P.fty k) (f k)) ∧
      ∀ k, hasField P t.bt k = true → hasField P ob.bt k = true := by
  simp only [isClass, Bool.and_eq_true, beq_iff_eq] at ht
  have hc : HasCat P.w t.bt .cls := (hasCat_iff (by simp)).2 ht.1.2
  have hni : ¬ HasCat P.w t.bt .iface := fun h => by have := hasCat_inj h hc; cases this
  obtain ⟨e0, k0⟩ := class_of hw hc (objOk_undef hw ho) (hf.2 hni)
  rw [ht.1.1] at e0
  have hsub : ∀ k, hasField P t.bt k = true → hasField P ob.bt k = true := by
    intro k
    rw [hasField_iff hw he, hasField_iff hw he]
    have ha := hf.2 hni
    cases ha with
    | undef h1 h2 => exact absurd h1 (objOk_undef hw ho)
    | same h1 h2 h3 h4 h5 => simp only at h2; rw [h2]; exact id
    | subclass h1 h2 h3 h4 h5 h6 h7 =>
      rintro (h | ⟨h, _, h'⟩)
      · exact .inr ⟨by rw [h]; exact hc, k0, by rw [h]; exact h7⟩
      · exact .inr ⟨h, k0, ancestor_trans h' h7⟩
    | iface h1 h2 h3 h4 h5 h6 => exact absurd h5 hni
    | any h1 h2 h3 => have := hasCat_inj hc h1; cases this
    | anyArray h1 h2 h3 h4 => have := hasCat_inj hc h1; cases this
  have := ho.2
  split at this
  · rcases this with h | h
    · have := hasCat_inj k0 ((hw.string _).2 h.1); cases this
    · omega
  · omega
  · exact ⟨_, by assumption, e0, this.2.2, hsub⟩

/-- The object in a variable of an object array type is an array of references. -/
theorem refs_of {P : Program} (hw : Wf P.w) {h : List Obj} {ob : Obj} (ho : ObjOk P h ob) {t : Ty} (wt : WfTy P.w t) (ht : isObjectArray P.w t = true)
    (hf : Fits P.w t ob.bt ob.dim) : ∃ xs, ob.body = .refs xs ∧ 0 < ob.dim ∧ IsObj P.w { bt := ob.bt, dim := ob.dim - 1 } ∧
      ∀ v ∈ xs, Holds P.w h { bt := ob.bt, dim := ob.dim - 1 } v := by
  simp only [isObjectArray, isArray, Bool.and_eq_true, decide_eq_true_eq, Bool.not_eq_true'] at ht
  obtain ⟨⟨hd, hr⟩, hob⟩ := ht
  have wt' : WfTy P.w { t with dim := t.dim - 1 } := ⟨wt.known, by simp [hr], wt.mutable, fun _ => wt.dim hd⟩
  have oe := (isObject_iff hw wt').1 hob
  have hbu := objOk_undef hw ho
  have key : 0 < ob.dim ∧ IsObj P.w { bt := ob.bt, dim := ob.dim - 1 } := by
    by_cases hi : HasCat P.w t.bt .iface
    · obtain ⟨e, k⟩ := hf.1 hi
      refine ⟨by omega, rfl, ?_⟩
      rcases k with k | k
      · exact .inr (.inr (.inl k))
      · exact .inr (.inr (.inr (.inl k)))
    · have ha := hf.2 hi
      cases ha with
      | undef h1 h2 => exact absurd h1 hbu
      | same h1 h2 h3 h4 h5 => simp only at h2 h3; rw [← h2, ← h3]; exact ⟨hd, rfl, oe.2⟩
      | subclass h1 h2 h3 h4 h5 h6 h7 => simp only at h3; exact ⟨by omega, rfl, .inr (.inr (.inl h6))⟩
      | iface h1 h2 h3 h4 h5 h6 => exact absurd h5 hi
      | any h1 h2 h3 => simp only at h2; omega
      | anyArray h1 h2 h3 h4 => exact ⟨h3, rfl, h4.2⟩
  have := ho.2
  split at this
  · rcases this with h | h
    · omega
    · exact absurd key.2 h.2
  · exact ⟨_, by assumption, key.1, key.2, this.2.2⟩
  · omega

theorem string_of {P : Program} (hw : Wf P.w) {h : List Obj} {ob : Obj} (ho : ObjOk P h ob) {t : Ty} (ht : isString t = true)
    (hf : Fits P.w t ob.bt ob.dim) : ob.bt = 9 ∧ ob.dim = 0 ∧ ∃ xs, ob.body = .data xs := by
  have ss : t.bt = 9 ∧ t.dim = 0 := by simp [isString] at ht; grind
  have := fits_same (k := .string) (by rw [ss.1]; exact (hw.string 9).2 rfl) (by simp) (by simp) (by simp) (objOk_undef hw ho) hf
  exact ⟨this.1.trans ss.1, this.2.trans ss.2, data_of_string hw ho (this.1.trans ss.1) (this.2.trans ss.2)⟩

theorem nums_of {P : Program} (hw : Wf P.w) {h : List Obj} {ob : Obj} (ho : ObjOk P h ob) {t : Ty}
    (ht : (isNumericArray t || isMulnumArray P.w t) = true) (hf : Fits P.w t ob.bt ob.dim) :
    ob.bt = t.bt ∧ ob.dim = 1 ∧ ¬ IsObj P.w { bt := ob.bt, dim := 0 } ∧ ∃ xs, ob.body = .data xs := by
  simp only [isNumericArray, isMulnumArray, btNumeric, Bool.or_eq_true, Bool.and_eq_true, beq_iff_eq, decide_eq_true_eq] at ht
  rcases ht with ht | ht
  · have nc := (hw.numeric t.bt).2 ht.1.2
    have := fits_same nc (by simp) (by simp) (by simp) (objOk_undef hw ho) hf
    have nobj := not_obj_of nc (by simp) (by simp) (by simp) (by simp)
    rw [← this.1] at nobj
    exact ⟨this.1, this.2.trans ht.1.1, nobj, data_of_nums ho nobj (this.2.trans ht.1.1)⟩
  · have nc : HasCat P.w t.bt .mulnum := (hasCat_iff (by simp)).2 ht.1.2
    have := fits_same nc (by simp) (by simp) (by simp) (objOk_undef hw ho) hf
    have nobj := not_obj_of nc (by simp) (by simp) (by simp) (by simp)
    rw [← this.1] at nobj
    exact ⟨this.1, this.2.trans ht.1.1, nobj, data_of_nums ho nobj (this.2.trans ht.1.1)⟩

theorem charsOf_ok {P : Program} (hw : Wf P.w) {h : List Obj} (hh : HeapOk P h) {t : Ty} (ht : isString t = true) {v : Option Nat} (hv : Holds P.w h t v) :
    (∃ xs, charsOf h v = .ok xs) ∨ ∃ m, charsOf h v = .die m := by
  cases v with
  | none => exact .inr ⟨_, rfl⟩
  | some j =>
    obtain ⟨ob, e, hf⟩ := hv j rfl
    obtain ⟨_, _, xs, hx⟩ := string_of hw (hh j ob e) ht hf
    exact .inl ⟨xs, by simp only [charsOf, e, hx]⟩

/-- The type of an expression is a type of objects. -/
theorem rhs_type {P : Program} (hP : WfProg P) {x : Nat} {r : Rhs} (hi : WfInstr P.w (.set x r)) {s : Ty} (ht : rhsType P r = some s) (hr : r ≠ .undef) :
    WfTy P.w s ∧ IsObj P.w s := by
  have hw := hP.world
  have str : WfTy P.w { bt := 9 } ∧ IsObj P.w { bt := 9 } := ⟨wf_string hw, rfl, .inr (.inl ((hw.string 9).2 rfl))⟩
  cases r with
  | undef => exact absurd rfl hr
  | var y => cases ht; exact hP.vars y
  | lit l => cases ht; exact str
  | field y k =>
    simp only [rhsType] at ht
    split at ht
    · cases ht; exact hP.fields k
    · cases ht
  | elem y i =>
    simp only [rhsType] at ht
    split at ht
    · rename_i h
      cases ht
      simp only [isObjectArray, isArray, Bool.and_eq_true, decide_eq_true_eq, Bool.not_eq_true'] at h
      obtain ⟨⟨hd, hr⟩, hob⟩ := h
      have wt := (hP.vars y).1
      have wt' : WfTy P.w { P.vty y with dim := (P.vty y).dim - 1 } := ⟨wt.known, by simp [hr], wt.mutable, fun _ => wt.dim hd⟩
      have oe := (isObject_iff hw wt').1 hob
      rw [elemTy_eq]
      exact ⟨wf_elem (wf_drop wt) hd, rfl, oe.2⟩
    · cases ht
  | cast t y =>
    simp only [rhsType] at ht
    split at ht
    · rename_i h
      cases ht
      rw [Bool.and_eq_true] at h
      exact ⟨hi, (isObject_iff hw hi).1 h.1⟩
    · cases ht
  | copy y =>
    simp only [rhsType] at ht
    split at ht
    · cases ht; exact hP.vars y
    · cases ht
  | concat y z =>
    simp only [rhsType] at ht
    split at ht
    · cases ht; exact str
    · cases ht
  | newString l => cases ht; exact str
  | newArray t l =>
    simp only [rhsType] at ht
    split at ht
    · rename_i h
      cases ht
      simp only [isArray, Bool.and_eq_true, decide_eq_true_eq] at h
      exact ⟨wf_drop hi, rfl, .inl h.1.1⟩
    · cases ht
  | newObject c =>
    simp only [rhsType] at ht
    split at ht
    · rename_i h
      cases ht
      simp only [isClass, Bool.and_eq_true, beq_iff_eq] at h
      have hc : HasCat P.w c .cls := (hasCat_iff (by simp)).2 h.1.2
      obtain ⟨b, h1, h2⟩ := hc
      exact ⟨⟨⟨b, h1, by rw [h2]; simp⟩, by simp, by simp, by simp⟩, rfl, .inr (.inr (.inl ⟨b, h1, h2⟩))⟩
    · cases ht

/-- The value of an expression is of the type of the expression. -/
theorem eval_good {P : Program} (hP : WfProg P) (he : Ends P.w P.n) {st : St} (hs : TypeSafe P st) {x : Nat} {r : Rhs} (hi : WfInstr P.w (.set x r))
    (hca : Careful P st (.set x r)) {s : Ty} (ht : rhsType P r = some s) : Good P st.heap s (eval P st r) := by
  have hw := hP.world
  have hh : HeapOk P st.heap := hs.objs
  have hty := rhs_type hP hi ht
  cases r with
  | undef => exact good_same hh holds_none
  | var y => cases ht; exact good_same hh (hs.vars y)
  | lit l =>
    cases ht
    exact good_new hw hh (objOk_str hw) rfl rfl
  | field y k =>
    simp only [rhsType] at ht
    split at ht
    · rename_i h
      cases ht
      rw [Bool.and_eq_true] at h
      simp only [eval]
      cases hv : st.vars y with
      | none => trivial
      | some j =>
        obtain ⟨ob, e, hf⟩ := hs.vars y j hv
        obtain ⟨f, hb, _, hfs, hsub⟩ := inst_of hw he (hh j ob e) h.1 hf
        simp only [e, hb, hsub k h.2, if_true]
        exact good_same hh (hfs k)
    · cases ht
  | elem y i =>
    simp only [rhsType] at ht
    split at ht
    · rename_i h
      cases ht
      simp only [eval]
      cases hv : st.vars y with
      | none => trivial
      | some j =>
        obtain ⟨ob, e, hf⟩ := hs.vars y j hv
        have ho := hh j ob e
        obtain ⟨xs, hb, hd, hob, hel⟩ := refs_of hw ho (hP.vars y).1 h hf
        simp only [e, hb]
        split
        · rename_i hi
          refine good_same hh ?_
          obtain ⟨v, hv'⟩ : ∃ v, xs[i.toNat]? = some v := ⟨xs[i.toNat]'(by omega), List.getElem?_eq_getElem _⟩
          rw [hv']
          intro j' hj'
          have hj'' : v = some j' := hj'
          obtain ⟨ob', e', hf'⟩ := hel v (List.mem_of_getElem? hv') j' hj''
          have ho' := hh j' ob' e'
          simp only [isObjectArray, isArray, Bool.and_eq_true, decide_eq_true_eq, Bool.not_eq_true'] at h
          have wt := (hP.vars y).1
          have wt' : WfTy P.w { P.vty y with dim := (P.vty y).dim - 1 } := ⟨wt.known, by simp [h.1.2], wt.mutable, fun _ => wt.dim h.1.1⟩
          exact ⟨ob', e', fits_elem hw hP.boxes wt h.1.1 h.1.2 ((isObject_iff hw wt').1 h.2) ho.1 hd hob hf ho'.1 (objOk_obj hw ho') hf'⟩
        · trivial
    · cases ht
  | cast t y =>
    simp only [rhsType] at ht
    split at ht
    · rename_i h
      cases ht
      rw [Bool.and_eq_true, yes_true] at h
      exact cast_good hw he hh hi (hP.vars y).1 (hty (by simp)).2 (hP.vars y).2 h.2 (hs.vars y) hca.1 hca.2
    · cases ht
  | copy y =>
    simp only [rhsType] at ht
    split at ht
    · rename_i h
      cases ht
      simp only [eval]
      cases hv : st.vars y with
      | none => exact good_same hh holds_none
      | some j =>
        obtain ⟨ob, e, hf⟩ := hs.vars y j hv
        have ho := hh j ob e
        rw [Bool.or_assoc, Bool.or_eq_true] at h
        rcases h with h | h
        · obtain ⟨e1, e2, xs, hb⟩ := string_of hw ho h hf
          have ss : (P.vty y).bt = 9 ∧ (P.vty y).dim = 0 := by simp [isString] at h; grind
          simp only [e, hb]
          exact good_new hw hh (objOk_data ho.1 (.inl ⟨e1, e2⟩)) (ss.1.trans e1.symm) (ss.2.trans e2.symm)
        · obtain ⟨e1, e2, hn, xs, hb⟩ := nums_of hw ho h hf
          have ss : (P.vty y).dim = 1 := by simp [isNumericArray, isMulnumArray] at h; grind
          simp only [e, hb]
          refine good_new hw hh (objOk_data ho.1 (.inr ⟨by omega, ?_⟩)) e1.symm (ss.trans e2.symm)
          simpa only [e2] using hn
    · cases ht
  | concat y z =>
    simp only [rhsType] at ht
    split at ht
    · rename_i h
      cases ht
      rw [Bool.and_eq_true] at h
      simp only [eval]
      rcases charsOf_ok hw hh h.1 (hs.vars y) with ⟨a, ha⟩ | ⟨m, ha⟩
      · rcases charsOf_ok hw hh h.2 (hs.vars z) with ⟨b, hb⟩ | ⟨m, hb⟩
        · simp only [ha, hb, Out.ok_bind]
          exact good_new hw hh (objOk_str hw) rfl rfl
        · simp only [ha, hb, Out.ok_bind]; trivial
      · simp only [ha]; trivial
    · cases ht
  | newString l =>
    cases ht
    simp only [eval]
    split
    · trivial
    · exact good_new hw hh (objOk_str hw) rfl rfl
  | newArray t l =>
    simp only [rhsType] at ht
    split at ht
    · rename_i h
      cases ht
      simp only [isArray, Bool.and_eq_true, decide_eq_true_eq] at h
      have hd := h.1.1
      simp only [eval]
      split
      · trivial
      · have wi : WfTy P.w t := hi
        have we := wf_elem (wf_drop wi) hd
        by_cases ho : isObject P.w { bt := t.bt, dim := t.dim - 1 } = true
        · have hb : newBody P.w { bt := t.bt, dim := t.dim } l.toNat = .refs (List.replicate l.toNat none) :=
            if_pos (by simp [isObjectArray, isArray, hd, ho])
          rw [hb]
          refine good_new hw hh (objOk_refs (wf_drop wi) hd ((isObject_iff hw we).1 ho) fun v hv => ?_) rfl rfl
          rw [(List.mem_replicate.1 hv).2]
          exact holds_none
        · have hb : newBody P.w { bt := t.bt, dim := t.dim } l.toNat = .data (List.replicate l.toNat 0) :=
            if_neg (by simp [isObjectArray, isArray, ho])
          rw [hb]
          exact good_new hw hh (objOk_data (wf_drop wi) (.inr ⟨hd, fun k => ho ((isObject_iff hw we).2 k)⟩)) rfl rfl
    · cases ht
  | newObject c =>
    have := hty (by simp)
    simp only [rhsType] at ht
    split at ht
    · rename_i h
      cases ht
      simp only [isClass, Bool.and_eq_true, beq_iff_eq] at h
      exact good_new hw hh (objOk_inst this.1 ((hasCat_iff (by simp)).2 h.1.2) fun k => holds_none) rfl rfl
    · cases ht

/-! ## One operation -/

/-- What an operation must yield. -/
def SafeOut (P : Program) : Out St → Prop
  | .ok st => TypeSafe P st
  | .die _ => True
  | .ub => False

theorem safe_put {P : Program} {st : St} (hs : TypeSafe P st) {h : List Obj} (hg : Grow st.heap h) (hh : HeapOk P h) {x : Nat} {v : Option Nat}
    (hv : Holds P.w h (P.vty x) v) : TypeSafe P (st.put x v h) := by
  refine ⟨fun y => ?_, hh⟩
  simp only [St.put]
  split
  · rename_i e; rw [e]; exact hv
  · exact holds_grow hg (hs.vars y)

theorem safe_set {P : Program} {st : St} (hs : TypeSafe P st) {j : Nat} {ob ob' : Obj} (hj : st.heap[j]? = some ob) (e1 : ob'.bt = ob.bt) (e2 : ob'.dim = ob.dim)
    (ho : ObjOk P st.heap ob') : TypeSafe P { st with heap := st.heap.set j ob' } :=
  ⟨fun y => holds_grow (grow_set hj e1 e2) (hs.vars y), heapOk_set hs.objs hj e1 e2 ho⟩

theorem objOk_data' {P : Program} {h : List Obj} {ob : Obj} (ho : ObjOk P h ob) {xs ys : List Nat} (hb : ob.body = .data xs) :
    ObjOk P h { ob with body := .data ys } := by
  have := ho.2
  rw [hb] at this
  exact ⟨ho.1, this⟩

theorem setData_safe {P : Program} {st : St} (hs : TypeSafe P st) {y : Nat} (hd : ∀ j ob, st.vars y = some j → st.heap[j]? = some ob → ∃ xs, ob.body = .data xs)
    (i : Int) (c : Nat) : SafeOut P (do let h ← setData st.heap (st.vars y) i c; .ok { st with heap := h }) := by
  unfold setData
  cases hv : st.vars y with
  | none => trivial
  | some j =>
    obtain ⟨ob, e, hf⟩ := hs.vars y j hv
    obtain ⟨xs, hb⟩ := hd j ob hv e
    simp only [e, hb]
    split
    · simp only [Out.ok_bind]
      have := safe_set hs (ob' := { ob with body := .data (xs.set i.toNat c) }) e rfl rfl (objOk_data' (hs.objs j ob e) hb)
      exact this
    · trivial

theorem mayRun_class {P : Program} {dm sm : Method} (hm : mayRun P dm sm = true) (hc : sm.isClass = true) : dm = sm := by
  simp only [mayRun, Bool.or_eq_true, beq_iff_eq] at hm
  rcases hm with h | h
  · exact h
  · rw [yes_true] at h; simp [satisfyMethod, hc] at h

/-- The type that the caller sees accepts the type of the method that is run. -/
theorem mayRun_ret {P : Program} (hw : Wf P.w) {dm sm : Method} (hm : mayRun P dm sm = true) (hd : WfTy P.w dm.ret) (hs : WfTy P.w sm.ret) :
    dm = sm ∨ Assignable P.w true dm.ret sm.ret := by
  simp only [mayRun, Bool.or_eq_true, beq_iff_eq] at hm
  rcases hm with h | h
  · exact .inl h
  · rw [yes_true, satisfyMethod_true] at h
    refine .inr (assign_sub (n := P.n) hw (hasInterface_sound hw P.n) hd hs ?_)
    exact h.2.2.2.2

theorem step_safe {P : Program} (hP : WfProg P) (he : Ends P.w P.n) {st : St} (hs : TypeSafe P st) {i : Instr} (ha : accepts P i = true) (hi : WfInstr P.w i)
    (hca : Careful P st i) : SafeOut P (exec P st i) := by
  have hw := hP.world
  have hh : HeapOk P st.heap := hs.objs
  cases i with
  | set x r =>
    simp only [accepts] at ha
    cases ht : rhsType P r with
    | none => rw [ht] at ha; cases ha
    | some s =>
      rw [ht] at ha
      simp only [yes_true] at ha
      have hg := eval_good hP he hs hi hca ht
      simp only [exec]
      cases hr : eval P st r with
      | ub => rw [hr] at hg; exact hg
      | die m => trivial
      | ok p =>
        rw [hr] at hg
        obtain ⟨⟨e, hp⟩, hh', hv⟩ := hg
        have hgr : Grow st.heap p.2 := by rw [hp]; exact grow_append _ _
        simp only [Out.ok_bind]
        refine safe_put hs hgr hh' ?_
        by_cases hu : r = .undef
        · subst hu
          cases hr
          exact holds_none
        · obtain ⟨ws, os⟩ := rhs_type hP hi ht hu
          have hx := hP.vars x
          exact holds_up hw hh' hx.1 ws hx.2 os ((c35_assignable_iff hw hx.1 ws).1.1 ⟨_, ha⟩) hv
  | setField y k z =>
    simp only [accepts, Bool.and_eq_true, yes_true] at ha
    simp only [exec]
    cases hv : st.vars y with
    | none => trivial
    | some j =>
      obtain ⟨ob, e, hf⟩ := hs.vars y j hv
      have ho := hh j ob e
      obtain ⟨f, hb, hd, hfs, hsub⟩ := inst_of hw he ho ha.1.1 hf
      simp only [e, hb, hsub k ha.1.2, if_true]
      refine safe_set (ob' := { ob with body := .inst fun l => if l = k then st.vars z else f l }) hs e rfl rfl ⟨ho.1, ?_⟩
      have hc := ho.2
      rw [hb] at hc
      refine ⟨hc.1, hc.2.1, fun l => ?_⟩
      by_cases hl : l = k
      · subst hl
        simp only [if_true]
        have h1 := hP.fields l
        have h2 := hP.vars z
        exact holds_up hw hh h1.1 h2.1 h1.2 h2.2 ((c35_assignable_iff hw h1.1 h2.1).1.1 ⟨_, ha.2⟩) (hs.vars z)
      · simp only [hl, if_false]
        exact hfs l
  | setElem y i z =>
    simp only [accepts, Bool.and_eq_true, yes_true] at ha
    simp only [exec]
    cases hv : st.vars y with
    | none => trivial
    | some j =>
      obtain ⟨ob, e, hf⟩ := hs.vars y j hv
      have ho := hh j ob e
      obtain ⟨xs, hb, hd, hob, hel⟩ := refs_of hw ho (hP.vars y).1 ha.1 hf
      simp only [e, hb]
      split
      · have key : Holds P.w st.heap { bt := ob.bt, dim := ob.dim - 1 } (st.vars z) →
            TypeSafe P { st with heap := st.heap.set j { ob with body := .refs (xs.set i.toNat (st.vars z)) } } := by
          intro hz
          refine safe_set (ob' := { ob with body := .refs (xs.set i.toNat (st.vars z)) }) hs e rfl rfl ⟨ho.1, hd, hob, fun v hv => ?_⟩
          rcases List.mem_or_eq_of_mem_set hv with h | h
          · exact hel v h
          · rw [h]; exact hz
        cases hck : storeChecked P (P.vty y) with
        | true =>
          obtain ⟨b, eb, hb'⟩ := isa_ok hw he hh (wf_elem ho.1 hd) hob (hs.vars z)
          simp only [if_true, eb, Out.ok_bind]
          cases b with
          | true => exact key (hb' rfl)
          | false => trivial
        | false =>
          have hck' : ¬ ((P.vty y).dim = 1 ∧ (HasCat P.w (P.vty y).bt .iface ∨ HasCat P.w (P.vty y).bt .anyObject)) := by
            rintro ⟨k1, k2⟩
            rw [hasCat_iff (by simp), hasCat_iff (by simp)] at k2
            unfold storeChecked at hck
            rcases k2 with k2 | k2 <;> simp [k1, k2] at hck
          obtain ⟨e1, e2⟩ := hca hck' j ob hv e
          simp only [Bool.false_eq_true, if_false, Out.ok_bind, if_true]
          refine key ?_
          rw [elemTy_eq, ← e1, ← e2] at ha
          have hz := hP.vars z
          have we := wf_elem ho.1 hd
          exact holds_up hw hh we hz.1 hob hz.2 ((c35_assignable_iff hw we hz.1).1.1 ⟨_, ha.2⟩) (hs.vars z)
      · trivial
  | setChar y i c =>
    simp only [accepts, Bool.and_eq_true] at ha
    refine setData_safe hs (fun j ob hv e => ?_) i c
    obtain ⟨ob', e', hf⟩ := hs.vars y j hv
    rw [e] at e'; cases e'
    obtain ⟨_, _, xs, hx⟩ := string_of hw (hh j ob e) ha.1 hf
    exact ⟨xs, hx⟩
  | setNum y i c =>
    simp only [accepts] at ha
    refine setData_safe hs (fun j ob hv e => ?_) i c
    obtain ⟨ob', e', hf⟩ := hs.vars y j hv
    rw [e] at e'; cases e'
    obtain ⟨_, _, _, xs, hx⟩ := nums_of hw (hh j ob e) (by simp [ha]) hf
    exact ⟨xs, hx⟩
  | makeReadOnly y =>
    simp only [exec]
    cases hv : st.vars y with
    | none => exact absurd hv hca
    | some j =>
      obtain ⟨ob, e, hf⟩ := hs.vars y j hv
      simp only [e]
      exact safe_set (ob' := { ob with ro := true }) hs e rfl rfl (hh j ob e)
  | memcpy y i xs =>
    simp only [exec]
    cases hv : st.vars y with
    | none => trivial
    | some j =>
      obtain ⟨ob, e, hf⟩ := hs.vars y j hv
      simp only [e]
      cases hb : ob.body with
      | data ys =>
        simp only []
        split
        · trivial
        · split
          · exact safe_set (ob' := { ob with body := .data (ys.take i.toNat ++ xs ++ ys.drop (i.toNat + xs.length)) }) hs e rfl rfl
              (objOk_data' (hh j ob e) hb)
          · rename_i hr
            split
            · exact hs
            · split
              · trivial
              · have : (0 : Int) ≤ i := hca
                omega
      | refs ys => trivial
      | inst f => trivial
  | pass dm sm k y p =>
    simp only [accepts] at ha
    cases hd : dm.args[k]? with
    | none => rw [hd] at ha; simp at ha
    | some dt =>
      cases hst : sm.args[k]? with
      | none => rw [hd, hst] at ha; simp at ha
      | some t =>
        rw [hd, hst] at ha
        simp only [Bool.and_eq_true, beq_iff_eq, yes_true] at ha
        obtain ⟨⟨h1, h2⟩, h3⟩ := ha
        have hp := hP.vars p
        have hy := hP.vars y
        simp only [exec]
        cases hc : sm.isClass with
        | true =>
          simp only [if_true, Out.ok_bind]
          refine safe_put hs (grow_refl _) hh ?_
          have := mayRun_class h3 hc
          subst this
          rw [hst] at hd; cases hd
          rw [h2] at h1
          exact holds_up hw hh hp.1 hy.1 hp.2 hy.2 ((c35_assignable_iff hw hp.1 hy.1).1.1 ⟨_, h1⟩) (hs.vars y)
        | false =>
          obtain ⟨b, eb, hb⟩ := isa_ok hw he hh hp.1 hp.2 (hs.vars y)
          simp only [Bool.false_eq_true, if_false, eb, Out.ok_bind]
          cases b with
          | true => exact safe_put hs (grow_refl _) hh (hb rfl)
          | false => trivial
  | ret dm sm y x =>
    simp only [accepts, Bool.and_eq_true, yes_true] at ha
    obtain ⟨⟨h1, h2⟩, h3⟩ := ha
    have hx := hP.vars x
    have hy := hP.vars y
    have a1 := (c35_assignable_iff hw hi.2 hy.1).1.1 ⟨_, h1⟩
    have os := obj_up hi.2 hy.2 a1
    have v1 := holds_up hw hh hi.2 hy.1 os hy.2 a1 (hs.vars y)
    have v2 : IsObj P.w dm.ret ∧ Holds P.w st.heap dm.ret (st.vars y) := by
      rcases mayRun_ret hw h3 hi.1 hi.2 with e | e
      · rw [e]; exact ⟨os, v1⟩
      · have od := obj_up hi.1 os e
        exact ⟨od, holds_up hw hh hi.1 hi.2 od os (assignable_im e) v1⟩
    refine safe_put hs (grow_refl _) hh ?_
    exact holds_up hw hh hx.1 hi.1 hx.2 v2.1 ((c35_assignable_iff hw hx.1 hi.1).1.1 ⟨_, h2⟩) v2.2

theorem init_safe (P : Program) : TypeSafe P St.init := ⟨fun _ => holds_none, fun j ob h => by simp [St.init] at h⟩

end Safety
end SPVM
