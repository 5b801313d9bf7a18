import Verif.Spec.Safety
import Verif.Lemmas.CastRun
import Verif.Props.Cast
/-!
# Type safety: assignability of what is in variables
-/
set_option linter.unusedSimpArgs false
set_option linter.unusedVariables false
namespace SPVM
namespace Safety
open Types Spec.Types Spec.Safety

theorem yes_true {o : Out Bool} : yes o = true ↔ o = .ok true := by
  cases o <;> simp [yes]

theorem assignable_im {w : World} {d s : Ty} (h : Assignable w true d s) : Assignable w false d s := by
  cases h with
  | undef h1 h2 => exact .undef h1 h2
  | same h1 h2 h3 h4 h5 => exact .same h1 h2 h3 h4 h5
  | subclass h1 h2 h3 h4 h5 h6 h7 => exact .subclass h1 h2 h3 h4 h5 h6 h7
  | iface h1 h2 h3 h4 h5 h6 => exact .iface h1 h2 h3 (by simp) h5 h6
  | any h1 h2 h3 => exact .any h1 h2 h3
  | anyArray h1 h2 h3 h4 => exact .anyArray h1 h2 h3 h4

/-- What a value of an object type can be assigned to is an object type. -/
theorem obj_up {w : World} {im : Bool} {d s : Ty} (hd : WfTy w d) (os : IsObj w s) (h : Assignable w im d s) : IsObj w d := by
  have ref0 : ∀ {k}, HasCat w d.bt k → k ≠ .numeric → k ≠ .mulnum → d.ref = false := by
    intro k hk h1 h2
    cases hr : d.ref with
    | false => rfl
    | true =>
      rcases (hd.ref hr).2 with h | h
      · exact absurd (hasCat_inj hk h) h1
      · exact absurd (hasCat_inj hk h) h2
  cases h with
  | undef h1 h2 => exact h2
  | same h1 h2 h3 h4 h5 => exact ⟨by rw [h4]; exact os.1, by rw [h2, h3]; exact os.2⟩
  | subclass h1 h2 h3 h4 h5 h6 h7 => exact ⟨h1, .inr (.inr (.inl h5))⟩
  | iface h1 h2 h3 h4 h5 h6 => exact ⟨h1, .inr (.inr (.inr (.inl h5)))⟩
  | any h1 h2 h3 => exact ⟨ref0 h1 (by simp) (by simp), .inr (.inr (.inr (.inr h1)))⟩
  | anyArray h1 h2 h3 h4 => exact ⟨ref0 h1 (by simp) (by simp), .inl (by omega)⟩

/-- What can be assigned fits. -/
theorem fits_of {w : World} (hw : Wf w) {t : Ty} {b dim : Nat} (hb : WfTy w { bt := b, dim := dim }) (ob : IsObj w { bt := b, dim := dim })
    (h : Assignable w false { bt := t.bt, dim := t.dim } { bt := b, dim := dim }) : Fits w t b dim := by
  refine ⟨fun hi => ?_, fun _ => h⟩
  cases h with
  | undef h1 h2 => exact absurd h1 (not_undef hw hb ob)
  | same h1 h2 h3 h4 h5 => simp only at h2 h3; exact ⟨h3.symm, by rw [← h2]; exact .inr hi⟩
  | subclass h1 h2 h3 h4 h5 h6 h7 => have := hasCat_inj hi h5; cases this
  | iface h1 h2 h3 h4 h5 h6 => exact ⟨h3.symm, Implements.src h6⟩
  | any h1 h2 h3 => have := hasCat_inj hi h1; cases this
  | anyArray h1 h2 h3 h4 => have := hasCat_inj hi h1; cases this

theorem fits_obj {w : World} {t : Ty} (ht : IsObj w t) {b dim : Nat} (hw : Wf w) (hb : WfTy w { bt := b, dim := dim })
    (hbu : ¬ HasCat w b .undef) (h : Fits w t b dim) : IsObj w { bt := b, dim := dim } := by
  by_cases hi : HasCat w t.bt .iface
  · rcases (h.1 hi).2 with k | k
    · exact ⟨rfl, .inr (.inr (.inl k))⟩
    · exact ⟨rfl, .inr (.inr (.inr (.inl k)))⟩
  · rcases assignable_obj (d := { bt := t.bt, dim := t.dim }) ⟨rfl, ht.2⟩ (h.2 hi) with k | k
    · exact k
    · exact absurd k hbu

/-- What is assignable to a class is a class of the same dimension. -/
theorem class_of {w : World} (hw : Wf w) {c d b dim : Nat} (hc : HasCat w c .cls) (hbu : ¬ HasCat w b .undef)
    (h : Assignable w false { bt := c, dim := d } { bt := b, dim := dim }) : dim = d ∧ HasCat w b .cls := by
  cases h with
  | undef h1 h2 => exact absurd h1 hbu
  | same h1 h2 h3 h4 h5 => simp only at h2 h3; exact ⟨h3.symm, by rw [← h2]; exact hc⟩
  | subclass h1 h2 h3 h4 h5 h6 h7 => exact ⟨h3.symm, h6⟩
  | iface h1 h2 h3 h4 h5 h6 => have := hasCat_inj hc h5; cases this
  | any h1 h2 h3 => have := hasCat_inj hc h1; cases this
  | anyArray h1 h2 h3 h4 => have := hasCat_inj hc h1; cases this

/-- Assignment keeps what is in variables typed. -/
theorem fits_up {w : World} (hw : Wf w) {d s : Ty} (hd : WfTy w d) (hs : WfTy w s) (od : IsObj w d) (os : IsObj w s)
    (h : Assignable w false d s) {b dim : Nat} (hb : WfTy w { bt := b, dim := dim }) (ob : IsObj w { bt := b, dim := dim })
    (hf : Fits w s b dim) : Fits w d b dim := by
  have hbu : ¬ HasCat w b .undef := not_undef hw hb ob
  have h' := assignable_drop od os h
  have hsu := not_undef hw hs os
  refine ⟨fun hi => ?_, fun hi => ?_⟩
  · cases h' with
    | undef h1 h2 => exact absurd h1 hsu
    | same h1 h2 h3 h4 h5 =>
      simp only at h2 h3
      rw [h2] at hi
      exact ⟨(hf.1 hi).1.trans h3.symm, (hf.1 hi).2⟩
    | subclass h1 h2 h3 h4 h5 h6 h7 => have := hasCat_inj hi h5; cases this
    | iface h1 h2 h3 h4 h5 h6 =>
      simp only at h3
      rcases Implements.src h6 with k | k
      · have hni : ¬ HasCat w s.bt .iface := fun h => by have := hasCat_inj h k; cases this
        obtain ⟨e, k'⟩ := class_of hw k hbu (hf.2 hni)
        exact ⟨e.trans h3.symm, .inl k'⟩
      · exact ⟨(hf.1 k).1.trans h3.symm, (hf.1 k).2⟩
    | any h1 h2 h3 => have := hasCat_inj hi h1; cases this
    | anyArray h1 h2 h3 h4 => have := hasCat_inj hi h1; cases this
  · by_cases hsi : HasCat w s.bt .iface
    · cases h' with
      | undef h1 h2 => exact absurd h1 hsu
      | same h1 h2 h3 h4 h5 => simp only at h2; rw [h2] at hi; exact absurd hsi hi
      | subclass h1 h2 h3 h4 h5 h6 h7 => have := hasCat_inj hsi h6; cases this
      | iface h1 h2 h3 h4 h5 h6 => exact absurd h5 hi
      | any h1 h2 h3 => exact .any h1 h2 ob
      | anyArray h1 h2 h3 h4 =>
        have e := (hf.1 hsi).1
        simp only at h3
        refine .anyArray h1 h2 (by simp only; omega) ?_
        rcases (hf.1 hsi).2 with k | k
        · exact ⟨rfl, .inr (.inr (.inl k))⟩
        · exact ⟨rfl, .inr (.inr (.inr (.inl k)))⟩
    · exact assignable_trans hw (wf_drop hd) (wf_drop hs) hb hi h' (hf.2 hsi)

theorem wf_elem {w : World} {b dim : Nat} (h : WfTy w { bt := b, dim := dim }) (hd : 0 < dim) : WfTy w { bt := b, dim := dim - 1 } :=
  ⟨h.known, by simp, by simp, fun _ => h.dim hd⟩

theorem elemTy_eq (t : Ty) : elemTy t = { bt := t.bt, dim := t.dim - 1 } := by
  unfold elemTy
  split
  · rename_i h; rw [h.1, h.2]
  · rfl

/-- What is in an array of an array type fits the element type of every type the array can be in. -/
theorem fits_elem {w : World} (hw : Wf w) (hbox : ∀ p c, 11 ≤ p → p ≤ 16 → ¬ Ancestor w p c) {t : Ty} (ht : WfTy w t) (hd : 0 < t.dim) (hr : t.ref = false)
    (ho : IsObj w { t with dim := t.dim - 1 })
    {b dim : Nat} (hb : WfTy w { bt := b, dim := dim }) (hb1 : 0 < dim) (hob : IsObj w { bt := b, dim := dim - 1 }) (hf : Fits w t b dim) {c cd : Nat}
    (hc : WfTy w { bt := c, dim := cd }) (oc : IsObj w { bt := c, dim := cd }) (he : Fits w { bt := b, dim := dim - 1 } c cd) :
    Fits w (elemTy t) c cd := by
  rw [elemTy_eq]
  have hcu : ¬ HasCat w c .undef := not_undef hw hc oc
  have hbu : ¬ HasCat w b .undef := (hb.dim hb1).1
  have wd := wf_elem (wf_drop ht) hd
  have od : IsObj w { bt := t.bt, dim := t.dim - 1 } := ⟨rfl, ho.2⟩
  refine ⟨fun hi => ?_, fun hi => ?_⟩
  · simp only at hi ⊢
    obtain ⟨e, k⟩ := hf.1 hi
    rcases k with k | k
    · have hni : ¬ HasCat w b .iface := fun h => by have := hasCat_inj h k; cases this
      obtain ⟨e', k'⟩ := class_of hw k hcu (he.2 hni)
      simp only at e'
      exact ⟨by omega, .inl k'⟩
    · have := he.1 k
      simp only at this
      exact ⟨by omega, this.2⟩
  · simp only at hi ⊢
    have h' := hf.2 hi
    have key : Assignable w false { bt := t.bt, dim := t.dim - 1 } { bt := b, dim := dim - 1 } := by
      cases h' with
      | undef h1 h2 => exact absurd h1 hbu
      | same h1 h2 h3 h4 h5 => simp only at h2 h3; exact .same h1 h2 (by simp only; omega) rfl (by simp)
      | subclass h1 h2 h3 h4 h5 h6 h7 =>
        simp only at h3
        exact .subclass rfl rfl (by simp only; omega) (fun _ k => hbox _ _ k.1 k.2 h7) h5 h6 h7
      | iface h1 h2 h3 h4 h5 h6 => exact absurd h5 hi
      | any h1 h2 h3 => simp only at h2; omega
      | anyArray h1 h2 h3 h4 => exact .any h1 (by simp only at h2 ⊢; omega) hob
    have := fits_up hw wd (wf_elem hb hb1) od hob key hc oc he
    exact this.2 hi

/-! ## Heaps -/

/-- Objects stay where they are and keep their types. -/
def Grow (h h' : List Obj) : Prop :=
  ∀ (j : Nat) (ob : Obj), h[j]? = some ob → ∃ ob', h'[j]? = some ob' ∧ ob'.bt = ob.bt ∧ ob'.dim = ob.dim

theorem grow_append (h e : List Obj) : Grow h (h ++ e) := by
  intro j ob hj
  have := (List.getElem?_eq_some_iff.1 hj).1
  exact ⟨ob, by rw [List.getElem?_append_left this]; exact hj, rfl, rfl⟩

theorem grow_refl (h : List Obj) : Grow h h := fun j ob hj => ⟨ob, hj, rfl, rfl⟩

theorem grow_set {h : List Obj} {j : Nat} {ob ob' : Obj} (hj : h[j]? = some ob) (e1 : ob'.bt = ob.bt) (e2 : ob'.dim = ob.dim) : Grow h (h.set j ob') := by
  intro i oi hi
  by_cases hij : j = i
  · subst hij
    rw [hj] at hi; cases hi
    exact ⟨ob', List.getElem?_set_self (List.getElem?_eq_some_iff.1 hj).1, e1, e2⟩
  · exact ⟨oi, by rw [List.getElem?_set_ne hij]; exact hi, rfl, rfl⟩

theorem holds_none {w : World} {h : List Obj} {t : Ty} : Holds w h t none := fun _ h => by cases h

theorem holds_grow {w : World} {h h' : List Obj} (hg : Grow h h') {t : Ty} {v : Option Nat} (hv : Holds w h t v) : Holds w h' t v := by
  intro j hj
  obtain ⟨ob, e, hf⟩ := hv j hj
  obtain ⟨ob', e', e1, e2⟩ := hg j ob e
  exact ⟨ob', e', by rw [e1, e2]; exact hf⟩

theorem objOk_grow {P : Program} {h h' : List Obj} (hg : Grow h h') {ob : Obj} (ho : ObjOk P h ob) : ObjOk P h' ob := by
  obtain ⟨h1, h2⟩ := ho
  refine ⟨h1, ?_⟩
  split at h2
  · exact h2
  · exact ⟨h2.1, h2.2.1, fun v hv => holds_grow hg (h2.2.2 v hv)⟩
  · exact ⟨h2.1, h2.2.1, fun k => holds_grow hg (h2.2.2 k)⟩

/-- The type of an object is an object type. -/
theorem objOk_obj {P : Program} (hw : Wf P.w) {h : List Obj} {ob : Obj} (ho : ObjOk P h ob) : IsObj P.w { bt := ob.bt, dim := ob.dim } := by
  obtain ⟨h1, h2⟩ := ho
  split at h2
  · rcases h2 with h | h
    · exact ⟨rfl, .inr (.inl ((hw.string _).2 h.1))⟩
    · exact ⟨rfl, .inl h.1⟩
  · exact ⟨rfl, .inl h2.1⟩
  · exact ⟨rfl, .inr (.inr (.inl h2.2.1))⟩

/-- The heap is typed. -/
def HeapOk (P : Program) (h : List Obj) : Prop := ∀ (j : Nat) (ob : Obj), h[j]? = some ob → ObjOk P h ob

theorem heapOk_append {P : Program} {h : List Obj} (hh : HeapOk P h) {ob : Obj} (ho : ObjOk P (h ++ [ob]) ob) : HeapOk P (h ++ [ob]) := by
  intro j o hj
  by_cases hl : j < h.length
  · rw [List.getElem?_append_left hl] at hj
    exact objOk_grow (grow_append h _) (hh j o hj)
  · rw [List.getElem?_append_right (by omega)] at hj
    cases hk : j - h.length with
    | zero => rw [hk] at hj; cases hj; exact ho
    | succ k => rw [hk] at hj; cases hj

theorem heapOk_set {P : Program} {h : List Obj} (hh : HeapOk P h) {j : Nat} {ob ob' : Obj} (hj : h[j]? = some ob) (e1 : ob'.bt = ob.bt) (e2 : ob'.dim = ob.dim)
    (ho : ObjOk P h ob') : HeapOk P (h.set j ob') := by
  have hg := grow_set hj e1 e2
  intro i oi hi
  by_cases hij : j = i
  · subst hij
    rw [List.getElem?_set_self (List.getElem?_eq_some_iff.1 hj).1] at hi
    cases hi
    exact objOk_grow hg ho
  · rw [List.getElem?_set_ne hij] at hi
    exact objOk_grow hg (hh i oi hi)

theorem holds_up {P : Program} (hw : Wf P.w) {h : List Obj} (hh : HeapOk P h) {d s : Ty} (hd : WfTy P.w d) (hs : WfTy P.w s) (od : IsObj P.w d) (os : IsObj P.w s)
    (ha : Assignable P.w false d s) {v : Option Nat} (hv : Holds P.w h s v) : Holds P.w h d v := by
  intro j hj
  obtain ⟨ob, e, hf⟩ := hv j hj
  have ho := hh j ob e
  exact ⟨ob, e, fits_up hw hd hs od os ha ho.1 (objOk_obj hw ho) hf⟩

theorem holds_last {w : World} {h : List Obj} {ob : Obj} {t : Ty} (hf : Fits w t ob.bt ob.dim) : Holds w (h ++ [ob]) t (some h.length) := by
  intro j hj
  cases hj
  exact ⟨ob, by simp, hf⟩

theorem fits_self {w : World} (hw : Wf w) {t : Ty} (ht : WfTy w { bt := t.bt, dim := t.dim }) (ot : IsObj w { bt := t.bt, dim := t.dim }) : Fits w t t.bt t.dim :=
  fits_of hw ht ot (.same (not_undef hw ht ot) rfl rfl rfl (by simp))

/-! ## The run time type test -/

open Classical in
theorem rank_le (w : World) (c : Nat) : rank w c ≤ w.length := by
  unfold rank
  have := List.countP_le_length (p := fun a => decide (Ancestor w a c)) (l := List.range w.length)
  simpa using this

theorem super_ends {w : World} (hw : Wf w) {n : Nat} (he : Ends w n) (a b : Nat) :
    ∃ r, isSuperClass w n a b = .ok r ∧ (r = true ↔ HasCat w a .cls ∧ HasCat w b .cls ∧ Ancestor w a b) :=
  isSuperClass_ok hw a b n (by have := rank_le w b; have := he.fuel; omega)

theorem assignWith_ends {w : World} {sup hi : Nat → Nat → Out Bool} {d s : Ty} {b b' : Bool} (fd : TyFacts (cat w d.bt) d)
    (hs : sup d.bt s.bt = .ok b) (hh : hi s.bt d.bt = .ok b') (hd : objB (cat w d.bt) d) :
    ∃ a, assignWith w sup hi false false d s = .ok a := by
  obtain ⟨a1, a2, a3, a4, a5, a6, a7, a8, a9, a10⟩ := fd
  obtain ⟨r, k⟩ := hd
  unfold assignWith
  simp only [isNumeric, isMulnum, isString, isNumericObject, isClass, isInterface, isAnyObject, isUndef, isNumericArray,
    isMulnumArray, isStringArray, isClassArray, isInterfaceArray, isAnyObjectArray, isMuldim, isVoid, isArray,
    a1, a2, a3, a4, a5, r, hs, hh]
  generalize cat w d.bt = kd at *
  generalize d.dim = dd at *
  generalize btNumericObject d.bt = no at *
  cases kd <;> simp at * <;> rcases dd with _ | _ | dd <;> simp at * <;>
    first | done | (repeat' split) <;> first | exact ⟨_, rfl⟩ | simp

theorem assign_ends {w : World} (hw : Wf w) {n : Nat} (he : Ends w n) {d : Ty} (hd : WfTy w d) (ho : IsObj w d) (s : Ty) :
    ∃ b, assignPlain w n d s = .ok b := by
  obtain ⟨b, e, _⟩ := super_ends hw he d.bt s.bt
  obtain ⟨b', e'⟩ := he.iface s.bt d.bt
  obtain ⟨a, ha⟩ := assignWith_ends (facts hw hd) e e' (isObj_iff.1 ho)
  exact ⟨a.plain, by unfold assignPlain assign; rw [ha]; rfl⟩

/-- The run time type test. -/
theorem isa_ok {P : Program} (hw : Wf P.w) (he : Ends P.w P.n) {h : List Obj} (hh : HeapOk P h) {t s : Ty} (ht : WfTy P.w t) (ot : IsObj P.w t) {v : Option Nat}
    (hv : Holds P.w h s v) : ∃ b, isa P h t v = .ok b ∧ (b = true → Holds P.w h t v) := by
  cases v with
  | none => exact ⟨true, rfl, fun _ => holds_none⟩
  | some j =>
    obtain ⟨ob, e, hf⟩ := hv j rfl
    obtain ⟨b, eb⟩ := assign_ends hw he (d := { bt := t.bt, dim := t.dim }) (wf_drop ht) ⟨rfl, ot.2⟩ { bt := ob.bt, dim := ob.dim }
    have ho := hh j ob e
    refine ⟨b, by simp only [isa, e, eb], fun hb j' hj' => ?_⟩
    cases hj'
    subst hb
    exact ⟨ob, e, fits_of hw ho.1 (objOk_obj hw ho) ((c35_assignable_iff hw (wf_drop ht) ho.1).1.1 ⟨_, eb⟩)⟩

end Safety
end SPVM
