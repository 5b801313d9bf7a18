import Verif.Lemmas.Safety
/-!
# Type safety: one operation
-/
set_option linter.unusedSimpArgs false
set_option linter.unusedVariables false
namespace SPVM
namespace Safety
open Types Spec.Types Spec.Safety

theorem holds_eq {w : World} {h : List Obj} {d s : Ty} (e1 : d.bt = s.bt) (e2 : d.dim = s.dim) {v : Option Nat} (hv : Holds w h s v) : Holds w h d v := by
  intro j hj
  obtain ⟨ob, e, hf⟩ := hv j hj
  refine ⟨ob, e, ?_⟩
  unfold Fits at *
  rw [e1, e2]; exact hf

/-- Places of string types and of arrays of numbers hold exactly the objects of the type. -/
theorem fits_same {w : World} {t : Ty} {b dim : Nat} {k : Cat} (hk : HasCat w t.bt k) (h1 : k ≠ .cls) (h2 : k ≠ .iface) (h3 : k ≠ .anyObject)
    (hbu : ¬ HasCat w b .undef) (h : Fits w t b dim) : b = t.bt ∧ dim = t.dim := by
  have := h.2 (fun h => h2 (hasCat_inj hk h))
  cases this with
  | undef k1 k2 => exact absurd k1 hbu
  | same k1 k2 k3 k4 k5 => exact ⟨k2.symm, k3.symm⟩
  | subclass k1 k2 k3 k4 k5 k6 k7 => exact absurd (hasCat_inj hk k5) h1
  | iface k1 k2 k3 k4 k5 k6 => exact absurd (hasCat_inj hk k5) h2
  | any k1 k2 k3 => exact absurd (hasCat_inj hk k1) h3
  | anyArray k1 k2 k3 k4 => exact absurd (hasCat_inj hk k1) h3

theorem objOk_undef {P : Program} (hw : Wf P.w) {h : List Obj} {ob : Obj} (ho : ObjOk P h ob) : ¬ HasCat P.w ob.bt .undef :=
  not_undef hw ho.1 (objOk_obj hw ho)

theorem data_of_string {P : Program} (hw : Wf P.w) {h : List Obj} {ob : Obj} (ho : ObjOk P h ob) (e1 : ob.bt = 9) (e2 : ob.dim = 0) : ∃ xs, ob.body = .data xs := by
  have := ho.2
  split at this
  · exact ⟨_, by assumption⟩
  · omega
  · have k := (hw.string _).2 e1
    have := hasCat_inj this.2.1 k
    cases this

theorem data_of_nums {P : Program} {h : List Obj} {ob : Obj} (ho : ObjOk P h ob) (e1 : ¬ IsObj P.w { bt := ob.bt, dim := 0 }) (e2 : ob.dim = 1) :
    ∃ xs, ob.body = .data xs := by
  have := ho.2
  split at this
  · exact ⟨_, by assumption⟩
  · rw [e2] at this; exact absurd this.2.1 e1
  · omega

theorem not_obj_of {w : World} {b : Nat} {k : Cat} (hk : HasCat w b k) (h1 : k ≠ .string) (h2 : k ≠ .cls) (h3 : k ≠ .iface) (h4 : k ≠ .anyObject) :
    ¬ IsObj w { bt := b, dim := 0 } := by
  rintro ⟨_, h | h | h | h | h⟩
  · simp at h
  · exact h1 (hasCat_inj hk h)
  · exact h2 (hasCat_inj hk h)
  · exact h3 (hasCat_inj hk h)
  · exact h4 (hasCat_inj hk h)

/-- What an expression must yield. -/
def Good (P : Program) (h : List Obj) (t : Ty) : Out (Option Nat × List Obj) → Prop
  | .ok p => (∃ e, p.2 = h ++ e) ∧ HeapOk P p.2 ∧ Holds P.w p.2 t p.1
  | .die _ => True
  | .ub => False

theorem good_same {P : Program} {h : List Obj} (hh : HeapOk P h) {t : Ty} {v : Option Nat} (hv : Holds P.w h t v) : Good P h t (.ok (v, h)) :=
  ⟨⟨[], by simp⟩, hh, hv⟩

theorem good_new {P : Program} (hw : Wf P.w) {h : List Obj} (hh : HeapOk P h) {ob : Obj} (ho : ObjOk P (h ++ [ob]) ob) {t : Ty} (e1 : t.bt = ob.bt) (e2 : t.dim = ob.dim) :
    Good P h t (.ok (some h.length, h ++ [ob])) := by
  refine ⟨⟨[ob], rfl⟩, heapOk_append hh ho, holds_last ?_⟩
  have o := objOk_obj hw ho
  have := fits_self (t := { bt := ob.bt, dim := ob.dim }) hw ho.1 o
  unfold Fits at this ⊢
  rw [e1, e2]; exact this

theorem good_check {P : Program} (hw : Wf P.w) (he : Ends P.w P.n) {h : List Obj} (hh : HeapOk P h) {t s : Ty} (ht : WfTy P.w t) (ot : IsObj P.w t) {v : Option Nat}
    (hv : Holds P.w h s v) : Good P h t (castRef P h (.check t.bt t.dim) v) := by
  obtain ⟨b, e, hb⟩ := isa_ok hw he hh (t := { bt := t.bt, dim := t.dim }) (wf_drop ht) ⟨rfl, ot.2⟩ hv
  unfold castRef
  simp only [e]
  cases b with
  | true => exact good_same hh (holds_eq rfl rfl (hb rfl))
  | false => trivial

theorem good_readOnly {P : Program} {h : List Obj} (hh : HeapOk P h) {t s : Ty} {v : Option Nat}
    (hv : Holds P.w h s v) (ht : Holds P.w h t v) : Good P h t (castRef P h .checkReadOnly v) := by
  cases v with
  | none => exact good_same hh holds_none
  | some j =>
    obtain ⟨ob, e, hf⟩ := hv j rfl
    simp only [castRef, e]
    split
    · trivial
    · exact good_same hh ht

theorem wf_string {w : World} (hw : Wf w) : WfTy w { bt := 9, dim := 0 } := by
  obtain ⟨b, h1, h2⟩ := (hw.string 9).2 rfl
  exact ⟨⟨b, h1, by rw [h2]; simp⟩, by simp, by simp, by simp⟩

theorem wf_nums {w : World} (hw : Wf w) (i : Nat) (h3 : 3 ≤ i) (h8 : i ≤ 8) (d : Nat) : WfTy w { bt := i, dim := d } := by
  obtain ⟨b, h1, h2⟩ := (hw.numeric i).2 ⟨h3, h8⟩
  refine ⟨⟨b, h1, by rw [h2]; simp⟩, by simp, by simp, fun _ => ⟨fun h => ?_, fun h => ?_⟩⟩
  · have := hasCat_inj ((hw.numeric i).2 ⟨h3, h8⟩) h; cases this
  · have := hasCat_inj ((hw.numeric i).2 ⟨h3, h8⟩) h; cases this

/-- A cast. -/
theorem cast_good {P : Program} (hw : Wf P.w) (he : Ends P.w P.n) {h : List Obj} (hh : HeapOk P h) {d s : Ty} (hd : WfTy P.w d) (hs : WfTy P.w s) (od : IsObj P.w d)
    (os : IsObj P.w s) (hc : cast P.w P.n d s = .ok true) {v : Option Nat} (hv : Holds P.w h s v)
    (c1 : d.bt = 9 → d.dim = 0 → d.isMut = true → s.bt = 10 → ∀ j ob, v = some j → h[j]? = some ob → ob.bt = 9 ∧ ob.dim = 0)
    (c2 : d.bt = 9 → d.dim = 0 → s.bt = 3 → s.dim = 1 → v ≠ none) :
    Good P h d (do let op ← castOp P.w P.n d s; castRef P h op v) := by
  have bu : isUndef s ≠ true := fun h => not_undef hw hs os ((isUndef_iff hw hs).1 h)
  have numObj : ∀ {t}, IsNum P.w t → ¬ IsObj P.w t := by
    rintro t ⟨k1, k2, k3⟩ ⟨_, k | k | k | k | k⟩
    · omega
    all_goals (have := hasCat_inj k3 k; cases this)
  have bn : isNumeric d ≠ true := fun h => numObj ((isNumeric_iff hw hd).1 h) od
  have bns : isNumeric s ≠ true := fun h => numObj ((isNumeric_iff hw hs).1 h) os
  have bm : isMulnum P.w d ≠ true := by
    intro h
    obtain ⟨_, k1, k2⟩ := (isMulnum_iff hw hd).1 h
    have := not_obj_of k2 (by simp) (by simp) (by simp) (by simp)
    exact this ⟨rfl, by have := od.2; rwa [k1] at this⟩
  have bo := (isObject_iff hw hd).2 od
  have bos := (isObject_iff hw hs).2 os
  have br := od.1
  unfold castOp
  by_cases hne : d = s
  · rw [if_pos hne]
    exact good_same hh (by rw [hne]; exact hv)
  rw [if_neg hne, if_neg bu, if_neg bn, if_neg bm]
  unfold Types.cast castWith at hc
  rw [if_neg bn, if_neg bm, if_neg (by rw [br]; simp)] at hc
  by_cases b1 : isNumericObject d = true
  · have b2 : isString d ≠ true := by
      simp only [isNumericObject, isString, btNumericObject] at b1 ⊢
      simp at b1 ⊢; omega
    rw [if_pos b1]
    rw [if_neg b2, if_pos b1, if_neg bns] at hc
    simp only [Bool.or_eq_true, Out.ok.injEq, bu, or_false, Bool.not_eq_true, Bool.false_eq_true] at hc
    by_cases b3 : (isNumericObject s && s.bt == d.bt) = true
    · rw [if_pos b3]
      simp only [isNumericObject, Bool.and_eq_true, beq_iff_eq] at b1 b3
      exact good_same hh (holds_eq b3.2.symm (b1.1.1.trans b3.1.1.1.symm) hv)
    · rw [if_neg b3, if_neg (by simp [bns]), if_pos hc]
      exact good_check hw he hh hd od hv
  rw [if_neg b1]
  by_cases b2 : isString d = true
  · rw [if_pos b2]
    rw [if_pos b2] at hc
    have sd : d.bt = 9 ∧ d.dim = 0 := by simp [isString] at b2; grind
    by_cases b3 : isString s = true
    · rw [if_pos b3]
      have ss : s.bt = 9 ∧ s.dim = 0 := by simp [isString] at b3; grind
      have hd' : Holds P.w h d v := holds_eq (sd.1.trans ss.1.symm) (sd.2.trans ss.2.symm) hv
      split
      · exact good_readOnly hh hv hd'
      · exact good_same hh hd'
    rw [if_neg b3]
    by_cases b4 : isByteArray s = true
    · rw [if_pos b4]
      have ss : s.bt = 3 ∧ s.dim = 1 := by simp [isByteArray] at b4; grind
      cases hv' : v with
      | none => exact absurd hv' (c2 sd.1 sd.2 ss.1 ss.2)
      | some j =>
        obtain ⟨ob, e, hf⟩ := hv j hv'
        have ho := hh j ob e
        have nc : HasCat P.w 3 .numeric := (hw.numeric 3).2 (by omega)
        have := fits_same (k := .numeric) (by rw [ss.1]; exact nc) (by simp) (by simp) (by simp) (objOk_undef hw ho) hf
        obtain ⟨xs, hx⟩ := data_of_nums ho (by rw [this.1, ss.1]; exact not_obj_of nc (by simp) (by simp) (by simp) (by simp)) (by rw [this.2, ss.2])
        simp only [castRef, e, hx, Out.ok_bind]
        refine good_new hw hh ⟨wf_string hw, ?_⟩ sd.1 sd.2
        exact .inl ⟨rfl, rfl⟩
    rw [if_neg b4]
    have b5 : isAnyObject s = true := by
      simpa [b3, bns, b4, bu] using hc
    rw [if_pos b5]
    split
    · rename_i hm
      refine good_readOnly hh hv fun j hj => ?_
      obtain ⟨ob, e, hf⟩ := hv j hj
      have ho := hh j ob e
      have := c1 sd.1 sd.2 hm (by simp [isAnyObject] at b5; grind) j ob hj e
      refine ⟨ob, e, fits_of hw ho.1 (objOk_obj hw ho) ?_⟩
      exact .same (not_undef hw (wf_drop hd) ⟨rfl, od.2⟩) (sd.1.trans this.1.symm) (sd.2.trans this.2.symm) rfl (by simp)
    · exact good_check hw he hh hd od hv
  rw [if_neg b2]
  rw [if_neg b2, if_neg b1] at hc
  by_cases b3 : isByteArray d = true
  · rw [if_pos b3]
    have sd : d.bt = 3 ∧ d.dim = 1 := by simp [isByteArray] at b3; grind
    have nc : HasCat P.w 3 .numeric := (hw.numeric 3).2 (by omega)
    have e1 : isClass P.w d ≠ true := by simp [isClass, sd.2]
    have e2 : isInterface P.w d ≠ true := by simp [isInterface, sd.2]
    have e3 : isAnyObject d ≠ true := by simp [isAnyObject, sd.2]
    have e4 : isUndef d ≠ true := by simp [isUndef, sd.2]
    rw [if_neg e1, if_neg e2, if_neg e3, if_neg e4, if_pos b3] at hc
    by_cases b4 : isByteArray s = true
    · rw [if_pos b4]
      have ss : s.bt = 3 ∧ s.dim = 1 := by simp [isByteArray] at b4; grind
      exact good_same hh (holds_eq (sd.1.trans ss.1.symm) (sd.2.trans ss.2.symm) hv)
    rw [if_neg b4]
    by_cases b5 : isString s = true
    · rw [if_pos b5]
      have ss : s.bt = 9 ∧ s.dim = 0 := by simp [isString] at b5; grind
      cases hv' : v with
      | none => exact good_same hh holds_none
      | some j =>
        obtain ⟨ob, e, hf⟩ := hv j hv'
        have ho := hh j ob e
        have nc' : HasCat P.w 9 .string := (hw.string 9).2 rfl
        have := fits_same (k := .string) (by rw [ss.1]; exact nc') (by simp) (by simp) (by simp) (objOk_undef hw ho) hf
        obtain ⟨xs, hx⟩ := data_of_string hw ho (this.1.trans ss.1) (this.2.trans ss.2)
        simp only [castRef, e, hx, Out.ok_bind]
        refine good_new hw hh ⟨wf_nums hw 3 (by omega) (by omega) 1, ?_⟩ sd.1 sd.2
        exact .inr ⟨by simp, not_obj_of nc (by simp) (by simp) (by simp) (by simp)⟩
    rw [if_neg b5]
    have b6 : isAnyObject s = true := by simpa [b4, b5, bu] using hc
    rw [if_pos b6]
    exact good_check hw he hh hd od hv
  rw [if_neg b3]
  by_cases b4 : isAnyObject d = true
  · rw [if_pos b4, if_pos bos]
    refine good_same hh (holds_up hw hh hd hs od os ?_ hv)
    have := (isAnyObject_iff hw hd).1 b4
    exact .any this.1 this.2 os
  rw [if_neg b4, if_pos bo, if_pos bos]
  obtain ⟨b, e⟩ := assign_ends hw he hd od s
  simp only [e, Out.ok_bind]
  cases b with
  | true => exact good_same hh (holds_up hw hh hd hs od os ((c35_assignable_iff hw hd hs).1.1 ⟨_, e⟩) hv)
  | false => exact good_check hw he hh hd od hv

end Safety
end SPVM
