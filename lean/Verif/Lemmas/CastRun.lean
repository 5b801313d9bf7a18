import Verif.Lemmas.CastAccept
/-!
# What a cast does
-/
set_option linter.unusedSimpArgs false
namespace SPVM
namespace Types
open Spec.Types

section
variable {w : World} (hw : Wf w) {t : Ty} (ht : WfTy w t)
include hw ht

theorem isNumeric_iff : isNumeric t = true ↔ IsNum w t := by
  have f := facts hw ht
  rw [isNum_iff]
  simp [isNumeric, numB, f.num]
  grind

theorem isString_iff : isString t = true ↔ IsStr w t := by
  have f := facts hw ht
  unfold IsStr
  rw [hasCat_iff (by simp)]
  have := f.ref
  simp only [isString, f.str]
  cases hr : t.ref
  · simp; grind
  · rw [hr] at this; simp; grind

theorem isAnyObject_iff : isAnyObject t = true ↔ IsAny w t := by
  have f := facts hw ht
  unfold IsAny
  rw [hasCat_iff (by simp)]
  have := f.ref
  simp only [isAnyObject, f.any]
  cases hr : t.ref
  · simp; grind
  · rw [hr] at this; simp; grind

theorem isByteArray_iff : isByteArray t = true ↔ IsBytes t := by
  simp [isByteArray, IsBytes]; grind

theorem isUndef_iff : isUndef t = true ↔ HasCat w t.bt .undef := by
  have f := facts hw ht
  rw [hasCat_iff (by simp)]
  have h1 := f.ref
  have h2 := f.dim
  simp only [isUndef, f.und]
  cases hr : t.ref
  · simp
    intro h
    have : ¬ 0 < t.dim := fun h0 => (h2 h0).1 h
    omega
  · rw [hr] at h1; simp; grind

theorem isObject_iff : isObject w t = true ↔ IsObj w t := by
  have f := facts hw ht
  rw [isObj_iff]
  unfold objB isObject
  simp only [isArray, isString, isClass, isInterface, isAnyObject, f.str, f.any]
  have h1 := f.ref
  cases hr : t.ref
  · simp
    by_cases h0 : t.dim = 0
    · simp [h0]; grind
    · simp [h0]; omega
  · simp

theorem isMulnum_iff : isMulnum w t = true ↔ t.ref = false ∧ t.dim = 0 ∧ HasCat w t.bt .mulnum := by
  rw [hasCat_iff (by simp)]
  simp [isMulnum]; grind

theorem isNumericObject_iff : isNumericObject t = true ↔ t.ref = false ∧ t.dim = 0 ∧ 11 ≤ t.bt ∧ t.bt ≤ 16 := by
  simp [isNumericObject, btNumericObject]; grind

end

theorem assignWith_defined {w : World} {sup hi : Nat → Nat → Out Bool} {d s : Ty} {b : Bool} (fd : TyFacts (cat w d.bt) d)
    (hs : sup d.bt s.bt = .ok b) (hd : objB (cat w d.bt) d) (hi' : cat w d.bt ≠ .iface) :
    ∃ a, assignWith w sup hi false false d s = .ok a := by
  obtain ⟨a1, a2, a3, a4, a5, a6, a7, a8, a9, a10⟩ := fd
  obtain ⟨r, k⟩ := hd
  unfold assignWith
  simp only [isNumeric, isMulnum, isString, isNumericObject, isClass, isInterface, isAnyObject, isUndef, isNumericArray,
    isMulnumArray, isStringArray, isClassArray, isInterfaceArray, isAnyObjectArray, isMuldim, isVoid, isArray,
    a1, a2, a3, a4, a5, r, hs]
  generalize cat w d.bt = kd at *
  generalize d.dim = dd at *
  generalize btNumericObject d.bt = no at *
  cases kd <;> simp at * <;> rcases dd with _ | _ | dd <;> simp at * <;>
    first | done | (repeat' split) <;> first | exact ⟨_, rfl⟩ | simp

theorem assign_defined {w : World} (hw : Wf w) {d : Ty} (hd : WfTy w d) (ho : IsObj w d) (hi : ¬ HasCat w d.bt .iface) (s : Ty) :
    ∃ N, ∀ n, N ≤ n → ∃ b, assignPlain w n d s = .ok b := by
  refine ⟨rank w s.bt + 1, fun n hn => ?_⟩
  obtain ⟨b, e, _⟩ := isSuperClass_ok hw d.bt s.bt n (by omega)
  obtain ⟨a, ha⟩ := assignWith_defined (hi := hasInterface w n) (facts hw hd) e (isObj_iff.1 ho) (fun h => hi ((hasCat_iff (by simp)).2 h))
  exact ⟨a.plain, by unfold assignPlain assign; rw [ha]; rfl⟩

/-- The type of an object has no `mutable`. -/
theorem assignable_drop {w : World} {im : Bool} {d s : Ty} (hd : IsObj w d) (hs : IsObj w s) (h : Assignable w im d s) :
    Assignable w im { bt := d.bt, dim := d.dim } { bt := s.bt, dim := s.dim } := by
  cases h with
  | undef h1 h2 => exact .undef h1 ⟨rfl, h2.2⟩
  | same h1 h2 h3 h4 h5 => exact .same h1 h2 h3 rfl (by simp)
  | subclass h1 h2 h3 h4 h5 h6 h7 => exact .subclass rfl rfl h3 h4 h5 h6 h7
  | iface h1 h2 h3 h4 h5 h6 => exact .iface rfl rfl h3 h4 h5 h6
  | any h1 h2 h3 => exact .any h1 h2 ⟨rfl, h3.2⟩
  | anyArray h1 h2 h3 h4 => exact .anyArray h1 h2 h3 ⟨rfl, h4.2⟩

theorem wf_drop {w : World} {t : Ty} (ht : WfTy w t) : WfTy w { bt := t.bt, dim := t.dim } :=
  ⟨ht.known, by simp, by simp, ht.dim⟩

theorem not_undef {w : World} (hw : Wf w) {t : Ty} (ht : WfTy w t) (ho : IsObj w t) : ¬ HasCat w t.bt .undef := by
  intro h
  rcases ho.2 with h1 | h1 | h1 | h1 | h1
  · exact (ht.dim h1).1 h
  all_goals (have := hasCat_inj h h1; cases this)

/-- A value of a type is a value of every type it can be assigned to. -/
theorem hasType_up {φ} {w : World} (hw : Wf w) {d s : Ty} (hd : WfTy w d) (hs : WfTy w s) (od : IsObj w d) (os : IsObj w s)
    (hi : ¬ HasCat w d.bt .iface) (h : Assignable w false d s) {v : Val φ} (hv : HasType w s v) : HasType w d v := by
  cases v with
  | num bt x =>
    obtain ⟨⟨h1, h2, h3⟩, _⟩ := hv
    rcases os.2 with k | k | k | k | k
    · omega
    all_goals (have := hasCat_inj h3 k; cases this)
  | other x =>
    rcases hv with h1 | ⟨h1, h3⟩
    · rw [os.1] at h1; cases h1
    · rcases os.2 with k | k | k | k | k
      · omega
      all_goals (have := hasCat_inj h3 k; cases this)
  | obj o =>
    cases o with
    | none => exact .inl od
    | some o =>
      obtain ⟨_, h2, ho, h3, h4⟩ := hv
      refine ⟨od, h2, ho, ?_, ?_⟩
      · exact assignable_trans hw (wf_drop hd) (wf_drop hs) h2 hi (assignable_drop od os h) h3
      · intro hm h0
        have hstr := hd.mutable hm
        cases h with
        | undef k1 k2 => exact absurd k1 (not_undef hw hs os)
        | same k1 k2 k3 k4 k5 => exact h4 (k5 h0 hm) (by omega)
        | subclass k1 k2 k3 k4 k5 k6 k7 => have := hasCat_inj hstr k5; cases this
        | iface k1 k2 k3 k4 k5 k6 => have := hasCat_inj hstr k5; cases this
        | any k1 k2 k3 => have := hasCat_inj hstr k1; cases this
        | anyArray k1 k2 k3 k4 => have := hasCat_inj hstr k1; cases this

/-- Values of object types are `undef` or objects. -/
theorem hasType_obj {φ} {w : World} {s : Ty} (os : IsObj w s) {v : Val φ} (hv : HasType w s v) : ∃ o, v = .obj o := by
  cases v with
  | num bt x =>
    obtain ⟨⟨h1, h2, h3⟩, _⟩ := hv
    rcases os.2 with k | k | k | k | k
    · omega
    all_goals (have := hasCat_inj h3 k; cases this)
  | other x =>
    rcases hv with h1 | ⟨h1, h3⟩
    · rw [os.1] at h1; cases h1
    · rcases os.2 with k | k | k | k | k
      · omega
      all_goals (have := hasCat_inj h3 k; cases this)
  | obj o => exact ⟨o, rfl⟩

theorem hasType_num {φ} {w : World} (hw : Wf w) {s : Ty} (os : IsNum w s) {v : Val φ} (hv : HasType w s v) : ∃ x, v = .num s.bt x := by
  obtain ⟨g1, g2, g3⟩ := os
  have hno : ¬ IsObj w s := by
    rintro ⟨_, k | k | k | k | k⟩
    · omega
    all_goals (have := hasCat_inj g3 k; cases this)
  cases v with
  | num bt x => rw [hv.2]; exact ⟨x, rfl⟩
  | other x =>
    rcases hv with h1 | ⟨h1, h3⟩
    · rw [g2] at h1; cases h1
    · have := hasCat_inj g3 h3; cases this
  | obj o =>
    cases o with
    | none =>
      rcases hv with h | h
      · exact absurd h hno
      · have := hasCat_inj g3 h; cases this
    | some o => exact absurd hv.1 hno

/-- The operations for casts between references. -/
theorem castOp_ref {w : World} (hw : Wf w) {d s : Ty} (hd : WfTy w d) (hs : WfTy w s) (od : IsObj w d) (os : IsObj w s)
    (hne : d ≠ s) (hodd : ¬ Odd w d s) (hc : Castable w d s) (hb : ¬ BytesConv w d s) (hi : ¬ HasCat w d.bt .iface)
    (hm : ¬ (d.isMut = true ∧ d.dim = 0 ∧ IsAny w s)) :
    ∃ N, ∀ n, N ≤ n → (castOp w n d s = .ok .move ∧ Assignable w false d s) ∨
      (castOp w n d s = .ok (.check d.bt d.dim) ∧ ¬ (d.isMut = true ∧ d.dim = 0)) ∨
      (castOp w n d s = .ok .checkReadOnly ∧ IsStr w d ∧ IsStr w s ∧ d.isMut = true) := by
  obtain ⟨N, hN⟩ := assign_defined hw hd od hi s
  refine ⟨N, fun n hn => ?_⟩
  have bu : isUndef s = false := by
    cases h : isUndef s with
    | false => rfl
    | true => exact absurd ((isUndef_iff hw hs).1 h) (not_undef hw hs os)
  have numOf : ∀ {t}, WfTy w t → IsObj w t → isNumeric t = false := by
    intro t ht ot
    cases h : isNumeric t with
    | false => rfl
    | true =>
      obtain ⟨k1, k2, k3⟩ := (isNumeric_iff hw ht).1 h
      rcases ot.2 with k | k | k | k | k
      · omega
      all_goals (have := hasCat_inj k3 k; cases this)
  have bn := numOf hd od
  have bn' := numOf hs os
  have bm : isMulnum w d = false := by
    cases h : isMulnum w d with
    | false => rfl
    | true =>
      obtain ⟨k1, k2, k3⟩ := (isMulnum_iff hw hd).1 h
      rcases od.2 with k | k | k | k | k
      · omega
      all_goals (have := hasCat_inj k3 k; cases this)
  have mutStr : d.isMut = true → HasCat w d.bt .string := hd.mutable
  unfold castOp
  rw [if_neg hne]
  simp only [bu, bn, bm, Bool.false_eq_true, ↓reduceIte]
  by_cases h1 : isNumericObject d = true
  · rw [if_pos h1]
    obtain ⟨r, k1, k2, k3⟩ := (isNumericObject_iff hw hd).1 h1
    have kc := hw.numericObject _ k2 k3
    have hany : IsAny w s := by
      cases hc with
      | fromAny _ h => exact h
      | same _ h2 h3 h4 _ =>
        exact absurd (.inl ⟨k1, ⟨k2, k3⟩, h2.symm, by omega, os.1⟩) hodd
      | related _ _ _ h _ => exact absurd ⟨k2, k3⟩ (h k1)
      | fromInterface _ _ _ _ h _ => exact absurd ⟨k2, k3⟩ (h k1)
      | toInterface h _ _ => exact absurd h hi
      | num h _ => have := hasCat_inj h.2.2 kc; cases this
      | unbox h _ _ _ => have := hasCat_inj h.2.2 kc; cases this
      | unboxAny h _ => have := hasCat_inj h.2.2 kc; cases this
      | parse h _ => have := hasCat_inj h.2.2 kc; cases this
      | sameValue h _ => exact absurd h hne
      | undef _ h => exact absurd h (not_undef hw hs os)
      | toAny h _ => have := hasCat_inj h.1 kc; cases this
      | fromAnyArray h _ _ => have := h.1; omega
      | toAnyArray h _ _ => have := hasCat_inj h kc; cases this
      | string h _ => have := hasCat_inj h.1 kc; cases this
      | format h _ => have := hasCat_inj h.1 kc; cases this
      | bytesToString h _ => have := hasCat_inj h.1 kc; cases this
      | stringToBytes h _ => have := h.2.1; omega
      | box h _ _ _ => exact absurd ((isNumeric_iff hw hs).2 h) (by simp [bn'])
      | boxAny h _ => exact absurd ((isNumeric_iff hw hs).2 h) (by simp [bn'])
    have e1 : isNumericObject s = false := by
      cases h : isNumericObject s with
      | false => rfl
      | true =>
        obtain ⟨_, _, q2, q3⟩ := (isNumericObject_iff hw hs).1 h
        have := hasCat_inj hany.1 (hw.numericObject _ q2 q3); cases this
    have e2 := (isAnyObject_iff hw hs).2 hany
    simp only [e1, e2, bn', Bool.false_and, Bool.false_eq_true, ↓reduceIte]
    exact .inr (.inl ⟨trivial, fun h => by have := hasCat_inj (mutStr h.1) kc; cases this⟩)
  rw [if_neg h1]
  by_cases h2 : isString d = true
  · rw [if_pos h2]
    have sd := (isString_iff hw hd).1 h2
    by_cases h3 : isString s = true
    · rw [if_pos h3]
      have ss := (isString_iff hw hs).1 h3
      by_cases h4 : (d.isMut && !s.isMut) = true
      · rw [if_pos h4]
        simp at h4
        exact .inr (.inr ⟨rfl, sd, ss, h4.1⟩)
      · rw [if_neg h4]
        simp at h4
        refine .inl ⟨rfl, .same (not_undef hw hd od) ?_ (by rw [sd.2, ss.2]) (by rw [od.1, os.1]) (fun _ => h4)⟩
        rw [(hw.string _).1 sd.1, (hw.string _).1 ss.1]
    · rw [if_neg h3]
      have h5 : ¬ isByteArray s = true := fun h => hb (.inl ⟨sd, (isByteArray_iff hw hs).1 h⟩)
      rw [if_neg h5]
      have hany : IsAny w s := by
        have ns : ¬ IsStr w s := fun h => h3 ((isString_iff hw hs).2 h)
        have kc := sd.1
        cases hc with
        | fromAny _ h => exact h
        | same _ k2 k3 k4 _ => exact absurd ⟨by rw [← k2]; exact sd.1, by rw [← k3]; exact sd.2⟩ ns
        | related h _ _ _ _ => have := hasCat_inj h kc; cases this
        | fromInterface h _ _ _ _ _ => have := hasCat_inj h kc; cases this
        | toInterface h _ _ => exact absurd h hi
        | num h _ => have := hasCat_inj h.2.2 kc; cases this
        | unbox h _ _ _ => have := hasCat_inj h.2.2 kc; cases this
        | unboxAny h _ => have := hasCat_inj h.2.2 kc; cases this
        | parse h _ => have := hasCat_inj h.2.2 kc; cases this
        | sameValue h _ => exact absurd h hne
        | undef _ h => exact absurd h (not_undef hw hs os)
        | toAny h _ => have := hasCat_inj h.1 kc; cases this
        | fromAnyArray h _ _ => have := h.1; have := sd.2; omega
        | toAnyArray h _ _ => have := hasCat_inj h kc; cases this
        | string _ h => exact absurd h ns
        | format _ h => exact absurd ((isNumeric_iff hw hs).2 h) (by simp [bn'])
        | bytesToString _ h => exact absurd ((isByteArray_iff hw hs).2 h) h5
        | stringToBytes h _ => have := h.2.1; have := sd.2; omega
        | box h _ _ _ => exact absurd ((isNumeric_iff hw hs).2 h) (by simp [bn'])
        | boxAny h _ => exact absurd ((isNumeric_iff hw hs).2 h) (by simp [bn'])
      rw [if_pos ((isAnyObject_iff hw hs).2 hany)]
      have h6 : ¬ d.isMut = true := fun h => hm ⟨h, sd.2, hany⟩
      rw [if_neg h6]
      exact .inr (.inl ⟨rfl, fun h => h6 h.1⟩)
  rw [if_neg h2]
  have nm : ¬ (d.isMut = true ∧ d.dim = 0) := fun h => h2 ((isString_iff hw hd).2 ⟨mutStr h.1, h.2⟩)
  by_cases h3 : isByteArray d = true
  · rw [if_pos h3]
    have bd := (isByteArray_iff hw hd).1 h3
    by_cases h4 : isByteArray s = true
    · rw [if_pos h4]
      have bs := (isByteArray_iff hw hs).1 h4
      exact .inl ⟨rfl, .same (not_undef hw hd od) (by rw [bd.1, bs.1]) (by rw [bd.2.1, bs.2.1]) (by rw [od.1, os.1])
        (fun h => by have := bd.2.1; omega)⟩
    · rw [if_neg h4]
      have h5 : ¬ isString s = true := fun h => hb (.inr ⟨bd, (isString_iff hw hs).1 h⟩)
      rw [if_neg h5]
      have hany : IsAny w s := by
        have kc := (hw.numeric d.bt).2 (by rw [bd.1]; omega)
        have k1 := bd.2.1
        cases hc with
        | fromAny _ h => exact h
        | same _ k2 k3 k4 _ => exact absurd ((isByteArray_iff hw hs).2 ⟨by rw [← k2]; exact bd.1, by omega, os.1⟩) h4
        | related h _ _ _ _ => have := hasCat_inj h kc; cases this
        | fromInterface h _ _ _ _ _ => have := hasCat_inj h kc; cases this
        | toInterface h _ _ => exact absurd h hi
        | num h _ => have := h.1; omega
        | unbox h _ _ _ => have := h.1; omega
        | unboxAny h _ => have := h.1; omega
        | parse h _ => have := h.1; omega
        | sameValue h _ => exact absurd h hne
        | undef _ h => exact absurd h (not_undef hw hs os)
        | toAny h _ => have := hasCat_inj h.1 kc; cases this
        | fromAnyArray h _ _ =>
          rcases h.2.2 with k | k | k | k | k
          · simp only at k; omega
          all_goals (have := hasCat_inj kc k; cases this)
        | toAnyArray h _ _ => have := hasCat_inj h kc; cases this
        | string h _ => have := h.2; omega
        | format h _ => have := h.2; omega
        | bytesToString h _ => have := h.2; omega
        | stringToBytes _ h => exact absurd ((isString_iff hw hs).2 h) h5
        | box h _ _ _ => exact absurd ((isNumeric_iff hw hs).2 h) (by simp [bn'])
        | boxAny h _ => exact absurd ((isNumeric_iff hw hs).2 h) (by simp [bn'])
      rw [if_pos ((isAnyObject_iff hw hs).2 hany)]
      exact .inr (.inl ⟨rfl, nm⟩)
  rw [if_neg h3]
  have hos := (isObject_iff hw hs).2 os
  have hod := (isObject_iff hw hd).2 od
  by_cases h4 : isAnyObject d = true
  · rw [if_pos h4, if_pos hos]
    have ad := (isAnyObject_iff hw hd).1 h4
    exact .inl ⟨rfl, .any ad.1 ad.2 os⟩
  · rw [if_neg h4, if_pos hod, if_pos hos]
    obtain ⟨b, e⟩ := hN n hn
    rw [e]
    cases b with
    | true => exact .inl ⟨rfl, (c35_assignable_iff hw hd hs).1.1 ⟨n, e⟩⟩
    | false => exact .inr (.inl ⟨rfl, nm⟩)

end Types
end SPVM
