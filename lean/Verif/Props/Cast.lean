import Verif.Lemmas.CastRun
import Verif.Lemmas.TypesCheck
/-!
# C58: type casts
-/
set_option linter.unusedSimpArgs false
namespace SPVM
namespace Types
open Spec.Types

/-- **C58.** The compiler accepts exactly the casts of the specification, for all programs and all pairs of types but two families:
`(Int)` of an `Int`, which it refuses, and `(int[])` of an `int` or an `int[][]`, which it accepts (`Odd`, see
`cast_numeric_object_violated` and `cast_array_violated`). -/
theorem cast_accepts_partial {w : World} (hw : Wf w) {d s : Ty} (hd : WfTy w d) (hs : WfTy w s) (hodd : ¬ Odd w d s) :
    (∃ n, cast w n d s = .ok true) ↔ Castable w d s := cast_iff hw hd hs hodd

/-- A reference cast to a type that is not an interface. -/
theorem castRef_result {φ} (c : Conv φ) {w : World} (hw : Wf w) {d s : Ty} (hd : WfTy w d) (hs : WfTy w s) (od : IsObj w d)
    (os : IsObj w s) (hne : d ≠ s) (hodd : ¬ Odd w d s) (hc : Castable w d s) (hb : ¬ BytesConv w d s) (hi : ¬ HasCat w d.bt .iface)
    (hm : ¬ (d.isMut = true ∧ d.dim = 0 ∧ IsAny w s)) {v : Val φ} (hv : HasType w s v) :
    ∃ N, ∀ n, N ≤ n → ∃ op, castOp w n d s = .ok op ∧
      ((runCast c w n op v = .ok v ∧ HasType w d v) ∨ ((∃ m, runCast c w n op v = .die m) ∧ ¬ HasType w d v)) := by
  obtain ⟨N, hN⟩ := castOp_ref hw hd hs od os hne hodd hc hb hi hm
  obtain ⟨o, rfl⟩ := hasType_obj os hv
  have hND : ∃ M, ∀ n, M ≤ n → ∀ o', o = some o' →
      ∃ b, assignPlain w n { bt := d.bt, dim := d.dim } { bt := o'.bt, dim := o'.dim } = .ok b := by
    cases o with
    | none => exact ⟨0, fun _ _ _ h => by cases h⟩
    | some o' =>
      obtain ⟨M, hM⟩ := assign_defined hw (wf_drop hd) (d := { bt := d.bt, dim := d.dim }) ⟨rfl, od.2⟩ hi { bt := o'.bt, dim := o'.dim }
      exact ⟨M, fun n hn o'' h => by cases h; exact hM n hn⟩
  obtain ⟨M, hM⟩ := hND
  refine ⟨max N M, fun n hn => ?_⟩
  rcases hN n (by omega) with ⟨e, ha⟩ | ⟨e, hmut⟩ | ⟨e, sd, ss, hmut⟩
  · exact ⟨_, e, .inl ⟨rfl, hasType_up hw hd hs od os hi ha hv⟩⟩
  · refine ⟨_, e, ?_⟩
    cases o with
    | none => exact .inl ⟨rfl, .inl od⟩
    | some o =>
      obtain ⟨b, eb⟩ := hM n (by omega) o rfl
      simp only [runCast, eb]
      cases b with
      | true =>
        refine .inl ⟨rfl, od, hv.2.1, hv.2.2.1, (c35_assignable_iff hw (wf_drop hd) hv.2.1).1.1 ⟨n, eb⟩, fun h1 h2 => absurd ⟨h1, h2⟩ hmut⟩
      | false =>
        refine .inr ⟨⟨_, rfl⟩, fun h => ?_⟩
        exact (c35_assignable_iff hw (wf_drop hd) hv.2.1).2 ⟨n, eb⟩ h.2.2.2.1
  · refine ⟨_, e, ?_⟩
    cases o with
    | none => exact .inl ⟨rfl, .inl od⟩
    | some o =>
      have e9 := (hw.string _).1 ss.1
      have e9' := (hw.string _).1 sd.1
      have ha := hv.2.2.2.1
      have ho : o.bt = 9 ∧ o.dim = 0 := by
        cases ha with
        | undef h1 h2 => exact absurd h1 (not_undef hw hv.2.1 hv.2.2.1)
        | same h1 h2 h3 h4 h5 => exact ⟨h2.symm.trans e9, h3.symm.trans ss.2⟩
        | subclass h1 h2 h3 h4 h5 h6 h7 => have := hasCat_inj h5 ss.1; cases this
        | iface h1 h2 h3 h4 h5 h6 => have := hasCat_inj h5 ss.1; cases this
        | any h1 h2 h3 => have := hasCat_inj h1 ss.1; cases this
        | anyArray h1 h2 h3 h4 => have := hasCat_inj h1 ss.1; cases this
      simp only [runCast]
      by_cases hr : o.readOnly = true
      · rw [if_pos ⟨ho.1, ho.2, hr⟩]
        refine .inr ⟨⟨_, rfl⟩, fun h => ?_⟩
        rw [h.2.2.2.2 hmut sd.2] at hr; cases hr
      · rw [if_neg (fun h => hr h.2.2)]
        refine .inl ⟨rfl, od, hv.2.1, hv.2.2.1, ?_, fun _ _ => by simpa using hr⟩
        exact .same (not_undef hw (wf_drop hd) ⟨rfl, od.2⟩) (e9'.trans ho.1.symm) (sd.2.trans ho.2.symm) rfl (by simp)

/-- **C58.** A cast does what the specification says: for every accepted cast and every value of the type of the operand, the compiled
operation converts the number, boxes, unboxes, formats, parses or copies, or yields the very same object, or throws an exception; a
reference cast yields the object exactly if a variable of the type may hold it.  Excluded are casts to interface types
(`cast_interface_partial`, `cast_interface_violated`), `(mutable string)` of an `object` (`cast_mutable_violated`), `(string)` of an
undefined `byte[]` (`cast_undef_bytes_violated`) and `Odd` (`cast_array_violated`). -/
theorem cast_result_partial {φ} (c : Conv φ) {w : World} (hw : Wf w) {d s : Ty} (hd : WfTy w d) (hs : WfTy w s)
    (hodd : ¬ Odd w d s) (hc : Castable w d s) (hi : ¬ HasCat w d.bt .iface) (hm : ¬ (d.isMut = true ∧ d.dim = 0 ∧ IsAny w s))
    {v : Val φ} (hb : IsStr w d → IsBytes s → v ≠ .obj none) (hv : HasType w s v) :
    ∃ N, ∀ n, N ≤ n → ∃ op, castOp w n d s = .ok op ∧
      ((∃ r, runCast c w n op v = .ok r ∧ Result c w d s v (some r)) ∨
       (∃ m, runCast c w n op v = .die m ∧ Result c w d s v none)) := by
  by_cases hne : d = s
  · exact ⟨0, fun n _ => ⟨.skip, by simp [castOp, hne], .inl ⟨v, rfl, .same hne⟩⟩⟩
  have numObj : ∀ {t}, IsNum w t → ¬ IsObj w t := by
    rintro t ⟨k1, k2, k3⟩ ⟨_, k | k | k | k | k⟩
    · omega
    all_goals (have := hasCat_inj k3 k; cases this)
  have numUndef : ∀ {t}, IsNum w t → ¬ HasCat w t.bt .undef := by
    intro t h h'
    have := hasCat_inj h.2.2 h'; cases this
  -- the operand is `undef`
  by_cases hu : HasCat w s.bt .undef
  · have od : IsObj w d := by
      cases hc with
      | undef h _ => exact h
      | fromAny h _ => exact h
      | num _ h => exact absurd hu (numUndef h)
      | unbox h _ _ h4 =>
        have h1 := (hw.numeric _).1 h.2.2
        have h2 := (hw.undef _).1 hu
        omega
      | unboxAny _ h => have := hasCat_inj h.1 hu; cases this
      | parse _ h => have := hasCat_inj h.1 hu; cases this
      | sameValue h _ => exact absurd h hne
      | toAny _ h => exact absurd hu (not_undef hw hs h)
      | fromAnyArray _ h _ => have := hasCat_inj h hu; cases this
      | toAnyArray _ _ h => exact absurd hu (hs.dim h.1).1
      | string _ h => have := hasCat_inj h.1 hu; cases this
      | format _ h => exact absurd hu (numUndef h)
      | bytesToString _ h => exact absurd hu (hs.dim (by rw [h.2.1]; omega)).1
      | stringToBytes _ h => have := hasCat_inj h.1 hu; cases this
      | box h _ _ _ => exact absurd hu (numUndef h)
      | boxAny h _ => exact absurd hu (numUndef h)
      | same h _ _ _ _ => exact h
      | related _ h _ _ _ => have := hasCat_inj h hu; cases this
      | toInterface h _ _ => exact absurd h hi
      | fromInterface _ h _ _ _ _ => have := hasCat_inj h hu; cases this
    have hv' : v = .obj none := by
      cases v with
      | num bt x => exact absurd hu (numUndef hv.1)
      | other x =>
        rcases hv with h | ⟨_, h⟩
        · rcases (hs.ref h).2 with h | h <;> (have := hasCat_inj h hu; cases this)
        · have := hasCat_inj h hu; cases this
      | obj o =>
        cases o with
        | none => rfl
        | some o => exact absurd hu (not_undef hw hs hv.1)
    subst hv'
    refine ⟨0, fun n _ => ⟨.moveUndef, ?_, .inl ⟨_, rfl, .undef od (.inr hu)⟩⟩⟩
    unfold castOp
    rw [if_neg hne, if_pos ((isUndef_iff hw hs).2 hu), if_pos ((isObject_iff hw hd).2 od)]
  have bu : ¬ isUndef s = true := fun h => hu ((isUndef_iff hw hs).1 h)
  -- to a number
  by_cases nd : IsNum w d
  · have b1 := (isNumeric_iff hw hd).2 nd
    by_cases ns : IsNum w s
    · have b2 := (isNumeric_iff hw hs).2 ns
      obtain ⟨x, rfl⟩ := hasType_num hw ns hv
      by_cases hbt : s.bt = d.bt
      · refine ⟨0, fun n _ => ⟨.moveNum, ?_, .inl ⟨_, rfl, ?_⟩⟩⟩
        · unfold castOp
          rw [if_neg hne, if_neg bu, if_pos b1, if_pos b2, if_pos hbt]
        · have := Result.numSame (c := c) (x := x) nd ns hbt
          rwa [← hbt] at this
      · refine ⟨0, fun n _ => ⟨.conv s.bt d.bt, ?_, .inl ⟨_, ?_, .num nd ns hbt⟩⟩⟩
        · unfold castOp
          rw [if_neg hne, if_neg bu, if_pos b1, if_pos b2, if_neg hbt]
        · simp [runCast]
    have b2 : ¬ isNumeric s = true := fun h => ns ((isNumeric_iff hw hs).1 h)
    have unboxes : ∀ o : Option (Obj φ), IsObj w s → ¬ IsStr w s →
        ((∃ r, unbox d.bt (.obj o) = .ok r ∧ Result c w d s (.obj o) (some r)) ∨
         (∃ m, unbox d.bt (.obj o) = .die m ∧ Result c w d s (.obj o) none)) := by
      intro o os nstr
      cases o with
      | none => exact .inr ⟨_, rfl, .unboxUndef nd os nstr⟩
      | some o =>
        simp only [unbox]
        by_cases h : o.bt = d.bt + 8 ∧ o.dim = 0
        · rw [if_pos h]; exact .inl ⟨_, rfl, .unbox nd os nstr h.1 h.2⟩
        · rw [if_neg h]; exact .inr ⟨_, rfl, .unboxOther nd os nstr h⟩
    have cases3 : (s.dim = 0 ∧ s.ref = false ∧ s.bt = d.bt + 8) ∨ IsAny w s ∨ IsStr w s := by
      cases hc with
      | num _ h => exact absurd h ns
      | unbox _ h2 h3 h4 => exact .inl ⟨h2, h3, h4⟩
      | unboxAny _ h => exact .inr (.inl h)
      | parse _ h => exact .inr (.inr h)
      | sameValue h _ => exact absurd h hne
      | undef h _ => exact absurd h (numObj nd)
      | fromAny h _ => exact absurd h (numObj nd)
      | toAny h _ => have := hasCat_inj h.1 nd.2.2; cases this
      | fromAnyArray h _ _ => have := h.1; have := nd.1; omega
      | toAnyArray h _ _ => have := hasCat_inj h nd.2.2; cases this
      | string h _ => have := hasCat_inj h.1 nd.2.2; cases this
      | format h _ => have := hasCat_inj h.1 nd.2.2; cases this
      | bytesToString h _ => have := hasCat_inj h.1 nd.2.2; cases this
      | stringToBytes h _ => have := h.2.1; have := nd.1; omega
      | box h _ _ _ => exact absurd h ns
      | boxAny h _ => exact absurd h ns
      | same h _ _ _ _ => exact absurd h (numObj nd)
      | related h _ _ _ _ => have := hasCat_inj h nd.2.2; cases this
      | toInterface h _ _ => exact absurd h hi
      | fromInterface h _ _ _ _ _ => have := hasCat_inj h nd.2.2; cases this
    have hbt := (hw.numeric _).1 nd.2.2
    rcases cases3 with ⟨k1, k2, k3⟩ | k | k
    · have kc := hw.numericObject s.bt (by omega) (by omega)
      have os : IsObj w s := ⟨k2, .inr (.inr (.inl kc))⟩
      have nstr : ¬ IsStr w s := fun h => by have := hasCat_inj h.1 kc; cases this
      have b3 := (isNumericObject_iff hw hs).2 ⟨k2, k1, by omega, by omega⟩
      obtain ⟨o, rfl⟩ := hasType_obj os hv
      refine ⟨0, fun n _ => ⟨.unbox d.bt, ?_, unboxes o os nstr⟩⟩
      unfold castOp
      rw [if_neg hne, if_neg bu, if_pos b1, if_neg b2, if_pos (by simp [b3, k3])]
    · have os : IsObj w s := by
        refine ⟨?_, .inr (.inr (.inr (.inr k.1)))⟩
        cases hr : s.ref with
        | false => rfl
        | true => rcases (hs.ref hr).2 with h | h <;> (have := hasCat_inj h k.1; cases this)
      have nstr : ¬ IsStr w s := fun h => by have := hasCat_inj h.1 k.1; cases this
      have b3 : ¬ (isNumericObject s && s.bt == d.bt + 8) = true := by
        intro h
        simp only [Bool.and_eq_true] at h
        obtain ⟨_, _, q2, q3⟩ := (isNumericObject_iff hw hs).1 h.1
        have := hasCat_inj k.1 (hw.numericObject _ q2 q3); cases this
      obtain ⟨o, rfl⟩ := hasType_obj os hv
      refine ⟨0, fun n _ => ⟨.unbox d.bt, ?_, unboxes o os nstr⟩⟩
      unfold castOp
      rw [if_neg hne, if_neg bu, if_pos b1, if_neg b2, if_neg b3, if_pos ((isAnyObject_iff hw hs).2 k)]
    · have os : IsObj w s := by
        refine ⟨?_, .inr (.inl k.1)⟩
        cases hr : s.ref with
        | false => rfl
        | true => rcases (hs.ref hr).2 with h | h <;> (have := hasCat_inj h k.1; cases this)
      have b3 : ¬ (isNumericObject s && s.bt == d.bt + 8) = true := by
        intro h
        simp only [Bool.and_eq_true] at h
        obtain ⟨_, _, q2, q3⟩ := (isNumericObject_iff hw hs).1 h.1
        have := hasCat_inj k.1 (hw.numericObject _ q2 q3); cases this
      have b4 : ¬ isAnyObject s = true := by
        intro h
        have := hasCat_inj k.1 ((isAnyObject_iff hw hs).1 h).1; cases this
      obtain ⟨o, rfl⟩ := hasType_obj os hv
      refine ⟨0, fun n _ => ⟨.parse d.bt, ?_, .inl ⟨_, rfl, .parse nd k⟩⟩⟩
      unfold castOp
      rw [if_neg hne, if_neg bu, if_pos b1, if_neg b2, if_neg b3, if_neg b4, if_pos ((isString_iff hw hs).2 k)]
  have b1 : ¬ isNumeric d = true := fun h => nd ((isNumeric_iff hw hd).1 h)
  have od : IsObj w d := by
    have refl : ∀ {t k}, WfTy w t → HasCat w t.bt k → k ≠ .numeric → k ≠ .mulnum → t.ref = false := by
      intro t k ht h h1 h2
      cases hr : t.ref with
      | false => rfl
      | true =>
        rcases (ht.ref hr).2 with h' | h'
        · exact absurd (hasCat_inj h h') h1
        · exact absurd (hasCat_inj h h') h2
    cases hc with
    | num h _ => exact absurd h nd
    | unbox h _ _ _ => exact absurd h nd
    | unboxAny h _ => exact absurd h nd
    | parse h _ => exact absurd h nd
    | sameValue h _ => exact absurd h hne
    | undef h _ => exact h
    | fromAny h _ => exact h
    | toAny h _ => exact ⟨refl hd h.1 (by simp) (by simp), .inr (.inr (.inr (.inr h.1)))⟩
    | fromAnyArray h _ _ => exact ⟨h.2.1, .inl h.1⟩
    | toAnyArray h h2 _ => exact ⟨refl hd h (by simp) (by simp), .inl (by omega)⟩
    | string h _ => exact ⟨refl hd h.1 (by simp) (by simp), .inr (.inl h.1)⟩
    | format h _ => exact ⟨refl hd h.1 (by simp) (by simp), .inr (.inl h.1)⟩
    | bytesToString h _ => exact ⟨refl hd h.1 (by simp) (by simp), .inr (.inl h.1)⟩
    | stringToBytes h _ => exact ⟨h.2.2, .inl (by rw [h.2.1]; omega)⟩
    | box h h2 h3 h4 =>
      have := (hw.numeric _).1 h.2.2
      exact ⟨h3, .inr (.inr (.inl (hw.numericObject _ (by omega) (by omega))))⟩
    | boxAny _ h => exact ⟨refl hd h.1 (by simp) (by simp), .inr (.inr (.inr (.inr h.1)))⟩
    | same h _ _ _ _ => exact h
    | related h _ _ _ _ => exact ⟨refl hd h (by simp) (by simp), .inr (.inr (.inl h))⟩
    | toInterface h _ _ => exact absurd h hi
    | fromInterface h _ _ _ _ _ => exact ⟨refl hd h (by simp) (by simp), .inr (.inr (.inl h))⟩
  have bm : ¬ isMulnum w d = true := by
    intro h
    obtain ⟨k1, k2, k3⟩ := (isMulnum_iff hw hd).1 h
    rcases od.2 with k | k | k | k | k
    · omega
    all_goals (have := hasCat_inj k3 k; cases this)
  -- from a number
  by_cases ns : IsNum w s
  · have b2 := (isNumeric_iff hw hs).2 ns
    have hbt := (hw.numeric _).1 ns.2.2
    obtain ⟨x, rfl⟩ := hasType_num hw ns hv
    have bo : isNumericObject s = false := by
      cases h : isNumericObject s with
      | false => rfl
      | true =>
        obtain ⟨_, _, q2, q3⟩ := (isNumericObject_iff hw hs).1 h
        omega
    have bs : ¬ isString s = true := fun h => by have := hasCat_inj ((isString_iff hw hs).1 h).1 ns.2.2; cases this
    have bb : ¬ isByteArray s = true := fun h => by have := ((isByteArray_iff hw hs).1 h).2.1; have := ns.1; omega
    have ba : ¬ isAnyObject s = true := fun h => by have := hasCat_inj ((isAnyObject_iff hw hs).1 h).1 ns.2.2; cases this
    have bob : ¬ isObject w s = true := fun h => numObj ns ((isObject_iff hw hs).1 h)
    have nsAny : ¬ IsAny w s := fun h => ba ((isAnyObject_iff hw hs).2 h)
    have nsStr : ¬ IsStr w s := fun h => bs ((isString_iff hw hs).2 h)
    have cases3 : (d.dim = 0 ∧ d.ref = false ∧ d.bt = s.bt + 8) ∨ IsAny w d ∨ IsStr w d := by
      cases hc with
      | num h _ => exact absurd h nd
      | unbox h _ _ _ => exact absurd h nd
      | unboxAny h _ => exact absurd h nd
      | parse h _ => exact absurd h nd
      | sameValue h _ => exact absurd h hne
      | undef _ h => exact absurd h hu
      | fromAny _ h => exact absurd h nsAny
      | toAny h _ => exact .inr (.inl h)
      | fromAnyArray _ h _ => have := hasCat_inj h ns.2.2; cases this
      | toAnyArray _ _ h => have := h.1; have := ns.1; omega
      | string h _ => exact .inr (.inr h)
      | format h _ => exact .inr (.inr h)
      | bytesToString h _ => exact .inr (.inr h)
      | stringToBytes _ h => exact absurd h nsStr
      | box _ h2 h3 h4 => exact .inl ⟨h2, h3, h4⟩
      | boxAny _ h => exact .inr (.inl h)
      | same h h2 h3 h4 _ =>
        exact absurd ⟨by rw [h3]; exact ns.1, by rw [h4]; exact ns.2.1, by rw [h2]; exact ns.2.2⟩ nd
      | related _ h _ _ _ => have := hasCat_inj h ns.2.2; cases this
      | toInterface h _ _ => exact absurd h hi
      | fromInterface _ h _ _ _ _ => have := hasCat_inj h ns.2.2; cases this
    rcases cases3 with ⟨k1, k2, k3⟩ | k | k
    · have kc := hw.numericObject d.bt (by omega) (by omega)
      have nstr : ¬ IsStr w d := fun h => by have := hasCat_inj h.1 kc; cases this
      refine ⟨0, fun n _ => ⟨.box s.bt, ?_, .inl ⟨_, by simp [runCast], .box od nstr ns⟩⟩⟩
      unfold castOp
      rw [if_neg hne, if_neg bu, if_neg b1, if_neg bm, if_pos ((isNumericObject_iff hw hd).2 ⟨k2, k1, by omega, by omega⟩),
        if_neg (by simp [bo]), if_pos (by simp [b2, k3])]
    · have nstr : ¬ IsStr w d := fun h => by have := hasCat_inj h.1 k.1; cases this
      refine ⟨0, fun n _ => ⟨.box s.bt, ?_, .inl ⟨_, by simp [runCast], .box od nstr ns⟩⟩⟩
      have c1 : ¬ isNumericObject d = true := by
        intro h
        obtain ⟨_, _, q2, q3⟩ := (isNumericObject_iff hw hd).1 h
        have := hasCat_inj k.1 (hw.numericObject _ q2 q3); cases this
      have c2 : ¬ isString d = true := fun h => nstr ((isString_iff hw hd).1 h)
      have c3 : ¬ isByteArray d = true := fun h => by have := ((isByteArray_iff hw hd).1 h).2.1; have := k.2; omega
      unfold castOp
      rw [if_neg hne, if_neg bu, if_neg b1, if_neg bm, if_neg c1, if_neg c2, if_neg c3, if_pos ((isAnyObject_iff hw hd).2 k),
        if_neg bob, if_pos b2]
    · have e9 := (hw.string _).1 k.1
      refine ⟨0, fun n _ => ⟨.format s.bt, ?_, .inl ⟨.obj (some ⟨d.bt, 0, false, c.format s.bt x⟩), by simp [runCast, e9], .format k ns⟩⟩⟩
      have c1 : ¬ isNumericObject d = true := by
        intro h
        obtain ⟨_, _, q2, q3⟩ := (isNumericObject_iff hw hd).1 h
        have := hasCat_inj k.1 (hw.numericObject _ q2 q3); cases this
      unfold castOp
      rw [if_neg hne, if_neg bu, if_neg b1, if_neg bm, if_neg c1, if_pos ((isString_iff hw hd).2 k), if_neg bs, if_neg bb,
        if_neg ba, if_pos b2]
  -- from an object
  have os : IsObj w s := by
    have refl : ∀ {t k}, WfTy w t → HasCat w t.bt k → k ≠ .numeric → k ≠ .mulnum → t.ref = false := by
      intro t k ht h h1 h2
      cases hr : t.ref with
      | false => rfl
      | true =>
        rcases (ht.ref hr).2 with h' | h'
        · exact absurd (hasCat_inj h h') h1
        · exact absurd (hasCat_inj h h') h2
    cases hc with
    | num h _ => exact absurd h nd
    | unbox h _ _ _ => exact absurd h nd
    | unboxAny h _ => exact absurd h nd
    | parse h _ => exact absurd h nd
    | sameValue h _ => exact absurd h hne
    | undef _ h => exact absurd h hu
    | fromAny _ h => exact ⟨refl hs h.1 (by simp) (by simp), .inr (.inr (.inr (.inr h.1)))⟩
    | toAny _ h => exact h
    | fromAnyArray _ h h2 => exact ⟨refl hs h (by simp) (by simp), .inl (by omega)⟩
    | toAnyArray _ _ h => exact ⟨h.2.1, .inl h.1⟩
    | string _ h => exact ⟨refl hs h.1 (by simp) (by simp), .inr (.inl h.1)⟩
    | format _ h => exact absurd h ns
    | bytesToString _ h => exact ⟨h.2.2, .inl (by rw [h.2.1]; omega)⟩
    | stringToBytes _ h => exact ⟨refl hs h.1 (by simp) (by simp), .inr (.inl h.1)⟩
    | box h _ _ _ => exact absurd h ns
    | boxAny h _ => exact absurd h ns
    | same h h2 h3 h4 _ => exact ⟨by rw [← h4]; exact h.1, by rw [← h2, ← h3]; exact h.2⟩
    | related _ h _ _ _ => exact ⟨refl hs h (by simp) (by simp), .inr (.inr (.inl h))⟩
    | toInterface h _ _ => exact absurd h hi
    | fromInterface _ h _ _ _ _ => exact ⟨refl hs h (by simp) (by simp), .inr (.inr (.inr (.inl h)))⟩
  by_cases hbc : BytesConv w d s
  · obtain ⟨o, rfl⟩ := hasType_obj os hv
    rcases hbc with ⟨k1, k2⟩ | ⟨k1, k2⟩
    · have e9 := (hw.string _).1 k1.1
      cases o with
      | none => exact absurd rfl (hb k1 k2)
      | some o =>
        refine ⟨0, fun n _ => ⟨.bytesToString, ?_, .inl ⟨.obj (some ⟨d.bt, 0, false, o.data⟩), by simp [runCast, e9], .bytesToString k1 k2⟩⟩⟩
        have c1 : ¬ isNumericObject d = true := by
          intro h
          obtain ⟨_, _, q2, q3⟩ := (isNumericObject_iff hw hd).1 h
          have := hasCat_inj k1.1 (hw.numericObject _ q2 q3); cases this
        have c2 : ¬ isString s = true := fun h => by have := ((isString_iff hw hs).1 h).2; have := k2.2.1; omega
        unfold castOp
        rw [if_neg hne, if_neg bu, if_neg b1, if_neg bm, if_neg c1, if_pos ((isString_iff hw hd).2 k1), if_neg c2,
          if_pos ((isByteArray_iff hw hs).2 k2)]
    · have c1 : ¬ isNumericObject d = true := by
        intro h
        have := ((isNumericObject_iff hw hd).1 h).2.1; have := k1.2.1; omega
      have c2 : ¬ isString d = true := fun h => by have := ((isString_iff hw hd).1 h).2; have := k1.2.1; omega
      have c3 : ¬ isByteArray s = true := fun h => by have := ((isByteArray_iff hw hs).1 h).2.1; have := k2.2; omega
      refine ⟨0, fun n _ => ⟨.stringToBytes, ?_, .inl ?_⟩⟩
      · unfold castOp
        rw [if_neg hne, if_neg bu, if_neg b1, if_neg bm, if_neg c1, if_neg c2, if_pos ((isByteArray_iff hw hd).2 k1), if_neg c3,
          if_pos ((isString_iff hw hs).2 k2)]
      · cases o with
        | none => exact ⟨_, rfl, .undef od (.inl os)⟩
        | some o => exact ⟨.obj (some ⟨d.bt, 1, false, o.data⟩), by simp [runCast, k1.1], .stringToBytes k1 k2⟩
  · obtain ⟨N, hN⟩ := castRef_result c hw hd hs od os hne hodd hc hbc hi hm hv
    refine ⟨N, fun n hn => ?_⟩
    obtain ⟨op, e, h⟩ := hN n hn
    refine ⟨op, e, ?_⟩
    rcases h with ⟨h1, h2⟩ | ⟨⟨m, h1⟩, h2⟩
    · exact .inl ⟨v, h1, .keep od os hbc h2⟩
    · exact .inr ⟨m, h1, .reject od os hbc h2⟩

/-- The result of a cast is a value of the type that is cast to. -/
theorem result_type {φ} {c : Conv φ} {w : World} (hw : Wf w) {d s : Ty} (hd : WfTy w d) (hs : WfTy w s) (hc : Castable w d s)
    {v r : Val φ} (hv : HasType w s v) (h : Result c w d s v (some r)) : HasType w d r := by
  have wfs : WfTy w { bt := 9, dim := 0 } ∧ IsObj w { bt := 9, dim := 0 } := by
    have h9 := (hw.string 9).2 rfl
    obtain ⟨b, e, k⟩ := id h9
    exact ⟨⟨⟨b, e, by rw [k]; simp⟩, by simp, by simp, by simp⟩, ⟨rfl, .inr (.inl h9)⟩⟩
  have objStr : IsStr w d → IsObj w d := fun h =>
    ⟨by
      cases hr : d.ref with
      | false => rfl
      | true => rcases (hd.ref hr).2 with h' | h' <;> (have := hasCat_inj h' h.1; cases this), .inr (.inl h.1)⟩
  have strType : ∀ {x : φ}, IsStr w d → HasType w d (.obj (some ⟨d.bt, 0, false, x⟩)) := by
    intro x k
    have e9 := (hw.string _).1 k.1
    refine ⟨objStr k, ?_, ?_, ?_, fun _ _ => rfl⟩
    · simp only [e9]; exact wfs.1
    · simp only [e9]; exact wfs.2
    · exact .same (not_undef hw (wf_drop hd) ⟨rfl, (objStr k).2⟩) rfl k.2 rfl (by simp)
  cases h with
  | numSame h1 _ _ => exact ⟨h1, rfl⟩
  | num h1 _ _ => exact ⟨h1, rfl⟩
  | unbox h1 _ _ _ _ => exact ⟨h1, rfl⟩
  | parse h1 _ => exact ⟨h1, rfl⟩
  | format h1 _ => exact strType h1
  | bytesToString h1 _ => exact strType h1
  | box h1 h2 h3 =>
    have hbt := (hw.numeric _).1 h3.2.2
    have kc := hw.numericObject (s.bt + 8) (by omega) (by omega)
    have wfo : WfTy w { bt := s.bt + 8, dim := 0 } := by
      obtain ⟨b, e, k⟩ := id kc
      exact ⟨⟨b, e, by rw [k]; simp⟩, by simp, by simp, by simp⟩
    refine ⟨h1, wfo, ⟨rfl, .inr (.inr (.inl kc))⟩, ?_, fun _ _ => rfl⟩
    simp only
    have : d.bt = s.bt + 8 ∧ d.dim = 0 ∨ IsAny w d := by
      have ns : ¬ IsObj w s := by
        rintro ⟨_, k | k | k | k | k⟩
        · have := h3.1; omega
        all_goals (have := hasCat_inj h3.2.2 k; cases this)
      have nd : ¬ IsNum w d := by
        rintro ⟨k1, k2, k3⟩
        rcases h1.2 with k | k | k | k | k
        · omega
        all_goals (have := hasCat_inj k3 k; cases this)
      cases hc with
      | box _ k1 k2 k3 => exact .inl ⟨k3, k1⟩
      | boxAny _ k => exact .inr k
      | toAny k _ => exact .inr k
      | num k _ => exact absurd k nd
      | unbox k _ _ _ => exact absurd k nd
      | unboxAny k _ => exact absurd k nd
      | parse k _ => exact absurd k nd
      | sameValue k k2 => subst k; exact absurd h1 ns
      | undef _ k => have := hasCat_inj h3.2.2 k; cases this
      | fromAny _ k => have := hasCat_inj h3.2.2 k.1; cases this
      | fromAnyArray _ k _ => have := hasCat_inj h3.2.2 k; cases this
      | toAnyArray _ _ k => have := k.1; have := h3.1; omega
      | string k _ => exact absurd k h2
      | format k _ => exact absurd k h2
      | bytesToString k _ => exact absurd k h2
      | stringToBytes _ k => have := hasCat_inj h3.2.2 k.1; cases this
      | same _ k2 k3 k4 _ => exact absurd ⟨by rw [← k4]; exact h1.1, by rw [← k2, ← k3]; exact h1.2⟩ ns
      | related _ k _ _ _ => have := hasCat_inj h3.2.2 k; cases this
      | toInterface _ k2 k => rcases Implements.src k with k | k <;> (have := hasCat_inj h3.2.2 k; cases this)
      | fromInterface _ k _ _ _ _ => have := hasCat_inj h3.2.2 k; cases this
    rcases this with ⟨k1, k2⟩ | k
    · exact .same (not_undef hw (wf_drop hd) ⟨rfl, h1.2⟩) k1 k2 rfl (by simp)
    · exact .any k.1 k.2 ⟨rfl, .inr (.inr (.inl kc))⟩
  | stringToBytes h1 h2 =>
    obtain ⟨k1, k2, k3⟩ := h1
    have kn := (hw.numeric 3).2 (by omega)
    have od : IsObj w d := ⟨k3, .inl (by omega)⟩
    have wfo : WfTy w { bt := 3, dim := 1 } := by
      obtain ⟨b, e, k⟩ := id kn
      exact ⟨⟨b, e, by rw [k]; simp⟩, by simp, by simp, fun _ => ⟨(fun h => by have := hasCat_inj h kn; cases this),
        (fun h => by have := hasCat_inj h kn; cases this)⟩⟩
    refine ⟨od, ?_, ?_, ?_, fun _ _ => rfl⟩
    · simp only [k1]; exact wfo
    · exact ⟨rfl, .inl (by simp)⟩
    · exact .same (not_undef hw (wf_drop hd) ⟨rfl, od.2⟩) rfl k2 rfl (by simp)
  | undef h1 _ => exact .inl h1
  | keep _ _ _ h => exact h
  | same h => subst h; exact hv

/-- **C58.** Casts are type safe: whenever an accepted cast yields a value, a variable of the type may hold it (with the exclusions of
`cast_result_partial`). -/
theorem cast_type_safe_partial {φ} (c : Conv φ) {w : World} (hw : Wf w) {d s : Ty} (hd : WfTy w d) (hs : WfTy w s)
    (hodd : ¬ Odd w d s) (hc : ∃ n, cast w n d s = .ok true) (hi : ¬ HasCat w d.bt .iface)
    (hm : ¬ (d.isMut = true ∧ d.dim = 0 ∧ IsAny w s))
    {v : Val φ} (hb : IsStr w d → IsBytes s → v ≠ .obj none) (hv : HasType w s v) :
    ∃ N, ∀ n, N ≤ n → ∃ op, castOp w n d s = .ok op ∧ runCast c w n op v ≠ .ub ∧
      ∀ r, runCast c w n op v = .ok r → HasType w d r := by
  have hc := (cast_iff hw hd hs hodd).1 hc
  obtain ⟨N, hN⟩ := cast_result_partial c hw hd hs hodd hc hi hm hb hv
  refine ⟨N, fun n hn => ?_⟩
  obtain ⟨op, e, h⟩ := hN n hn
  refine ⟨op, e, ?_⟩
  rcases h with ⟨r, h1, h2⟩ | ⟨m, h1, h2⟩
  · rw [h1]
    refine ⟨by simp, fun r' h => ?_⟩
    cases h
    exact result_type hw hd hs hc hv h2
  · rw [h1]
    exact ⟨by simp, fun r' h => by cases h⟩

/-- **C58.** Casts to an interface type or an array of these: when the cast yields a value, it is the very same object; and if the
operand was an `object`, the object has the interface.  Missing: the type of the object when the operand is of a class or interface type
(`cast_interface_violated`), and that the test ends (`c35_interface_recursion_violated`). -/
theorem cast_interface_partial {φ} (c : Conv φ) {w : World} (hw : Wf w) {d s : Ty} (hd : WfTy w d) (hs : WfTy w s)
    (hi : HasCat w d.bt .iface) {v r : Val φ} (hv : HasType w s v) {n : Nat} {op : CastOp} (he : castOp w n d s = .ok op)
    (hr : runCast c w n op v = .ok r) : r = v ∧ (IsAny w s → HasType w d r) := by
  have od : IsObj w d := by
    refine ⟨?_, .inr (.inr (.inr (.inl hi)))⟩
    cases h : d.ref with
    | false => rfl
    | true => rcases (hd.ref h).2 with h' | h' <;> (have := hasCat_inj h' hi; cases this)
  have b1 : ¬ isNumeric d = true := fun h => by have := hasCat_inj ((isNumeric_iff hw hd).1 h).2.2 hi; cases this
  have bm : ¬ isMulnum w d = true := fun h => by have := hasCat_inj ((isMulnum_iff hw hd).1 h).2.2 hi; cases this
  have c1 : ¬ isNumericObject d = true := by
    intro h
    obtain ⟨_, _, q2, q3⟩ := (isNumericObject_iff hw hd).1 h
    have := hasCat_inj hi (hw.numericObject _ q2 q3); cases this
  have c2 : ¬ isString d = true := fun h => by have := hasCat_inj ((isString_iff hw hd).1 h).1 hi; cases this
  have c3 : ¬ isByteArray d = true := by
    intro h
    have := hasCat_inj ((hw.numeric d.bt).2 (by rw [((isByteArray_iff hw hd).1 h).1]; omega)) hi; cases this
  have c4 : ¬ isAnyObject d = true := fun h => by have := hasCat_inj ((isAnyObject_iff hw hd).1 h).1 hi; cases this
  have nm : d.isMut = true → False := fun h => by have := hasCat_inj (hd.mutable h) hi; cases this
  unfold castOp at he
  by_cases hne : d = s
  · rw [if_pos hne] at he
    cases he
    simp only [runCast] at hr
    cases hr
    exact ⟨rfl, fun h => by rw [← hne] at h; have := hasCat_inj h.1 hi; cases this⟩
  rw [if_neg hne] at he
  by_cases hu : isUndef s = true
  · have hu' := (isUndef_iff hw hs).1 hu
    rw [if_pos hu, if_pos ((isObject_iff hw hd).2 od)] at he
    cases he
    simp only [runCast] at hr
    cases hr
    refine ⟨?_, fun h => by have := hasCat_inj h.1 hu'; cases this⟩
    cases v with
    | num bt x => have := hasCat_inj hv.1.2.2 hu'; cases this
    | other x =>
      rcases hv with h | ⟨_, h⟩
      · rcases (hs.ref h).2 with h | h <;> (have := hasCat_inj h hu'; cases this)
      · have := hasCat_inj h hu'; cases this
    | obj o =>
      cases o with
      | none => rfl
      | some o => exact absurd hu' (not_undef hw hs hv.1)
  rw [if_neg hu, if_neg b1, if_neg bm, if_neg c1, if_neg c2, if_neg c3, if_neg c4, if_pos ((isObject_iff hw hd).2 od)] at he
  by_cases hos : isObject w s = true
  · have os := (isObject_iff hw hs).1 hos
    rw [if_pos hos] at he
    obtain ⟨o, rfl⟩ := hasType_obj os hv
    cases ha : assignPlain w n d s with
    | ub => rw [ha] at he; cases he
    | die m => rw [ha] at he; cases he
    | ok b =>
      rw [ha] at he
      cases b with
      | true =>
        cases he
        simp only [runCast] at hr
        cases hr
        refine ⟨rfl, fun h => ?_⟩
        have has := (c35_assignable_iff hw hd hs).1.1 ⟨n, ha⟩
        cases has with
        | undef k _ => exact absurd k (not_undef hw hs os)
        | same _ k _ _ _ => rw [k] at hi; have := hasCat_inj hi h.1; cases this
        | subclass _ _ _ _ k _ _ => have := hasCat_inj hi k; cases this
        | iface _ _ _ _ _ k => rcases Implements.src k with k | k <;> (have := hasCat_inj h.1 k; cases this)
        | any k _ _ => have := hasCat_inj hi k; cases this
        | anyArray k _ _ _ => have := hasCat_inj hi k; cases this
      | false =>
        cases he
        cases o with
        | none => simp only [runCast] at hr; cases hr; exact ⟨rfl, fun _ => .inl od⟩
        | some o =>
          simp only [runCast] at hr
          cases hb : assignPlain w n { bt := d.bt, dim := d.dim } { bt := o.bt, dim := o.dim } with
          | ub => rw [hb] at hr; cases hr
          | die m => rw [hb] at hr; cases hr
          | ok b =>
            rw [hb] at hr
            cases b with
            | false => cases hr
            | true =>
              cases hr
              exact ⟨rfl, fun _ => ⟨od, hv.2.1, hv.2.2.1, (c35_assignable_iff hw (wf_drop hd) hv.2.1).1.1 ⟨n, hb⟩,
                fun h => absurd h nm⟩⟩
  · rw [if_neg hos] at he; cases he

/-- **C58.** A number survives the round trip through `object`, and through the class of its type. -/
theorem cast_box_round_trip {φ} (c : Conv φ) {w : World} (hw : Wf w) {t b : Ty} (ht : WfTy w t) (hb : WfTy w b) (hn : IsNum w t)
    (hbox : IsAny w b ∨ b.dim = 0 ∧ b.ref = false ∧ b.bt = t.bt + 8) (x : φ) :
    ∃ N, ∀ n, N ≤ n → ∃ op1 op2 v, castOp w n b t = .ok op1 ∧ castOp w n t b = .ok op2 ∧
      runCast c w n op1 (.num t.bt x) = .ok v ∧ runCast c w n op2 v = .ok (.num t.bt x) := by
  have hbt := (hw.numeric _).1 hn.2.2
  have nno : ∀ {k}, HasCat w t.bt k → k = .numeric := fun h => hasCat_inj h hn.2.2
  have hB : HasCat w b.bt .cls ∨ HasCat w b.bt .anyObject := by
    rcases hbox with h | ⟨_, _, h⟩
    · exact .inr h.1
    · exact .inl (by rw [h]; exact hw.numericObject _ (by omega) (by omega))
  have ob : IsObj w b := by
    refine ⟨?_, ?_⟩
    · cases h : b.ref with
      | false => rfl
      | true => rcases (hb.ref h).2 with h' | h' <;> rcases hB with k | k <;> (have := hasCat_inj h' k; cases this)
    · rcases hB with k | k
      · exact .inr (.inr (.inl k))
      · exact .inr (.inr (.inr (.inr k)))
  have nstr : ¬ IsStr w b := fun h => by rcases hB with k | k <;> (have := hasCat_inj h.1 k; cases this)
  have ni : ¬ HasCat w b.bt .iface := fun h => by rcases hB with k | k <;> (have := hasCat_inj h k; cases this)
  have nb : ¬ IsBytes b := fun h => by
    have := (hw.numeric b.bt).2 (by rw [h.1]; omega)
    rcases hB with k | k <;> (have := hasCat_inj this k; cases this)
  have nu : ¬ HasCat w t.bt .undef := fun h => by have := nno h; cases this
  have no : ¬ IsObj w t := by
    rintro ⟨_, k | k | k | k | k⟩
    · have := hn.1; omega
    all_goals (have := nno k; cases this)
  have tstr : ¬ IsStr w t := fun h => by have := nno h.1; cases this
  have c1 : Castable w b t := by
    rcases hbox with h | ⟨h1, h2, h3⟩
    · exact .boxAny hn h
    · exact .box hn h1 h2 h3
  have c2 : Castable w t b := by
    rcases hbox with h | ⟨h1, h2, h3⟩
    · exact .unboxAny hn h
    · exact .unbox hn h1 h2 h3
  have ti : ¬ HasCat w t.bt .iface := fun h => by have := nno h; cases this
  have o1 : ¬ Odd w b t := by
    rintro (⟨_, h, h', _⟩ | ⟨h, _⟩)
    · omega
    · rcases hbox with k | ⟨k, _⟩
      · have := k.2; omega
      · omega
  have o2 : ¬ Odd w t b := by
    rintro (⟨_, h, h', _⟩ | ⟨h, _⟩)
    · omega
    · have := hn.1; omega
  obtain ⟨N1, h1⟩ := cast_result_partial c hw hb ht o1 c1 ni
    (fun h => by have := hb.mutable h.1; exact nstr ⟨this, h.2.1⟩) (v := .num t.bt x) (by simp) ⟨hn, rfl⟩
  let v : Val φ := .obj (some ⟨t.bt + 8, 0, false, x⟩)
  have hv : HasType w b v := result_type hw hb ht c1 (v := .num t.bt x) ⟨hn, rfl⟩ (Result.box (c := c) (x := x) ob nstr hn)
  obtain ⟨N2, h2⟩ := cast_result_partial c hw ht hb o2 c2 ti
    (fun h => by have := nno (ht.mutable h.1); cases this) (v := v) (fun _ h => absurd h nb) hv
  refine ⟨max N1 N2, fun n hn' => ?_⟩
  obtain ⟨op1, e1, r1⟩ := h1 n (by omega)
  obtain ⟨op2, e2, r2⟩ := h2 n (by omega)
  refine ⟨op1, op2, v, e1, e2, ?_, ?_⟩
  · have hk : ∀ {r : Option (Val φ)}, Result c w b t (.num t.bt x) r → r = some v := by
      intro r h
      cases h with
      | numSame h _ _ => rcases hB with k | k <;> (have := hasCat_inj h.2.2 k; cases this)
      | num h _ _ => rcases hB with k | k <;> (have := hasCat_inj h.2.2 k; cases this)
      | format h _ => exact absurd h nstr
      | box _ _ _ => rfl
      | keep _ h _ _ => exact absurd h no
      | reject _ h _ _ => exact absurd h no
      | same h => subst h; exact absurd ob no
    rcases r1 with ⟨r, q1, q2⟩ | ⟨m, q1, q2⟩
    · rw [q1, Option.some.inj (hk q2)]
    · have := hk q2; cases this
  · have hk : ∀ {r : Option (Val φ)}, Result c w t b v r → r = some (.num t.bt x) := by
      intro r h
      unfold v at h
      cases h with
      | unbox _ _ _ _ _ => rfl
      | unboxOther _ _ _ h => exact absurd ⟨rfl, rfl⟩ h
      | parse _ h => exact absurd h nstr
      | bytesToString h _ => exact absurd h tstr
      | stringToBytes _ h => exact absurd h nstr
      | keep h _ _ _ => exact absurd h no
      | reject h _ _ _ => exact absurd h no
      | same h => subst h; exact absurd ob no
    rcases r2 with ⟨r, q1, q2⟩ | ⟨m, q1, q2⟩
    · rw [q1, Option.some.inj (hk q2)]
    · have := hk q2; cases this

/-- **C58.** The contents of a string survive the round trip through `byte[]`; the new string is not read-only. -/
theorem cast_bytes_round_trip {φ} (c : Conv φ) {w : World} (hw : Wf w) (o : Obj φ) (n : Nat) :
    castOp w n { bt := 3, dim := 1 } { bt := 9 } = .ok .stringToBytes ∧
    castOp w n { bt := 9 } { bt := 3, dim := 1 } = .ok .bytesToString ∧
    runCast c w n .stringToBytes (.obj (some o)) = .ok (.obj (some ⟨3, 1, false, o.data⟩)) ∧
    runCast c w n .bytesToString (.obj (some ⟨3, 1, false, o.data⟩)) = .ok (.obj (some ⟨9, 0, false, o.data⟩)) := by
  have h9 := (hasCat_iff (by simp)).1 ((hw.string 9).2 rfl)
  have h3 := (hasCat_iff (by simp)).1 ((hw.numeric 3).2 (by omega))
  refine ⟨?_, ?_, rfl, rfl⟩
  · simp [castOp, isUndef, isNumeric, isMulnum, isNumericObject, isString, isByteArray]
  · simp [castOp, isUndef, isNumeric, isMulnum, isNumericObject, isString, isByteArray, h9, btNumeric, btNumericObject]

/-! ### Concrete casts -/

/-- Conversions for the examples: nothing is changed. -/
def exConv : Conv Nat := ⟨fun _ _ x => x, fun _ x => x, fun _ o => o.getD 0⟩

/-- The hypotheses are met: from the super class `P` to the sub class `D`. -/
example : cast exWorld 9 { bt := 20 } { bt := 18 } = .ok true ∧ castOp exWorld 9 { bt := 20 } { bt := 18 } = .ok (.check 20 0) ∧
    runCast exConv exWorld 9 (.check 20 0) (.obj (some ⟨20, 0, false, 0⟩)) = .ok (.obj (some ⟨20, 0, false, 0⟩)) ∧
    runCast exConv exWorld 9 (.check 20 0) (.obj (some ⟨19, 0, false, 0⟩)) = .die "A non-assignable type cannot be assigned." ∧
    cast exWorld 9 { bt := 20 } { bt := 19 } = .ok false ∧ ¬ Odd exWorld { bt := 20 } { bt := 18 } := by
  refine ⟨by decide +kernel, by decide +kernel, by decide +kernel, by decide +kernel, by decide +kernel, ?_⟩
  rintro (⟨_, h, _⟩ | ⟨h, _⟩) <;> simp at h

/-- `object` to `int[]`, to `mutable string` from `string`, unboxing. -/
example : castOp exWorld 9 { bt := 5, dim := 1 } { bt := 10 } = .ok (.check 5 1) ∧
    runCast exConv exWorld 9 (.check 5 1) (.obj (some ⟨5, 1, false, 7⟩)) = .ok (.obj (some ⟨5, 1, false, 7⟩)) ∧
    (runCast exConv exWorld 9 (.check 5 1) (.obj (some ⟨6, 1, false, 7⟩))).isDie = true ∧
    castOp exWorld 9 { bt := 9, isMut := true } { bt := 9 } = .ok .checkReadOnly ∧
    (runCast exConv exWorld 9 .checkReadOnly (.obj (some ⟨9, 0, true, 7⟩))).isDie = true ∧
    castOp exWorld 9 { bt := 5 } { bt := 10 } = .ok (.unbox 5) ∧
    runCast exConv exWorld 9 (.unbox 5) (.obj (some ⟨13, 0, false, 7⟩)) = .ok (.num 5 7) ∧
    (runCast exConv exWorld 9 (.unbox 5) (.obj (some ⟨14, 0, false, 7⟩))).isDie = true := by decide +kernel

theorem exTy {t : Ty} (h : wfTyB exWorld t = true) : WfTy exWorld t := wfTyB_true h

/-- **C58** fails for `(mutable string)` of an `object`: only the read-only flag of strings is tested, so that an `int[]` gets into a
variable of the type `mutable string`. -/
theorem cast_mutable_violated : ∃ v : Val Nat, cast exWorld 9 { bt := 9, isMut := true } { bt := 10 } = .ok true ∧
    HasType exWorld { bt := 10 } v ∧ castOp exWorld 9 { bt := 9, isMut := true } { bt := 10 } = .ok .checkReadOnly ∧
    runCast exConv exWorld 9 .checkReadOnly v = .ok v ∧ ¬ HasType exWorld { bt := 9, isMut := true } v := by
  have hobj : IsObj exWorld { bt := 5, dim := 1 } := ⟨rfl, .inl (by simp)⟩
  have hany : HasCat exWorld 10 .anyObject := ⟨_, rfl, rfl⟩
  refine ⟨.obj (some ⟨5, 1, false, 7⟩), by decide +kernel, ⟨⟨rfl, .inr (.inr (.inr (.inr hany)))⟩, exTy (by decide +kernel), hobj, ?_, by simp⟩,
    by decide +kernel, by decide +kernel, ?_⟩
  · exact .any hany rfl hobj
  · rintro ⟨_, _, _, h, _⟩
    exact (c35_assignable_iff exWorld_wf (exTy (by decide +kernel)) (exTy (by decide +kernel))).2 ⟨9, by decide +kernel⟩ h

/-- **C58** fails for `(int[])` of an `int` and of an `int[][]`: the specification forbids them, the compiler accepts them; for the
first it then has no operation (`assert(0)`). -/
theorem cast_array_violated : cast exWorld 9 { bt := 5, dim := 1 } { bt := 5 } = .ok true ∧
    castOp exWorld 9 { bt := 5, dim := 1 } { bt := 5 } = .ub ∧
    cast exWorld 9 { bt := 5, dim := 1 } { bt := 5, dim := 2 } = .ok true ∧
    ¬ Castable exWorld { bt := 5, dim := 1 } { bt := 5 } ∧ ¬ Castable exWorld { bt := 5, dim := 1 } { bt := 5, dim := 2 } := by
  have nc : ∀ {k}, HasCat exWorld 5 k → k = .numeric := fun h => hasCat_inj h ⟨_, rfl, rfl⟩
  refine ⟨by decide +kernel, by decide +kernel, by decide +kernel, ?_, ?_⟩
  all_goals
    intro h
    cases h with
    | num h _ => exact absurd h.1 (by simp)
    | unbox h _ _ _ => exact absurd h.1 (by simp)
    | unboxAny h _ => exact absurd h.1 (by simp)
    | parse h _ => exact absurd h.1 (by simp)
    | sameValue h _ => exact absurd h (by simp)
    | undef _ h => have := nc h; cases this
    | fromAny _ h => have := nc h.1; cases this
    | toAny h _ => have := nc h.1; cases this
    | fromAnyArray _ h _ => have := nc h; cases this
    | toAnyArray h _ _ => have := nc h; cases this
    | string h _ => have := nc h.1; cases this
    | format h _ => have := nc h.1; cases this
    | bytesToString h _ => have := nc h.1; cases this
    | stringToBytes h _ => exact absurd h.1 (by simp)
    | box _ h _ _ => exact absurd h (by simp)
    | boxAny _ h => have := nc h.1; cases this
    | same _ _ h _ _ => exact absurd h (by simp)
    | related h _ _ _ _ => have := nc h; cases this
    | toInterface h _ _ => have := nc h; cases this
    | fromInterface h _ _ _ _ _ => have := nc h; cases this

/-- **C58** fails for `(Int)` of an `Int`: the specification (and the documentation) allows it, the compiler refuses it. -/
theorem cast_numeric_object_violated : cast exWorld 9 { bt := 13 } { bt := 13 } = .ok false ∧
    Castable exWorld { bt := 13 } { bt := 13 } := by
  have hc : HasCat exWorld 13 .cls := ⟨_, rfl, rfl⟩
  exact ⟨by decide +kernel, .same ⟨rfl, .inr (.inr (.inl hc))⟩ rfl rfl rfl (fun h => by have := hasCat_inj h hc; cases this)⟩

/-- **C58** fails for `(string)` of an undefined `byte[]`: the length is read through a null pointer. -/
theorem cast_undef_bytes_violated : cast exWorld 9 { bt := 9 } { bt := 3, dim := 1 } = .ok true ∧
    HasType exWorld { bt := 3, dim := 1 } (.obj none : Val Nat) ∧ castOp exWorld 9 { bt := 9 } { bt := 3, dim := 1 } = .ok .bytesToString ∧
    runCast exConv exWorld 9 .bytesToString (.obj none) = .ub :=
  ⟨by decide +kernel, .inl ⟨rfl, .inl (by simp)⟩, by decide +kernel, rfl⟩

/-- **C58** fails for interfaces: a `P` is an `I`, so `(I)` of a `P` is not checked, but the object may be of a sub class of `P` that is
not an `I`. -/
theorem cast_interface_violated : ∃ v : Val Nat, cast exWorld 9 { bt := 17 } { bt := 18 } = .ok true ∧ HasType exWorld { bt := 18 } v ∧
    castOp exWorld 9 { bt := 17 } { bt := 18 } = .ok .move ∧ runCast exConv exWorld 9 .move v = .ok v ∧ ¬ HasType exWorld { bt := 17 } v := by
  have h18 : HasCat exWorld 18 .cls := ⟨_, rfl, rfl⟩
  have h19 : HasCat exWorld 19 .cls := ⟨_, rfl, rfl⟩
  have hobj : IsObj exWorld { bt := 19 } := ⟨rfl, .inr (.inr (.inl h19))⟩
  refine ⟨.obj (some ⟨19, 0, false, 7⟩), by decide +kernel, ⟨⟨rfl, .inr (.inr (.inl h18))⟩, exTy (by decide +kernel), hobj, ?_, by simp⟩,
    by decide +kernel, by decide +kernel, ?_⟩
  · exact (c35_assignable_iff exWorld_wf (exTy (by decide +kernel)) (exTy (by decide +kernel))).1.1 ⟨9, by decide +kernel⟩
  · rintro ⟨_, _, _, h, _⟩
    exact (c35_assignable_iff exWorld_wf (exTy (by decide +kernel)) (exTy (by decide +kernel))).2 ⟨9, by decide +kernel⟩ h

/-- **C58**: `(P)` of an `I` and `(P[])` of an `I[]` are accepted, `(P[][])` of an `I[][]` is refused: the last case asks whether the
interface implements the class. -/
theorem cast_interface_arrays_violated : cast exWorld 9 { bt := 18 } { bt := 17 } = .ok true ∧
    cast exWorld 9 { bt := 18, dim := 1 } { bt := 17, dim := 1 } = .ok true ∧
    cast exWorld 9 { bt := 18, dim := 2 } { bt := 17, dim := 2 } = .ok false := by decide +kernel

end Types
end SPVM
