import Verif.Lemmas.Cast
/-!
# The compiler's cast test and the specification
-/
set_option linter.unusedSimpArgs false
namespace SPVM
namespace Types
open Spec.Types

theorem isNum_iff {w : World} {t : Ty} : IsNum w t ↔ numB (cat w t.bt) t := by
  unfold IsNum numB; rw [hasCat_iff (by simp)]

theorem hasInterface_complete {w : World} (hw : Wf w) {s d : Nat} (hd : cat w d = .iface) (h : Implements w s d) :
    ∃ n, hasInterface w n s d = .ok true := by
  obtain ⟨n, e⟩ := implements_complete hw h
  refine ⟨n + 1, ?_⟩
  simp only [hasInterface]
  rw [if_neg (by simpa using hd)]
  exact e

theorem hasInterface_not {w : World} {n a b : Nat} (h : cat w b ≠ .iface) : hasInterface w n a b ≠ .ok true := by
  cases n with
  | zero => simp [hasInterface]
  | succ n => simp [hasInterface, h]

theorem cast_yes {w : World} (hw : Wf w) {d s : Ty} (hd : WfTy w d) (hs : WfTy w s) (hodd : ¬ Odd w d s) (n : Nat) :
    cast w n d s = .ok true ↔ YesCast w (isSuperClass w n) (hasInterface w n) d s :=
  castWith_yes (facts hw hd) (facts hw hs) (fun i h1 h2 => (hasCat_iff (by simp)).1 (hw.numericObject i h1 h2))
    (fun i => by rw [← hasCat_iff (by simp)]; exact hw.numeric i) (fun _ _ => isSuperClass_no) (fun _ _ => hasInterface_not) hodd

/-- The test and the specification agree, on every pair of types. -/
theorem yesCast_castable {w : World} (hw : Wf w) {d s : Ty} {n : Nat}
    (h : YesCast w (isSuperClass w n) (hasInterface w n) d s) : Castable w d s := by
  have hc : ∀ {k} {i}, k ≠ Cat.unknown → cat w i = k → HasCat w i k := fun hk h => (hasCat_iff hk).2 h
  rcases h with ⟨h1, h2 | h2 | ⟨h2, h3 | h3⟩⟩ | ⟨h1, h2⟩ | ⟨h1, h2 | h2⟩ | ⟨h1, h2, h3 | h3⟩ | ⟨h1, h2, h3, h4⟩ | ⟨h1, h2, h3, h4⟩ |
    ⟨h1, h2, h3 | h3 | h3⟩ | ⟨h1, h2, h3, h4, h5⟩ | ⟨h1, h2, h3, h4⟩ | ⟨h1, h2, h3, h4, h5⟩ | ⟨h1, h2, h3, h4, h5, h6⟩ |
    ⟨h1, h2, h3, h4⟩ | ⟨h1, h2, h3, h4, h5, h6⟩
  · exact .num (isNum_iff.2 h1) (isNum_iff.2 h2)
  · exact .unbox (isNum_iff.2 h1) h2.1 h2.2.1 h2.2.2
  · exact .unboxAny (isNum_iff.2 h1) ⟨hc (by simp) h3, h2⟩
  · exact .parse (isNum_iff.2 h1) ⟨hc (by simp) h3, h2⟩
  · exact .sameValue h1 (h2.imp id fun h => ⟨h.1, hc (by simp) h.2⟩)
  · exact .undef (isObj_iff.2 h1) (hc (by simp) h2)
  · exact .fromAny (isObj_iff.2 h1) ⟨hc (by simp) h2.1, h2.2⟩
  · exact .toAny ⟨hc (by simp) h1, h2⟩ (isObj_iff.2 h3)
  · exact .boxAny (isNum_iff.2 h3) ⟨hc (by simp) h1, h2⟩
  · exact .fromAnyArray ⟨h1, isObj_iff.2 h2⟩ (hc (by simp) h3) h4
  · exact .toAnyArray (hc (by simp) h1) h2 ⟨h3, isObj_iff.2 h4⟩
  · exact .string ⟨hc (by simp) h1, h2⟩ ⟨hc (by simp) h3.1, h3.2⟩
  · exact .format ⟨hc (by simp) h1, h2⟩ (isNum_iff.2 h3)
  · exact .bytesToString ⟨hc (by simp) h1, h2⟩ h3
  · exact .stringToBytes ⟨h1, h2, h3⟩ ⟨hc (by simp) h4, h5⟩
  · exact .box (isNum_iff.2 h1) h2 h3 h4
  · exact .same (isObj_iff.2 h1) h2 h3 h4 (by rwa [hasCat_iff (by simp)])
  · refine .related (hc (by simp) h1) (hc (by simp) h2) h3 h4 ?_
    rcases h6 with h | ⟨_, h⟩
    · exact .inl (isSuperClass_true hw h).2.2
    · exact .inr (isSuperClass_true hw h).2.2
  · exact .toInterface (hc (by simp) h1) h2 (hasInterface_sound hw _ _ _ h4)
  · exact .fromInterface (hc (by simp) h1) (hc (by simp) h2) h3 h4 h5 (hasInterface_sound hw _ _ _ h6)

theorem castable_yesCast {w : World} (hw : Wf w) {d s : Ty} (h : Castable w d s) :
    ∃ n, YesCast w (isSuperClass w n) (hasInterface w n) d s := by
  have hc : ∀ {k} {i}, k ≠ Cat.unknown → HasCat w i k → cat w i = k := fun hk h => (hasCat_iff hk).1 h
  unfold YesCast
  cases h with
  | num h1 h2 => exact ⟨0, .inl ⟨isNum_iff.1 h1, .inl (isNum_iff.1 h2)⟩⟩
  | unbox h1 h2 h3 h4 => exact ⟨0, .inl ⟨isNum_iff.1 h1, .inr (.inl ⟨h2, h3, h4⟩)⟩⟩
  | unboxAny h1 h2 => exact ⟨0, .inl ⟨isNum_iff.1 h1, .inr (.inr ⟨h2.2, .inl (hc (by simp) h2.1)⟩)⟩⟩
  | parse h1 h2 => exact ⟨0, .inl ⟨isNum_iff.1 h1, .inr (.inr ⟨h2.2, .inr (hc (by simp) h2.1)⟩)⟩⟩
  | sameValue h1 h2 => exact ⟨0, .inr (.inl ⟨h1, h2.imp id fun h => ⟨h.1, hc (by simp) h.2⟩⟩)⟩
  | undef h1 h2 => exact ⟨0, .inr (.inr (.inl ⟨isObj_iff.1 h1, .inl (hc (by simp) h2)⟩))⟩
  | fromAny h1 h2 => exact ⟨0, .inr (.inr (.inl ⟨isObj_iff.1 h1, .inr ⟨hc (by simp) h2.1, h2.2⟩⟩))⟩
  | toAny h1 h2 => exact ⟨0, .inr (.inr (.inr (.inl ⟨hc (by simp) h1.1, h1.2, .inl (isObj_iff.1 h2)⟩)))⟩
  | fromAnyArray h1 h2 h3 => exact ⟨0, .inr (.inr (.inr (.inr (.inl ⟨h1.1, isObj_iff.1 h1.2, hc (by simp) h2, h3⟩))))⟩
  | toAnyArray h1 h2 h3 => exact ⟨0, .inr (.inr (.inr (.inr (.inr (.inl ⟨hc (by simp) h1, h2, h3.1, isObj_iff.1 h3.2⟩)))))⟩
  | string h1 h2 =>
    exact ⟨0, .inr (.inr (.inr (.inr (.inr (.inr (.inl ⟨hc (by simp) h1.1, h1.2, .inl ⟨hc (by simp) h2.1, h2.2⟩⟩))))))⟩
  | format h1 h2 =>
    exact ⟨0, .inr (.inr (.inr (.inr (.inr (.inr (.inl ⟨hc (by simp) h1.1, h1.2, .inr (.inl (isNum_iff.1 h2))⟩))))))⟩
  | bytesToString h1 h2 =>
    exact ⟨0, .inr (.inr (.inr (.inr (.inr (.inr (.inl ⟨hc (by simp) h1.1, h1.2, .inr (.inr h2)⟩))))))⟩
  | stringToBytes h1 h2 =>
    exact ⟨0, .inr (.inr (.inr (.inr (.inr (.inr (.inr (.inl ⟨h1.1, h1.2.1, h1.2.2, hc (by simp) h2.1, h2.2⟩)))))))⟩
  | box h1 h2 h3 h4 => exact ⟨0, .inr (.inr (.inr (.inr (.inr (.inr (.inr (.inr (.inl ⟨isNum_iff.1 h1, h2, h3, h4⟩))))))))⟩
  | boxAny h1 h2 => exact ⟨0, .inr (.inr (.inr (.inl ⟨hc (by simp) h2.1, h2.2, .inr (isNum_iff.1 h1)⟩)))⟩
  | same h1 h2 h3 h4 h5 =>
    rw [hasCat_iff (by simp)] at h5
    exact ⟨0, .inr (.inr (.inr (.inr (.inr (.inr (.inr (.inr (.inr (.inl ⟨isObj_iff.1 h1, h2, h3, h4, h5⟩)))))))))⟩
  | related h1 h2 h3 h4 h5 =>
    by_cases he : d.bt = s.bt
    · rw [he] at h5
      exact absurd (h5.elim id id) (hw.acyclic _)
    · refine ⟨rank w s.bt + rank w d.bt + 1, .inr (.inr (.inr (.inr (.inr (.inr (.inr (.inr (.inr (.inr (.inl
        ⟨hc (by simp) h1, hc (by simp) h2, h3, h4, he, ?_⟩))))))))))⟩
      obtain ⟨b, e1, e2⟩ := isSuperClass_ok hw d.bt s.bt (rank w s.bt + rank w d.bt + 1) (by omega)
      obtain ⟨b', e3, e4⟩ := isSuperClass_ok hw s.bt d.bt (rank w s.bt + rank w d.bt + 1) (by omega)
      rw [e1, e3]
      cases b with
      | true => exact .inl rfl
      | false =>
        refine .inr ⟨rfl, ?_⟩
        rcases h5 with h5 | h5
        · exact absurd (e2.2 ⟨h1, h2, h5⟩) (by simp)
        · rw [e4.2 ⟨h2, h1, h5⟩]
  | toInterface h1 h2 h3 =>
    obtain ⟨n, e⟩ := hasInterface_complete hw (hc (by simp) h1) h3
    refine ⟨n, .inr (.inr (.inr (.inr (.inr (.inr (.inr (.inr (.inr (.inr (.inr (.inl
      ⟨hc (by simp) h1, h2, ?_, e⟩)))))))))))⟩
    exact (Implements.src h3).imp (hc (by simp)) (hc (by simp))
  | fromInterface h1 h2 h3 h4 h5 h6 =>
    obtain ⟨n, e⟩ := hasInterface_complete hw (hc (by simp) h2) h6
    exact ⟨n, .inr (.inr (.inr (.inr (.inr (.inr (.inr (.inr (.inr (.inr (.inr (.inr
      ⟨hc (by simp) h1, hc (by simp) h2, h3, h4, h5, e⟩)))))))))))⟩

theorem cast_iff {w : World} (hw : Wf w) {d s : Ty} (hd : WfTy w d) (hs : WfTy w s) (hodd : ¬ Odd w d s) :
    (∃ n, cast w n d s = .ok true) ↔ Castable w d s := by
  constructor
  · rintro ⟨n, h⟩
    exact yesCast_castable hw ((cast_yes hw hd hs hodd n).1 h)
  · intro h
    obtain ⟨n, h⟩ := castable_yesCast hw h
    exact ⟨n, (cast_yes hw hd hs hodd n).2 h⟩

end Types
end SPVM
