import Verif.Spec.Args
import Verif.Lemmas.CastRun
import Verif.Lemmas.Vars
import Verif.Lemmas.ExprCheck
import Verif.Lemmas.TypesIface
/-!
# The shapes of variables and the cells of the value stack
-/
namespace SPVM
namespace Args
open Types (World Ty Cat cat isNumeric isMulnum isObject isUndef isVoid assign hasCat_iff facts TyFacts isObj_iff objB)
open Spec.Types (HasCat IsObj WfTy Wf Assignable Converts)
open Vars (VarKind Decl)
open Expr (NT Val Fl)
open Spec.Args

/-- The four sorts of types. -/
inductive Sorted (E : Env) (t : Ty) : Prop
  | num : isNumeric t = true → NumTy t.bt (numType t.bt) (numKind t.bt) → t.dim = 0 → t.ref = false → cat E.w t.bt = .numeric →
      isObject E.w t = false → isMulnum E.w t = false → ¬ IsObj E.w t → ¬ HasCat E.w t.bt .mulnum → Sorted E t
  | obj : isObject E.w t = true → IsObj E.w t → t.ref = false → isNumeric t = false → isMulnum E.w t = false →
      (t.dim = 0 → cat E.w t.bt = .string ∨ cat E.w t.bt = .cls ∨ cat E.w t.bt = .iface ∨ cat E.w t.bt = .anyObject) →
      cat E.w t.bt ≠ .unknown → cat E.w t.bt ≠ .undef → cat E.w t.bt ≠ .void → Sorted E t
  | ref : t.ref = true → t.dim = 0 → (cat E.w t.bt = .numeric ∨ cat E.w t.bt = .mulnum) → isObject E.w t = false →
      isMulnum E.w t = false → isNumeric t = false → ¬ IsObj E.w t → Sorted E t
  | mul : isMulnum E.w t = true → HasCat E.w t.bt .mulnum → t.dim = 0 → t.ref = false → cat E.w t.bt = .mulnum →
      isObject E.w t = false → isNumeric t = false → ¬ IsObj E.w t → Sorted E t

theorem numTy_of {b : Nat} (h : 3 ≤ b) (h' : b ≤ 8) : NumTy b (numType b) (numKind b) := by
  have : b = 3 ∨ b = 4 ∨ b = 5 ∨ b = 6 ∨ b = 7 ∨ b = 8 := by omega
  rcases this with rfl | rfl | rfl | rfl | rfl | rfl <;> constructor

theorem numTy_eq {b : Nat} {nt : NT} {k : VarKind} (h : NumTy b nt k) : nt = numType b ∧ k = numKind b ∧ 3 ≤ b ∧ b ≤ 8 := by
  cases h <;> simp [numType, numKind]

theorem numKind_ne {b : Nat} {nt : NT} {k : VarKind} (h : NumTy b nt k) : k ≠ .void ∧ k ≠ .object ∧ k ≠ .ref := by
  cases h <;> simp

theorem sorted {E : Env} (hE : EnvOk E) {t : Ty} (ht : VarTy E.w t) : Sorted E t := by
  have f := facts hE.types ht.wf
  have hu := ht.undef
  have hv := ht.void
  have hn := hE.types.numeric t.bt
  rw [hasCat_iff (by simp)] at hu hv hn
  have bo := Types.isObject_iff hE.types ht.wf
  have bm : HasCat E.w t.bt .mulnum ↔ cat E.w t.bt = .mulnum := hasCat_iff (by simp)
  cases hr : t.ref with
  | true =>
    obtain ⟨h0, hc⟩ := f.ref hr
    have ho : isObject E.w t = false := by simp [isObject, Types.isArray, Types.isString, Types.isClass, Types.isInterface, Types.isAnyObject, hr]
    exact .ref hr h0 hc ho (by simp [isMulnum, hr]) (by simp [isNumeric, hr]) (by rw [← bo, ho]; simp)
  | false =>
    by_cases hd : t.dim = 0
    · have num := f.num
      have obj : IsObj E.w t ↔ cat E.w t.bt = .string ∨ cat E.w t.bt = .cls ∨ cat E.w t.bt = .iface ∨ cat E.w t.bt = .anyObject := by
        rw [isObj_iff]; simp [objB, hr, hd]
      have unk := f.unk
      cases hc : cat E.w t.bt with
      | unknown => exact absurd hc unk
      | undef => exact absurd hc hu
      | void => exact absurd hc hv
      | numeric =>
        have h38 := hn.1 hc
        have hno : ¬ IsObj E.w t := by rw [obj, hc]; simp
        refine .num (by simp [isNumeric, hr, hd, num, hc]) (numTy_of h38.1 h38.2) hd hr hc ?_ (by simp [isMulnum, hc]) hno (by rw [bm, hc]; simp)
        rw [← bo] at hno; simpa using hno
      | mulnum =>
        have hno : ¬ IsObj E.w t := by rw [obj, hc]; simp
        refine .mul (by simp [isMulnum, hr, hd, hc]) (bm.2 hc) hd hr hc ?_ (by simp [isNumeric, num, hc]) hno
        rw [← bo] at hno; simpa using hno
      | _ =>
        have ho : IsObj E.w t := by rw [obj, hc]; simp
        exact .obj (bo.2 ho) ho hr (by simp [isNumeric, num, hc]) (by simp [isMulnum, hc]) (fun _ => by simp [hc]) unk hu hv
    · have ho : IsObj E.w t := by rw [isObj_iff]; exact ⟨hr, .inl (by omega)⟩
      exact .obj (bo.2 ho) ho hr (by simp [isNumeric, hd]) (by simp [isMulnum, hd]) (fun h => absurd h hd) f.unk hu hv

theorem shape_of {E : Env} (hE : EnvOk E) {t : Ty} (ht : VarTy E.w t) : Shape E t (varKind E t) (width E t) := by
  cases sorted hE ht with
  | num h1 h2 h3 h4 _ h5 h6 =>
    simp only [varKind, width, h1, h4, h5, h6, if_true, Bool.false_eq_true, if_false]
    exact .num h3 h4 h2
  | obj h1 h2 h3 h4 h5 =>
    simp only [varKind, width, h1, h5, if_true, Bool.false_eq_true, if_false]
    exact .obj h2
  | ref h1 h2 h3 h4 h5 =>
    simp only [varKind, width, h1, h4, h5, if_true, Bool.false_eq_true, if_false]
    exact .ref h1
  | mul h1 h2 h3 h4 h5 h6 =>
    simp only [varKind, width, h1, h4, h6, if_true, Bool.false_eq_true, if_false]
    exact .mul h3 h4 h2

theorem shape_eq {E : Env} (hE : EnvOk E) {t : Ty} (ht : VarTy E.w t) {k : VarKind} {n : Nat} (h : Shape E t k n) :
    k = varKind E t ∧ n = width E t := by
  cases sorted hE ht with
  | num h1 h2 h3 h4 h0 h5 h6 h7 h8 =>
    simp only [varKind, width, h1, h4, h5, h6, if_true, Bool.false_eq_true, if_false]
    cases h with
    | num a b c => exact ⟨(numTy_eq c).2.1, rfl⟩
    | obj a => exact absurd a h7
    | ref a => simp [h4] at a
    | mul a b c => exact absurd c h8
  | obj h1 h2 h3 h4 h5 h6 =>
    simp only [varKind, width, h1, h5, if_true, Bool.false_eq_true, if_false]
    cases h with
    | num a b c =>
      have := numTy_eq c
      simp [isNumeric, a, b, Types.btNumeric] at h4
      omega
    | obj a => exact ⟨rfl, rfl⟩
    | ref a => simp [h3] at a
    | mul a b c => have := (hasCat_iff (by simp)).1 c; simp [isMulnum, a, b, this] at h5
  | ref h1 h2 h3 h4 h5 h6 h7 =>
    simp only [varKind, width, h1, h4, h5, if_true, Bool.false_eq_true, if_false]
    cases h with
    | num a b c => simp [h1] at b
    | obj a => exact absurd a h7
    | ref a => exact ⟨rfl, rfl⟩
    | mul a b c => simp [h1] at b
  | mul h1 h2 h3 h4 h5 h6 h7 h8 =>
    simp only [varKind, width, h1, h4, h6, if_true, Bool.false_eq_true, if_false]
    cases h with
    | num a b c =>
      have := numTy_eq c
      simp [isNumeric, a, b, Types.btNumeric] at h7
      omega
    | obj a => exact absurd a h8
    | ref a => simp [h4] at a
    | mul a b c => exact ⟨rfl, rfl⟩

theorem width_pos {E : Env} (hE : EnvOk E) {t : Ty} : 1 ≤ width E t := by
  unfold width
  split
  · next h =>
    refine (hE.fields t.bt ?_).1
    rw [hasCat_iff (by simp)]
    simp [isMulnum] at h
    exact h.1.2
  · exact Nat.le_refl _

theorem varKind_ne {E : Env} (hE : EnvOk E) {t : Ty} (ht : VarTy E.w t) : varKind E t ≠ .void := by
  cases sorted hE ht with
  | num h1 h2 h3 h4 _ h5 h6 =>
    simp only [varKind, h1, h4, h5, h6, if_true, Bool.false_eq_true, if_false]
    exact (numKind_ne h2).1
  | obj h1 h2 h3 h4 h5 => simp [varKind, h1]
  | ref h1 h2 h3 h4 h5 => simp [varKind, h1, h4]
  | mul h1 h2 h3 h4 h5 h6 =>
    obtain ⟨_, i, nt, h⟩ := hE.fields t.bt h2
    simp only [varKind, h1, h4, h6, if_true, Bool.false_eq_true, if_false]
    exact (numKind_ne h).1

/-- A value that can be stored as it is has the shape of the variable. -/
theorem shape_assign {E : Env} (hE : EnvOk E) {im : Bool} {d s : Ty} (hd : VarTy E.w d) (hs : VarTy E.w s)
    (h : Assignable E.w im d s) : varKind E d = varKind E s ∧ width E d = width E s := by
  have both : IsObj E.w d → IsObj E.w s → varKind E d = varKind E s ∧ width E d = width E s := by
    intro a b
    obtain ⟨x1, x2⟩ := shape_eq hE hd (.obj a)
    obtain ⟨y1, y2⟩ := shape_eq hE hs (.obj b)
    exact ⟨by rw [← x1, ← y1], by rw [← x2, ← y2]⟩
  have c1 : ∀ {t : Ty} {k : Cat}, t.ref = false → HasCat E.w t.bt k → (k = .cls ∨ k = .iface) → IsObj E.w t := by
    intro t k a b c
    rcases c with rfl | rfl
    · exact ⟨a, .inr (.inr (.inl b))⟩
    · exact ⟨a, .inr (.inr (.inr (.inl b)))⟩
  cases h with
  | undef h1 h2 => exact absurd h1 hs.undef
  | same h1 h2 h3 h4 h5 =>
    obtain ⟨db, dd, dr, dm⟩ := d
    obtain ⟨sb, sd, sr, sm⟩ := s
    simp only at h2 h3 h4
    subst h2 h3 h4
    exact ⟨rfl, rfl⟩
  | subclass h1 h2 h3 h4 h5 h6 => exact both (c1 h1 h5 (.inl rfl)) (c1 h2 h6 (.inl rfl))
  | iface h1 h2 h3 h4 h5 h6 =>
    refine both (c1 h1 h5 (.inr rfl)) ?_
    rcases Types.Implements.src h6 with h | h
    · exact c1 h2 h (.inl rfl)
    · exact c1 h2 h (.inr rfl)
  | any h1 h2 h3 =>
    refine both ⟨?_, .inr (.inr (.inr (.inr h1)))⟩ h3
    cases hr : d.ref with
    | false => rfl
    | true =>
      have := (hd.wf.ref hr).2
      rw [hasCat_iff (by simp)] at h1
      rw [hasCat_iff (by simp), hasCat_iff (by simp), h1] at this
      simp at this
  | anyArray h1 h2 h3 h4 =>
    refine both ⟨?_, .inl (by omega)⟩ ⟨h4.1, .inl h3⟩
    cases hr : d.ref with
    | false => rfl
    | true => have := (hd.wf.ref hr).1; omega

end Args
end SPVM
