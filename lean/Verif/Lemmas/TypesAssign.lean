import Verif.Lemmas.Types
/-!
# When `SPVM_TYPE_satisfy_assignment_requirement` says yes
-/
set_option linter.unusedSimpArgs false
namespace SPVM
namespace Types
open VM (Bytes)
open Spec.Types

/-- The object types by category. -/
def objB (k : Cat) (t : Ty) : Prop :=
  t.ref = false ∧ (0 < t.dim ∨ k = .string ∨ k = .cls ∨ k = .iface ∨ k = .anyObject)

theorem isObj_iff {w : World} {t : Ty} : IsObj w t ↔ objB (cat w t.bt) t := by
  simp only [IsObj, objB]
  rw [hasCat_iff (by simp), hasCat_iff (by simp), hasCat_iff (by simp), hasCat_iff (by simp)]

/-- The cases in which the answer is "yes, without conversion". -/
def YesWith (w : World) (sup hi : Nat → Nat → Out Bool) (im : Bool) (d s : Ty) : Prop :=
  (cat w s.bt = .undef ∧ objB (cat w d.bt) d) ∨
  (cat w d.bt ≠ .undef ∧ d.bt = s.bt ∧ d.dim = s.dim ∧ d.ref = s.ref ∧ (d.dim = 0 → d.isMut = true → s.isMut = true)) ∨
  (d.ref = false ∧ s.ref = false ∧ d.dim = s.dim ∧ (d.dim = 0 → ¬ (11 ≤ d.bt ∧ d.bt ≤ 16)) ∧ cat w d.bt = .cls ∧
    cat w s.bt = .cls ∧ d.bt ≠ s.bt ∧ sup d.bt s.bt = .ok true) ∨
  (d.ref = false ∧ s.ref = false ∧ d.dim = s.dim ∧ (im = true → 0 < d.dim) ∧ cat w d.bt = .iface ∧
    (cat w s.bt = .cls ∨ cat w s.bt = .iface) ∧ d.bt ≠ s.bt ∧ hi s.bt d.bt = .ok true) ∨
  (cat w d.bt = .anyObject ∧ d.dim = 0 ∧ objB (cat w s.bt) s) ∨
  (cat w d.bt = .anyObject ∧ d.dim = 1 ∧ 0 < s.dim ∧ objB (cat w s.bt) { s with dim := s.dim - 1 })

@[simp, grind =] theorem ofBool_yes (b : Bool) : (Ans.ofBool b = Ans.yes) = (b = true) := by cases b <;> simp [Ans.ofBool]

@[simp, grind =] theorem bind_ofBool (x : Out Bool) :
    ((x >>= fun b => Out.ok (Ans.ofBool b)) = Out.ok Ans.yes) = (x = .ok true) := by
  rcases x with (_|_) | _ | _ <;> simp [Ans.ofBool]

theorem ite_yes (c : Prop) [Decidable c] (x y : Out Ans) :
    ((if c then x else y) = Out.ok Ans.yes) = ((c ∧ x = .ok .yes) ∨ (¬ c ∧ y = .ok .yes)) := by
  split <;> simp_all

@[simp] theorem bind_if (x : Out Bool) (y : Out Ans) :
    ((x >>= fun b => if b = true then Out.ok Ans.yes else y) = Out.ok Ans.yes) =
      (x = .ok true ∨ (x = .ok false ∧ y = .ok .yes)) := by
  rcases x with (_|_) | _ | _ <;> simp

structure TyFacts (k : Cat) (t : Ty) : Prop where
  num : btNumeric t.bt = decide (k = .numeric)
  str : (t.bt == 9) = decide (k = .string)
  any : (t.bt == 10) = decide (k = .anyObject)
  und : (t.bt == 1) = decide (k = .undef)
  voi : (t.bt == 2) = decide (k = .void)
  obj : btNumericObject t.bt = true → k = .cls
  unk : k ≠ .unknown
  ref : t.ref = true → t.dim = 0 ∧ (k = .numeric ∨ k = .mulnum)
  mutable : t.isMut = true → k = .string
  dim : 0 < t.dim → k ≠ .undef ∧ k ≠ .void

theorem facts {w : World} (hw : Wf w) {t : Ty} (ht : WfTy w t) : TyFacts (cat w t.bt) t := by
  have e := hw.undef t.bt
  have e2 := hw.void t.bt
  have e3 := hw.numeric t.bt
  have e4 := hw.string t.bt
  have e5 := hw.anyObject t.bt
  have e6 := hw.numericObject t.bt
  rw [hasCat_iff (by simp)] at e e2 e3 e4 e5 e6
  have r := ht.ref
  have m := ht.mutable
  have dd := ht.dim
  rw [hasCat_iff (by simp)] at m
  rw [hasCat_iff (by simp), hasCat_iff (by simp)] at r dd
  obtain ⟨b, hb, hk⟩ := ht.known
  constructor
  · rw [Bool.eq_iff_iff]; simp [btNumeric, e3]
  · rw [Bool.eq_iff_iff]; simp [e4]
  · rw [Bool.eq_iff_iff]; simp [e5]
  · rw [Bool.eq_iff_iff]; simp [e]
  · rw [Bool.eq_iff_iff]; simp [e2]
  · simp only [btNumericObject, Bool.and_eq_true, decide_eq_true_eq]; exact fun h => e6 h.1 h.2
  · rw [cat_eq hb]; exact hk
  · exact r
  · exact m
  · exact dd

theorem assignWith_yes {w : World} {sup hi : Nat → Nat → Out Bool} {im : Bool} {d s : Ty}
    (fd : TyFacts (cat w d.bt) d) (fs : TyFacts (cat w s.bt) s)
    (hsup : cat w d.bt ≠ .cls ∨ cat w s.bt ≠ .cls → sup d.bt s.bt = .ok false) :
    assignWith w sup hi false im d s = .ok .yes ↔ YesWith w sup hi im d s := by
  obtain ⟨db, dd, dr, dm⟩ := d
  obtain ⟨sb, sd, sr, sm⟩ := s
  obtain ⟨a1, a2, a3, a4, a5, a6, a7, a8, a9, a10⟩ := fd
  obtain ⟨b1, b2, b3, b4, b5, b6, b7, b8, b9, b10⟩ := fs
  simp only at *
  have hbt : db = sb → cat w db = cat w sb := by rintro rfl; rfl
  have e1 : (btNumericObject db = true) = (11 ≤ db ∧ db ≤ 16) := by simp [btNumericObject]
  have e2 : (btNumericObject sb = true) = (11 ≤ sb ∧ sb ≤ 16) := by simp [btNumericObject]
  unfold assignWith YesWith
  simp only [isNumeric, isMulnum, isString, isNumericObject, isClass, isInterface, isAnyObject, isUndef, isNumericArray,
    isMulnumArray, isStringArray, isClassArray, isInterfaceArray, isAnyObjectArray, isMuldim, isVoid, isObject, isArray,
    isObjectArray, a1, a2, a3, a4, a5, b1, b2, b3, b4, b5, objB, ← e1]
  generalize hkd : cat w db = kd at *
  generalize hks : cat w sb = ks at *
  cases kd <;> simp at * <;> rcases dd with _ | _ | dd <;> simp at * <;>
    first | done | (cases dr <;> cases ks <;> simp [ite_yes] at * <;> first | done | grind)

@[simp, grind =] theorem ofBool_conv (b : Bool) : (Ans.ofBool b = Ans.conv) = False := by cases b <;> simp [Ans.ofBool]

@[simp, grind =] theorem bind_ofBool_conv (x : Out Bool) :
    ((x >>= fun b => Out.ok (Ans.ofBool b)) = Out.ok Ans.conv) = False := by
  rcases x with (_|_) | _ | _ <;> simp [Ans.ofBool]

theorem ite_conv (c : Prop) [Decidable c] (x y : Out Ans) :
    ((if c then x else y) = Out.ok Ans.conv) = ((c ∧ x = .ok .conv) ∨ (¬ c ∧ y = .ok .conv)) := by
  split <;> simp_all

theorem ite_conv' (c : Prop) [Decidable c] (x y : Ans) :
    ((if c then x else y) = Ans.conv) = ((c ∧ x = .conv) ∨ (¬ c ∧ y = .conv)) := by
  split <;> simp_all

@[simp] theorem bind_if_conv (x : Out Bool) (y : Out Ans) :
    ((x >>= fun b => if b = true then Out.ok Ans.yes else y) = Out.ok Ans.conv) =
      (x = .ok false ∧ y = .ok .conv) := by
  rcases x with (_|_) | _ | _ <;> simp

/-- The cases in which a conversion is needed. -/
def ConvWith (w : World) (narrow : Bool) (d s : Ty) : Prop :=
  let num (t : Ty) : Prop := t.dim = 0 ∧ t.ref = false ∧ cat w t.bt = .numeric
  (num d ∧ num s ∧ s.bt < d.bt) ∨ (num d ∧ num s ∧ d.bt < s.bt ∧ narrow = true) ∨
  (num d ∧ s.dim = 0 ∧ s.ref = false ∧ s.bt = d.bt + 8) ∨ (num d ∧ s.dim = 0 ∧ s.ref = false ∧ cat w s.bt = .anyObject) ∨
  (cat w d.bt = .string ∧ d.dim = 0 ∧ num s) ∨ (num s ∧ d.dim = 0 ∧ d.ref = false ∧ d.bt = s.bt + 8) ∨
  (num s ∧ d.dim = 0 ∧ cat w d.bt = .anyObject)

theorem convWith_iff {w : World} {narrow : Bool} {d s : Ty} : Converts w narrow d s ↔ ConvWith w narrow d s := by
  constructor
  · intro h
    cases h with
    | widen h1 h2 h3 | narrow h1 h2 h3 | unbox h1 h2 h3 h4 | unboxAny h1 h2 h3 h4 | toString h1 h2 h3 | box h1 h2 h3 h4 | boxAny h1 h2 h3 =>
      simp only [IsNum] at *
      rw [hasCat_iff (by simp)] at *
      simp_all [ConvWith]
  · have num : ∀ {t : Ty}, t.dim = 0 ∧ t.ref = false ∧ cat w t.bt = .numeric → IsNum w t :=
      fun h => ⟨h.1, h.2.1, (hasCat_iff (by simp)).2 h.2.2⟩
    rintro (⟨h1, h2, h3⟩ | ⟨h1, h2, h3, h4⟩ | ⟨h1, h2, h3, h4⟩ | ⟨h1, h2, h3, h4⟩ | ⟨h1, h2, h3⟩ | ⟨h1, h2, h3, h4⟩ | ⟨h1, h2, h3⟩)
    · exact .widen (num h1) (num h2) h3
    · exact .narrow (num h1) (num h2) h3 h4
    · exact .unbox (num h1) h2 h3 h4
    · exact .unboxAny (num h1) h2 h3 ((hasCat_iff (by simp)).2 h4)
    · exact .toString ((hasCat_iff (by simp)).2 h1) h2 (num h3)
    · exact .box (num h1) h2 h3 h4
    · exact .boxAny (num h1) h2 ((hasCat_iff (by simp)).2 h3)

theorem assignWith_conv {w : World} {sup hi : Nat → Nat → Out Bool} {narrow im : Bool} {d s : Ty}
    (fd : TyFacts (cat w d.bt) d) (fs : TyFacts (cat w s.bt) s)
    (hobj : ∀ i, 11 ≤ i → i ≤ 16 → cat w i = .cls) (hnum : ∀ i, cat w i = .numeric ↔ 3 ≤ i ∧ i ≤ 8) :
    assignWith w sup hi narrow im d s = .ok .conv ↔ ConvWith w narrow d s := by
  obtain ⟨db, dd, dr, dm⟩ := d
  obtain ⟨sb, sd, sr, sm⟩ := s
  obtain ⟨a1, a2, a3, a4, a5, a6, a7, a8, a9, a10⟩ := fd
  obtain ⟨b1, b2, b3, b4, b5, b6, b7, b8, b9, b10⟩ := fs
  simp only at *
  have hbt : db = sb → cat w db = cat w sb := by rintro rfl; rfl
  have e1 : (btNumericObject db = true) = (11 ≤ db ∧ db ≤ 16) := by simp [btNumericObject]
  have e2 : (btNumericObject sb = true) = (11 ≤ sb ∧ sb ≤ 16) := by simp [btNumericObject]
  have o1 := hobj db
  have o2 := hobj sb
  have n1 := hnum db
  have n2 := hnum sb
  clear hobj hnum
  unfold assignWith ConvWith
  simp only [isNumeric, isMulnum, isString, isNumericObject, isClass, isInterface, isAnyObject, isUndef, isNumericArray,
    isMulnumArray, isStringArray, isClassArray, isInterfaceArray, isAnyObjectArray, isMuldim, isVoid, isObject, isArray,
    isObjectArray, a1, a2, a3, a4, a5, b1, b2, b3, b4, b5]
  generalize hkd : cat w db = kd at *
  generalize hks : cat w sb = ks at *
  cases kd <;> simp at * <;> rcases dd with _ | _ | dd <;> simp at * <;>
    first | done | (cases dr <;> cases ks <;> simp [ite_conv, ite_conv'] at * <;> first | done | grind)

end Types
end SPVM
