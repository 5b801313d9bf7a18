import Verif.Props.Types
import Verif.Spec.Cast
/-!
# When `SPVM_TYPE_satisfy_cast_requirement` says yes
-/
set_option linter.unusedSimpArgs false
namespace SPVM
namespace Types
open Spec.Types

/-- Numbers by category. -/
def numB (k : Cat) (t : Ty) : Prop := t.dim = 0 ∧ t.ref = false ∧ k = .numeric

/-- Where the code differs from the specification: the cast of an `Int` to `Int` is refused, the cast of an `int` or an `int[][]` to
`int[]` is accepted. -/
def Odd (w : World) (d s : Ty) : Prop :=
  (d.dim = 0 ∧ (11 ≤ d.bt ∧ d.bt ≤ 16) ∧ s.bt = d.bt ∧ s.dim = 0 ∧ s.ref = false) ∨
  (d.dim = 1 ∧ (cat w d.bt = .numeric ∧ d.bt ≠ 3 ∨ cat w d.bt = .mulnum) ∧ s.bt = d.bt ∧ (s.dim ≠ 1 ∨ s.ref = true))

/-- The cases in which the answer is "yes". -/
def YesCast (w : World) (sup hi : Nat → Nat → Out Bool) (d s : Ty) : Prop :=
  let kd := cat w d.bt
  let ks := cat w s.bt
  (numB kd d ∧ (numB ks s ∨ (s.dim = 0 ∧ s.ref = false ∧ s.bt = d.bt + 8) ∨ (s.dim = 0 ∧ (ks = .anyObject ∨ ks = .string)))) ∨
  (d = s ∧ (d.ref = true ∨ d.dim = 0 ∧ kd = .mulnum)) ∨
  (objB kd d ∧ (ks = .undef ∨ ks = .anyObject ∧ s.dim = 0)) ∨
  (kd = .anyObject ∧ d.dim = 0 ∧ (objB ks s ∨ numB ks s)) ∨
  (0 < d.dim ∧ objB kd { d with dim := d.dim - 1 } ∧ ks = .anyObject ∧ s.dim = 1) ∨
  (kd = .anyObject ∧ d.dim = 1 ∧ 0 < s.dim ∧ objB ks { s with dim := s.dim - 1 }) ∨
  (kd = .string ∧ d.dim = 0 ∧ (ks = .string ∧ s.dim = 0 ∨ numB ks s ∨ (s.bt = 3 ∧ s.dim = 1 ∧ s.ref = false))) ∨
  (d.bt = 3 ∧ d.dim = 1 ∧ d.ref = false ∧ ks = .string ∧ s.dim = 0) ∨
  (numB ks s ∧ d.dim = 0 ∧ d.ref = false ∧ d.bt = s.bt + 8) ∨
  (objB kd d ∧ d.bt = s.bt ∧ d.dim = s.dim ∧ d.ref = s.ref ∧ (kd = .iface → 1 < d.dim)) ∨
  (kd = .cls ∧ ks = .cls ∧ d.dim = s.dim ∧ (d.dim = 0 → ¬ (11 ≤ d.bt ∧ d.bt ≤ 16)) ∧ d.bt ≠ s.bt ∧
    (sup d.bt s.bt = .ok true ∨ sup d.bt s.bt = .ok false ∧ sup s.bt d.bt = .ok true)) ∨
  (kd = .iface ∧ d.dim = s.dim ∧ (ks = .cls ∨ ks = .iface) ∧ hi s.bt d.bt = .ok true) ∨
  (kd = .cls ∧ ks = .iface ∧ d.dim = s.dim ∧ d.dim ≤ 1 ∧ (d.dim = 0 → ¬ (11 ≤ d.bt ∧ d.bt ≤ 16)) ∧ hi d.bt s.bt = .ok true)

theorem ite_true' (c : Prop) [Decidable c] (x y : Out Bool) :
    ((if c then x else y) = Out.ok true) = ((c ∧ x = .ok true) ∨ (¬ c ∧ y = .ok true)) := by
  split <;> simp_all

@[simp] theorem bind_ifB (x y : Out Bool) :
    ((x >>= fun b => if b = true then Out.ok true else y) = Out.ok true) = (x = .ok true ∨ (x = .ok false ∧ y = .ok true)) := by
  rcases x with (_|_) | _ | _ <;> simp

theorem castWith_yes {w : World} {sup hi : Nat → Nat → Out Bool} {d s : Ty} (fd : TyFacts (cat w d.bt) d) (fs : TyFacts (cat w s.bt) s)
    (hobj : ∀ i, 11 ≤ i → i ≤ 16 → cat w i = .cls) (hnum : ∀ i, cat w i = .numeric ↔ 3 ≤ i ∧ i ≤ 8)
    (hsup : ∀ a b, cat w a ≠ .cls ∨ cat w b ≠ .cls → sup a b = .ok false) (hhi : ∀ a b, cat w b ≠ .iface → hi a b ≠ .ok true)
    (hodd : ¬ Odd w d s) :
    castWith w sup hi d s = .ok true ↔ YesCast w sup hi d s := by
  obtain ⟨db, dd, dr, dm⟩ := d
  obtain ⟨sb, sd, sr, sm⟩ := s
  obtain ⟨a1, a2, a3, a4, a5, a6, a7, a8, a9, a10⟩ := fd
  obtain ⟨b1, b2, b3, b4, b5, b6, b7, b8, b9, b10⟩ := fs
  simp only at *
  have hbt : db = sb → cat w db = cat w sb := by rintro rfl; rfl
  have e1 : (btNumericObject db = true) = (11 ≤ db ∧ db ≤ 16) := by simp [btNumericObject]
  have e2 : (btNumericObject sb = true) = (11 ≤ sb ∧ sb ≤ 16) := by simp [btNumericObject]
  have o1 := hobj db
  have o2 := hobj sb
  have n1 := hnum db
  have n2 := hnum sb
  have s1 := hsup db sb
  have s2 := hsup sb db
  have i1 := hhi db sb
  have i2 := hhi sb db
  clear hobj hnum hsup hhi
  unfold castWith YesCast
  simp only [Odd] at hodd
  simp only [isNumeric, isMulnum, isString, isNumericObject, isClass, isInterface, isAnyObject, isUndef, isNumericArray, isByteArray,
    isMulnumArray, isStringArray, isClassArray, isInterfaceArray, isAnyObjectArray, isMuldim, isVoid, isObject, isArray,
    isObjectArray, a1, a2, a3, a4, a5, b1, b2, b3, b4, b5, objB, numB, ← e1]
  generalize hkd : cat w db = kd at *
  generalize hks : cat w sb = ks at *
  cases kd <;> simp at * <;> rcases dd with _ | _ | dd <;> simp at * <;>
    first | done | (cases dr <;> cases ks <;> simp [ite_true'] at * <;> first | done | grind)

end Types
end SPVM
