import Verif.Spec.Types
import Verif.Model.Cast
/-!
# Specification of type casts

Of the model only the data types (`World`, `Ty`, `Obj`, `Val`) are used.
-/
namespace SPVM
namespace Spec
namespace Types
open SPVM.Types (World BT Ty Cat Obj Val)

/-- `byte[]`. -/
def IsBytes (t : Ty) : Prop := t.bt = 3 ∧ t.dim = 1 ∧ t.ref = false

/-- `object`. -/
def IsAny (w : World) (t : Ty) : Prop := HasCat w t.bt .anyObject ∧ t.dim = 0

/-- `string` or `mutable string`. -/
def IsStr (w : World) (t : Ty) : Prop := HasCat w t.bt .string ∧ t.dim = 0

/-- An array whose elements are objects. -/
def IsObjArray (w : World) (t : Ty) : Prop := 0 < t.dim ∧ IsObj w { t with dim := t.dim - 1 }

/-- `(d)s` is allowed: the tables of "Cast Requirement" in lib/SPVM/Document/Language/Types.pm, with the conversion of strings to
numbers; casts from and to interface types need a class that has the methods. -/
inductive Castable (w : World) (d s : Ty) : Prop
  /-- from number to number -/
  | num : IsNum w d → IsNum w s → Castable w d s
  /-- `(int)` of an `Int` -/
  | unbox : IsNum w d → s.dim = 0 → s.ref = false → s.bt = d.bt + 8 → Castable w d s
  | unboxAny : IsNum w d → IsAny w s → Castable w d s
  | parse : IsNum w d → IsStr w s → Castable w d s
  /-- multi-numeric types and references -/
  | sameValue : d = s → (d.ref = true ∨ d.dim = 0 ∧ HasCat w d.bt .mulnum) → Castable w d s
  | undef : IsObj w d → HasCat w s.bt .undef → Castable w d s
  | fromAny : IsObj w d → IsAny w s → Castable w d s
  | toAny : IsAny w d → IsObj w s → Castable w d s
  | fromAnyArray : IsObjArray w d → HasCat w s.bt .anyObject → s.dim = 1 → Castable w d s
  | toAnyArray : HasCat w d.bt .anyObject → d.dim = 1 → IsObjArray w s → Castable w d s
  | string : IsStr w d → IsStr w s → Castable w d s
  | format : IsStr w d → IsNum w s → Castable w d s
  | bytesToString : IsStr w d → IsBytes s → Castable w d s
  | stringToBytes : IsBytes d → IsStr w s → Castable w d s
  /-- `(Int)` of an `int` -/
  | box : IsNum w s → d.dim = 0 → d.ref = false → d.bt = s.bt + 8 → Castable w d s
  | boxAny : IsNum w s → IsAny w d → Castable w d s
  /-- the same object type (interface types and arrays of these: `toInterface`) -/
  | same : IsObj w d → d.bt = s.bt → d.dim = s.dim → d.ref = s.ref → (HasCat w d.bt .iface → 1 < d.dim) → Castable w d s
  /-- to a super class or a sub class; not for `Byte`, `Short`, ..., `Double` -/
  | related : HasCat w d.bt .cls → HasCat w s.bt .cls → d.dim = s.dim → (d.dim = 0 → ¬ (11 ≤ d.bt ∧ d.bt ≤ 16)) →
      (Ancestor w d.bt s.bt ∨ Ancestor w s.bt d.bt) → Castable w d s
  | toInterface : HasCat w d.bt .iface → d.dim = s.dim → Implements w s.bt d.bt → Castable w d s
  /-- from an interface to a class that has it, or from an array of the one to an array of the other -/
  | fromInterface : HasCat w d.bt .cls → HasCat w s.bt .iface → d.dim = s.dim → d.dim ≤ 1 → (d.dim = 0 → ¬ (11 ≤ d.bt ∧ d.bt ≤ 16)) →
      Implements w d.bt s.bt → Castable w d s

/-- The value `v` is one that a variable of the type `t` may hold: a number of that type, or `undef` or an object whose type can be
assigned to the type; `mutable string` variables do not hold read-only strings. -/
def HasType {φ} (w : World) (t : Ty) : Val φ → Prop
  | .num bt _ => IsNum w t ∧ bt = t.bt
  | .obj none => IsObj w t ∨ HasCat w t.bt .undef
  | .obj (some o) => IsObj w t ∧ WfTy w { bt := o.bt, dim := o.dim } ∧ IsObj w { bt := o.bt, dim := o.dim } ∧
      Assignable w false { bt := t.bt, dim := t.dim } { bt := o.bt, dim := o.dim } ∧ (t.isMut = true → t.dim = 0 → o.readOnly = false)
  | .other _ => t.ref = true ∨ t.dim = 0 ∧ HasCat w t.bt .mulnum

/-- One of the two conversions between strings and byte arrays. -/
def BytesConv (w : World) (d s : Ty) : Prop := IsStr w d ∧ IsBytes s ∨ IsBytes d ∧ IsStr w s

/-- What `(d)v` yields for a value `v` of an expression of the type `s`; `none` is an exception. -/
inductive Result {φ} (c : SPVM.Types.Conv φ) (w : World) (d s : Ty) : Val φ → Option (Val φ) → Prop
  /-- the same numeric type -/
  | numSame : IsNum w d → IsNum w s → s.bt = d.bt → Result c w d s (.num s.bt x) (some (.num d.bt x))
  | num : IsNum w d → IsNum w s → s.bt ≠ d.bt → Result c w d s (.num s.bt x) (some (.num d.bt (c.num s.bt d.bt x)))
  | unboxUndef : IsNum w d → IsObj w s → ¬ IsStr w s → Result c w d s (.obj none) none
  /-- the object is a box of the right class (8 after the numeric type) -/
  | unbox : IsNum w d → IsObj w s → ¬ IsStr w s → o.bt = d.bt + 8 → o.dim = 0 →
      Result c w d s (.obj (some o)) (some (.num d.bt o.data))
  | unboxOther : IsNum w d → IsObj w s → ¬ IsStr w s → ¬ (o.bt = d.bt + 8 ∧ o.dim = 0) → Result c w d s (.obj (some o)) none
  | parse : IsNum w d → IsStr w s → Result c w d s (.obj o) (some (.num d.bt (c.parse d.bt (o.map fun o => o.data))))
  | format : IsStr w d → IsNum w s → Result c w d s (.num s.bt x) (some (.obj (some ⟨d.bt, 0, false, c.format s.bt x⟩)))
  | box : IsObj w d → ¬ IsStr w d → IsNum w s → Result c w d s (.num s.bt x) (some (.obj (some ⟨s.bt + 8, 0, false, x⟩)))
  | bytesToString : IsStr w d → IsBytes s → Result c w d s (.obj (some o)) (some (.obj (some ⟨d.bt, 0, false, o.data⟩)))
  | stringToBytes : IsBytes d → IsStr w s → Result c w d s (.obj (some o)) (some (.obj (some ⟨d.bt, 1, false, o.data⟩)))
  | undef : IsObj w d → (IsObj w s ∨ HasCat w s.bt .undef) → Result c w d s (.obj none) (some (.obj none))
  /-- the very same object, if a variable of the type may hold it -/
  | keep : IsObj w d → IsObj w s → ¬ BytesConv w d s → HasType w d v → Result c w d s v (some v)
  | reject : IsObj w d → IsObj w s → ¬ BytesConv w d s → ¬ HasType w d v → Result c w d s v none
  | same : d = s → Result c w d s v (some v)

end Types
end Spec
end SPVM
