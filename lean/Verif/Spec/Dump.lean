import Verif.Spec.Utf8
import Verif.Model.Dump
/-!
# What `dump` shows

The picture of an object is a tree.  An object of a class is shown in full where it occurs for the first time in the order of the text
and as `REUSE_OBJECT(address)` where it occurs again; strings and arrays are shown in full each time.
-/
namespace SPVM.Spec.Dump
open SPVM.VM (Bytes)
open SPVM.Dump (Num FVal Obj Heap)
open SPVM.Spec.Utf8 (IsScalar encode Stuck)

/-- ASCII text. -/
def text (s : String) : Bytes := s.toUTF8.toList

inductive Tree where
  | undef
  | str (shown : Bytes)
  | num (n : Num)
  | tuple (fields : List (Bytes × Num))
  | arr (addr : Nat) (type : Bytes) (elems : List Tree)
  | obj (addr : Nat) (cls : Bytes) (fields : List (Bytes × Tree))
  | reuse (addr : Nat)

/-- Two hexadecimal digits. -/
def hex2 (c : UInt8) : Bytes := [(text "0123456789ABCDEF").getD (c.toNat / 16) 0, (text "0123456789ABCDEF").getD (c.toNat % 16) 0]

/-- How the bytes of a string are shown: UTF-8 characters as they are, except for ASCII characters that cannot be printed; these and
bytes that belong to no character as `\x{..}`. -/
inductive Shown : Bytes → Bytes → Prop
  | nil : Shown [] []
  | char {cp s e} : IsScalar cp → (0x20 ≤ cp ∧ cp ≤ 0x7e ∨ 0x80 ≤ cp) → Shown s e → Shown (encode cp ++ s) (encode cp ++ e)
  | control {c s e} : c.toNat < 0x20 ∨ c.toNat = 0x7f → Shown s e → Shown (c :: s) (text "\\x{" ++ hex2 c ++ text "}" ++ e)
  | stray {c s e} : Stuck (c :: s) → Shown s e → Shown (c :: s) (text "\\x{" ++ hex2 c ++ text "}" ++ e)

/-- The object a stored reference points to: a weak reference has its lowest bit set. -/
def target (word : Nat) : Nat := word - word % 2

/-- The name of an array type. -/
def arrayType (elem : Bytes) (dim : Nat) : Bytes := elem ++ (List.replicate dim (text "[]")).flatten

/-- The tree `t` is a picture of the object at the address `a`; `0` is `undef`. -/
inductive Depicts (H : Heap) : Nat → Tree → Prop
  | undef : Depicts H 0 .undef
  | str {a s e} : a ≠ 0 → H a = some (.str s) → Shown s e → Depicts H a (.str e)
  | nums {a elem els} : a ≠ 0 → H a = some (.nums elem els) → Depicts H a (.arr a (arrayType elem 1) (els.map .num))
  | muls {a elem els} : a ≠ 0 → H a = some (.muls elem els) → Depicts H a (.arr a (arrayType elem 1) (els.map .tuple))
  | objs {a elem dim els ts} : a ≠ 0 → H a = some (.objs elem dim els) → ts.length = els.length →
      (∀ (i : Nat) w t, els[i]? = some w → ts[i]? = some t → Depicts H (target w) t) →
      Depicts H a (.arr a (arrayType elem dim) ts)
  | obj {a cls fields ts} : a ≠ 0 → H a = some (.inst cls fields) → ts.map (·.1) = fields.map (·.1) →
      (∀ (i : Nat) name n t, fields[i]? = some (name, .num n) → ts[i]? = some (name, t) → t = .num n) →
      (∀ (i : Nat) name w t, fields[i]? = some (name, .ref w) → ts[i]? = some (name, t) → Depicts H (target w) t) →
      Depicts H a (.obj a cls ts)
  | reuse {a cls fields} : a ≠ 0 → H a = some (.inst cls fields) → Depicts H a (.reuse a)

mutual
/-- The objects of classes in the order of the text, and whether they are shown in full. -/
def visits : Tree → List (Nat × Bool)
  | .arr _ _ ts => visitsL ts
  | .obj a _ fs => (a, true) :: visitsF fs
  | .reuse a => [(a, false)]
  | _ => []
def visitsL : List Tree → List (Nat × Bool)
  | [] => []
  | t :: ts => visits t ++ visitsL ts
def visitsF : List (Bytes × Tree) → List (Nat × Bool)
  | [] => []
  | (_, t) :: fs => visits t ++ visitsF fs
end

/-- Every object is shown in full at its first place and only there. -/
def FirstInFull (t : Tree) : Prop :=
  ∀ pre a full post, visits t = pre ++ (a, full) :: post → (full = true ↔ a ∉ pre.map (·.1))

def indent (d : Nat) : Bytes := (List.replicate d (text "  ")).flatten

/-- What follows an element or a field. -/
def sep (more : Bool) : Bytes := if more then text ",\n" else text "\n"

def decimal (i : Int) : Bytes := (if i < 0 then text "-" else []) ++ text (Nat.repr i.natAbs)

def number : Num → Bytes
  | .int i => decimal i
  | .flo t => t

def numberLines (d : Nat) : List (Bytes × Num) → Bytes
  | [] => []
  | (name, n) :: fs => indent d ++ name ++ text " => " ++ number n ++ sep (!fs.isEmpty) ++ numberLines d fs

mutual
/-- The text of a tree at a depth, `p` prints addresses. -/
def pretty (p : Nat → Bytes) (d : Nat) : Tree → Bytes
  | .undef => text "undef"
  | .str e => text "\"" ++ e ++ text "\""
  | .num n => number n
  | .tuple fs => text "{\n" ++ numberLines (d + 1) fs ++ text "  }"
  | .arr a ty ts => text "[\n" ++ lines p (d + 1) ts ++ indent d ++ text "] : " ++ ty ++ text "(" ++ p a ++ text ")"
  | .obj a cls fs => cls ++ text " (" ++ p a ++ text ") {\n" ++ fieldLines p (d + 1) fs ++ indent d ++ text "}"
  | .reuse a => text "REUSE_OBJECT(" ++ p a ++ text ")"
def lines (p : Nat → Bytes) (d : Nat) : List Tree → Bytes
  | [] => []
  | t :: ts => indent d ++ pretty p d t ++ sep (!ts.isEmpty) ++ lines p d ts
def fieldLines (p : Nat → Bytes) (d : Nat) : List (Bytes × Tree) → Bytes
  | [] => []
  | (name, t) :: fs => indent d ++ name ++ text " => " ++ pretty p d t ++ sep (!fs.isEmpty) ++ fieldLines p d fs
end

end SPVM.Spec.Dump
