/-!
# Specification of a growing byte string (for `StringBuffer`)
-/
namespace SPVM.Spec.StrBuf

/-- The operations; optional strings are strings or `undef`. -/
inductive Op where
  | push (s : Option (List UInt8)) (offset length : Int)
  | pushChar (c : Int)
  | replace (offset length : Int) (r : Option (List UInt8))
  | reserve (n : Int)
  | set (s : Option (List UInt8))
  | setLength (n : Int)
  | toString
  | length

/-- Results. -/
inductive Res where
  | unit
  | num (n : Int)
  | str (s : List UInt8)
deriving DecidableEq, Repr

/-- What each operation does to a byte string: `none` means an exception (and no change). -/
def step (xs : List UInt8) : Op → Option (Res × List UInt8)
  | .push none _ _ => none
  | .push (some s) o n =>
    if n = -1 then
      if 0 ≤ o ∧ o ≤ s.length then some (.unit, xs ++ s.drop o.toNat) else none
    else
      if 0 ≤ o ∧ 0 ≤ n ∧ o + n ≤ s.length then some (.unit, xs ++ (s.drop o.toNat).take n.toNat) else none
  | .pushChar c => some (.unit, xs ++ [UInt8.ofNat (c % 256).toNat])
  | .replace o n r =>
    if 0 ≤ o ∧ 0 ≤ n ∧ o + n ≤ xs.length then
      some (.unit, xs.take o.toNat ++ r.getD [] ++ xs.drop (o + n).toNat) else none
  | .reserve n => if 0 ≤ n then some (.unit, xs) else none
  | .set none => none
  | .set (some s) => some (.unit, s)
  | .setLength n => if 0 ≤ n then some (.unit, xs.take n.toNat ++ List.replicate (n.toNat - xs.length) 0) else none
  | .toString => some (.str xs, xs)
  | .length => some (.num xs.length, xs)

/-- The byte string after one operation. -/
def next (xs : List UInt8) (op : Op) : List UInt8 :=
  match step xs op with
  | some (_, ys) => ys
  | none => xs

end SPVM.Spec.StrBuf
