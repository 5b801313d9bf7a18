import Verif.Model.Guard

namespace SPVM.Guard

/-- 1 for the guards made between the two states. -/
def made (a b k : Nat) : Nat := if a ≤ k ∧ k < b then 1 else 0

/-- From `s` to `s'` every guard that was made was made once and called once, and no other guard was called. -/
def EachOnce (s s' : Sh) : Prop :=
  s.next ≤ s'.next ∧ ∃ l, s'.log = s.log ++ l ∧
    ∀ k, l.count (.reg k) = made s.next s'.next k ∧ l.count (.run k) = made s.next s'.next k

/-- How many calls deeper than itself a piece of code goes; a guard needs two for its destructor and its callback. -/
def reach : Code → Nat
  | .seq a b => max (reach a) (reach b)
  | .defer _ b => reach b + 2
  | .block b => reach b
  | .evalB b => reach b
  | .call _ b _ => reach b + 1
  | _ => 0

/-- The program without its guards. -/
def unguarded : Code → Code
  | .seq a b => .seq (unguarded a) (unguarded b)
  | .defer _ _ => .skip
  | .block b => .block (unguarded b)
  | .evalB b => .evalB (unguarded b)
  | .call m b line => .call m (unguarded b) line
  | c => c

end SPVM.Guard
