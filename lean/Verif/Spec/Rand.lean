import Verif.Base
/-!
# Specification: the pseudo random generator and shuffling
-/
namespace SPVM.Spec.Rand

/-- The linear congruential step on 32-bit seeds. -/
def lcg (s : Nat) : Nat := (s * 1103515245 + 12345) % 4294967296

/-- The number drawn from a seed: 11, 10 and 10 bits of three successive states, put side by side. -/
def value (s : Nat) : Nat :=
  lcg s / 65536 % 2048 * 1048576 + lcg (lcg s) / 65536 % 1024 * 1024 + lcg (lcg (lcg s)) / 65536 % 1024

/-- The seed left behind by a draw. -/
def next (s : Nat) : Nat := lcg (lcg (lcg s))

/-- The first `n` numbers drawn from a seed. -/
def draws : Nat → Nat → List Nat
  | 0, _ => []
  | n + 1, s => value s :: draws n (next s)

/-- `xs` with the elements at `i` and `j` exchanged. -/
def swap (xs : List α) (i j : Nat) : List α :=
  match xs[i]?, xs[j]? with
  | some a, some b => (xs.set i b).set j a
  | _, _ => xs

/-- The shuffle of Fisher and Yates with the random numbers `value s`, `value (next s)`, ...: for `i` from the top down
to 1, exchange element `i` with the element at `(random number) mod (i + 1)`. -/
def fisherYatesWith (value next : Nat → Nat) (xs : List α) : Nat → Nat → List α
  | 0, _ => xs
  | i + 1, s => fisherYatesWith value next (swap xs (i + 1) (value s % (i + 2))) i (next s)

/-- The shuffle of Fisher and Yates driven by the generator above. -/
def fisherYates (xs : List α) (i s : Nat) : List α := fisherYatesWith value next xs i s

end SPVM.Spec.Rand
