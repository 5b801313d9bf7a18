import Verif.Model.VM
/-!
# Pseudo random numbers (lib/SPVM/Fn.c)
-/
namespace SPVM
namespace Rand

/-- `next *= 1103515245; next += 12345;` on `uint32_t`, Fn.c 122-123, 125-126, 129-130. -/
def step (next : BitVec 32) : BitVec 32 := next * 1103515245#32 + 12345#32

/-- `result ^= u` for an `int` and a `uint32_t`: computed in `uint32_t`, stored in `int` (Fn.c 128, 132). -/
def xorInt (result : Int) (u : BitVec 32) : Int := (BitVec.ofInt 32 result ^^^ u).toInt

/-- The computation of `result` in `SPVM__Fn__static__rand_r` from the three states, Fn.c 124-132.  `result <<= 10` is a
shift of a signed `int`. -/
def combine (n1 n2 n3 : BitVec 32) : Out Int := do
  let result : Int := ((n1 / 65536#32) % 2048#32).toNat
  let result ← VM.leftShift 32 result 10
  let result := xorInt result ((n2 / 65536#32) % 1024#32)
  let result ← VM.leftShift 32 result 10
  return xorInt result ((n3 / 65536#32) % 1024#32)

/-- `SPVM__Fn__crand`, Fn.c 136-145, with `SPVM__Fn__static__rand_r`, Fn.c 117-134.  The state is the `int` behind
`$seed_ref`, read and written as a `uint32_t`. -/
def crand : Prog (BitVec 32) Int := fun seed =>
  (combine (step seed) (step (step seed)) (step (step (step seed))), step (step (step seed)))

/-- `n` successive calls of `Fn->crand` with the same seed reference. -/
def draws : Nat → BitVec 32 → List (Out Int)
  | 0, _ => []
  | n + 1, s => (crand s).1 :: draws n (crand s).2

end Rand
end SPVM
