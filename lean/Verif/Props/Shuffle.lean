import Verif.Lemmas.ArrayOps
import Verif.Props.ArrayCopy
/-!
# C13 shuffle, C45 random numbers
-/
set_option linter.unusedSimpArgs false
namespace SPVM
namespace ArrayOps
open VM (Bytes)
open Spec.Rand (value next draws fisherYates)

/-! ## C45 -/

/-- **C45**: for every seed, `Fn->crand` returns normally; the number and the new seed are the documented functions of
the old seed (so equal seeds give equal numbers), and the number lies in `0 .. 2^31 - 1`. -/
theorem c45_crand (seed : BitVec 32) :
    ∃ (r : Int) (seed' : BitVec 32), Rand.crand seed = (.ok r, seed') ∧ 0 ≤ r ∧ r ≤ 2147483647 ∧
      r = value seed.toNat ∧ seed'.toNat = next seed.toNat := by
  obtain ⟨s', e, h⟩ := crand_ok seed
  have := value_lt seed.toNat
  exact ⟨_, s', e, by omega, by omega, rfl, h⟩

/-- **C45** (histories): the numbers of any number of successive calls are determined by the initial seed. -/
theorem c45_draws (n : Nat) (seed : BitVec 32) :
    Rand.draws n seed = (draws n seed.toNat).map fun (v : Nat) => Out.ok (v : Int) := by
  induction n generalizing seed with
  | zero => rfl
  | succ n ih =>
    obtain ⟨s', e, h⟩ := crand_ok seed
    simp only [Rand.draws, draws, List.map_cons, e, ih, h]

theorem step_injective (s t : BitVec 32) (h : Rand.step s = Rand.step t) : s = t := by
  unfold Rand.step at h
  have h1 : s * 1103515245#32 = t * 1103515245#32 := by
    have := congrArg (· - 12345#32) h
    simpa [BitVec.add_sub_cancel] using this
  have h2 : s * 1103515245#32 * 4005161829#32 = t * 1103515245#32 * 4005161829#32 := by rw [h1]
  have h3 : 1103515245#32 * 4005161829#32 = 1#32 := by decide
  rwa [BitVec.mul_assoc, BitVec.mul_assoc, h3, BitVec.mul_one, BitVec.mul_one] at h2

/-- **C45** (no collapse): different seeds are followed by different seeds, so no draw loses information about the
seed. -/
theorem c45_seed_injective (s t : BitVec 32) (h : (Rand.crand s).2 = (Rand.crand t).2) : s = t := by
  unfold Rand.crand at h
  exact step_injective _ _ (step_injective _ _ (step_injective _ _ h))

/-- Non-vacuity of C45: concrete draws (the second seed is what the first draw leaves). -/
example : Rand.draws 2 1#32 = [.ok 476707713, .ok 1186278907] := by decide +kernel

/-! ## C13 -/

theorem add_succ32 {i : Nat} (h : i + 2 ≤ 2147483647) : add32 ((i + 1 : Nat) : Int) 1 = .ok ((i + 2 : Nat) : Int) := by
  have e : ((i + 1 : Nat) : Int) + 1 = ((i + 2 : Nat) : Int) := by omega
  rw [add32_ok (by unfold I32; omega), e]

theorem fyw_perm (v nx : Nat → Nat) (a : List α) (i s : Nat) : (Spec.Rand.fisherYatesWith v nx a i s).Perm a := by
  induction i generalizing a s with
  | zero => exact List.Perm.refl _
  | succ i ih => exact (ih _ _).trans (swap_perm _ _ _)

theorem fisherYates_perm (a : List α) (i s : Nat) : (fisherYates a i s).Perm a := fyw_perm _ _ a i s

theorem shuffleLoop_gen {v nx : Nat → Nat} {rng : Prog (BitVec 32) Int}
    (hr : ∀ s, ∃ s' : BitVec 32, rng s = (.ok (v s.toNat : Nat), s') ∧ s'.toNat = nx s.toNat)
    (i : Nat) (a : List α) (seed : BitVec 32) (hi : i < a.length ∨ i = 0) (hn : a.length ≤ 2147483647) :
    ∃ seed', shuffleLoop rng i a seed = (.ok (Spec.Rand.fisherYatesWith v nx a i seed.toNat), seed') := by
  induction i generalizing a seed with
  | zero => exact ⟨seed, rfl⟩
  | succ i ih =>
    have hi' : i + 1 < a.length := by omega
    obtain ⟨s', e, h⟩ := hr seed
    have hlt : v seed.toNat % (i + 2) < i + 2 := Nat.mod_lt _ (by omega)
    have hm := modInt_ok (r := v seed.toNat) (m := i + 2) (by omega)
    have ha := add_succ32 (i := i) (by omega)
    obtain ⟨s'', e2⟩ := ih (Spec.Rand.swap a (i + 1) (v seed.toNat % (i + 2))) s' (by rw [swap_length]; omega)
      (by rw [swap_length]; omega)
    clear hn
    have hbody : shuffleBody a (i + 1) (v seed.toNat : Nat) = .ok (Spec.Rand.swap a (i + 1) (v seed.toNat % (i + 2))) := by
      unfold shuffleBody
      rw [ha, Out.ok_bind, hm, Out.ok_bind, swap_ok (by omega) (by omega) (by omega) (by omega), Int.toNat_natCast,
        Int.toNat_natCast]
    rw [shuffleLoop, Prog.bind_ok e, hbody, Prog.lift_ok_bind]
    refine ⟨s'', ?_⟩
    rw [e2, h]
    rfl

theorem shuffleLoop_ok (i : Nat) (a : List α) (seed : BitVec 32) (hi : i < a.length ∨ i = 0) (hn : a.length ≤ 2147483647) :
    ∃ seed', shuffleLoop Rand.crand i a seed = (.ok (fisherYates a i seed.toNat), seed') :=
  shuffleLoop_gen crand_ok i a seed hi hn

/-- **C13** (object arrays): for every array and every seed, `Array->shuffle_object` returns normally and leaves a
permutation of the array — exactly the Fisher–Yates exchange sequence driven by the seed, so equal seeds give equal
results. -/
theorem c13_shuffle_object (a : List α) (seed : BitVec 32) (hn : a.length ≤ 2147483647) :
    ∃ a' seed', shuffleObject (some a) seed = (.ok a', seed') ∧ a'.Perm a ∧
      a' = fisherYates a (a.length - 1) seed.toNat := by
  obtain ⟨s', e⟩ := shuffleLoop_ok (a.length - 1) a seed (by omega) hn
  exact ⟨_, s', e, fisherYates_perm _ _ _, rfl⟩

/-- **C13**: an undefined array throws and the seed is untouched. -/
theorem c13_undef_throws (seed : BitVec 32) :
    ∃ m, shuffleObject (none : Option (List α)) seed = (.die m, seed) := ⟨_, rfl⟩

theorem shuffleNumLoop_gen {v nx : Nat → Nat} {rng : Prog (BitVec 32) Int}
    (hr : ∀ s, ∃ s' : BitVec 32, rng s = (.ok (v s.toNat : Nat), s') ∧ s'.toNat = nx s.toNat)
    {es : Nat} (i : Nat) (a : List Bytes) (temp : Bytes) (seed : BitVec 32) (hc : Chunks es a)
    (ht : temp.length = es) (hi : i < a.length ∨ i = 0) (hn : a.length ≤ 2147483647) (hsz : es * a.length ≤ 2147483647) :
    ∃ seed', shuffleNumLoop rng true es a.length i temp a.flatten seed =
      (.ok (Spec.Rand.fisherYatesWith v nx a i seed.toNat).flatten, seed') := by
  induction i generalizing a seed temp with
  | zero => exact ⟨seed, rfl⟩
  | succ i ih =>
    have hi' : i + 1 < a.length := by omega
    obtain ⟨s', e, h⟩ := hr seed
    have hlt : v seed.toNat % (i + 2) < i + 2 := Nat.mod_lt _ (by omega)
    have hm := modInt_ok (r := v seed.toNat) (m := i + 2) (by omega)
    have ha := add_succ32 (i := i) (by omega)
    have hsw := swapNum_ok (lax := true) hc hsz ht hi' (show v seed.toNat % (i + 2) < a.length by omega) (.inl rfl)
    obtain ⟨s'', e2⟩ := ih (Spec.Rand.swap a (i + 1) (v seed.toNat % (i + 2))) a[i + 1] s' (swap_chunks hc _ _)
      (hc _ (List.getElem_mem _)) (by rw [swap_length]; omega) (by rw [swap_length]; omega) (by rw [swap_length]; exact hsz)
    rw [swap_length] at e2
    clear hn hsz ih
    have hbody : shuffleNumBody true es a.length temp a.flatten (i + 1) (v seed.toNat : Nat) =
        .ok (a[i + 1], (Spec.Rand.swap a (i + 1) (v seed.toNat % (i + 2))).flatten) := by
      unfold shuffleNumBody
      rw [ha, Out.ok_bind, hm, Out.ok_bind, hsw]
    rw [shuffleNumLoop, Prog.bind_ok e, hbody, Prog.lift_ok_bind]
    simp only []
    refine ⟨s'', ?_⟩
    rw [e2, h]
    rfl

theorem shuffleNumLoop_ok {es : Nat} (i : Nat) (a : List Bytes) (temp : Bytes) (seed : BitVec 32) (hc : Chunks es a)
    (ht : temp.length = es) (hi : i < a.length ∨ i = 0) (hn : a.length ≤ 2147483647) (hsz : es * a.length ≤ 2147483647) :
    ∃ seed', shuffleNumLoop Rand.crand true es a.length i temp a.flatten seed =
      (.ok (fisherYates a i seed.toNat).flatten, seed') :=
  shuffleNumLoop_gen crand_ok i a temp seed hc ht hi hn hsz

/-- **C13** (numeric and multi-numeric arrays; partial: the array has at most 2^31 - 1 bytes, and C `memcpy` of a range
onto itself is taken to be harmless, see `c13_self_copy_violated`).  `a` is the array as the list of its elements, each
of `es` bytes; the result is the block of a permutation of these elements. -/
theorem c13_shuffle_numeric_partial (es : Nat) (a : List Bytes) (hc : ∀ c ∈ a, c.length = es) (seed : BitVec 32)
    (hn : a.length ≤ 2147483647) (hsz : es * a.length ≤ 2147483647) :
    ∃ a' seed', shuffleNum true es a.length a.flatten seed = (.ok a'.flatten, seed') ∧ a'.Perm a ∧
      a' = fisherYates a (a.length - 1) seed.toNat := by
  obtain ⟨s', e⟩ := shuffleNumLoop_ok (a.length - 1) a (List.replicate es 0) seed hc (by simp) (by omega) hn hsz
  exact ⟨_, s', e, fisherYates_perm _ _ _, rfl⟩

/-- **C13** is false for numeric arrays under the letter of the C standard: whenever the draw says "leave it in place",
`memcpy` is called with two identical ranges, which is undefined.  Witness: the array `(1, 2)` and the seed 1. -/
theorem c13_self_copy_violated : (shuffleNum false 1 2 [1, 2] 1#32).1 = .ub := by decide +kernel

/-- Non-vacuity of C13. -/
example : (shuffleObject (some [10, 20, 30, 40, 50]) 3#32).1 = .ok [20, 40, 30, 50, 10] := by decide +kernel
example : (shuffleNum true 2 3 [1, 2, 3, 4, 5, 6] 7#32).1 = .ok [1, 2, 5, 6, 3, 4] := by decide +kernel

/-! ### Every permutation can be drawn -/

/-- A random source that plays back a list of numbers (0 when it is used up). -/
def script : Prog (List Nat) Int := fun s =>
  match s with
  | [] => (.ok 0, [])
  | r :: rs => (.ok r, rs)

theorem shuffleLoop_reach (i : Nat) (a b : List α) (hi : i + 1 = a.length ∨ (i = 0 ∧ a.length = 0)) (tail : List α)
    (hn : (a ++ tail).length ≤ 2147483647) (hp : a.Perm b) :
    ∃ rs rs' : List Nat, shuffleLoop script i (a ++ tail) rs = (.ok (b ++ tail), rs') := by
  induction i generalizing a b tail with
  | zero =>
    have : a = b := by
      rcases hi with hi | hi
      · match a, hi with
        | [x], _ => exact (List.perm_singleton.mp hp.symm).symm
      · have : a = [] := List.length_eq_zero_iff.mp hi.2
        subst this
        simpa using hp.symm
    subst this
    exact ⟨[], [], rfl⟩
  | succ i ih =>
    have hl : a.length = i + 2 := by omega
    have hlb : b.length = i + 2 := by rw [← hp.length_eq]; exact hl
    -- the last element of the target and its position in `a`
    have hbl : b = b.take (i + 1) ++ [b[i + 1]] := by
      rw [List.take_append_getElem, List.take_of_length_le (by omega)]
    have hmem : b[i + 1] ∈ a := hp.mem_iff.mpr (List.getElem_mem _)
    obtain ⟨j, hj, ej⟩ := List.mem_iff_getElem.mp hmem
    let a' := Spec.Rand.swap a (i + 1) j
    have hla : a'.length = i + 2 := by rw [swap_length]; exact hl
    have hlast : a'[i + 1]? = some b[i + 1] := by
      rw [swap_getElem? (by omega) hj]
      by_cases h : i + 1 = j
      · subst h
        rw [if_pos rfl, List.getElem?_eq_getElem hj, ej]
      · rw [if_neg h, if_pos rfl, List.getElem?_eq_getElem hj, ej]
    obtain ⟨hq, hlast⟩ := List.getElem?_eq_some_iff.mp hlast
    have hal : a' = a'.take (i + 1) ++ [b[i + 1]] := by
      rw [← hlast, List.take_append_getElem, List.take_of_length_le (by omega)]
    have hp' : (a'.take (i + 1)).Perm (b.take (i + 1)) := by
      have h1 : a'.Perm b := (swap_perm _ _ _).trans hp
      have h2 : (a'.take (i + 1) ++ [b[i + 1]]).Perm (b.take (i + 1) ++ [b[i + 1]]) := by
        rw [← hal, ← hbl]; exact h1
      exact (List.perm_append_right_iff _).mp h2
    obtain ⟨rs, rs', e⟩ := ih (a'.take (i + 1)) (b.take (i + 1)) (.inl (by simp; omega)) (b[i + 1] :: tail)
      (by simp; simp at hn; omega) hp'
    refine ⟨j :: rs, rs', ?_⟩
    have hm := modInt_ok (r := j) (m := i + 2) (by omega)
    rw [Nat.mod_eq_of_lt (by omega)] at hm
    have ha := add_succ32 (i := i) (by rw [List.length_append] at hn; omega)
    clear hn ih
    have hbody : shuffleBody (a ++ tail) (i + 1) j = .ok (Spec.Rand.swap (a ++ tail) (i + 1) j) := by
      unfold shuffleBody
      rw [ha, Out.ok_bind, hm, Out.ok_bind, swap_ok (by omega) (by simp; omega) (by omega) (by simp; omega),
        Int.toNat_natCast, Int.toNat_natCast]
    rw [shuffleLoop, Prog.bind_ok (x := script) (s := j :: rs) (a := (j : Int)) (s' := rs) rfl, hbody, Prog.lift_ok_bind]
    have hsw : Spec.Rand.swap (a ++ tail) (i + 1) j = a'.take (i + 1) ++ b[i + 1] :: tail := by
      have h1 : Spec.Rand.swap (a ++ tail) (i + 1) j = a' ++ tail := by
        show _ = Spec.Rand.swap a (i + 1) j ++ tail
        rw [spec_swap_eq (by simp; omega) (by simp; omega), spec_swap_eq (by omega) hj]
        rw [List.getElem_append_left hj, List.getElem_append_left (by omega), List.set_append_left _ _ (by omega),
          List.set_append_left _ _ (by simp; omega)]
      rw [h1]
      conv => lhs; rw [hal]
      simp
    rw [hsw, e]
    rw [List.append_cons, ← hbl]

/-- **C13** (nothing is out of reach): for every permutation `b` of `a` there are random numbers for which the shuffle
loop produces `b`; the method is not restricted to some of the arrangements. -/
theorem c13_every_permutation (a b : List α) (hn : a.length ≤ 2147483647) (hp : a.Perm b) :
    ∃ rs rs' : List Nat, shuffleLoop script (a.length - 1) a rs = (.ok b, rs') := by
  have := shuffleLoop_reach (a.length - 1) a b (by omega) [] (by simpa using hn) hp
  simpa using this

end ArrayOps
end SPVM
