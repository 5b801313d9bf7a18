import Verif.Lemmas.Sort
import Verif.Props.VM
/-!
# C10, C11, C12: sorting
-/
set_option linter.unusedSimpArgs false
namespace SPVM
namespace MSort
open Spec.Sort (Preorder Sorted same StableSort)
variable {α τ : Type}

/-- The number of elements asked for: `$length`, or the rest of the array for a negative `$length`. -/
def count (array : List α) (offset length : Int) : Int := if length < 0 then array.length - offset else length

/-- The arguments `$offset`, `$length` describe a range of the array. -/
def InRange (array : List α) (offset length : Int) : Prop :=
  0 ≤ offset ∧ 0 ≤ count array offset length ∧ offset + count array offset length ≤ array.length

theorem sort_inRange {limit : Nat} {zero : α} {cmp : Cmp τ α} {array : List α} {env : τ} {offset length : Int}
    (hlen : array.length ≤ 2147483647) (hr : InRange array offset length) :
    sort limit zero (some cmp) (some array) env offset length =
      sortRange limit zero cmp array env offset (count array offset length) := by
  obtain ⟨h0, h1, h2⟩ := hr
  simp only [sort]
  rw [if_neg (by omega)]
  have hc : (if length < 0 then sub32 (alen array) offset else .ok length) = .ok (count array offset length) := by
    unfold count at *
    split
    · rename_i h; rw [if_pos h] at h1 h2
      exact sub32_ok (by simp only [alen]; constructor <;> omega)
    · rfl
  rw [hc]
  simp only
  rw [add32_ok (by constructor <;> omega)]
  simp only
  rw [if_neg (by simp only [alen]; omega)]

/-- **C10**: with a comparator that always answers by a total preorder, `sort_*` replaces the range by its stable sort and
changes nothing else.  (Arrays of at most 2^30 elements: beyond that the code overflows, see
`c10_index_overflow_violated`.) -/
theorem c10_stable_sort (limit : Nat) (zero : α) (cmp : Cmp τ α) (c : α → α → Int)
    (hans : ∀ t x y, (cmp t x y).1 = .ok (c x y)) (hpre : Preorder c)
    (array : List α) (env : τ) (offset length : Int) (hlen : array.length ≤ 1073741824)
    (hr : InRange array offset length) (hmem : count array offset length ≤ limit) :
    ∃ zs env', sort limit zero (some cmp) (some array) env offset length =
        (.ok (), array.take offset.toNat ++ zs ++ array.drop (offset + count array offset length).toNat, env') ∧
      StableSort c ((array.drop offset.toNat).take (count array offset length).toNat) zs := by
  rw [sort_inRange (by omega) hr]
  obtain ⟨h0, h1, h2⟩ := hr
  generalize count array offset length = n at *
  unfold sortRange
  by_cases hz : n = 0
  · subst hz
    refine ⟨[], env, by simp, ?_, ?_, ?_⟩
    · simp
    · simp [Sorted]
    · simp
  · rw [if_neg hz]
    unfold newArray
    rw [if_pos (by omega), if_pos (by omega)]
    simp only
    obtain ⟨zs, b', t', e, p, _, so, st⟩ := mergeSort_sorted (cmp := cmp) hans hpre offset.toNat (offset + n - 1).toNat
      { a := array, b := List.replicate n.toNat zero, env := env } (by simp only; omega) (by omega)
      (by simp; omega) (by omega)
    have hn : (offset + n - 1).toNat + 1 - offset.toNat = n.toNat := by omega
    rw [hn] at p st
    have hl := p.length_eq
    rw [seg_length (by simp only; omega)] at hl
    rw [e]
    refine ⟨zs, t', ?_, p, so, st⟩
    simp only [wrt, hl, List.append_assoc]
    have : (offset + n).toNat = offset.toNat + n.toNat := by omega
    rw [this]

/-- **C10**, the other calls: an undefined array or comparator, or a range outside the array, throws and leaves the array
as it was. -/
theorem c10_bad_arguments_throw (limit : Nat) (zero : α) (cmp : Option (Cmp τ α)) (array : Option (List α)) (env : τ)
    (offset length : Int) (hlen : (array.getD []).length ≤ 2147483647) (ho : I32 offset) (hl : I32 length)
    (hsum : offset + length ≤ 2147483647)
    (hbad : array = none ∨ cmp = none ∨ ¬ InRange (array.getD []) offset length) :
    ∃ m, sort limit zero cmp array env offset length = (.die m, array.getD [], env) := by
  cases array with
  | none => exact ⟨_, rfl⟩
  | some array =>
    cases cmp with
    | none => exact ⟨_, rfl⟩
    | some cmp =>
      simp only [Option.getD_some, reduceCtorEq, false_or] at hbad hlen ⊢
      simp only [sort]
      by_cases h0 : offset ≥ 0
      · rw [if_neg (by omega)]
        obtain ⟨ho1, ho2⟩ := ho
        obtain ⟨hl1, hl2⟩ := hl
        by_cases hn : length < 0
        · rw [if_pos hn, sub32_ok (by simp only [alen]; constructor <;> omega)]
          simp only
          rw [add32_ok (by simp only [alen]; constructor <;> omega)]
          simp only
          have hc : count array offset length = array.length - offset := by simp [count, hn]
          unfold InRange at hbad
          rw [hc] at hbad
          rw [if_neg (by simp only [alen]; omega)]
          unfold sortRange
          rw [if_neg (by simp only [alen]; omega)]
          unfold newArray
          rw [if_neg (by simp only [alen]; omega)]
          exact ⟨_, rfl⟩
        · rw [if_neg hn]
          simp only
          rw [add32_ok (by constructor <;> omega)]
          simp only
          have hc : count array offset length = length := by simp [count, hn]
          unfold InRange at hbad
          rw [hc] at hbad
          rw [if_pos (by simp only [alen]; omega)]
          exact ⟨_, rfl⟩
      · rw [if_pos h0]
        exact ⟨_, rfl⟩

/-- **C10** is not met for huge arrays: `($left + $right) / 2` overflows `int`. -/
theorem c10_index_overflow_violated (limit : Nat) (zero : α) (cmp : Cmp τ α) (array : List α) (env : τ)
    (hlen : array.length ≤ 2147483647) (offset length : Int) (hr : InRange array offset length)
    (h1 : 1 < count array offset length) (hmem : count array offset length ≤ limit)
    (hbig : offset + (offset + count array offset length - 1) > 2147483647) :
    (sort limit zero (some cmp) (some array) env offset length).1 = .ub := by
  rw [sort_inRange hlen hr]
  obtain ⟨h0, _, h2⟩ := hr
  generalize count array offset length = n at *
  unfold sortRange newArray
  rw [if_neg (by omega), if_pos (by omega), if_pos (by omega)]
  simp only
  rw [mergeSort]
  simp only [Prog.ite_apply]
  rw [if_neg (by omega)]
  have : add32 (offset.toNat : Int) ((offset + n - 1).toNat : Int) = .ub := by
    unfold add32 chk32
    rw [if_neg (by unfold I32; omega)]
  rw [this]
  rfl

/-- Such arrays exist: the last two of 2^30 + 2 elements. -/
example (array : List Int) (h : array.length = 1073741826) : InRange array 1073741824 2 ∧ 1 < count array 1073741824 2 ∧
    (1073741824 : Int) + (1073741824 + count array 1073741824 2 - 1) > 2147483647 := by
  have : count array 1073741824 2 = 2 := rfl
  unfold InRange
  omega

/-! ### The library comparators -/

theorem preorder_asc : Preorder VM.numCmp := by
  constructor
  · intro x y; unfold VM.numCmp; grind
  · intro x y z; unfold VM.numCmp; grind

theorem preorder_desc : Preorder (fun x y => VM.numCmp y x) := by
  constructor
  · intro x y; unfold VM.numCmp; grind
  · intro x y z; unfold VM.numCmp; grind

theorem numCmp_le (x y : Int) : VM.numCmp x y ≤ 0 ↔ x ≤ y := by
  unfold VM.numCmp; grind

/-- The value of `cmp` on strings. -/
def strRank (x y : Option VM.Bytes) : Int :=
  match VM.stringCmp x y with
  | .ok r => r
  | _ => 0

theorem strRank_ok (x y : Option VM.Bytes) : VM.stringCmp x y = .ok (strRank x y) := by
  rcases VM.stringCmp_spec x y with ⟨h, _⟩ | ⟨h, _⟩ | ⟨h, _⟩ <;> simp [strRank, h]

theorem strRank_le (x y : Option VM.Bytes) : strRank x y ≤ 0 ↔ ¬ VM.StrLt y x := by
  rcases VM.stringCmp_spec x y with ⟨h, h1⟩ | ⟨h, h1⟩ | ⟨h, h1⟩
  · simp only [strRank, h]
    have : ¬ VM.StrLt y x := fun h2 => VM.strLt_irrefl _ (VM.strLt_trans h1 h2)
    simp [this]
  · subst h1
    simp only [strRank, h]
    simp [VM.strLt_irrefl]
  · simp only [strRank, h]
    simp [h1]

theorem preorder_str : Preorder strRank := by
  constructor
  · intro x y
    simp only [strRank_le]
    by_cases h : VM.StrLt y x
    · right; exact fun h2 => VM.strLt_irrefl _ (VM.strLt_trans h h2)
    · exact .inl h
  · intro x y z
    simp only [strRank_le]
    intro h1 h2 h3
    rcases VM.c31_total_order.2.2 x y with h | h | h
    · exact h2 (VM.strLt_trans h3 h)
    · subst h; exact h2 h3
    · exact h1 h

theorem preorder_flip {c : α → α → Int} (h : Preorder c) : Preorder (fun x y => c y x) :=
  ⟨fun x y => h.total y x, fun x y z h1 h2 => h.trans z y x h2 h1⟩

/-- **C10** for `sort_int_asc`, `sort_byte_asc`, ... : the array becomes non-decreasing with the same elements. -/
theorem c10_sort_asc (limit : Nat) (array : List Int) (hlen : array.length ≤ 1073741824) (hmem : array.length ≤ limit) :
    ∃ zs, (sort limit 0 (some ascCmp) (some array) ()).1 = .ok () ∧
      (sort limit 0 (some ascCmp) (some array) ()).2.1 = zs ∧ zs.Perm array ∧ zs.Pairwise (· ≤ ·) := by
  have hc : count array 0 (-1) = array.length := by simp [count]
  obtain ⟨zs, env', e, st⟩ := c10_stable_sort limit 0 ascCmp VM.numCmp (fun _ _ _ => rfl) preorder_asc array () 0 (-1) hlen
    (by unfold InRange; omega) (by omega)
  refine ⟨zs, by rw [e], by rw [e]; simp [hc], by simpa [hc] using st.perm, ?_⟩
  have := st.sorted
  simp only [Sorted, numCmp_le] at this
  exact this

/-- **C10** for `sort_int_desc` etc. -/
theorem c10_sort_desc (limit : Nat) (array : List Int) (hlen : array.length ≤ 1073741824) (hmem : array.length ≤ limit) :
    ∃ zs, (sort limit 0 (some descCmp) (some array) ()).1 = .ok () ∧
      (sort limit 0 (some descCmp) (some array) ()).2.1 = zs ∧ zs.Perm array ∧ zs.Pairwise (· ≥ ·) := by
  have hc : count array 0 (-1) = array.length := by simp [count]
  obtain ⟨zs, env', e, st⟩ := c10_stable_sort limit 0 descCmp (fun x y => VM.numCmp y x) (fun _ _ _ => rfl) preorder_desc array () 0 (-1) hlen
    (by unfold InRange; omega) (by omega)
  refine ⟨zs, by rw [e], by rw [e]; simp [hc], by simpa [hc] using st.perm, ?_⟩
  have := st.sorted
  simp only [Sorted, numCmp_le] at this
  exact this

/-- **C10** for `sort_string_asc`: non-decreasing in the byte order with `undef` first. -/
theorem c10_sort_string_asc (limit : Nat) (array : List (Option VM.Bytes)) (hlen : array.length ≤ 1073741824)
    (hmem : array.length ≤ limit) :
    ∃ zs, (sort limit none (some strAscCmp) (some array) ()).1 = .ok () ∧
      (sort limit none (some strAscCmp) (some array) ()).2.1 = zs ∧ zs.Perm array ∧
      zs.Pairwise (fun x y => ¬ VM.StrLt y x) := by
  have hc : count array 0 (-1) = array.length := by simp [count]
  obtain ⟨zs, env', e, st⟩ := c10_stable_sort limit none strAscCmp strRank (fun _ x y => strRank_ok x y) preorder_str array () 0 (-1) hlen
    (by unfold InRange; omega) (by omega)
  refine ⟨zs, by rw [e], by rw [e]; simp [hc], by simpa [hc] using st.perm, ?_⟩
  have := st.sorted
  simp only [Sorted, strRank_le] at this
  exact this

/-- **C10** for `sort_string_desc`. -/
theorem c10_sort_string_desc (limit : Nat) (array : List (Option VM.Bytes)) (hlen : array.length ≤ 1073741824)
    (hmem : array.length ≤ limit) :
    ∃ zs, (sort limit none (some strDescCmp) (some array) ()).1 = .ok () ∧
      (sort limit none (some strDescCmp) (some array) ()).2.1 = zs ∧ zs.Perm array ∧
      zs.Pairwise (fun x y => ¬ VM.StrLt x y) := by
  have hc : count array 0 (-1) = array.length := by simp [count]
  obtain ⟨zs, env', e, st⟩ := c10_stable_sort limit none strDescCmp (fun x y => strRank y x) (fun _ x y => strRank_ok y x)
    (preorder_flip preorder_str) array () 0 (-1) hlen (by unfold InRange; omega) (by omega)
  refine ⟨zs, by rw [e], by rw [e]; simp [hc], by simpa [hc] using st.perm, ?_⟩
  have := st.sorted
  simp only [Sorted, strRank_le] at this
  exact this

/-- **C10** for `Fn->sort_asc`: a sorted copy; the argument is not changed. -/
theorem c10_fn_sort_asc (limit : Nat) (array : List Int) (hlen : array.length ≤ 1073741824) (hmem : array.length ≤ limit) :
    ∃ zs, fnSortAsc limit (some array) = (.ok zs, some array) ∧ zs.Perm array ∧ zs.Pairwise (· ≤ ·) := by
  obtain ⟨zs, e1, e2, p, s⟩ := c10_sort_asc limit array hlen hmem
  refine ⟨zs, ?_, p, s⟩
  simp only [fnSortAsc]
  revert e1 e2
  generalize sort limit 0 (some ascCmp) (some array) () = r
  obtain ⟨o, a, t⟩ := r
  rintro rfl rfl
  rfl

example : sort 10 (0 : Int) (some ascCmp) (some [5, 3, 9, 1, 3, 7]) () 1 4 = (.ok (), [5, 1, 3, 3, 9, 7], ()) := by decide +kernel

/-- A non-trivial preorder, for stability: pairs compared by their first part. -/
example : (sort 10 (0, 0) (some (fun (t : Unit) x y => (.ok (VM.numCmp x.1 y.1), t))) (some [((2 : Int), 1), (1, 2), (2, 3), (1, 4)]) ()).2.1 =
    [(1, 2), (1, 4), (2, 1), (2, 3)] := by decide +kernel

/-! ## C11 -/

/-- **C11**: whatever the comparator answers, in whatever state, also when it throws in the middle of the sort: the array
then holds a permutation of the range at its place, the rest is unchanged, and the call ends normally or with an exception
of the comparator itself. -/
theorem c11_any_comparator (limit : Nat) (zero : α) (cmp : Cmp τ α) (hd : ∀ t x y, (cmp t x y).1 ≠ .ub)
    (array : List α) (env : τ) (offset length : Int) (hlen : array.length ≤ 1073741824)
    (hr : InRange array offset length) (hmem : count array offset length ≤ limit) :
    ∃ o zs env', sort limit zero (some cmp) (some array) env offset length =
        (o, array.take offset.toNat ++ zs ++ array.drop (offset + count array offset length).toNat, env') ∧
      zs.Perm ((array.drop offset.toNat).take (count array offset length).toNat) ∧
      (o = .ok () ∨ ∃ m t x y, o = .die m ∧ (cmp t x y).1 = .die m) := by
  rw [sort_inRange (by omega) hr]
  obtain ⟨h0, h1, h2⟩ := hr
  generalize count array offset length = n at *
  have hid : array.take offset.toNat ++ (array.drop offset.toNat).take n.toNat ++ array.drop (offset + n).toNat = array := by
    have : (offset + n).toNat = offset.toNat + n.toNat := by omega
    rw [this, ← List.take_add, List.take_append_drop]
  unfold sortRange
  by_cases hz : n = 0
  · rw [if_pos hz]
    exact ⟨.ok (), _, env, by rw [hid], List.Perm.refl _, .inl rfl⟩
  · rw [if_neg hz]
    unfold newArray
    rw [if_pos (by omega), if_pos (by omega)]
    simp only
    obtain ⟨o, zs, b', t', e, p, _, d⟩ := mergeSort_perm cmp offset.toNat (offset + n - 1).toNat
      { a := array, b := List.replicate n.toNat zero, env := env } (by simp only; omega) (by omega)
      (by simp; omega) (by omega)
    have hn : (offset + n - 1).toNat + 1 - offset.toNat = n.toNat := by omega
    rw [hn] at p
    have hl := p.length_eq
    rw [seg_length (by simp only; omega)] at hl
    rw [e]
    refine ⟨o, zs, t', ?_, p, ?_⟩
    · simp only [wrt, hl, List.append_assoc]
      have : (offset + n).toNat = offset.toNat + n.toNat := by omega
      rw [this]
    · rcases d with ⟨v, h⟩ | h | ⟨t, x, y, _, h⟩
      · exact .inl h
      · exact .inr h
      · exact absurd h (hd t x y)

/-- A failed allocation of the scratch array leaves the array as it was. -/
theorem c11_no_memory (limit : Nat) (zero : α) (cmp : Cmp τ α) (array : List α) (env : τ) (offset length : Int)
    (hlen : array.length ≤ 2147483647) (hr : InRange array offset length) (hmem : ¬ count array offset length ≤ limit) :
    ∃ m, sort limit zero (some cmp) (some array) env offset length = (.die m, array, env) := by
  rw [sort_inRange hlen hr]
  obtain ⟨h0, h1, h2⟩ := hr
  unfold sortRange newArray
  rw [if_neg (by omega), if_pos (by omega), if_neg (by omega)]
  exact ⟨_, rfl⟩

/-- A comparator that throws at its third call: the first pair is already swapped. -/
example : sort 10 (0 : Int) (some (fun (t : Nat) x y => (if t < 2 then .ok (VM.numCmp x y) else .die "stop", t + 1)))
    (some [3, 2, 5, 1]) 0 = (.die "stop", [2, 3, 1, 5], 3) := by decide +kernel

/-! ## C12 -/

/-- **C12** as the documentation states it: `Fn->sort` returns the elements in comparator order and does not change its
argument. -/
def C12Claim : Prop := ∀ (limit : Nat) (cmp : Cmp Unit (Option Int)) (c : Option Int → Option Int → Int) (array : List (Option Int)),
  (∀ t x y, (cmp t x y).1 = .ok (c x y)) → Preorder c → array.length ≤ 1073741824 → array.length ≤ limit →
    ∃ zs, fnSort limit (some cmp) array () = (.ok zs, array, ()) ∧ StableSort c array zs

/-- The real program does not meet **C12**. -/
theorem c12_fn_sort_violated : ¬ C12Claim := by
  intro h
  have hp : Preorder (fun x y : Option Int => VM.numCmp (x.getD 0) (y.getD 0)) :=
    ⟨fun x y => preorder_asc.total _ _, fun x y z => preorder_asc.trans _ _ _⟩
  obtain ⟨zs, e, _⟩ := h 10 (fun t x y => (.ok (VM.numCmp (x.getD 0) (y.getD 0)), t)) _ [some 2, some 1] (fun _ _ _ => rfl) hp
    (by simp) (by simp)
  have e2 : fnSort 10 (some (fun (t : Unit) (x y : Option Int) => (.ok (VM.numCmp (x.getD 0) (y.getD 0)), t))) [some 2, some 1] () =
    (.ok [some 2, some 1], [some 1, some 2], ()) := by decide +kernel
  rw [e2] at e
  simp at e

/-- What `Fn->sort` does instead, always: it returns the elements in their original order, and it is the argument that gets
sorted. -/
theorem c12_fn_sort_partial (limit : Nat) (cmp : Cmp τ (Option α)) (c : Option α → Option α → Int)
    (hans : ∀ t x y, (cmp t x y).1 = .ok (c x y)) (hpre : Preorder c) (array : List (Option α)) (env : τ)
    (hlen : array.length ≤ 1073741824) (hmem : array.length ≤ limit) :
    ∃ zs env', fnSort limit (some cmp) array env = (.ok array, zs, env') ∧ StableSort c array zs := by
  have hc : count array 0 (-1) = array.length := by simp [count]
  obtain ⟨zs, env', e, st⟩ := c10_stable_sort limit none cmp c hans hpre array env 0 (-1) hlen
    (by unfold InRange; omega) (by omega)
  simp [hc] at e st
  exact ⟨zs, env', by simp [fnSort, e], st⟩

end MSort
end SPVM
