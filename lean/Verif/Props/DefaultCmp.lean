import Verif.Model.DefaultCmp
import Verif.Spec.DefaultCmp
import Verif.Props.Sort

/-!
# C94 — The default comparator orders by `cmp` and puts undef first

If the objects' `cmp` is a total preorder, so is the default comparator, and `Sort->sort_object` with it gives the undefined elements
first and then the defined ones, sorted by `cmp`, those that rank the same in their old order.
-/

namespace SPVM.MSort

open SPVM.Spec.Sort

theorem preorder_undefFirst {c : α → α → Int} (h : Preorder c) : Preorder (undefFirst c) := by
  constructor
  · intro x y
    cases x <;> cases y <;> simp only [undefFirst] <;> first | omega | exact h.total _ _
  · intro x y z
    cases x <;> cases y <;> cases z <;> simp only [undefFirst] <;> first | omega | exact h.trans _ _ _

/-- The default comparator answers by `undefFirst` if the `cmp` methods of all classes answer by one order. -/
theorem default_answers {τ α κ : Type} {cls : α → κ} {cmpOf : κ → Cmp τ α} {c : α → α → Int}
    (h : ∀ t x y, (cmpOf (cls x) t x y).1 = .ok (c x y)) (t : τ) (x y : Option α) :
    (defaultComparator cls cmpOf t x y).1 = .ok (undefFirst c x y) := by
  cases x <;> cases y <;> first | rfl | exact h _ _ _

/-- An exception of `cmp` is an exception of the comparator, and nothing but `cmp` throws. -/
theorem default_throws {τ α κ : Type} (cls : α → κ) (cmpOf : κ → Cmp τ α) (t : τ) (o1 o2 : Option α) (m : String) :
    (defaultComparator cls cmpOf t o1 o2).1 = .die m ↔ ∃ x y, o1 = some x ∧ o2 = some y ∧ (cmpOf (cls x) t x y).1 = .die m := by
  cases o1 <;> cases o2 <;> simp [defaultComparator]

/-- A sorted list with undef first. -/
theorem sorted_split {c : α → α → Int} : ∀ {zs : List (Option α)}, Sorted (undefFirst c) zs →
    zs = List.replicate (zs.filter Option.isNone).length none ++ (zs.filterMap id).map some
  | [], _ => rfl
  | none :: zs, h => by
    have ih := sorted_split (List.pairwise_cons.1 h).2
    simp only [List.filter_cons, Option.isNone_none, if_true, List.length_cons, List.replicate_succ, List.cons_append, List.filterMap_cons, id_eq]
    rw [← ih]
  | some x :: zs, h => by
    have hh := (List.pairwise_cons.1 h).1
    have hs : ∀ z ∈ zs, z.isNone = false := by
      intro z hz
      have := hh z hz
      cases z with
      | none => simp [undefFirst] at this
      | some => rfl
    have he : zs.filter Option.isNone = [] := List.filter_eq_nil_iff.2 fun z hz => by rw [hs z hz]; simp
    have ih := sorted_split (List.pairwise_cons.1 h).2
    rw [he] at ih
    simp only [List.length_nil, List.replicate_zero, List.nil_append] at ih
    simp only [List.filter_cons, Option.isNone_some, Bool.false_eq_true, if_false, he, List.length_nil, List.replicate_zero, List.nil_append,
      List.filterMap_cons, id_eq, List.map_cons]
    rw [← ih]

theorem filter_defined {c : α → α → Int} (z : α) : ∀ (l : List (Option α)),
    (l.filterMap id).filter (same c z) = (l.filter (same (undefFirst c) (some z))).filterMap id
  | [] => rfl
  | none :: l => by
    have ih := filter_defined (c := c) z l
    have : same (undefFirst c) (some z) none = false := by simp [same, undefFirst]
    simp only [List.filterMap_cons, id_eq, List.filter_cons, this, Bool.false_eq_true, if_false]
    exact ih
  | some x :: l => by
    have ih := filter_defined (c := c) z l
    have : same (undefFirst c) (some z) (some x) = same c z x := rfl
    simp only [List.filterMap_cons, id_eq, List.filter_cons, this]
    split
    · simp only [List.filterMap_cons, id_eq, ih]
    · exact ih

/-- A stable sort by `undefFirst` is the undefined elements followed by a stable sort of the others. -/
theorem stable_split {c : α → α → Int} {xs zs : List (Option α)} (h : StableSort (undefFirst c) xs zs) :
    ∃ ys, zs = List.replicate (xs.filter Option.isNone).length none ++ ys.map some ∧ StableSort c (xs.filterMap id) ys := by
  refine ⟨zs.filterMap id, ?_, h.perm.filterMap id, ?_, fun z => ?_⟩
  · rw [← (h.perm.filter Option.isNone).length_eq]
    exact sorted_split h.sorted
  · refine List.Pairwise.filterMap id ?_ h.sorted
    intro a b hab x hx y hy
    simp only [id_eq] at hx hy
    subst hx hy
    exact hab
  · rw [filter_defined, filter_defined, h.stable]

/-- `Sort->sort_object($array, Comparator->default_comparator, $offset, $length)`.  Partial: the `cmp` methods of the elements' classes
must answer by one total preorder (see `mixed_classes_violated`), and at most 2^30 elements (C10). -/
theorem sort_default_partial {τ α κ : Type} (limit : Nat) (cls : α → κ) (cmpOf : κ → Cmp τ α) (c : α → α → Int)
    (hans : ∀ t x y, (cmpOf (cls x) t x y).1 = .ok (c x y)) (hpre : Preorder c)
    (array : List (Option α)) (env : τ) (offset length : Int) (hlen : array.length ≤ 1073741824)
    (hr : InRange array offset length) (hmem : count array offset length ≤ limit) :
    ∃ ys env', sort limit none (some (defaultComparator cls cmpOf)) (some array) env offset length =
        (.ok (), array.take offset.toNat ++
          (List.replicate (((array.drop offset.toNat).take (count array offset length).toNat).filter Option.isNone).length none ++ ys.map some) ++
          array.drop (offset + count array offset length).toNat, env') ∧
      StableSort c (((array.drop offset.toNat).take (count array offset length).toNat).filterMap id) ys := by
  obtain ⟨zs, env', h1, h2⟩ := c10_stable_sort limit none (defaultComparator cls cmpOf) (undefFirst c) (default_answers hans)
    (preorder_undefFirst hpre) array env offset length hlen hr hmem
  obtain ⟨ys, e, hs⟩ := stable_split h2
  exact ⟨ys, env', by rw [h1, e], hs⟩

/-! ## Witnesses -/

/-- Objects of one class with a number, `cmp` compares the numbers. -/
def byNumber : Unit → Cmp Unit Int := fun _ t x y => (.ok (VM.numCmp x y), t)

example : (sort 10 none (some (defaultComparator (fun _ => ()) byNumber)) (some [some 3, none, some 1, none, some 2]) () 0 (-1)).2.1 =
    [none, none, some 1, some 2, some 3] := by decide +kernel
example : (∀ t x y, (byNumber () t x y).1 = .ok (VM.numCmp x y)) ∧ Preorder VM.numCmp := ⟨fun _ _ _ => rfl, preorder_asc⟩

/-- Two classes, the numbers below 10 and the others: the first compares ascending, the second descending.  Each `cmp` is a total preorder of
all objects, but the default comparator is not: it asks the class of its first argument, so each of 1 and 20 is less than the other. -/
theorem mixed_classes_violated :
    ∃ (cls : Int → Bool) (cmpOf : Bool → Cmp Unit Int) (c : Bool → Int → Int → Int),
      (∀ k, Preorder (c k)) ∧ (∀ k t x y, (cmpOf k t x y).1 = .ok (c k x y)) ∧
      (defaultComparator cls cmpOf () (some 1) (some 20)).1 = .ok (-1) ∧ (defaultComparator cls cmpOf () (some 20) (some 1)).1 = .ok (-1) := by
  refine ⟨fun x => decide (x < 10), fun k t x y => (.ok (if k then VM.numCmp x y else VM.numCmp y x), t),
    fun k x y => if k then VM.numCmp x y else VM.numCmp y x, ?_, fun _ _ _ _ => rfl, by decide +kernel, by decide +kernel⟩
  intro k
  cases k with
  | true => exact preorder_asc
  | false => exact preorder_desc

end SPVM.MSort
