import Verif.Spec.Alloc
import Verif.Lemmas.Array
/-!
# C41: memory block accounting
-/
set_option linter.unusedSimpArgs false
namespace SPVM
namespace Alloc
open Spec.Alloc (Owned)

/-- The states after `n` calls that keep the contract. -/
inductive Reach : Allocator → Owned → Nat → Prop
  | new : Reach new ⟨[], []⟩ 0
  | step {a o n op ret a'} : Reach a o n → o.allows op → step a op = .ok (ret, a') → Reach a' (o.next ret op) (n + 1)

structure Inv (a : Allocator) (o : Owned) (n : Nat) : Prop where
  cells : ∃ rest, a.permBlocks = o.perm.map some ++ rest
  plen : a.permLength = o.perm.length
  cap : 0 < a.permBlocks.length
  live : a.heap.live.Perm (a.self :: a.array :: (o.tmp ++ o.perm))
  nodup : a.heap.live.Nodup
  fresh : ∀ b ∈ a.heap.live, b < a.heap.next
  ctmp : a.countTmp = o.tmp.length
  cperm : a.countPerm = o.perm.length
  bound : o.tmp.length + o.perm.length ≤ n

theorem inv_new : Inv new ⟨[], []⟩ 0 := by
  exact {
    cells := ⟨_, rfl⟩, plen := rfl
    cap := by show 0 < (List.replicate 1024 (none : Option Nat)).length; rw [List.length_replicate]; omega
    live := List.Perm.swap 0 1 [], nodup := by show [1, 0].Nodup; decide
    fresh := by show ∀ b ∈ [1, 0], b < 2; decide
    ctmp := rfl, cperm := rfl, bound := Nat.le_refl 0 }

theorem calloc_ok (h : Heap) {size : Nat} (hs : 1 ≤ size) : calloc h size true = (some h.next, { next := h.next + 1, live := h.next :: h.live }) := by
  simp [calloc]; omega

theorem cfree_ok {h : Heap} {b : Nat} (hb : b ∈ h.live) : cfree h (some b) = .ok { h with live := h.live.erase b } := by
  simp [cfree, hb]

theorem allocTmp_inv {a : Allocator} {o : Owned} {n : Nat} (i : Inv a o n) (hn : n < 1073741824) (size : Nat) (avail : Bool) :
    ∃ ret a', allocTmp a size avail = .ok (ret, a') ∧ Inv a' (o.next ret (.allocTmp size avail)) (n + 1) := by
  unfold allocTmp
  have hb := i.bound
  by_cases hc : 1 ≤ size ∧ avail = true
  · obtain ⟨h1, rfl⟩ := hc
    rw [calloc_ok _ h1]
    simp only
    rw [add32_ok (by rw [i.ctmp]; constructor <;> omega)]
    refine ⟨_, _, rfl, ?_⟩
    exact {
      cells := i.cells, plen := i.plen, cap := i.cap
      live := by
        simp only [Owned.next, Option.toList_some]
        refine (i.live.cons _).trans ?_
        refine (List.Perm.swap _ _ _).trans ((List.Perm.swap _ _ _).cons _)
      nodup := by
        simp only [List.nodup_cons]
        exact ⟨fun hm => by have := i.fresh _ hm; omega, i.nodup⟩
      fresh := by
        intro b hb
        simp only [List.mem_cons] at hb
        rcases hb with rfl | hb
        · exact Nat.lt_succ_self _
        · have := i.fresh b hb; simp only; omega
      ctmp := by simp [Owned.next, i.ctmp]
      cperm := i.cperm
      bound := by simp only [Owned.next, Option.toList_some, List.length_append, List.length_singleton]; omega }
  · have hcn : calloc a.heap size avail = (none, a.heap) := by
      unfold calloc
      by_cases h1 : size < 1
      · rw [if_pos h1]
      · rw [if_neg h1, if_neg (fun h2 => hc ⟨by omega, h2⟩)]
    rw [hcn]
    refine ⟨_, _, rfl, ?_⟩
    have : o.next none (.allocTmp size avail) = o := by simp [Owned.next]
    rw [this]
    exact { i with bound := by omega }

theorem freeTmp_inv {a : Allocator} {o : Owned} {n : Nat} (i : Inv a o n) (b : Option Nat) (hn : n < 1073741824)
    (hal : o.allows (.freeTmp b)) :
    ∃ a', freeTmp a b = .ok a' ∧ Inv a' (o.next none (.freeTmp b)) (n + 1) := by
  cases b with
  | none => exact ⟨a, rfl, { i with bound := by have := i.bound; simp only [Owned.next]; omega }⟩
  | some b =>
    have hal : b ∈ o.tmp := hal
    have hm : b ∈ a.heap.live := i.live.symm.subset (by simp [hal])
    have hnd : (a.self :: a.array :: (o.tmp ++ o.perm)).Nodup := i.live.nodup_iff.mp i.nodup
    simp only [List.nodup_cons, List.mem_cons, List.mem_append, not_or] at hnd
    have h1 : b ≠ a.self := by rintro rfl; exact hnd.1.2.1 hal
    have h2 : b ≠ a.array := by rintro rfl; exact hnd.2.1.1 hal
    have hlen := List.length_erase_of_mem hal
    have hpos : 0 < o.tmp.length := List.length_pos_of_mem hal
    have hb := i.bound
    simp only [freeTmp, cfree_ok hm, Out.ok_bind]
    rw [sub32_ok (by rw [i.ctmp]; constructor <;> omega)]
    refine ⟨_, rfl, ?_⟩
    exact {
      cells := i.cells, plen := i.plen, cap := i.cap
      live := by
        simp only [Owned.next]
        refine (i.live.erase b).trans ?_
        rw [List.erase_cons_tail (by simpa using h1.symm), List.erase_cons_tail (by simpa using h2.symm), List.erase_append_left _ hal]
      nodup := i.nodup.erase b
      fresh := fun x hx => i.fresh x (List.mem_of_mem_erase hx)
      ctmp := by simp only [Owned.next, i.ctmp, hlen]; omega
      cperm := i.cperm
      bound := by simp only [Owned.next]; omega }

theorem grow_ok {a : Allocator} {tmp perm : List Nat} (hcap : 0 < a.permBlocks.length)
    (hcells : ∃ rest, a.permBlocks = perm.map some ++ rest) (hlen : a.permLength = perm.length) (hn : perm.length < 1073741824)
    (hlive : a.heap.live.Perm (a.self :: a.array :: (tmp ++ perm'))) (hnd : a.heap.live.Nodup)
    (hfresh : ∀ b ∈ a.heap.live, b < a.heap.next) :
    ∃ h arr x rest, grow a = .ok { a with heap := h, array := arr, permBlocks := perm.map some ++ x :: rest } ∧
      h.live.Perm (a.self :: arr :: (tmp ++ perm')) ∧ h.live.Nodup ∧ (∀ b ∈ h.live, b < h.next) := by
  obtain ⟨rest, hr⟩ := hcells
  unfold grow
  by_cases hge : a.permLength ≥ a.permBlocks.length
  · rw [if_pos hge]
    have hr0 : rest = [] := by
      have := congrArg List.length hr
      rw [List.length_append, List.length_map] at this
      exact List.length_eq_zero_iff.mp (by omega)
    subst hr0
    rw [List.append_nil] at hr
    have hl : a.permBlocks.length = perm.length := by rw [hr, List.length_map]
    have e1 : mul32 a.permBlocks.length 2 = .ok ((a.permBlocks.length : Int) * 2) := mul32_ok (by rw [hl]; constructor <;> omega)
    rw [e1, calloc_ok _ (by omega)]
    simp only [Out.ok_bind]
    rw [rawMove_ok (by omega) (by omega) (by omega) (by rw [List.length_replicate]; omega) (by omega)]
    simp only [Out.ok_bind]
    have hma : a.array ∈ a.heap.live := hlive.symm.subset (by simp)
    rw [cfree_ok (by simp [hma])]
    simp only [Out.ok_bind]
    obtain ⟨n, hn⟩ : ∃ n, ((a.permBlocks.length : Int) * 2).toNat - perm.length = n + 1 :=
      ⟨((a.permBlocks.length : Int) * 2).toNat - perm.length - 1, by omega⟩
    refine ⟨⟨a.heap.next + 1, (a.heap.next :: a.heap.live).erase a.array⟩, a.heap.next, none, List.replicate n none, ?_, ?_, ?_, ?_⟩
    rotate_left
    · · have hne : a.heap.next ≠ a.array := by have := hfresh _ hma; omega
        show ((a.heap.next :: a.heap.live).erase a.array).Perm _
        rw [List.erase_cons_tail (by simpa using hne)]
        have h1 := hlive.erase a.array
        have hnd2 : (a.self :: a.array :: (tmp ++ perm')).Nodup := hlive.nodup_iff.mp hnd
        simp only [List.nodup_cons, List.mem_cons, not_or] at hnd2
        rw [List.erase_cons_tail (by simpa using hnd2.1.1), List.erase_cons_head] at h1
        exact (h1.cons _).trans (List.Perm.swap _ _ _)
    · refine List.Nodup.erase _ ?_
      simp only [List.nodup_cons]
      exact ⟨fun hm => by have := hfresh _ hm; omega, hnd⟩
    · intro b hb
      have hb := List.mem_of_mem_erase hb
      simp only [List.mem_cons] at hb
      rcases hb with rfl | hb
      · exact Nat.lt_succ_self _
      · have := hfresh b hb; simp only; omega
    · congr 2
      unfold blit
      have e : ((a.permBlocks.length : Int).toNat) = perm.length := by omega
      simp only [Int.toNat_zero, List.take_zero, List.nil_append, List.drop_zero, Nat.zero_add, e]
      rw [List.drop_replicate, hn, List.replicate_succ, ← hl, List.take_length, hr]
  · rw [if_neg hge]
    cases rest with
    | nil => rw [List.append_nil] at hr; rw [hr, List.length_map] at hge; omega
    | cons x rest => exact ⟨a.heap, a.array, x, rest, by rw [← hr], hlive, hnd, hfresh⟩

theorem allocPerm_inv {a : Allocator} {o : Owned} {n : Nat} (i : Inv a o n) (hn : n < 1073741824) (size : Nat) (hs : 1 ≤ size) :
    ∃ b a', allocPerm a size true = .ok (some b, a') ∧ Inv a' (o.next (some b) (.allocPerm size true)) (n + 1) := by
  have hb := i.bound
  unfold allocPerm
  rw [calloc_ok _ hs]
  simp only
  rw [add32_ok (by rw [i.cperm]; constructor <;> omega)]
  simp only [Out.ok_bind]
  have hlive : (a.heap.next :: a.heap.live).Perm (a.self :: a.array :: (o.tmp ++ (o.perm ++ [a.heap.next]))) := by
    refine (i.live.cons _).trans ?_
    rw [← List.append_assoc]
    refine List.perm_append_comm (l₁ := [a.heap.next]) (l₂ := a.self :: a.array :: (o.tmp ++ o.perm)) |>.trans ?_
    simp
  obtain ⟨h, arr, x, rest, e, p, nd, fr⟩ := grow_ok (a := { a with heap := ⟨a.heap.next + 1, a.heap.next :: a.heap.live⟩, countPerm := a.countPerm + 1 })
    (perm' := o.perm ++ [a.heap.next]) i.cap i.cells i.plen (by omega) hlive
    (by simp only [List.nodup_cons]; exact ⟨fun hm => by have := i.fresh _ hm; omega, i.nodup⟩)
    (by
      intro b hb
      simp only [List.mem_cons] at hb
      rcases hb with rfl | hb
      · exact Nat.lt_succ_self _
      · have := i.fresh b hb; simp only; omega)
  rw [e]
  simp only [Out.ok_bind]
  rw [if_pos (by rw [i.plen]; simp)]
  refine ⟨a.heap.next, _, rfl, ?_⟩
  exact {
    cells := ⟨rest, by
      simp only [Owned.next, Option.toList_some, List.map_append, List.map_cons, List.map_nil, i.plen]
      rw [List.set_append_right _ _ (by simp)]
      simp⟩
    plen := by simp [Owned.next, i.plen]
    cap := by simp; omega
    live := p
    nodup := nd
    fresh := fr
    ctmp := i.ctmp
    cperm := by simp [Owned.next, i.cperm]
    bound := by simp only [Owned.next, Option.toList_some, List.length_append, List.length_singleton]; omega }

/-- A call that keeps the contract never fails. -/
theorem step_inv {a : Allocator} {o : Owned} {n : Nat} (i : Inv a o n) (hn : n < 1073741824) (op : Op) (hal : o.allows op) :
    ∃ ret a', step a op = .ok (ret, a') ∧ Inv a' (o.next ret op) (n + 1) := by
  cases op with
  | allocTmp size avail => exact allocTmp_inv i hn size avail
  | freeTmp b =>
    obtain ⟨a', e, i'⟩ := freeTmp_inv i b hn hal
    exact ⟨none, a', by simp [step, e], i'⟩
  | allocPerm size avail =>
    obtain ⟨hs, rfl⟩ := hal
    obtain ⟨b, a', e, i'⟩ := allocPerm_inv i hn size hs
    exact ⟨some b, a', e, i'⟩

theorem reach_inv {a : Allocator} {o : Owned} {n : Nat} (hn : n ≤ 1073741824) (r : Reach a o n) : Inv a o n := by
  induction r with
  | new => exact inv_new
  | step r hal hs ih =>
    obtain ⟨ret, a', e, i'⟩ := step_inv (ih (by omega)) (by omega) _ hal
    rw [e] at hs
    cases hs
    exact i'

/-- **C41** (safety): in any history of calls that keeps the contract, the next call the contract allows does not corrupt
memory (no double free, no write outside the block table). -/
theorem c41_calls_are_safe {a : Allocator} {o : Owned} {n : Nat} (r : Reach a o n) (hn : n < 1073741824) (op : Op)
    (hal : o.allows op) : ∃ ret a', step a op = .ok (ret, a') ∧ Reach a' (o.next ret op) (n + 1) := by
  obtain ⟨ret, a', e, _⟩ := step_inv (reach_inv (by omega) r) hn op hal
  exact ⟨ret, a', e, r.step hal e⟩

/-- **C41** (count): the reported number of memory blocks is the number of blocks the clients own. -/
theorem c41_count {a : Allocator} {o : Owned} {n : Nat} (r : Reach a o n) (hn : n ≤ 1073741824) :
    count a = .ok ((o.tmp.length : Int) + o.perm.length) := by
  have i := reach_inv hn r
  have := i.bound
  rw [count, add32_ok (by rw [i.ctmp, i.cperm]; constructor <;> omega), i.ctmp, i.cperm]

/-- **C41** (distinct blocks): no block is handed out twice while it is owned. -/
theorem c41_blocks_distinct {a : Allocator} {o : Owned} {n : Nat} (r : Reach a o n) (hn : n ≤ 1073741824) :
    (o.tmp ++ o.perm).Nodup := by
  have i := reach_inv hn r
  have := i.live.nodup_iff.mp i.nodup
  simp only [List.nodup_cons] at this
  exact this.2.2

theorem freeLoop_ok (bs : List Nat) {h : Heap} {others : List Nat} (hp : h.live.Perm (others ++ bs)) (hnd : h.live.Nodup) (k : Int)
    (hk : 0 ≤ k) (hk2 : k + bs.length ≤ 2147483647) :
    ∃ h', freeLoop (bs.map some) (h, k + bs.length) = .ok (h', k) ∧ h'.live.Perm others ∧ h'.live.Nodup := by
  induction bs generalizing h with
  | nil => exact ⟨h, by simp [freeLoop], by simpa using hp, hnd⟩
  | cons b bs ih =>
    have hm : b ∈ h.live := hp.symm.subset (by simp)
    simp only [List.map_cons, freeLoop, cfree_ok hm, Out.ok_bind]
    simp only [List.length_cons, Int.natCast_add, Int.natCast_one] at hk2 ⊢
    rw [sub32_ok (by constructor <;> omega)]
    simp only [Out.ok_bind]
    have hp' : (h.live.erase b).Perm (others ++ bs) := by
      refine (hp.erase b).trans ?_
      have hnd2 := hp.nodup_iff.mp hnd
      rw [List.nodup_append] at hnd2
      have hno : b ∉ others := fun hmo => hnd2.2.2 b hmo b (by simp) rfl
      rw [List.erase_append_right _ hno, List.erase_cons_head]
    obtain ⟨h', e, p', n'⟩ := ih (h := { h with live := h.live.erase b }) hp' (hnd.erase b) (by omega)
    refine ⟨h', ?_, p', n'⟩
    rw [← e]
    congr 2; omega

/-- **C41** (release): freeing the allocator frees every permanent block exactly once and its own two blocks; what stays
allocated are exactly the temporary blocks the clients still own, so nothing leaks if they own none, and the two counters
are then 0. -/
theorem c41_free_releases_all {a : Allocator} {o : Owned} {n : Nat} (r : Reach a o n) (hn : n ≤ 1073741824) :
    ∃ h, free a = .ok (h, (o.tmp.length : Int), 0) ∧ h.live.Perm o.tmp := by
  have i := reach_inv hn r
  have hb := i.bound
  obtain ⟨rest, hr⟩ := i.cells
  unfold free
  have ht : a.permBlocks.take a.permLength = o.perm.map some := by
    rw [hr, i.plen]; exact List.take_left' (by simp)
  obtain ⟨h1, e1, p1, n1⟩ := freeLoop_ok o.perm (h := a.heap) (others := a.self :: a.array :: o.tmp) (by simpa using i.live) i.nodup 0
    (by omega) (by omega)
  rw [ht, i.cperm]
  rw [Int.zero_add] at e1
  rw [e1]
  simp only [Out.ok_bind]
  have hm1 : a.array ∈ h1.live := p1.symm.subset (by simp)
  rw [cfree_ok hm1]
  simp only [Out.ok_bind]
  have hnd2 := p1.nodup_iff.mp n1
  simp only [List.nodup_cons, List.mem_cons, not_or] at hnd2
  have p2 : (h1.live.erase a.array).Perm (a.self :: o.tmp) := by
    refine (p1.erase _).trans ?_
    rw [List.erase_cons_tail (by simpa using hnd2.1.1), List.erase_cons_head]
  have hm2 : a.self ∈ h1.live.erase a.array := p2.symm.subset (by simp)
  rw [cfree_ok hm2]
  simp only [Out.ok_bind]
  refine ⟨_, by rw [i.ctmp], ?_⟩
  refine (p2.erase _).trans ?_
  rw [List.erase_cons_head]

/-- The contract is needed: a permanent allocation of size 0 (or one that fails) is counted but never released, so the
counter is not 0 after the release. -/
theorem c41_empty_permanent_violated :
    (do let (_, a) ← allocPerm new 0 true; let (_, ct, cp) ← free a; .ok (ct, cp) : Out (Int × Int)) = .ok (0, 1) := by
  decide +kernel

set_option maxRecDepth 20000 in
/-- A history with allocations of both kinds and a free. -/
example : ∃ a, Reach a ⟨[4], [3]⟩ 4 := by
  refine ⟨_, ((((Reach.new.step (op := .allocTmp 8 true) trivial rfl).step (op := .allocPerm 8 true) ⟨by decide, rfl⟩ rfl).step
    (op := .allocTmp 8 true) trivial rfl).step (op := .freeTmp (some 2)) ?_ rfl)⟩
  show 2 ∈ [4, 2]
  decide

end Alloc
end SPVM
