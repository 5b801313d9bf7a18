import Verif.Model.CList
import Verif.Lemmas.Array
/-!
# C39: the runtime's pointer list behaves as a sequence
-/
set_option linter.unusedSimpArgs false
namespace SPVM
namespace CList
variable {α : Type}
open Spec.CList (Op Res)

/-- The list holds `xs`; the rest of the block is spare. -/
def Rep (l : CList α) (xs : List α) : Prop :=
  (∃ rest, l.values = xs ++ rest) ∧ l.length = xs.length ∧ 0 < l.values.length

theorem maybeExtend_rep (null : α) {l : CList α} {xs : List α} (h : Rep l xs) (hs : xs.length < 1073741824) :
    ∃ x rest, maybeExtend null l = .ok { values := xs ++ x :: rest, length := xs.length } := by
  obtain ⟨⟨rest, hv⟩, hl, hc⟩ := h
  unfold maybeExtend CList.capacity
  by_cases hge : l.length ≥ l.values.length
  · rw [if_pos hge]
    have hr : rest = [] := by
      have := congrArg List.length hv
      rw [List.length_append] at this
      exact List.length_eq_zero_iff.mp (by omega)
    subst hr
    rw [List.append_nil] at hv
    rw [mul32_ok (by rw [hv]; constructor <;> omega)]
    simp only [Out.ok_bind]
    rw [rawMove_ok (by omega) (by omega) (by omega) (by rw [List.length_replicate]; omega) (by omega)]
    obtain ⟨n, hn⟩ : ∃ n, ((l.values.length : Int) * 2).toNat - xs.length = n + 1 :=
      ⟨((l.values.length : Int) * 2).toNat - xs.length - 1, by rw [hv] at *; omega⟩
    refine ⟨null, List.replicate n null, ?_⟩
    simp only [Out.ok_bind, blit]
    have e : ((l.values.length : Int).toNat) = xs.length := by rw [hv]; omega
    simp only [Int.toNat_zero, List.take_zero, List.nil_append, List.drop_zero, Nat.zero_add, e]
    rw [List.drop_replicate, hn, List.replicate_succ, hv, List.take_length, hl]
  · rw [if_neg hge]
    cases rest with
    | nil => rw [List.append_nil] at hv; rw [hv] at hge; omega
    | cons x rest =>
      refine ⟨x, rest, ?_⟩
      cases l with
      | mk v n => simp only at hv hl; subst hv hl; rfl

theorem read_app {A B : List α} {c : α} {i : Nat} (h : i = A.length) : read (A ++ c :: B) i = .ok c := by
  simp [read, h]

theorem write_app {A B : List α} {c d : α} {i : Nat} (h : i = A.length) : write (A ++ c :: B) i d = .ok (A ++ d :: B) := by
  simp [write, h]

theorem shiftLoop {x : α} (p q rest : List α) :
    ∃ y, forLoop p.length q.length shiftBody (p ++ x :: (q ++ rest)) = .ok (p ++ q ++ y :: rest) := by
  induction q generalizing p x with
  | nil => exact ⟨x, by simp [forLoop]⟩
  | cons a q ih =>
    obtain ⟨y, hy⟩ := ih (x := a) (p ++ [a])
    refine ⟨y, ?_⟩
    simp only [List.length_cons, forLoop]
    have e1 : read (p ++ x :: (a :: q ++ rest)) (p.length + 1) = .ok a := by
      have : p ++ x :: (a :: q ++ rest) = (p ++ [x]) ++ a :: (q ++ rest) := by simp
      rw [this]; exact read_app (by simp)
    have e2 : write (p ++ x :: (a :: q ++ rest)) p.length a = .ok (p ++ a :: (a :: q ++ rest)) := write_app rfl
    simp only [shiftBody, e1, Out.ok_bind, e2]
    simp only [List.length_append, List.length_cons, List.length_nil, List.append_assoc, List.cons_append, List.nil_append] at hy
    simp only [List.cons_append]
    rw [hy]
    simp

theorem step_rep (null : α) {l : CList α} {xs ys : List α} {op : Op α} {r : Res α} (h : Rep l xs)
    (hs : xs.length < 1073741824) (hstep : Spec.CList.step null xs op = some (r, ys)) :
    ∃ l', step null l op = .ok (r, l') ∧ Rep l' ys := by
  have ⟨⟨rest, hv⟩, hl, hc⟩ := h
  cases op with
  | push v =>
    simp only [Spec.CList.step, Option.some.injEq, Prod.mk.injEq] at hstep
    obtain ⟨rfl, rfl⟩ := hstep
    obtain ⟨x, rest', e⟩ := maybeExtend_rep null h hs
    refine ⟨⟨xs ++ v :: rest', xs.length + 1⟩, ?_, ⟨rest', by simp⟩, by simp, by simp; omega⟩
    simp [step, push, e, write_app]
  | unshift v =>
    simp only [Spec.CList.step, Option.some.injEq, Prod.mk.injEq] at hstep
    obtain ⟨rfl, rfl⟩ := hstep
    obtain ⟨x, rest', e⟩ := maybeExtend_rep null h hs
    refine ⟨⟨v :: xs ++ rest', xs.length + 1⟩, ?_, ⟨rest', by simp⟩, by simp, by simp⟩
    simp only [step, unshift, e, Out.ok_bind]
    rw [rawMove_ok (by omega) (by omega) (by omega) (by simp; omega) (by simp; omega)]
    obtain ⟨y, zs, hyz⟩ : ∃ y zs, xs ++ x :: rest' = y :: zs := by
      cases xs with
      | nil => exact ⟨_, _, rfl⟩
      | cons a t => exact ⟨_, _, rfl⟩
    have hb : blit (xs ++ x :: rest') (1 : Int).toNat (xs ++ x :: rest') (0 : Int).toNat (xs.length : Int).toNat =
        [] ++ y :: (xs ++ rest') := by
      unfold blit
      have h1 : (1 : Int).toNat = 1 := rfl
      simp only [h1, Int.toNat_zero, Int.toNat_natCast, List.drop_zero, List.nil_append]
      rw [List.take_left]
      have h2 : (xs ++ x :: rest').drop (1 + xs.length) = rest' := by
        have : xs ++ x :: rest' = (xs ++ [x]) ++ rest' := by simp
        rw [this]
        exact List.drop_left' (by simp; omega)
      have h3 : (xs ++ x :: rest').take 1 = [y] := by rw [hyz]; rfl
      rw [h2, h3]; simp
    simp only [Out.ok_bind, hb]
    rw [write_app (by simp)]
    simp
  | get i =>
    simp only [Spec.CList.step] at hstep
    split at hstep
    · cases hg : xs[i.toNat]? with
      | none => rw [hg] at hstep; simp at hstep
      | some v =>
        rw [hg] at hstep
        simp only [Option.map_some, Option.some.injEq, Prod.mk.injEq] at hstep
        obtain ⟨rfl, rfl⟩ := hstep
        refine ⟨l, ?_, h⟩
        have hi : i.toNat < xs.length := by
          rcases Nat.lt_or_ge i.toNat xs.length with h | h
          · exact h
          · rw [List.getElem?_eq_none h] at hg; cases hg
        simp only [step, get]
        rw [if_neg (by omega), if_neg (by omega)]
        simp [read, hv, List.getElem?_append_left hi, hg]
    · cases hstep
  | set i v =>
    simp only [Spec.CList.step] at hstep
    split at hstep
    · rename_i hi
      simp only [Option.some.injEq, Prod.mk.injEq] at hstep
      obtain ⟨rfl, rfl⟩ := hstep
      have hw : write l.values i.toNat v = .ok (xs.set i.toNat v ++ rest) := by
        unfold write
        rw [if_pos (by rw [hv, List.length_append]; omega), hv, List.set_append, if_pos (by omega)]
      refine ⟨{ values := xs.set i.toNat v ++ rest, length := l.length }, ?_, ⟨rest, rfl⟩, by simp [hl], ?_⟩
      · simp only [step, set]
        rw [if_neg (by omega), if_neg (by omega), hw]
        simp
      · rw [hv] at hc; simpa using hc
    · cases hstep
  | pop =>
    simp only [Spec.CList.step, Option.some.injEq, Prod.mk.injEq] at hstep
    obtain ⟨rfl, rfl⟩ := hstep
    simp only [step, pop]
    by_cases h0 : l.length = 0
    · have hx : xs = [] := List.length_eq_zero_iff.mp (by omega)
      subst hx
      exact ⟨l, by rw [if_pos h0]; simp, h⟩
    · rw [if_neg h0]
      have hne : xs ≠ [] := by intro hx; subst hx; simp at hl; omega
      have hsp := List.dropLast_concat_getLast hne
      have hv' : l.values = xs.dropLast ++ xs.getLast hne :: rest := by
        rw [hv]; conv => lhs; rw [← hsp]
        simp
      refine ⟨{ l with length := l.length - 1 }, ?_, ⟨xs.getLast hne :: rest, hv'⟩, by simp [hl], hc⟩
      rw [hv', read_app (by simp; omega)]
      simp [List.getLast?_eq_some_getLast hne, hv']
  | shift =>
    simp only [Spec.CList.step, Option.some.injEq, Prod.mk.injEq] at hstep
    obtain ⟨rfl, rfl⟩ := hstep
    simp only [step, shift]
    by_cases h0 : l.length = 0
    · have hx : xs = [] := List.length_eq_zero_iff.mp (by omega)
      subst hx
      exact ⟨l, by rw [if_pos h0]; simp, h⟩
    · rw [if_neg h0]
      cases xs with
      | nil => simp at hl; omega
      | cons x xs =>
        obtain ⟨y, hy⟩ := shiftLoop (x := x) [] xs rest
        refine ⟨⟨xs ++ y :: rest, l.length - 1⟩, ?_, ⟨y :: rest, rfl⟩, by simp [hl], by simp; omega⟩
        have hv' : l.values = [] ++ x :: (xs ++ rest) := by rw [hv]; simp
        have hl' : l.length - 1 = xs.length := by rw [hl]; simp
        rw [hv', read_app (by simp)]
        rw [hl']
        simp only [List.length_nil, List.nil_append] at hy
        simp [hy]
  | clear =>
    simp only [Spec.CList.step, Option.some.injEq, Prod.mk.injEq] at hstep
    obtain ⟨rfl, rfl⟩ := hstep
    exact ⟨_, rfl, ⟨l.values, rfl⟩, rfl, hc⟩
  | length =>
    simp only [Spec.CList.step, Option.some.injEq, Prod.mk.injEq] at hstep
    obtain ⟨rfl, rfl⟩ := hstep
    exact ⟨l, by simp [step, hl], h⟩

theorem step_length (null : α) {xs ys : List α} {op : Op α} {r : Res α} (h : Spec.CList.step null xs op = some (r, ys)) :
    ys.length ≤ xs.length + 1 := by
  cases op with
  | get i =>
    simp only [Spec.CList.step] at h
    split at h
    · cases hg : xs[i.toNat]? with
      | none => rw [hg] at h; simp at h
      | some v => rw [hg] at h; simp at h; obtain ⟨-, rfl⟩ := h; omega
    · cases h
  | set i v =>
    simp only [Spec.CList.step] at h
    split at h
    · simp at h; obtain ⟨-, rfl⟩ := h; simp
    · cases h
  | _ => simp only [Spec.CList.step, Option.some.injEq, Prod.mk.injEq] at h; obtain ⟨-, rfl⟩ := h; grind

theorem run_rep (null : α) {ops : List (Op α)} {l : CList α} {xs ys : List α} {rs : List (Res α)} (h : Rep l xs)
    (hs : xs.length + ops.length ≤ 1073741824) (hrun : Spec.CList.run null xs ops = some (rs, ys)) :
    ∃ l', run null l ops = .ok (rs, l') ∧ Rep l' ys := by
  induction ops generalizing l xs rs with
  | nil =>
    simp only [Spec.CList.run, Option.some.injEq, Prod.mk.injEq] at hrun
    obtain ⟨rfl, rfl⟩ := hrun
    exact ⟨l, rfl, h⟩
  | cons op ops ih =>
    simp only [List.length_cons] at hs
    simp only [Spec.CList.run, Option.bind_eq_bind] at hrun
    cases h1 : Spec.CList.step null xs op with
    | none => rw [h1] at hrun; cases hrun
    | some p =>
      obtain ⟨r, zs⟩ := p
      rw [h1] at hrun
      simp only [Option.bind_some] at hrun
      cases h2 : Spec.CList.run null zs ops with
      | none => rw [h2] at hrun; cases hrun
      | some q =>
        obtain ⟨rs', ws⟩ := q
        rw [h2] at hrun
        simp only [Option.bind_some, Option.some.injEq, Prod.mk.injEq] at hrun
        obtain ⟨rfl, rfl⟩ := hrun
        obtain ⟨l1, e1, r1⟩ := step_rep null h (by omega) h1
        have := step_length null h1
        obtain ⟨l2, e2, r2⟩ := ih r1 (by omega) h2
        exact ⟨l2, by simp [run, e1, e2], r2⟩

/-- **C39**: every history of at most 2^30 calls on a new list that keeps the contract gives the results of a sequence and
never touches memory outside the block. -/
theorem c39_history (null : α) (capacity : Int) (hc : 0 ≤ capacity) (ops : List (Op α)) (hlen : ops.length ≤ 1073741824)
    (rs : List (Res α)) (ys : List α) (hrun : Spec.CList.run null [] ops = some (rs, ys)) :
    ∃ l l', new null capacity = .ok l ∧ run null l ops = .ok (rs, l') ∧ l'.values.take l'.length = ys := by
  have ⟨l, e, hr⟩ : ∃ l, new null capacity = .ok l ∧ Rep l ([] : List α) := by
    unfold new
    rw [if_neg (by omega)]
    by_cases h0 : capacity = 0
    · exact ⟨_, by rw [if_pos h0], ⟨[null], rfl⟩, rfl, by simp⟩
    · exact ⟨_, by rw [if_neg h0], ⟨List.replicate capacity.toNat null, rfl⟩, rfl, by simp; omega⟩
  obtain ⟨l', e', ⟨rest, hv⟩, hl, _⟩ := run_rep null hr (by simpa using hlen) hrun
  exact ⟨l, l', e, e', by rw [hv, hl, List.take_left]⟩

example : Spec.CList.run 0 [] [.push 5, .unshift 7, .push 9, .shift, .set 1 4, .pop, .get 0, .pop, .pop, .length] =
    some ([.unit, .unit, .unit, .ptr 7, .unit, .ptr 4, .ptr 5, .ptr 5, .ptr (0 : Nat), .num 0], []) := by decide +kernel

/-- Outside the contract (index not in the list) the call is an assertion failure, or an access to a stale element. -/
theorem c39_out_of_contract (null : α) (l : CList α) (i : Int) (h : i < 0 ∨ l.length ≤ i) : step null l (.get i) = .ub := by
  simp only [step, get]
  by_cases h0 : i ≥ 0
  · rw [if_neg (by omega), if_pos (by omega)]; rfl
  · rw [if_pos h0]; rfl

/-- Growing a full list of 2^30 pointers overflows `capacity * 2`. -/
theorem c39_capacity_overflow_violated (null : α) (l : CList α) (v : α) (hfull : l.length = l.values.length)
    (hbig : 1073741824 ≤ l.values.length) : push null l v = .ub := by
  unfold push maybeExtend CList.capacity
  rw [if_pos (by omega)]
  have : mul32 l.values.length 2 = .ub := by
    unfold mul32 chk32; rw [if_neg (by unfold I32; omega)]
  simp [this]

example : Rep ({ values := [1, 2, 0, 0], length := 2 } : CList Nat) [1, 2] := ⟨⟨[0, 0], rfl⟩, rfl, by decide⟩

end CList
end SPVM
