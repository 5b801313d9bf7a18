import Verif.Lemmas.ObjList
import Verif.Props.NumList
/-!
# C03, C04: object lists
-/
set_option linter.unusedSimpArgs false
namespace SPVM
namespace ObjList
open Spec.Seq (Op Res)
open NumList (IntArgs need argSum lift_res lift_die lift_ub)
variable {α : Type}

/-- The objects stored by the operation may be stored in the list's array (for a list made from an `object[]`: any). -/
def Accepted (accept : α → Bool) : Op (Option α) → Prop
  | .set _ e | .push e | .unshift e | .insert _ e => ∀ v, e = some v → accept v = true
  | .replace _ _ r => ∀ v, some v ∈ r.getD [] → accept v = true
  | _ => True

/-- All unused slots are `undef`. -/
def Clean (rest : List (Option α)) : Prop := ∀ x ∈ rest, x = none

/-- The operation is one of those whose result is that of the specification: `insert` of a defined element, and
`resize` that grows only over unused slots that are `undef`. -/
def Plain (rest xs : List (Option α)) : Op (Option α) → Prop
  | .insert _ e => e ≠ none
  | .resize n => n ≤ xs.length ∨ Clean rest
  | _ => True

/-- The operation drops elements at the end of the list without clearing their slots. -/
def leavesStale (xs : List (Option α)) : Op (Option α) → Bool
  | .remove i => decide (i + 1 = xs.length)
  | .replace o n r => decide (¬ n - (r.getD []).length ≤ xs.length - o - n)
  | _ => false

/-- The operation moves the start of the ring. -/
def movesStart : Op (Option α) → Bool
  | .shift | .unshift _ => true
  | _ => false

/-- Complete case analysis of one operation on a list that represents `xs`. -/
theorem step_cases {limit : Nat} {accept : α → Bool} (hlim : limit ≤ 1073741824) {l : ObjList α} {xs rest}
    (h : Rep limit accept l xs rest) (op : Op (Option α)) (ha : IntArgs op) (hacc : Accepted accept op) :
    (∃ m, Spec.Seq.stepObj xs op = none ∧ step limit accept op l = (.die m, l)) ∨
    (∃ r ys l' rest', step limit accept op l = (.ok r, l') ∧ Rep limit accept l' ys rest' ∧
      (Plain rest xs op → Spec.Seq.stepObj xs op = some (r, ys) ∧
        (Clean rest → leavesStale xs op = false → Clean rest')) ∧ (movesStart op = false → l'.offset = l.offset)) ∨
    (∃ m, step limit accept op l = (.die m, l) ∧ limit < need xs op) ∨
    (step limit accept op l = (.ub, l) ∧ (2147483647 < need xs op ∨ 2147483647 < argSum op)) ∨
    (∃ m n, op = .reserve n ∧ l.offset ≠ 0 ∧ step limit accept op l = (.die m, l)) := by
  have hal := h.alen
  have ⟨hlen, hc, ho, ho1, hl, hr, hac⟩ := h
  have hrep : ∀ k, Clean rest → Clean (rest ++ List.replicate k none) := by
    intro k hcl x hx
    rw [List.mem_append] at hx
    rcases hx with hx | hx
    · exact hcl x hx
    · exact (List.mem_replicate.mp hx).2
  cases op with
  | length => exact .inr (.inl ⟨_, xs, l, rest, rfl, h, fun _ => ⟨by simp [Spec.Seq.stepObj, Spec.Seq.step, hlen], fun h _ => h⟩, fun _ => rfl⟩)
  | get i =>
    by_cases h0 : 0 ≤ i
    · by_cases h1 : i.toNat < xs.length
      · exact .inr (.inl ⟨_, xs, l, rest, lift_res (get_ok hlim h i h0 h1), h,
          fun _ => ⟨by simp [Spec.Seq.stepObj, Spec.Seq.step, h0, h1], fun h _ => h⟩, fun _ => rfl⟩)
      · refine .inl ⟨msgIdxLt, by simp [Spec.Seq.stepObj, Spec.Seq.step, h0]; omega, lift_die ?_⟩
        simp only [get, Prog.get_bind_apply, Prog.ite_apply]
        rw [if_neg (by omega), if_pos (by omega)]; rfl
    · refine .inl ⟨msgIdxNeg, by simp [Spec.Seq.stepObj, Spec.Seq.step, h0], lift_die ?_⟩
      simp only [get, Prog.get_bind_apply, Prog.ite_apply]
      rw [if_pos (by omega)]; rfl
  | toArray =>
    exact .inr (.inl ⟨_, xs, l, rest, lift_res (toArray_ok hlim h), h,
      fun _ => ⟨rfl, fun h _ => h⟩, fun _ => rfl⟩)
  | set i e =>
    by_cases h0 : 0 ≤ i
    · by_cases h1 : i.toNat < xs.length
      · obtain ⟨l', e1, r1, _, o1⟩ := set_ok hlim h i e h0 h1 hacc
        refine .inr (.inl ⟨.unit, _, l', rest, lift_res e1, r1, fun _ => ⟨?_, fun h _ => h⟩, fun _ => o1⟩)
        simp only [Spec.Seq.stepObj, Spec.Seq.step]; rw [if_pos (by omega)]
      · refine .inl ⟨msgIdxLt, by simp only [Spec.Seq.stepObj, Spec.Seq.step]; rw [if_neg (by omega)], lift_die ?_⟩
        simp only [set, Prog.get_bind_apply, Prog.ite_apply]
        rw [if_neg (by omega), if_pos (by omega)]; rfl
    · refine .inl ⟨msgIdxNeg, by simp [Spec.Seq.stepObj, Spec.Seq.step, h0], lift_die ?_⟩
      simp only [set, Prog.get_bind_apply, Prog.ite_apply]
      rw [if_pos (by omega)]; rfl
  | push e =>
    by_cases hov : l.length + 1 ≤ 2147483647
    · rcases extend_cases hlim h (l.length + 1) with ⟨l1, k, e1, r1, hl1, hm1, ho1⟩ | ⟨msg, e1, hb⟩ | ⟨e1, hb⟩
      · obtain ⟨l', rest', e2, r2, ht, o2⟩ := push_ok hlim h hov e1 r1 hm1 hacc
        refine .inr (.inl ⟨.unit, _, l', rest', lift_res e2, r2, fun _ => ⟨rfl, fun hcl _ => ?_⟩, fun _ => by rw [o2, ho1]⟩)
        intro x hx
        rw [← ht] at hx
        exact hrep k hcl x (List.mem_of_mem_tail hx)
      · refine .inr (.inr (.inl ⟨msg, lift_die ?_, by simp [need]; omega⟩))
        unfold push
        simp only [Prog.get_bind_apply]
        rw [add32_ok (by unfold I32; omega)]
        simp only [Prog.lift_ok_bind]
        exact Prog.bind_die e1
      · refine .inr (.inr (.inr (.inl ⟨lift_ub ?_, .inl (by simp [need]; omega)⟩)))
        unfold push
        simp only [Prog.get_bind_apply]
        rw [add32_ok (by unfold I32; omega)]
        simp only [Prog.lift_ok_bind]
        exact lift_ub e1
    · omega
  | pop =>
    by_cases hne : xs = []
    · subst hne
      refine .inl ⟨msgEmpty, rfl, lift_die ?_⟩
      simp only [pop, Prog.get_bind_apply, Prog.ite_apply]
      simp at hlen
      rw [if_pos (by omega)]; rfl
    · obtain ⟨t, y, rfl⟩ : ∃ t y, xs = t ++ [y] := ⟨_, _, (List.dropLast_concat_getLast hne).symm⟩
      obtain ⟨l', e1, r1, o1⟩ := pop_ok hlim h
      refine .inr (.inl ⟨_, t, l', _, lift_res e1, r1, fun _ => ⟨by simp [Spec.Seq.stepObj, Spec.Seq.step], fun hcl _ => ?_⟩, fun _ => o1⟩)
      intro x hx
      rcases List.mem_cons.mp hx with hx | hx
      · exact hx
      · exact hcl x hx
  | unshift e =>
    rcases extend_cases hlim h (l.length + 1) with ⟨l1, k, e1, r1, hl1, hm1, ho1⟩ | ⟨msg, e1, hb⟩ | ⟨e1, hb⟩
    · obtain ⟨l', rest', e2, r2, ht⟩ := unshift_ok hlim h (by omega) e1 r1 hm1 hacc
      refine .inr (.inl ⟨.unit, _, l', rest', lift_res e2, r2, fun _ => ⟨rfl, fun hcl _ => ?_⟩, fun hmv => by simp [movesStart] at hmv⟩)
      intro x hx
      rw [← ht] at hx
      exact hrep k hcl x ((List.dropLast_sublist _).subset hx)
    · refine .inr (.inr (.inl ⟨msg, lift_die ?_, by simp [need]; omega⟩))
      unfold unshift
      simp only [Prog.get_bind_apply]
      rw [add32_ok (by unfold I32; omega)]
      simp only [Prog.lift_ok_bind]
      exact Prog.bind_die e1
    · refine .inr (.inr (.inr (.inl ⟨lift_ub ?_, .inl (by simp [need]; omega)⟩)))
      unfold unshift
      simp only [Prog.get_bind_apply]
      rw [add32_ok (by unfold I32; omega)]
      simp only [Prog.lift_ok_bind]
      exact lift_ub e1
  | shift =>
    cases xs with
    | nil =>
      refine .inl ⟨msgEmpty, rfl, lift_die ?_⟩
      simp only [shift, Prog.get_bind_apply, Prog.ite_apply]
      simp at hlen
      rw [if_pos (by omega)]; rfl
    | cons x xs =>
      obtain ⟨l', e1, r1⟩ := shift_ok hlim h
      refine .inr (.inl ⟨_, xs, l', _, lift_res e1, r1, fun _ => ⟨rfl, fun hcl _ => ?_⟩, fun hmv => by simp [movesStart] at hmv⟩)
      exact hrep 1 hcl
  | insert i e =>
    by_cases h0 : 0 ≤ i
    · by_cases h1 : i ≤ xs.length
      · have hins : insert limit accept i e l = replace limit accept i 0 (e.map fun e => [some e]) l := by
          unfold insert
          simp only [Prog.get_bind_apply, Prog.ite_apply]
          rw [if_neg (by omega), if_neg (by omega)]
        have hlen1 : ((e.map fun e => [some e]).getD []).length ≤ 1 := by cases e <;> simp
        rcases replace_ok hlim h i 0 (e.map fun e => [some e]) h0 (by omega) (by omega) (by omega)
            (by
              intro v hv
              cases e with
              | none => simp at hv
              | some w => simp at hv; exact hacc v (by rw [hv])) with
          ⟨l', rest', e1, r1, hcl, o1⟩ | ⟨m, e1, hb⟩ | ⟨e1, hb⟩
        · refine .inr (.inl ⟨.unit, _, l', rest', lift_res (by rw [hins]; exact e1), r1, fun hp => ⟨?_, fun hc _ => hcl hc (by omega)⟩, fun _ => o1⟩)
          simp only [Spec.Seq.stepObj, Spec.Seq.step]
          rw [if_pos (by omega)]
          cases e with
          | none => simp [Plain] at hp
          | some w => simp
        · exact .inr (.inr (.inl ⟨m, lift_die (by rw [hins]; exact e1), by simp only [need]; omega⟩))
        · exact .inr (.inr (.inr (.inl ⟨lift_ub (by rw [hins]; exact e1), .inl (by simp only [need]; omega)⟩)))
      · refine .inl ⟨msgIdxLe, by simp only [Spec.Seq.stepObj, Spec.Seq.step]; rw [if_neg (by omega)], lift_die ?_⟩
        simp only [insert, Prog.get_bind_apply, Prog.ite_apply]
        rw [if_neg (by omega), if_pos (by omega)]; rfl
    · refine .inl ⟨msgIdxNeg, by simp only [Spec.Seq.stepObj, Spec.Seq.step]; rw [if_neg (by omega)], lift_die ?_⟩
      simp only [insert, Prog.get_bind_apply, Prog.ite_apply]
      rw [if_pos (by omega)]; rfl
  | remove i =>
    by_cases h0 : 0 ≤ i
    · by_cases h1 : i.toNat < xs.length
      · have hrem : ∀ o l', replace limit accept i 1 none l = (o, l') →
            remove limit accept i l = (o >>= fun _ => .ok xs[i.toNat], l') := by
          intro o l' e
          unfold remove
          simp only [Prog.get_bind_apply, Prog.ite_apply]
          rw [if_neg (by omega), if_neg (by omega), Prog.bind_ok (get_ok hlim h i h0 h1)]
          simp only [Prog.bind_apply, e]
          cases o <;> rfl
        rcases replace_ok hlim h i 1 none h0 (by omega) (by omega) (by simp) (by simp) with
          ⟨l', rest', e1, r1, hcl, o1⟩ | ⟨m, e1, hb⟩ | ⟨e1, hb⟩
        · refine .inr (.inl ⟨.elem xs[i.toNat], _, l', rest', lift_res (by rw [hrem _ _ e1]; rfl), r1, fun _ => ⟨?_, fun hc hs => hcl hc ?_⟩, fun _ => o1⟩)
          · simp only [Spec.Seq.stepObj, Spec.Seq.step]
            rw [if_pos h0, List.getElem?_eq_getElem h1]
            simp [List.eraseIdx_eq_take_drop_succ, show (i + 1).toNat = i.toNat + 1 by omega]
          · simp [leavesStale] at hs
            simp; omega
        · simp at hb
          omega
        · simp at hb
          omega
      · refine .inl ⟨msgIdxLt, by simp [Spec.Seq.stepObj, Spec.Seq.step, h0]; omega, lift_die ?_⟩
        simp only [remove, Prog.get_bind_apply, Prog.ite_apply]
        rw [if_neg (by omega), if_pos (by omega)]; rfl
    · refine .inl ⟨msgIdxNeg, by simp [Spec.Seq.stepObj, Spec.Seq.step, h0], lift_die ?_⟩
      simp only [remove, Prog.get_bind_apply, Prog.ite_apply]
      rw [if_pos (by omega)]; rfl
  | replace o n r =>
    obtain ⟨ha1, ha2, ha3⟩ := ha
    unfold I32 at ha1 ha2
    by_cases h0 : 0 ≤ o
    · by_cases h1 : 0 ≤ n
      · by_cases hs : o + n ≤ 2147483647
        · by_cases h2 : o + n ≤ xs.length
          · rcases replace_ok hlim h o n r h0 h1 h2 ha3 hacc with ⟨l', rest', e1, r1, hcl, o1⟩ | ⟨m, e1, hb⟩ | ⟨e1, hb⟩
            · refine .inr (.inl ⟨.unit, _, l', rest', lift_res e1, r1, fun _ => ⟨?_, fun hc hs => hcl hc ?_⟩, fun _ => o1⟩)
              · simp only [Spec.Seq.stepObj, Spec.Seq.step]
                rw [if_pos (by omega)]
              · simp only [leavesStale, decide_eq_false_iff_not, Classical.not_not] at hs
                exact hs
            · exact .inr (.inr (.inl ⟨m, lift_die e1, by simp only [need]; omega⟩))
            · exact .inr (.inr (.inr (.inl ⟨lift_ub e1, .inl (by simp only [need]; omega)⟩)))
          · refine .inl ⟨?_, by simp only [Spec.Seq.stepObj, Spec.Seq.step]; rw [if_neg (by omega)], lift_die ?_⟩
            rotate_left 1
            simp only [replace, Prog.get_bind_apply, Prog.ite_apply]
            rw [if_neg (by omega), if_neg (by omega), add32_ok (by unfold I32; omega)]
            simp only [Prog.lift_ok_bind, Prog.ite_apply]
            rw [if_pos (by omega)]; rfl
        · refine .inr (.inr (.inr (.inl ⟨lift_ub ?_, .inr (by simp only [argSum]; omega)⟩)))
          simp only [replace, Prog.get_bind_apply, Prog.ite_apply]
          rw [if_neg (by omega), if_neg (by omega), add32, chk32, if_neg (by unfold I32; omega)]
          rfl
      · refine .inl ⟨?_, by simp only [Spec.Seq.stepObj, Spec.Seq.step]; rw [if_neg (by omega)], lift_die ?_⟩
        rotate_left 1
        simp only [replace, Prog.get_bind_apply, Prog.ite_apply]
        rw [if_neg (by omega), if_pos (by omega)]; rfl
    · refine .inl ⟨?_, by simp only [Spec.Seq.stepObj, Spec.Seq.step]; rw [if_neg (by omega)], lift_die ?_⟩
      rotate_left 1
      simp only [replace, Prog.get_bind_apply, Prog.ite_apply]
      rw [if_pos (by omega)]; rfl
  | resize n =>
    by_cases h0 : 0 ≤ n
    · have hres : ∀ l1, resizeFill limit accept l.length n l = (.ok (), l1) →
          step limit accept (.resize n) l = (.ok .unit, { l1 with length := n }) := by
        intro l1 e
        refine lift_res (b := ()) (f := fun _ => Res.unit) ?_
        unfold resize
        simp only [Prog.get_bind_apply, Prog.ite_apply]
        rw [if_neg (by omega), Prog.bind_ok e]
        rfl
      by_cases hg : n > xs.length
      · have hf : resizeFill limit accept l.length n = extend limit accept n := by
          unfold resizeFill; rw [if_pos (by omega)]
        rcases extend_cases hlim h n with ⟨l1, k, e1, r1, hl1, hm1, ho1⟩ | ⟨msg, e1, hb⟩ | ⟨e1, hb⟩
        · have hc1 := r1.cap
          have ha1 := r1.alen
          simp at ha1
          refine .inr (.inl ⟨.unit, xs ++ (rest ++ List.replicate k none).take (n.toNat - xs.length), { l1 with length := n },
            (rest ++ List.replicate k none).drop (n.toNat - xs.length), hres l1 (by rw [hf]; exact e1),
            r1.setLength (by simp) _ (by simp; omega), fun hp => ⟨?_, fun hc _ => ?_⟩, fun _ => ho1⟩)
          · have hcl : Clean rest := by
              rcases hp with hp | hp
              · omega
              · exact hp
            have : rest ++ List.replicate k none = List.replicate (rest.length + k) none :=
              List.eq_replicate_iff.mpr ⟨by simp, hrep k hcl⟩
            simp only [Spec.Seq.stepObj, Spec.Seq.step]
            rw [if_pos h0, this, List.take_replicate, List.take_of_length_le (by omega)]
            congr 4
            omega
          · intro x hx
            exact hrep k hc x (List.mem_of_mem_drop hx)
        · refine .inr (.inr (.inl ⟨msg, lift_die ?_, by simp only [need]; omega⟩))
          unfold resize
          simp only [Prog.get_bind_apply, Prog.ite_apply]
          rw [if_neg (by omega), hf]
          exact Prog.bind_die e1
        · refine .inr (.inr (.inr (.inl ⟨lift_ub ?_, .inl (by simp only [need]; omega)⟩)))
          unfold resize
          simp only [Prog.get_bind_apply, Prog.ite_apply]
          rw [if_neg (by omega), hf]
          exact lift_ub e1
      · obtain ⟨l1, e1, r1, o1⟩ := clear_ok hlim h n.toNat (xs.length - n.toNat) (by omega)
        have hfill : ∃ l1 ys, resizeFill limit accept l.length n l = (.ok (), l1) ∧ Rep limit accept l1 ys rest ∧
            ys = xs.take n.toNat ++ List.replicate (xs.length - n.toNat) none ∧ l1.offset = l.offset := by
          by_cases hlt : n < xs.length
          · refine ⟨l1, _, ?_, r1, rfl, o1⟩
            unfold resizeFill
            rw [if_neg (by omega), if_pos (by omega), show (l.length - n).toNat = xs.length - n.toNat by omega]
            exact e1
          · refine ⟨l, xs, ?_, h, ?_, rfl⟩
            · unfold resizeFill
              rw [if_neg (by omega), if_neg (by omega)]
              rfl
            · rw [show xs.length - n.toNat = 0 by omega, List.take_of_length_le (by omega)]; simp
        obtain ⟨l1, ys, e1, r1, hys, o1⟩ := hfill
        refine .inr (.inl ⟨.unit, xs.take n.toNat, { l1 with length := n },
          List.replicate (xs.length - n.toNat) none ++ rest, hres l1 e1,
          r1.setLength (by rw [hys]; simp) _ (by simp; omega), fun _ => ⟨?_, fun hc _ => ?_⟩, fun _ => o1⟩)
        · simp only [Spec.Seq.stepObj, Spec.Seq.step]
          rw [if_pos h0, show n.toNat - xs.length = 0 by omega]
          simp
        · intro x hx
          rw [List.mem_append] at hx
          rcases hx with hx | hx
          · exact (List.mem_replicate.mp hx).2
          · exact hc x hx
    · refine .inl ⟨?_, by simp only [Spec.Seq.stepObj, Spec.Seq.step]; rw [if_neg (by omega)], lift_die ?_⟩
      rotate_left 1
      simp only [resize, Prog.get_bind_apply, Prog.ite_apply]
      rw [if_pos (by omega)]; rfl
  | reserve n =>
    rcases reserve_cases hlim h n ha with ⟨l', k, e1, r1, o1, _⟩ | ⟨m, e1, hb | hb⟩
    · exact .inr (.inl ⟨.unit, xs, l', _, lift_res e1, r1, fun _ => ⟨rfl, fun hc _ => hrep k hc⟩, fun _ => o1⟩)
    · exact .inr (.inr (.inl ⟨m, lift_die e1, hb⟩))
    · exact .inr (.inr (.inr (.inr ⟨m, n, rfl, by omega, lift_die e1⟩)))

/-! ## C03 -/

/-- What the caller knows about the past of the list: `stale` - some elements were removed at the end by `remove` or
`replace`; `moved` - `shift` or `unshift` was called. -/
structure Past where
  stale : Bool
  moved : Bool

def Past.next (p : Past) (xs : List (Option α)) (op : Op (Option α)) : Past :=
  { stale := p.stale || leavesStale xs op, moved := p.moved || movesStart op }

/-- The operation is within the proved domain: `int` arguments, enough memory, storable elements, and not one of the
two operations on which the code departs from a sequence (`insert` of `undef`, growing `resize` after elements were
removed at the end). -/
def Fits (limit : Nat) (accept : α → Bool) (p : Past) (xs : List (Option α)) (op : Op (Option α)) : Prop :=
  IntArgs op ∧ argSum op ≤ 2147483647 ∧ need xs op ≤ limit ∧ Accepted accept op ∧
  (∀ i, op ≠ .insert i none) ∧ (∀ n, op = .resize n → p.stale = true → n ≤ xs.length)

def FitsAll (limit : Nat) (accept : α → Bool) (p : Past) (xs : List (Option α)) : List (Op (Option α)) → Prop
  | [] => True
  | op :: ops => Fits limit accept p xs op ∧ FitsAll limit accept (p.next xs op) (Spec.Seq.nextObj xs op) ops

/-- The outcome of one call agrees with the specification: same result, or both throw.  After `shift`/`unshift`, a
`reserve` may also throw. -/
def Agrees (p : Past) (op : Op (Option α)) (o : Out (Res (Option α))) (s : Option (Res (Option α))) : Prop :=
  (∃ r, o = .ok r ∧ s = some r) ∨ (∃ m, o = .die m ∧ (s = none ∨ (p.moved = true ∧ ∃ n, op = .reserve n)))

/-- Every call of the history agrees with the specification applied to the sequence of that moment. -/
def AgreesAll (p : Past) (xs : List (Option α)) : List (Op (Option α)) → List (Out (Res (Option α))) → Prop
  | [], [] => True
  | op :: ops, o :: os =>
    Agrees p op o ((Spec.Seq.stepObj xs op).map (·.1)) ∧ AgreesAll (p.next xs op) (Spec.Seq.nextObj xs op) ops os
  | _, _ => False

theorem run_agrees {limit : Nat} {accept : α → Bool} (hlim : limit ≤ 1073741824) {l : ObjList α} {xs rest}
    (h : Rep limit accept l xs rest) (p : Past) (h1 : p.stale = false → Clean rest) (h2 : p.moved = false → l.offset = 0)
    (ops : List (Op (Option α))) (hf : FitsAll limit accept p xs ops) :
    AgreesAll p xs ops (run limit accept l ops) := by
  induction ops generalizing l xs rest p with
  | nil => trivial
  | cons op ops ih =>
    obtain ⟨⟨f1, f2, f3, f4, f5, f6⟩, f7⟩ := hf
    have hplain : Plain rest xs op := by
      cases op <;> simp only [Plain]
      case insert i e => intro he; subst he; exact f5 i rfl
      case resize n =>
        by_cases hs : p.stale = true
        · exact .inl (f6 n rfl hs)
        · exact .inr (h1 (by simpa using hs))
    simp only [run, AgreesAll]
    rcases step_cases hlim h op f1 f4 with ⟨m, e1, e2⟩ | ⟨r, ys, l', rest', e2, r2, hsp, hoff⟩ | ⟨m, e2, hb⟩ | ⟨e2, hb⟩ | ⟨m, n, hn, ho, e2⟩
    · rw [e2]
      refine ⟨.inr ⟨m, rfl, .inl (by rw [e1]; rfl)⟩, ?_⟩
      simp only [Spec.Seq.nextObj, e1] at f7 ⊢
      refine ih h _ ?_ ?_ f7
      · intro hs; simp [Past.next] at hs; exact h1 hs.1
      · intro hs; simp [Past.next] at hs; exact h2 hs.1
    · obtain ⟨e1, hcl⟩ := hsp hplain
      rw [e2]
      refine ⟨.inl ⟨r, rfl, by rw [e1]; rfl⟩, ?_⟩
      simp only [Spec.Seq.nextObj, e1] at f7 ⊢
      refine ih r2 _ ?_ ?_ f7
      · intro hs; simp [Past.next] at hs; exact hcl (h1 hs.1) hs.2
      · intro hs; simp [Past.next] at hs; rw [hoff hs.2]; exact h2 hs.1
    · omega
    · omega
    · subst hn
      have hm : p.moved = true := by
        cases hpm : p.moved
        · exact absurd (h2 hpm) ho
        · rfl
      rw [e2]
      refine ⟨.inr ⟨m, rfl, .inr ⟨hm, n, rfl⟩⟩, ?_⟩
      simp only [Spec.Seq.nextObj, Spec.Seq.stepObj] at f7 ⊢
      refine ih h _ ?_ ?_ f7
      · intro hs; simp [Past.next] at hs; exact h1 hs.1
      · intro hs; simp [Past.next] at hs; exact h2 hs.1

/-- **C03** (`new`), full statement: every history on a list built by `new` shows the results of a plain sequence.
Missing here: `insert` of `undef`, growing `resize` after an element was removed at the end, elements the array type does
not accept; `reserve` after `shift`/`unshift` may throw (but changes nothing).  The code really departs from a sequence
there, see the `_violated` theorems.  Arrays are limited to 2^30 elements. -/
theorem c03_new_history_partial (limit : Nat) (hlim : limit ≤ 1073741824) (accept : α → Bool)
    (array : Option (List (Option α))) (capacity : Int) (ops : List (Op (Option α)))
    (hsize : max ((array.getD []).length : Int) (max capacity 4) ≤ limit)
    (hel : ∀ v, some v ∈ array.getD [] → accept v = true)
    (hf : FitsAll limit accept ⟨false, false⟩ (array.getD []) ops) :
    ∃ list, new limit accept array capacity = .ok list ∧
      AgreesAll ⟨false, false⟩ (array.getD []) ops (run limit accept list ops) := by
  obtain ⟨l, e⟩ := new_succeeds hlim hel hsize
  obtain ⟨k, r, ho⟩ := new_ok hlim hel e
  exact ⟨l, e, run_agrees hlim r _ (fun _ x hx => (List.mem_replicate.mp hx).2) (fun _ => ho) ops hf⟩

/-- **C03** (`new_len`). -/
theorem c03_new_len_history_partial (limit : Nat) (hlim : limit ≤ 1073741824) (accept : α → Bool)
    (length capacity : Int) (ops : List (Op (Option α))) (h0 : 0 ≤ length)
    (hsize : max length (max capacity 4) ≤ limit)
    (hf : FitsAll limit accept ⟨false, false⟩ (List.replicate length.toNat none) ops) :
    ∃ list, newLen limit length capacity = .ok list ∧
      AgreesAll ⟨false, false⟩ (List.replicate length.toNat none) ops (run limit accept list ops) := by
  obtain ⟨l, e⟩ := newLen_succeeds (α := α) h0 hsize
  obtain ⟨_, k, r, ho⟩ := newLen_ok (accept := accept) e
  exact ⟨l, e, run_agrees hlim r _ (fun _ x hx => (List.mem_replicate.mp hx).2) (fun _ => ho) ops hf⟩

/-- Non-vacuity: a history that wraps around the ring, grows it while wrapped, shrinks and regrows. -/
example : FitsAll 1000 (fun _ : Int => true) ⟨false, false⟩ [some 1, some 2, some 3]
    [.push none, .shift, .shift, .push (some 5), .push (some 6), .unshift (some 0), .push (some 7), .insert 1 (some 9),
      .remove 0, .resize 2, .resize 4, .get 99, .pop, .replace 0 1 (some [some 8, none]), .toArray] := by
  simp [FitsAll, Fits, IntArgs, I32, argSum, need, Accepted, Spec.Seq.nextObj, Spec.Seq.stepObj, Spec.Seq.step, Past.next,
    leavesStale, movesStart]
example : (run 1000 (fun _ : Int => true) { capacity := 4, length := 3, array := [some 1, some 2, some 3, none], offset := 0 }
    [.push none, .shift, .shift, .push (some 5), .push (some 6), .unshift (some 0), .push (some 7), .insert 1 (some 9),
      .toArray]).getLast? = some (.ok (.arr [some 0, some 9, some 3, none, some 5, some 6, some 7])) := by decide +kernel

/-- `insert($index, undef)` inserts nothing. -/
theorem c03_insert_undef_violated :
    ∃ list : ObjList Int, new 1000 (fun _ => true) (some [some 1, some 2]) = .ok list ∧
      run 1000 (fun _ => true) list [.insert 1 none, .length] = [.ok .unit, .ok (.num 2)] ∧
      (Spec.Seq.stepObj [some (1 : Int), some 2] (.insert 1 none)).map (·.2) = some [some 1, none, some 2] :=
  ⟨_, rfl, by decide +kernel, by decide +kernel⟩

/-- After `remove` of the last element, a growing `resize` shows the removed element again. -/
theorem c03_resize_stale_violated :
    ∃ list : ObjList Int, new 1000 (fun _ => true) (some [some 1, some 2]) = .ok list ∧
      run 1000 (fun _ => true) list [.remove 1, .resize 2, .get 1] =
        [.ok (.elem (some 2)), .ok .unit, .ok (.elem (some 2))] :=
  ⟨_, rfl, by decide +kernel⟩

/-- After `shift`, a `reserve` slightly above the capacity throws. -/
theorem c03_reserve_throws_violated :
    ∃ list : ObjList Int, new 1000 (fun _ => true) (some [some 1, some 2]) = .ok list ∧
      run 1000 (fun _ => true) list [.shift, .shift, .reserve 5] =
        [.ok (.elem (some 1)), .ok (.elem (some 2)), .die msgDestRange] :=
  ⟨_, rfl, by decide +kernel⟩

/-- For a capacity above 2^30 the index arithmetic `$offset + $index` can leave the `int` range. -/
theorem c03_index_overflow_violated (list : ObjList α) (h1 : list.offset = 2147483646) (h2 : list.length > 2) :
    (get 2 list).1 = .ub := by
  unfold get realIndex
  simp only [Prog.get_bind_apply, Prog.ite_apply]
  rw [if_neg (by omega), if_neg (by omega), h1]
  rfl

/-! ## C04 -/

/-- The lists a program can hold, using storable elements. -/
inductive Reachable (limit : Nat) (accept : α → Bool) : ObjList α → Prop
  | new {array capacity list} : (∀ v, some v ∈ array.getD [] → accept v = true) →
      new limit accept array capacity = .ok list → Reachable limit accept list
  | newLen {length capacity list} : newLen limit length capacity = .ok list → Reachable limit accept list
  | step {list list' op r} : Reachable limit accept list → IntArgs op → Accepted accept op →
      step limit accept op list = (.ok r, list') → Reachable limit accept list'
  | caught {list list' op m} : Reachable limit accept list → IntArgs op → Accepted accept op →
      step limit accept op list = (.die m, list') → Reachable limit accept list'

theorem die_unchanged {limit : Nat} {accept : α → Bool} (hlim : limit ≤ 1073741824) {l l' : ObjList α} {xs rest}
    (h : Rep limit accept l xs rest) (op : Op (Option α)) (ha : IntArgs op) (hacc : Accepted accept op) {m : String}
    (hd : step limit accept op l = (.die m, l')) : l' = l := by
  rcases step_cases hlim h op ha hacc with ⟨m, e1, e2⟩ | ⟨r, ys, l', rest', e2, r2, _, _⟩ | ⟨m, e2, hb⟩ | ⟨e2, hb⟩ | ⟨m, n, hn, ho, e2⟩ <;>
    rw [e2] at hd <;> simp at hd <;> exact hd.2.symm

theorem reachable_rep {limit : Nat} {accept : α → Bool} (hlim : limit ≤ 1073741824) {l : ObjList α}
    (h : Reachable limit accept l) : ∃ xs rest, Rep limit accept l xs rest := by
  induction h with
  | new h1 h2 => obtain ⟨k, r, _⟩ := new_ok hlim h1 h2; exact ⟨_, _, r⟩
  | newLen h1 => obtain ⟨_, k, r, _⟩ := newLen_ok (accept := accept) h1; exact ⟨_, _, r⟩
  | @step l l' op r _ ha hacc hs ih =>
    obtain ⟨xs, rest, hx⟩ := ih
    rcases step_cases hlim hx op ha hacc with ⟨m, e1, e2⟩ | ⟨r, ys, l', rest', e2, r2, _, _⟩ | ⟨m, e2, hb⟩ | ⟨e2, hb⟩ | ⟨m, n, hn, ho, e2⟩ <;>
      rw [e2] at hs <;> simp at hs
    obtain ⟨_, rfl⟩ := hs
    exact ⟨_, _, r2⟩
  | @caught l l' op m _ ha hacc hs ih =>
    obtain ⟨xs, rest, hx⟩ := ih
    rw [die_unchanged hlim hx op ha hacc hs]
    exact ⟨_, _, hx⟩

/-- **C04**, full statement: whenever an operation on a `List` throws, the list is unchanged.  Missing: operations with
an element that the array type does not accept (there it is false, see `c04_push_type_violated`). -/
theorem c04_throw_changes_nothing_partial (limit : Nat) (hlim : limit ≤ 1073741824) (accept : α → Bool)
    {list list' : ObjList α} (h : Reachable limit accept list) (op : Op (Option α)) (ha : IntArgs op)
    (hacc : Accepted accept op) (m : String) (hd : step limit accept op list = (.die m, list')) : list' = list := by
  obtain ⟨xs, rest, hx⟩ := reachable_rep hlim h
  exact die_unchanged hlim hx op ha hacc hd

/-- **C04** for `set` with any element at all: also an element of a wrong type leaves the list unchanged. -/
theorem c04_set_throw_changes_nothing (accept : α → Bool) (list list' : ObjList α) (i : Int) (e : Option α) (m : String)
    (hd : set accept i e list = (.die m, list')) : list' = list := by
  unfold set at hd
  simp only [Prog.get_bind_apply, Prog.ite_apply] at hd
  split at hd
  · simp at hd; exact hd.2.symm
  · split at hd
    · simp at hd; exact hd.2.symm
    · cases hri : realIndex list i with
      | die m => rw [hri] at hd; simp at hd; exact hd.2.symm
      | ub => rw [hri] at hd; simp at hd
      | ok r =>
        rw [hri] at hd
        simp only [Prog.lift_ok_bind] at hd
        cases hs : VM.setElementChecked accept list.array r e with
        | die m => rw [hs] at hd; simp at hd; exact hd.2.symm
        | ub => rw [hs] at hd; simp at hd
        | ok a => rw [hs] at hd; simp at hd

/-- Non-vacuity of C04: a reachable wrapped list on which an allocation is refused. -/
example : ∃ list : ObjList Int, Reachable 5 (fun _ => true) list ∧ list.offset ≠ 0 ∧
    (step 5 (fun _ => true) (.resize 5) list).1 = .die msgDestUndef := by
  refine ⟨{ capacity := 4, length := 1, array := [none, some 2, none, none], offset := 1 }, ?_, by decide +kernel, by decide +kernel⟩
  exact .step (op := .shift) (r := .elem (some 1)) (.new (array := some [some 1, some 2]) (capacity := -1) (by simp) rfl)
    trivial trivial (by decide +kernel)

/-- Pushing an element of a type that the list's array does not accept throws, but the length has already grown: the
list then has an additional `undef` element. -/
theorem c04_push_type_violated :
    ∃ list : ObjList Int, new 1000 (fun v => decide (v < 100)) (some [some 1, some 2]) = .ok list ∧
      run 1000 (fun v => decide (v < 100)) list [.push (some 500), .length, .toArray] =
        [.die VM.msgElemType, .ok (.num 3), .ok (.arr [some 1, some 2, none])] :=
  ⟨_, rfl, by decide +kernel⟩

end ObjList
end SPVM
