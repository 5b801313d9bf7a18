import Verif.Lemmas.NumList
/-!
# C01, C02: numeric lists behave as sequences and failing operations change nothing
-/
set_option linter.unusedSimpArgs false
namespace SPVM
namespace NumList
open Spec.Seq (Op Res)
variable {α : Type}

/-- The arguments are what the language allows: `int` values, arrays of at most 2^31-1 elements. -/
def IntArgs : Op α → Prop
  | .get i | .set i _ | .insert i _ | .remove i | .resize i | .reserve i => I32 i
  | .replace o n r => I32 o ∧ I32 n ∧ (r.getD []).length ≤ 2147483647
  | _ => True

/-- Number of elements that the operation may ask the allocator for. -/
def need (xs : List α) : Op α → Int
  | .push _ | .unshift _ | .insert _ _ => 2 * (xs.length + 1)
  | .replace _ n r => 2 * (xs.length - n + (r.getD []).length)
  | .resize n => 2 * n
  | .reserve n => n
  | .toArray => xs.length
  | _ => 0

/-- The sum of two `int` arguments that the operation computes. -/
def argSum : Op α → Int
  | .replace o n _ => o + n
  | _ => 0

theorem lift_res {p : Prog σ β} {f : β → γ} {s s' : σ} {b : β} (h : p s = (.ok b, s')) :
    (p >>= fun b => (pure (f b) : Prog σ γ)) s = (.ok (f b), s') := by
  rw [Prog.bind_ok h]; rfl

theorem lift_die {p : Prog σ β} {f : β → Prog σ γ} {s s' : σ} {m : String} (h : p s = (.die m, s')) :
    (p >>= f) s = (.die m, s') := Prog.bind_die h

theorem lift_ub {p : Prog σ β} {f : β → Prog σ γ} {s s' : σ} (h : p s = (.ub, s')) :
    (p >>= f) s = (.ub, s') := by simp [Prog.bind_apply, h]

/-- Complete case analysis of one operation on a list that represents `xs`. -/
theorem step_cases (limit : Nat) (zero : α) {self : NumList α} {xs : List α} (h : Rep self xs) (op : Op α)
    (ha : IntArgs op) :
    (∃ m, Spec.Seq.step zero xs op = none ∧ step limit zero op self = (.die m, self)) ∨
    (∃ r ys self', Spec.Seq.step zero xs op = some (r, ys) ∧ step limit zero op self = (.ok r, self') ∧ Rep self' ys) ∨
    (∃ m, Spec.Seq.step zero xs op ≠ none ∧ step limit zero op self = (.die m, self) ∧ limit < need xs op) ∨
    (step limit zero op self = (.ub, self) ∧ (2147483647 < need xs op ∨ 2147483647 < argSum op)) := by
  have ⟨hl, hc, hle, hi, he⟩ := h
  cases op with
  | length => exact .inr (.inl ⟨_, _, self, rfl, by simp [step, hl], h⟩)
  | get i =>
    by_cases h0 : 0 ≤ i
    · by_cases h1 : i.toNat < xs.length
      · refine .inr (.inl ⟨.elem xs[i.toNat], xs, self, by simp [Spec.Seq.step, h0, h1], lift_res (get_ok h i h0 h1), h⟩)
      · refine .inl ⟨msgIdxLt, by simp [Spec.Seq.step, h0]; omega, lift_die ?_⟩
        simp only [get, Prog.get_bind_apply, Prog.ite_apply]
        rw [if_neg (by omega), if_pos (by omega)]; rfl
    · refine .inl ⟨msgIdxNeg, by simp [Spec.Seq.step, h0], lift_die ?_⟩
      simp only [get, Prog.get_bind_apply, Prog.ite_apply]
      rw [if_pos (by omega)]; rfl
  | toArray =>
    by_cases h1 : xs.length ≤ limit
    · exact .inr (.inl ⟨.arr xs, xs, self, rfl, lift_res (toArray_ok h h1), h⟩)
    · refine .inr (.inr (.inl ⟨msgNewArrayMem, by simp [Spec.Seq.step], lift_die ?_, by simp [need]; omega⟩))
      unfold toArray
      simp only [Prog.get_bind_apply]
      rw [newArray, if_pos (by omega), if_neg (by omega)]
      rfl
  | set i e =>
    by_cases h0 : 0 ≤ i
    · by_cases h1 : i.toNat < xs.length
      · obtain ⟨s', e1, r1⟩ := set_ok h i e h0 h1
        refine .inr (.inl ⟨.unit, _, s', ?_, lift_res e1, r1⟩)
        simp only [Spec.Seq.step]; rw [if_pos (by omega)]
      · refine .inl ⟨msgIdxLt, by simp only [Spec.Seq.step]; rw [if_neg (by omega)], lift_die ?_⟩
        simp only [set, Prog.get_bind_apply, Prog.ite_apply]
        rw [if_neg (by omega), if_pos (by omega)]; rfl
    · refine .inl ⟨msgIdxNeg, by simp [Spec.Seq.step, h0], lift_die ?_⟩
      simp only [set, Prog.get_bind_apply, Prog.ite_apply]
      rw [if_pos (by omega)]; rfl
  | push e =>
    rcases maybeExtend_cases limit zero h (self.length + 1) with ⟨s1, e1, r1, hm⟩ | ⟨e1, hr⟩ | ⟨e1, hr⟩
    · obtain ⟨s', e2, r2⟩ := push_ok h e e1 r1 hm
      exact .inr (.inl ⟨.unit, _, s', rfl, lift_res e2, r2⟩)
    · by_cases ho : self.length + 1 ≤ 2147483647
      · refine .inr (.inr (.inl ⟨_, by simp [Spec.Seq.step], lift_die (m := msgNewArrayMem) ?_, by simp [need]; omega⟩))
        unfold push
        simp only [Prog.get_bind_apply]
        rw [add32_ok (by unfold I32; omega)]
        simp only [Prog.lift_ok_bind]
        exact Prog.bind_die e1
      · refine .inr (.inr (.inr ⟨lift_ub ?_, .inl (by simp [need]; omega)⟩))
        unfold push
        simp only [Prog.get_bind_apply]
        rw [add32, chk32, if_neg (by unfold I32; omega)]
        rfl
    · refine .inr (.inr (.inr ⟨lift_ub ?_, .inl (by simp [need]; omega)⟩))
      unfold push
      simp only [Prog.get_bind_apply]
      by_cases ho : self.length + 1 ≤ 2147483647
      · rw [add32_ok (by unfold I32; omega)]
        simp only [Prog.lift_ok_bind]
        exact lift_ub e1
      · rw [add32, chk32, if_neg (by unfold I32; omega)]
        rfl
  | pop =>
    by_cases hne : xs = []
    · subst hne
      refine .inl ⟨msgEmpty, rfl, lift_die ?_⟩
      simp only [pop, Prog.get_bind_apply, Prog.ite_apply]
      simp at hl
      rw [if_pos (by omega)]; rfl
    · obtain ⟨s', e1, r1⟩ := pop_ok (zero := zero) h hne
      exact .inr (.inl ⟨_, _, s', by simp [Spec.Seq.step, List.getLast?_eq_some_getLast hne], lift_res e1, r1⟩)
  | unshift e =>
    rcases maybeExtend_cases limit zero h (self.length + 1) with ⟨s1, e1, r1, hm⟩ | ⟨e1, hr⟩ | ⟨e1, hr⟩
    · obtain ⟨s', e2, r2⟩ := unshift_ok h e e1 r1 hm
      exact .inr (.inl ⟨.unit, _, s', rfl, lift_res e2, r2⟩)
    · by_cases ho : self.length + 1 ≤ 2147483647
      · refine .inr (.inr (.inl ⟨_, by simp [Spec.Seq.step], lift_die (m := msgNewArrayMem) ?_, by simp [need]; omega⟩))
        unfold unshift
        simp only [Prog.get_bind_apply]
        rw [add32_ok (by unfold I32; omega)]
        simp only [Prog.lift_ok_bind]
        exact Prog.bind_die e1
      · refine .inr (.inr (.inr ⟨lift_ub ?_, .inl (by simp [need]; omega)⟩))
        unfold unshift
        simp only [Prog.get_bind_apply]
        rw [add32, chk32, if_neg (by unfold I32; omega)]
        rfl
    · refine .inr (.inr (.inr ⟨lift_ub ?_, .inl (by simp [need]; omega)⟩))
      unfold unshift
      simp only [Prog.get_bind_apply]
      by_cases ho : self.length + 1 ≤ 2147483647
      · rw [add32_ok (by unfold I32; omega)]
        simp only [Prog.lift_ok_bind]
        exact lift_ub e1
      · rw [add32, chk32, if_neg (by unfold I32; omega)]
        rfl
  | shift =>
    cases xs with
    | nil =>
      refine .inl ⟨msgEmpty, rfl, lift_die ?_⟩
      simp only [shift, Prog.get_bind_apply, Prog.ite_apply]
      simp at hl
      rw [if_pos (by omega)]; rfl
    | cons x xs =>
      obtain ⟨s', e1, r1⟩ := shift_ok (zero := zero) h
      exact .inr (.inl ⟨_, _, s', rfl, lift_res e1, r1⟩)
  | insert i e =>
    by_cases h0 : 0 ≤ i
    · by_cases h1 : i ≤ xs.length
      · have hs : Spec.Seq.step zero xs (.insert i e) = some (.unit, xs.take i.toNat ++ e :: xs.drop i.toNat) := by
          simp only [Spec.Seq.step]; rw [if_pos (by omega)]
        rcases maybeExtend_cases limit zero h (self.length + 1) with ⟨s1, e1, r1, hm⟩ | ⟨e1, hr⟩ | ⟨e1, hr⟩
        · obtain ⟨s', e2, r2⟩ := insert_ok h i e h0 h1 e1 r1 hm
          exact .inr (.inl ⟨.unit, _, s', hs, lift_res e2, r2⟩)
        · by_cases ho : self.length + 1 ≤ 2147483647
          · refine .inr (.inr (.inl ⟨_, by simp [hs], lift_die (m := msgNewArrayMem) ?_, by simp [need]; omega⟩))
            unfold insert
            simp only [Prog.get_bind_apply, Prog.ite_apply]
            rw [if_neg (by omega), if_neg (by omega), add32_ok (by unfold I32; omega)]
            simp only [Prog.lift_ok_bind]
            exact Prog.bind_die e1
          · refine .inr (.inr (.inr ⟨lift_ub ?_, .inl (by simp [need]; omega)⟩))
            unfold insert
            simp only [Prog.get_bind_apply, Prog.ite_apply]
            rw [if_neg (by omega), if_neg (by omega), add32, chk32, if_neg (by unfold I32; omega)]
            rfl
        · refine .inr (.inr (.inr ⟨lift_ub ?_, .inl (by simp [need]; omega)⟩))
          unfold insert
          simp only [Prog.get_bind_apply, Prog.ite_apply]
          rw [if_neg (by omega), if_neg (by omega)]
          by_cases ho : self.length + 1 ≤ 2147483647
          · rw [add32_ok (by unfold I32; omega)]
            simp only [Prog.lift_ok_bind]
            exact lift_ub e1
          · rw [add32, chk32, if_neg (by unfold I32; omega)]
            rfl
      · refine .inl ⟨msgIdxLe, by simp only [Spec.Seq.step]; rw [if_neg (by omega)], lift_die ?_⟩
        simp only [insert, Prog.get_bind_apply, Prog.ite_apply]
        rw [if_neg (by omega), if_pos (by omega)]; rfl
    · refine .inl ⟨msgIdxNeg, by simp [Spec.Seq.step, h0], lift_die ?_⟩
      simp only [insert, Prog.get_bind_apply, Prog.ite_apply]
      rw [if_pos (by omega)]; rfl
  | remove i =>
    by_cases h0 : 0 ≤ i
    · by_cases h1 : i.toNat < xs.length
      · obtain ⟨s', e1, r1⟩ := remove_ok h i h0 h1
        exact .inr (.inl ⟨.elem xs[i.toNat], _, s', by simp [Spec.Seq.step, h0, h1], lift_res e1, r1⟩)
      · refine .inl ⟨msgIdxLt, by simp [Spec.Seq.step, h0]; omega, lift_die ?_⟩
        simp only [remove, Prog.get_bind_apply, Prog.ite_apply]
        rw [if_neg (by omega), if_pos (by omega)]; rfl
    · refine .inl ⟨msgIdxNeg, by simp [Spec.Seq.step, h0], lift_die ?_⟩
      simp only [remove, Prog.get_bind_apply, Prog.ite_apply]
      rw [if_pos (by omega)]; rfl
  | replace o n r =>
    by_cases h0 : 0 ≤ o
    · by_cases hn : 0 ≤ n
      · by_cases hov : o + n ≤ 2147483647
        · by_cases hon : o + n ≤ xs.length
          · have hs : Spec.Seq.step zero xs (.replace o n r) =
                some (.unit, xs.take o.toNat ++ r.getD [] ++ xs.drop (o + n).toNat) := by
              simp only [Spec.Seq.step]; rw [if_pos (by omega)]
            have hrl : optLen r = (r.getD []).length := by cases r <;> simp [alen, optLen]
            have hpre : ∀ o2, (maybeExtend limit zero (self.length - n + (r.getD []).length) self = (o2, self)) →
                (∀ u, o2 ≠ .ok u) → I32 (self.length - n + (r.getD []).length) →
                ∃ o3, replace limit zero o n r self = (o3, self) ∧ (∀ m, o2 = .die m → o3 = .die m) ∧
                  (o2 = .ub → o3 = .ub) := by
              intro o2 ho2 hnok hI
              unfold replace
              simp only [Prog.get_bind_apply, Prog.ite_apply]
              rw [if_neg (by omega), if_neg (by omega), add32_ok (by unfold I32; omega)]
              simp only [Prog.lift_ok_bind, Prog.ite_apply, hrl]
              rw [if_neg (by omega), sub32_ok (by unfold I32; omega)]
              simp only [Out.ok_bind]
              rw [add32_ok hI]
              simp only [Prog.lift_ok_bind]
              cases o2 with
              | ok u => exact absurd rfl (hnok u)
              | die m => exact ⟨.die m, lift_die ho2, by simp, by simp⟩
              | ub => exact ⟨.ub, lift_ub ho2, by simp, by simp⟩
            have hubI : ¬ I32 (self.length - n + (r.getD []).length) → replace limit zero o n r self = (.ub, self) := by
              intro hI
              unfold replace
              simp only [Prog.get_bind_apply, Prog.ite_apply]
              rw [if_neg (by omega), if_neg (by omega), add32_ok (by unfold I32; omega)]
              simp only [Prog.lift_ok_bind, Prog.ite_apply, hrl]
              rw [if_neg (by omega), sub32_ok (by unfold I32; omega)]
              simp only [Out.ok_bind]
              rw [add32, chk32, if_neg hI]
              rfl
            by_cases hI : I32 (self.length - n + (r.getD []).length)
            · rcases maybeExtend_cases limit zero h (self.length - n + (r.getD []).length) with
                ⟨s1, e1, r1, hm⟩ | ⟨e1, hr⟩ | ⟨e1, hr⟩
              · obtain ⟨s', e2, r2⟩ := replace_ok h o n r h0 hn hon e1 r1 hm
                exact .inr (.inl ⟨.unit, _, s', hs, lift_res e2, r2⟩)
              · obtain ⟨o3, e3, hd, _⟩ := hpre _ e1 (by simp) hI
                rw [hd _ rfl] at e3
                exact .inr (.inr (.inl ⟨_, by simp [hs], lift_die e3, by simp only [need]; omega⟩))
              · obtain ⟨o3, e3, _, hu⟩ := hpre _ e1 (by simp) hI
                rw [hu rfl] at e3
                exact .inr (.inr (.inr ⟨lift_ub e3, .inl (by simp only [need]; omega)⟩))
            · exact .inr (.inr (.inr ⟨lift_ub (hubI hI), .inl (by simp only [need]; unfold I32 at hI; omega)⟩))
          · refine .inl ⟨?_, by simp only [Spec.Seq.step]; rw [if_neg (by omega)], lift_die ?_⟩
            rotate_left 1
            simp only [replace, Prog.get_bind_apply, Prog.ite_apply]
            rw [if_neg (by omega), if_neg (by omega), add32_ok (by unfold I32; omega)]
            simp only [Prog.lift_ok_bind, Prog.ite_apply]
            rw [if_pos (by omega)]; rfl
        · refine .inr (.inr (.inr ⟨lift_ub ?_, .inr (by simp only [argSum]; omega)⟩))
          unfold replace
          simp only [Prog.get_bind_apply, Prog.ite_apply]
          rw [if_neg (by omega), if_neg (by omega), add32, chk32, if_neg (by unfold I32; omega)]
          rfl
      · refine .inl ⟨?_, by simp only [Spec.Seq.step]; rw [if_neg (by omega)], lift_die ?_⟩
        rotate_left 1
        simp only [replace, Prog.get_bind_apply, Prog.ite_apply]
        rw [if_neg (by omega), if_pos (by omega)]; rfl
    · refine .inl ⟨?_, by simp only [Spec.Seq.step]; rw [if_neg (by omega)], lift_die ?_⟩
      rotate_left 1
      simp only [replace, Prog.get_bind_apply, Prog.ite_apply]
      rw [if_pos (by omega)]; rfl
  | resize n =>
    by_cases h0 : 0 ≤ n
    · have hs : Spec.Seq.step zero xs (.resize n) =
          some (.unit, xs.take n.toNat ++ List.replicate (n.toNat - xs.length) zero) := by
        simp only [Spec.Seq.step]; rw [if_pos h0]
      by_cases hgt : n > self.length
      · rcases maybeExtend_cases limit zero h n with ⟨s1, e1, r1, hm⟩ | ⟨e1, hr⟩ | ⟨e1, hr⟩
        · obtain ⟨s', e2, r2⟩ := resize_ok h n h0 (fun _ => e1) (fun _ => r1) (fun _ => hm)
          exact .inr (.inl ⟨.unit, _, s', hs, lift_res e2, r2⟩)
        · refine .inr (.inr (.inl ⟨_, by simp [hs], lift_die (m := msgNewArrayMem) ?_, by simp only [need]; omega⟩))
          unfold resize
          simp only [Prog.get_bind_apply, Prog.ite_apply]
          rw [if_neg (by omega), if_pos hgt]
          exact Prog.bind_die e1
        · refine .inr (.inr (.inr ⟨lift_ub ?_, .inl (by simp only [need]; omega)⟩))
          unfold resize
          simp only [Prog.get_bind_apply, Prog.ite_apply]
          rw [if_neg (by omega), if_pos hgt]
          exact lift_ub e1
      · obtain ⟨s', e2, r2⟩ := resize_ok (limit := limit) (zero := zero) (s1 := self) h n h0
          (fun c => absurd c hgt) (fun c => absurd c hgt) (fun c => absurd c hgt)
        exact .inr (.inl ⟨.unit, _, s', hs, lift_res e2, r2⟩)
    · refine .inl ⟨?_, by simp only [Spec.Seq.step]; rw [if_neg (by omega)], lift_die ?_⟩
      rotate_left 1
      simp only [resize, Prog.get_bind_apply, Prog.ite_apply]
      rw [if_pos (by omega)]; rfl
  | reserve n =>
    by_cases h0 : 0 ≤ n
    · have hs : Spec.Seq.step zero xs (.reserve n) = some (.unit, xs) := by
        simp only [Spec.Seq.step]; rw [if_pos h0]
      by_cases h1 : n ≤ limit
      · obtain ⟨s', e2, r2⟩ := reserve_ok (zero := zero) h n h0 h1 ha.2
        exact .inr (.inl ⟨.unit, _, s', hs, lift_res e2, r2⟩)
      · by_cases h2 : n > self.capacity
        · refine .inr (.inr (.inl ⟨_, by simp [hs], lift_die (m := msgNewArrayMem) ?_, by simp only [need]; omega⟩))
          unfold reserve
          simp only [Prog.get_bind_apply, Prog.ite_apply]
          rw [if_neg (by omega), if_pos h2, newArray, if_pos (by omega), if_neg (by omega)]
          rfl
        · refine .inr (.inl ⟨.unit, _, self, hs, lift_res (b := ()) ?_, h⟩)
          unfold reserve
          simp only [Prog.get_bind_apply, Prog.ite_apply]
          rw [if_neg (by omega), if_neg h2]; rfl
    · refine .inl ⟨?_, by simp only [Spec.Seq.step]; rw [if_neg (by omega)], lift_die ?_⟩
      rotate_left 1
      simp only [reserve, Prog.get_bind_apply, Prog.ite_apply]
      rw [if_pos (by omega)]; rfl

/-! ## C01 -/

/-- An observed outcome agrees with the specified one: same result, or both throw. -/
def Agrees : Out (Res α) → Option (Res α) → Prop
  | .ok r, some r' => r = r'
  | .die _, none => True
  | _, _ => False

/-- The operation is within the resources: `int` arguments whose sum does not overflow, and storage for the operation
that is below the allocation limit and the `int` range. -/
def Fits (limit : Nat) (xs : List α) (op : Op α) : Prop :=
  IntArgs op ∧ argSum op ≤ 2147483647 ∧ need xs op ≤ limit ∧ need xs op ≤ 2147483647

/-- Every operation of the history is within the resources, for the sequence it is applied to. -/
def FitsAll (limit : Nat) (zero : α) (xs : List α) : List (Op α) → Prop
  | [] => True
  | op :: ops => Fits limit xs op ∧ FitsAll limit zero (Spec.Seq.next zero xs op) ops

theorem run_agrees (limit : Nat) (zero : α) {self : NumList α} {xs : List α} (h : Rep self xs) (ops : List (Op α))
    (hf : FitsAll limit zero xs ops) :
    AllRel Agrees (run limit zero self ops) (Spec.Seq.run zero xs ops) := by
  induction ops generalizing self xs with
  | nil => exact .nil
  | cons op ops ih =>
    obtain ⟨⟨hf1, hf2, hf3, hf4⟩, hf5⟩ := hf
    simp only [run, Spec.Seq.run]
    rcases step_cases limit zero h op hf1 with ⟨m, e1, e2⟩ | ⟨r, ys, s', e1, e2, r2⟩ | ⟨m, e1, e2, hr⟩ | ⟨e2, hr⟩
    · simp only [Spec.Seq.next, e1] at hf5
      rw [e2]
      simp only [Spec.Seq.next, e1]
      exact .cons trivial (ih h hf5)
    · simp only [Spec.Seq.next, e1] at hf5
      rw [e2]
      simp only [Spec.Seq.next, e1]
      exact .cons rfl (ih r2 hf5)
    · omega
    · omega

/-- **C01** (`new`): a list built from any array and capacity, followed by any history of operations, shows exactly the
results of the same history on the mathematical sequence. -/
theorem c01_new_history (limit : Nat) (zero : α) (array : Option (List α)) (capacity : Int) (ops : List (Op α))
    (hsize : max ((array.getD []).length : Int) (max capacity 4) ≤ limit)
    (hint : max ((array.getD []).length : Int) capacity ≤ 2147483647)
    (hf : FitsAll limit zero (array.getD []) ops) :
    ∃ list, new limit zero array capacity = .ok list ∧
      AllRel Agrees (run limit zero list ops) (Spec.Seq.run zero (array.getD []) ops) := by
  obtain ⟨l, e, r⟩ := new_ok (zero := zero) hsize hint
  exact ⟨l, e, run_agrees limit zero r ops hf⟩

/-- **C01** (`new_len`). -/
theorem c01_new_len_history (limit : Nat) (zero : α) (length capacity : Int) (ops : List (Op α)) (h0 : 0 ≤ length)
    (hsize : max length (max capacity 4) ≤ limit) (hint : max length capacity ≤ 2147483647)
    (hf : FitsAll limit zero (List.replicate length.toNat zero) ops) :
    ∃ list, newLen limit zero length capacity = .ok list ∧
      AllRel Agrees (run limit zero list ops) (Spec.Seq.run zero (List.replicate length.toNat zero) ops) := by
  obtain ⟨l, e, r⟩ := newLen_ok (zero := zero) h0 hsize hint
  exact ⟨l, e, run_agrees limit zero r ops hf⟩

/-- **C01** (`new_len` with a negative length throws). -/
theorem c01_new_len_negative (limit : Nat) (zero : α) (length capacity : Int) (h : length < 0) :
    ∃ m, newLen limit zero length capacity = .die m := by
  exact ⟨_, by unfold newLen; rw [if_pos (by omega)]⟩

/-- Non-vacuity of C01: a history with growth, overlapping moves, shrinking, regrowth and failing calls. -/
example : FitsAll 1000 (0 : Int) [1, 2, 3]
    [.push 4, .unshift 0, .insert 2 9, .remove 1, .resize 1, .resize 3, .replace 1 1 (some [7, 8]), .get 99, .pop,
      .shift, .reserve 100, .toArray] := by
  simp [FitsAll, Fits, IntArgs, I32, argSum, need, Spec.Seq.next, Spec.Seq.step]
example : run 1000 (0 : Int) { capacity := 3, length := 3, array := [1, 2, 3] }
    [.push 4, .unshift 0, .insert 2 9, .remove 1, .resize 1, .resize 3, .replace 1 1 (some [7, 8]), .pop, .shift, .toArray]
    = [.ok .unit, .ok .unit, .ok .unit, .ok (.elem 1), .ok .unit, .ok .unit, .ok .unit, .ok (.elem 0), .ok (.elem 0),
       .ok (.arr [7, 8])] := by decide

/-! ## C02 -/

/-- The lists a program can hold: built by `new`/`new_len` and changed by any operations that returned or threw. -/
inductive Reachable (limit : Nat) (zero : α) : NumList α → Prop
  | new {array capacity list} : optLen array ≤ 2147483647 → capacity ≤ 2147483647 →
      new limit zero array capacity = .ok list → Reachable limit zero list
  | newLen {length capacity list} : I32 length → I32 capacity →
      newLen limit zero length capacity = .ok list → Reachable limit zero list
  | step {list list' op r} : Reachable limit zero list → IntArgs op → step limit zero op list = (.ok r, list') →
      Reachable limit zero list'
  | caught {list list' op m} : Reachable limit zero list → IntArgs op → step limit zero op list = (.die m, list') →
      Reachable limit zero list'

theorem newLen_rep {limit : Nat} {zero : α} {n c : Int} {l : NumList α} (h1 : n ≤ 2147483647) (h2 : c ≤ 2147483647)
    (h : newLen limit zero n c = .ok l) : Rep l (List.replicate n.toNat zero) := by
  unfold newLen at h
  by_cases h0 : 0 ≤ n
  · rw [if_neg (by omega)] at h
    simp only [] at h
    generalize hcc : (if n > (if c < 0 then 4 else c) then n else if c < 0 then 4 else c) = cc at h
    have hcc' : n ≤ cc ∧ cc ≤ 2147483647 := by
      subst hcc; split <;> split <;> omega
    unfold newArray at h
    rw [if_pos (by omega)] at h
    by_cases hlim : cc.toNat ≤ limit
    · rw [if_pos hlim] at h
      simp only [Out.ok_bind, Out.pure_eq, Out.ok.injEq] at h
      subst h
      refine ⟨by simp; omega, by simp; omega, by simp; omega, by simp; omega, ?_⟩
      intro j hj
      simp at hj
      simp only [List.getElem?_replicate]
      grind
    · rw [if_neg hlim] at h
      simp at h
  · rw [if_pos (by omega)] at h
    simp at h

theorem reachable_rep {limit : Nat} {zero : α} {l : NumList α} (h : Reachable limit zero l) : ∃ xs, Rep l xs := by
  induction h with
  | @newLen n c l h1 h2 h3 => exact ⟨_, newLen_rep h1.2 h2.2 h3⟩
  | @new a c l h1 h2 h3 =>
    unfold NumList.new at h3
    simp only [] at h3
    cases hl : NumList.newLen limit zero (optLen a) c with
    | die m => rw [hl] at h3; simp at h3
    | ub => rw [hl] at h3; simp at h3
    | ok l0 =>
      have r := newLen_rep h1 h2 hl
      have hc := newLen_rep h1 h2 hl
      rw [hl] at h3
      cases a with
      | none => simp at h3; subst h3; exact ⟨_, r⟩
      | some a =>
        simp only [Out.ok_bind, optLen] at h3 r h1
        have ⟨hl, hc, hle, hi, he⟩ := r
        simp [alen] at hl hle h1
        rw [arrayMemcpy_ok (by omega) (by omega) (by simp) (by simp only [alen]; omega) (by simp [alen])
          (by unfold I32; simp only [alen]; omega) (by unfold I32; simp only [alen]; omega)] at h3
        simp only [Out.ok_bind, Out.pure_eq, Out.ok.injEq] at h3
        subst h3
        have hb := blit_length (dst := l0.array) (d := 0) (src := a) (s := 0)
          (n := a.length) (by simpa using hle) (by omega)
        simp only [alen, Int.toNat_natCast, Int.toNat_zero]
        refine ⟨a, by simp [hl], by simp [hc, hb], by simp [hb, hle], by simpa [hb] using hi, ?_⟩
        intro j hj
        simp only []
        rw [blit_getElem? (by omega) (by omega)]
        grind
  | @step l l' op r _ ha hs ih =>
    obtain ⟨xs, hx⟩ := ih
    rcases step_cases limit zero hx op ha with ⟨m, e1, e2⟩ | ⟨r, ys, s', e1, e2, r2⟩ | ⟨m, e1, e2, hr⟩ | ⟨e2, hr⟩
    · rw [e2] at hs; simp at hs
    · rw [e2] at hs; simp at hs; exact ⟨ys, hs.2 ▸ r2⟩
    · rw [e2] at hs; simp at hs
    · rw [e2] at hs; simp at hs
  | @caught l l' op m _ ha hs ih =>
    obtain ⟨xs, hx⟩ := ih
    rcases step_cases limit zero hx op ha with ⟨m, e1, e2⟩ | ⟨r, ys, s', e1, e2, r2⟩ | ⟨m, e1, e2, hr⟩ | ⟨e2, hr⟩
    · rw [e2] at hs; simp at hs; exact ⟨xs, hs.2 ▸ hx⟩
    · rw [e2] at hs; simp at hs
    · rw [e2] at hs; simp at hs; exact ⟨xs, hs.2 ▸ hx⟩
    · rw [e2] at hs; simp at hs

/-- **C02**: whenever an operation on a reachable list throws - bad index, empty list, bad range or refused
allocation - the list object is left exactly as it was. -/
theorem c02_throw_changes_nothing (limit : Nat) (zero : α) {list list' : NumList α} (h : Reachable limit zero list)
    (op : Op α) (ha : IntArgs op) (m : String) (hd : step limit zero op list = (.die m, list')) : list' = list := by
  obtain ⟨xs, hx⟩ := reachable_rep h
  rcases step_cases limit zero hx op ha with ⟨m, e1, e2⟩ | ⟨r, ys, s', e1, e2, r2⟩ | ⟨m, e1, e2, hr⟩ | ⟨e2, hr⟩
  · rw [e2] at hd; simp at hd; exact hd.2.symm
  · rw [e2] at hd; simp at hd
  · rw [e2] at hd; simp at hd; exact hd.2.symm
  · rw [e2] at hd; simp at hd

/-- **C02**: an index outside the list always throws (`insert` also accepts the end position). -/
theorem c02_bad_index_throws (limit : Nat) (zero : α) {list : NumList α} (h : Reachable limit zero list) (i : Int) (e : α)
    (hi : i < 0 ∨ list.length ≤ i) (hI : I32 i) :
    (∃ m, step limit zero (.get i) list = (.die m, list)) ∧ (∃ m, step limit zero (.set i e) list = (.die m, list)) ∧
    (∃ m, step limit zero (.remove i) list = (.die m, list)) ∧
    (i ≠ list.length → ∃ m, step limit zero (.insert i e) list = (.die m, list)) := by
  obtain ⟨xs, hx⟩ := reachable_rep h
  have hl := hx.len
  have key : ∀ op, IntArgs op → Spec.Seq.step zero xs op = none → argSum op ≤ 2147483647 → need xs op ≤ 2147483647 →
      ∃ m, step limit zero op list = (.die m, list) := by
    intro op ha hn h3 h4
    rcases step_cases limit zero hx op ha with ⟨m, e1, e2⟩ | ⟨r, ys, s', e1, e2, r2⟩ | ⟨m, e1, e2, hr⟩ | ⟨e2, hr⟩
    · exact ⟨m, e2⟩
    · rw [hn] at e1; simp at e1
    · exact absurd hn e1
    · omega
  refine ⟨key _ hI ?_ (by simp [argSum]) (by simp [need]), key _ hI ?_ (by simp [argSum]) (by simp [need]),
    key _ hI ?_ (by simp [argSum]) (by simp [need]), fun hne => ?_⟩
  · simp only [Spec.Seq.step]; split
    · rw [List.getElem?_eq_none (by omega)]; rfl
    · rfl
  · simp only [Spec.Seq.step]; rw [if_neg (by omega)]
  · simp only [Spec.Seq.step]; split
    · rw [List.getElem?_eq_none (by omega)]; rfl
    · rfl
  · have : (step limit zero (.insert i e) list).1 = .die msgIdxNeg ∧ (step limit zero (.insert i e) list).2 = list ∨
      (step limit zero (.insert i e) list).1 = .die msgIdxLe ∧ (step limit zero (.insert i e) list).2 = list := by
      simp only [step, insert, Prog.bind_apply, Prog.get_apply, Prog.ite_apply, Prog.die_apply]
      by_cases h0 : 0 ≤ i
      · rw [if_neg (by omega), if_pos (by omega)]; simp
      · rw [if_pos (by omega)]; simp
    rcases this with ⟨a, b⟩ | ⟨a, b⟩
    · exact ⟨_, Prod.ext a b⟩
    · exact ⟨_, Prod.ext a b⟩

/-- Non-vacuity of C02: a reachable list on which an insertion is refused by the allocator. -/
example : Reachable 6 (0 : Int) { capacity := 4, length := 4, array := [1, 2, 3, 4] } ∧
    (step 6 (0 : Int) (.insert 1 9) { capacity := 4, length := 4, array := [1, 2, 3, 4] }).1 = .die msgNewArrayMem :=
  ⟨.new (array := some [1, 2, 3, 4]) (capacity := -1) (by decide) (by decide) (by decide), by decide⟩

/-- Limit of C01: `replace` computes `offset + remove_length` in `int` before comparing it with the length, so
`replace(2147483647, 1, undef)` on any list overflows instead of throwing. -/
theorem c01_replace_overflow_violated (limit : Nat) (zero : α) (list : NumList α) :
    (step limit zero (.replace 2147483647 1 none) list).1 = .ub := by
  rfl

end NumList
end SPVM
