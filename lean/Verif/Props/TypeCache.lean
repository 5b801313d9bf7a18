import Verif.Model.TypeCache
import Verif.Props.Intern
import Verif.Props.Types
/-!
# C35: the assignability cache never changes an answer
-/
set_option linter.unusedSimpArgs false
namespace SPVM
namespace TypeCache
open VM (Bytes)
open Types

/-! ### Keys determine questions -/

/-- The number a list of digits denotes. -/
def value (l : Bytes) : Nat := l.foldl (fun a c => a * 10 + (c.toNat - 48)) 0

theorem digit_toNat {d : Nat} (h : d < 10) : (Spec.digit d).toNat = 48 + d := by
  simp [Spec.digit]; omega

theorem value_digits (n : Nat) : value (Spec.digits n) = n := by
  induction n using Nat.strongRecOn with
  | ind n ih =>
    unfold Spec.digits
    split
    · rename_i h; simp [value, digit_toNat h]
    · rename_i h
      have := ih (n / 10) (by omega)
      unfold value at this ⊢
      rw [List.foldl_append, this]
      simp only [List.foldl_cons, List.foldl_nil, digit_toNat (Nat.mod_lt n (by omega : 10 > 0))]
      omega

theorem digits_inj {a b : Nat} (h : Spec.digits a = Spec.digits b) : a = b := by
  rw [← value_digits a, h, value_digits]

theorem digits_no_dash (n : Nat) : (45 : UInt8) ∉ Spec.digits n := by
  induction n using Nat.strongRecOn with
  | ind n ih =>
    have hd : ∀ {d}, d < 10 → (45 : UInt8) ≠ Spec.digit d := by
      intro d h he
      have := congrArg UInt8.toNat he
      rw [digit_toNat h] at this
      simp at this
      omega
    unfold Spec.digits
    split
    · rename_i h; simpa using hd h
    · rename_i h
      simp only [List.mem_append, List.mem_singleton, not_or]
      exact ⟨ih (n / 10) (by omega), hd (Nat.mod_lt _ (by omega))⟩

theorem split_dash {a a' r r' : Bytes} (ha : (45 : UInt8) ∉ a) (ha' : (45 : UInt8) ∉ a') (h : a ++ 45 :: r = a' ++ 45 :: r') :
    a = a' ∧ r = r' := by
  induction a generalizing a' with
  | nil =>
    cases a' with
    | nil => simpa using h
    | cons y a' => simp only [List.nil_append, List.cons_append, List.cons.injEq] at h; exact absurd (by simp [h.1]) ha'
  | cons x a ih =>
    cases a' with
    | nil => simp only [List.nil_append, List.cons_append, List.cons.injEq] at h; exact absurd (by simp [h.1]) ha
    | cons y a' =>
      simp only [List.cons_append, List.cons.injEq] at h
      have := ih (fun hx => ha (.tail _ hx)) (fun hx => ha' (.tail _ hx)) h.2
      exact ⟨by rw [h.1, this.1], this.2⟩

/-- **C35.** Different questions never share a cache entry. -/
theorem key_inj {q q' : Query} (h : key q = key q') : q = q' := by
  unfold key at h
  obtain ⟨e1, h⟩ := split_dash (digits_no_dash _) (digits_no_dash _) h
  obtain ⟨e2, h⟩ := split_dash (digits_no_dash _) (digits_no_dash _) h
  obtain ⟨e3, h⟩ := split_dash (digits_no_dash _) (digits_no_dash _) h
  obtain ⟨e4, h⟩ := split_dash (digits_no_dash _) (digits_no_dash _) h
  obtain ⟨e5, h⟩ := split_dash (digits_no_dash _) (digits_no_dash _) h
  cases q; cases q'
  simp only [Query.mk.injEq]
  exact ⟨digits_inj e1, digits_inj e2, digits_inj e3, digits_inj e4, digits_inj e5, digits_inj h⟩

/-! ### The invariant -/

/-- Every stored and returned answer is the computed one; pending questions are answerable. -/
structure Inv (w : World) (n : Nat) (Q : Query → Prop) (st : St) : Prop where
  good : CHash.Good (fun _ => True) Intern.H st.table.table
  table : ∀ q v, CHash.toMap Intern.H st.table.table (key q) = some v →
    (v = 1 ∧ compute w n q = .ok true) ∨ (v = -1 ∧ compute w n q = .ok false)
  answers : ∀ a ∈ st.answers, compute w n a.1 = .ok a.2
  pending : ∀ t q, st.pending t = some q → Q q

theorem step_ok {w : World} {n : Nat} {Q : Query → Prop} (hQ : ∀ q, Q q → ∃ b, compute w n q = .ok b) {st : St}
    (i : Inv w n Q st) (s : Step) (hs : ∀ t q, s = .look t q → Q q) (hk : st.table.keysLength ≤ 805306368) :
    ∃ st', step w n CHash.hashWrap st s = .ok st' ∧ Inv w n Q st' ∧ st'.table.keysLength ≤ st.table.keysLength + 1 := by
  cases s with
  | look t q =>
    simp only [step]
    cases hp : st.pending t with
    | some q' => simp only [hp]; exact ⟨st, rfl, i, by omega⟩
    | none =>
      simp only [hp, CHash.get_ok Intern.hP i.good (key q) trivial 0, Out.ok_bind]
      refine ⟨_, rfl, ?_⟩
      unfold looked
      cases hm : CHash.toMap Intern.H st.table.table (key q) with
      | none =>
        simp only [Option.getD_none, gt_iff_lt, Int.lt_irrefl, if_false]
        refine ⟨⟨i.good, i.table, i.answers, ?_⟩, by simp⟩
        intro u q'
        simp only
        split
        · intro he; cases he; exact hs t q rfl
        · exact i.pending u q'
      | some v =>
        rcases i.table q v hm with ⟨rfl, hc⟩ | ⟨rfl, hc⟩
        · refine ⟨⟨i.good, i.table, ?_, i.pending⟩, by simp⟩
          intro a ha
          simp only [Option.getD_some, gt_iff_lt, Int.zero_lt_one, if_true, List.mem_cons] at ha
          rcases ha with rfl | ha
          · exact hc
          · exact i.answers a ha
        · refine ⟨⟨i.good, i.table, ?_, i.pending⟩, by simp⟩
          intro a ha
          simp at ha
          rcases ha with rfl | ha
          · exact hc
          · exact i.answers a ha
  | store t =>
    simp only [step]
    cases hp : st.pending t with
    | none => simp only [hp]; exact ⟨st, rfl, i, by omega⟩
    | some q =>
      obtain ⟨b, hb⟩ := hQ q (i.pending t q hp)
      obtain ⟨h', e2, g2, m2, k2⟩ := CHash.set_ok Intern.hP i.good hk (key q) trivial (if b then (1 : Int) else -1)
      unfold stored
      simp only [hp, hb, Out.ok_bind, e2]
      refine ⟨_, rfl, ⟨g2, ?_, ?_, ?_⟩, k2⟩
      · intro q' v hv
        simp only at hv
        rw [m2] at hv
        simp only [Spec.Map.put] at hv
        by_cases hq : key q' = key q
        · rw [if_pos hq] at hv
          have := key_inj hq
          subst this
          cases b
          · right; simp at hv; exact ⟨hv.symm, hb⟩
          · left; simp at hv; exact ⟨hv.symm, hb⟩
        · rw [if_neg hq] at hv
          exact i.table q' v hv
      · intro a ha
        simp only [List.mem_cons] at ha
        rcases ha with rfl | ha
        · exact hb
        · exact i.answers a ha
      · intro u q'
        simp only
        split
        · intro he; cases he
        · exact i.pending u q'

theorem run_ok {w : World} {n : Nat} {Q : Query → Prop} (hQ : ∀ q, Q q → ∃ b, compute w n q = .ok b) {st : St}
    (i : Inv w n Q st) (ss : List Step) (hs : ∀ t q, Step.look t q ∈ ss → Q q)
    (hk : st.table.keysLength + ss.length ≤ 805306368) :
    ∃ st', run w n CHash.hashWrap st ss = .ok st' ∧ Inv w n Q st' := by
  induction ss generalizing st with
  | nil => exact ⟨st, rfl, i⟩
  | cons s ss ih =>
    simp only [List.length_cons] at hk
    obtain ⟨st1, e1, i1, k1⟩ := step_ok hQ i s (fun t q he => hs t q (by simp [he])) (by omega)
    obtain ⟨st2, e2, i2⟩ := ih i1 (fun t q h => hs t q (.tail _ h)) (by omega)
    exact ⟨st2, by simp only [run, e1, Out.ok_bind, e2], i2⟩

/-- **C35.** Whatever the threads ask and however they are scheduled (at most 805306368 steps, so that the table can grow), no
call of the run-time assignability test fails, and every answer it ever gives is the one the compiler's test gives for the
two types without their flags - no matter which questions were asked before, by whom, and which of them were being computed
at the same time.  The questions asked must have an answer (see `c35_interface_recursion_violated`). -/
theorem c35_cache_transparent {w : World} {n : Nat} (ss : List Step)
    (hs : ∀ t q, Step.look t q ∈ ss → ∃ b, compute w n q = .ok b) (hk : ss.length ≤ 805306368) :
    ∃ st0 st, init = .ok st0 ∧ run w n CHash.hashWrap st0 ss = .ok st ∧
      ∀ q b, (q, b) ∈ st.answers →
        assignPlain w n { bt := q.db, dim := q.dd } { bt := q.sb, dim := q.sd } = .ok b := by
  obtain ⟨h, e, g, m, k⟩ := CHash.new_ok (ν := Int) (P := fun _ => True) (H := Intern.H) (capacity := 0) (by omega)
  have hi : init = .ok { table := h, pending := fun _ => none, answers := [] } := by
    unfold init; rw [e]; rfl
  have i0 : Inv w n (fun q => ∃ b, compute w n q = .ok b) { table := h, pending := fun _ => none, answers := [] } :=
    ⟨g, fun q v hv => (by simp only [m, Spec.Map.empty] at hv; cases hv), by simp, by simp⟩
  obtain ⟨st, e1, i1⟩ := run_ok (fun q h => h) i0 ss hs (by simp only [k]; omega)
  exact ⟨_, st, hi, e1, fun q b hqb => i1.answers _ hqb⟩

/-- **C35.** A call that is run to its end without interruption answers. -/
theorem c35_cache_answers {w : World} {n : Nat} {st : St} {q : Query} {b : Bool} (hc : compute w n q = .ok b)
    (i : Inv w n (fun q => ∃ b, compute w n q = .ok b) st) {t : Nat} (ht : st.pending t = none)
    (hk : st.table.keysLength < 805306368) :
    ∃ st', run w n CHash.hashWrap st [.look t q, .store t] = .ok st' ∧ st'.answers = (q, b) :: st.answers ∧
      st'.pending t = none := by
  simp only [run, step, ht, CHash.get_ok Intern.hP i.good (key q) trivial 0, Out.ok_bind, looked]
  cases hm : CHash.toMap Intern.H st.table.table (key q) with
  | none =>
    obtain ⟨h', e2, g2, m2, k2⟩ := CHash.set_ok Intern.hP i.good (by omega) (key q) trivial (if b then (1 : Int) else -1)
    simp [stored, hc, e2]
  | some v =>
    rcases i.table q v hm with ⟨rfl, hc'⟩ | ⟨rfl, hc'⟩
    · rw [hc] at hc'; cases hc'; simp [ht]
    · rw [hc] at hc'; cases hc'; simp [ht]

/-- Two threads race for the same question, a third asks later; a different question does not hit the entry. -/
example : (do
    let st0 ← init
    let st ← run exWorld 9 CHash.hashWrap st0
      [.look 0 ⟨17, 0, 0, 18, 0, 0⟩, .look 1 ⟨17, 0, 0, 18, 0, 0⟩, .store 1, .store 0, .look 2 ⟨17, 0, 0, 18, 0, 0⟩,
       .look 2 ⟨17, 0, 0, 19, 0, 0⟩, .store 2, .look 0 ⟨17, 0, 0, 19, 0, 0⟩]
    pure st.answers) =
    .ok [(⟨17, 0, 0, 19, 0, 0⟩, false), (⟨17, 0, 0, 19, 0, 0⟩, false), (⟨17, 0, 0, 18, 0, 0⟩, true),
      (⟨17, 0, 0, 18, 0, 0⟩, true), (⟨17, 0, 0, 18, 0, 0⟩, true)] := by decide +kernel

end TypeCache
end SPVM
