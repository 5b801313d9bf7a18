import Verif.Model.Intern
import Verif.Props.CHash
import Verif.Props.CList
/-!
# C42: string interning
-/
set_option linter.unusedSimpArgs false
namespace SPVM
namespace Intern
open VM (Bytes)

/-- The hash function as a total function (two's complement). -/
noncomputable def H (k : Bytes) : Nat := (CHash.hashWrap_ok k).choose
theorem hP (k : Bytes) (_ : True) : CHash.Hashes CHash.hashWrap H k := (CHash.hashWrap_ok k).choose_spec

structure Inv (st : St) : Prop where
  nodup : st.heap.Nodup
  good : CHash.Good (fun _ => True) H st.symtable.table
  map : ∀ k, CHash.toMap H st.symtable.table k = if k ∈ st.heap then some (st.heap.idxOf k + 1) else none
  keys : st.symtable.keysLength ≤ st.heap.length
  list : CList.Rep st.strings (List.range' 1 st.heap.length)

/-- The strings after a call: nothing moves, the value is there. -/
theorem new_ok {st : St} (i : Inv st) (v : Bytes) (hv : v.length < 2147483647) (hn : st.heap.length < 805306368) :
    ∃ st', new CHash.hashWrap st v = .ok (st'.heap.idxOf v + 1, st') ∧ Inv st' ∧ v ∈ st'.heap ∧
      st'.heap = (if v ∈ st.heap then st.heap else st.heap ++ [v]) := by
  unfold new
  rw [CHash.get_ok hP i.good v trivial 0]
  simp only [Out.ok_bind]
  by_cases hm : v ∈ st.heap
  · rw [i.map v, if_pos hm]
    refine ⟨st, by simp, i, hm, by rw [if_pos hm]⟩
  · rw [i.map v, if_neg hm]
    simp only [Option.getD_none, ne_eq, not_true_eq_false, if_false]
    rw [add32_ok (by constructor <;> omega)]
    simp only [Out.ok_bind]
    obtain ⟨l', e1, r1⟩ := CList.step_rep 0 (op := .push (st.heap.length + 1)) i.list (by simp; omega) rfl
    have e1' : CList.push 0 st.strings (st.heap.length + 1) = .ok l' := by
      simp only [CList.step] at e1
      cases hp : CList.push 0 st.strings (st.heap.length + 1) with
      | ok x => rw [hp] at e1; simp at e1; rw [e1]
      | die m => rw [hp] at e1; simp at e1
      | ub => rw [hp] at e1; simp at e1
    obtain ⟨h', e2, g2, m2, k2⟩ := CHash.set_ok hP i.good (by have := i.keys; omega) v trivial (st.heap.length + 1)
    rw [e1']
    simp only [Out.ok_bind, e2]
    have hidx : (st.heap ++ [v]).idxOf v = st.heap.length := by
      simp [List.idxOf_append, hm]
    refine ⟨{ heap := st.heap ++ [v], strings := l', symtable := h' }, by simp [hidx], ⟨?_, g2, ?_, ?_, ?_⟩, ?_, ?_⟩
    · rw [List.nodup_append]
      refine ⟨i.nodup, by simp, ?_⟩
      intro a ha b hb
      simp only [List.mem_singleton] at hb
      rintro rfl
      exact hm (hb ▸ ha)
    · intro k
      rw [m2]
      simp only [Spec.Map.put, i.map k]
      by_cases hk : k = v
      · subst hk; rw [if_pos rfl]; simp [hidx]
      · rw [if_neg hk]
        by_cases hk2 : k ∈ st.heap
        · simp [hk2, List.idxOf_append]
        · simp [hk2, hk]
    · have := i.keys; simp only [List.length_append, List.length_singleton]; omega
    · simp only [List.length_append, List.length_singleton]
      have : List.range' 1 (st.heap.length + 1) = List.range' 1 st.heap.length ++ [st.heap.length + 1] := by
        rw [List.range'_concat]; simp [Nat.add_comm]
      rw [this]; exact r1
    · simp
    · rw [if_neg hm]

theorem idxOf_append_left {l m : List Bytes} {v : Bytes} (h : v ∈ l) : (l ++ m).idxOf v = l.idxOf v := by
  rw [List.idxOf_append, if_pos h]

theorem run_ok (vs : List Bytes) {st : St} (i : Inv st) (hv : ∀ v ∈ vs, v.length < 2147483647)
    (hn : st.heap.length + vs.length ≤ 805306368) :
    ∃ st', run CHash.hashWrap st vs = .ok (vs.map fun v => st'.heap.idxOf v + 1, st') ∧ Inv st' ∧ (∀ v ∈ vs, v ∈ st'.heap) ∧
      (∃ m, st'.heap = st.heap ++ m ∧ ∀ v ∈ m, v ∈ vs) := by
  induction vs generalizing st with
  | nil => exact ⟨st, rfl, i, by simp, [], by simp, by simp⟩
  | cons v vs ih =>
    simp only [List.length_cons] at hn
    obtain ⟨st1, e1, i1, m1, h1⟩ := new_ok i v (hv v List.mem_cons_self) (by omega)
    have hl : st1.heap.length ≤ st.heap.length + 1 := by rw [h1]; split <;> simp
    obtain ⟨st2, e2, i2, m2, ⟨m, h2, h2'⟩⟩ := ih i1 (fun x hx => hv x (List.mem_cons_of_mem _ hx)) (by omega)
    refine ⟨st2, ?_, i2, ?_, ?_⟩
    · simp only [run, e1, e2, Out.ok_bind, List.map_cons]
      rw [h2, idxOf_append_left m1]
    · intro x hx
      rcases List.mem_cons.mp hx with rfl | hx
      · rw [h2]; simp [m1]
      · exact m2 x hx
    · rw [h2, h1]
      by_cases hm : v ∈ st.heap
      · rw [if_pos hm]; exact ⟨m, rfl, fun x hx => List.mem_cons_of_mem _ (h2' x hx)⟩
      · rw [if_neg hm]
        refine ⟨[v] ++ m, by simp, ?_⟩
        intro x hx
        simp only [List.mem_append, List.mem_singleton] at hx
        rcases hx with rfl | hx
        · exact List.mem_cons_self
        · exact List.mem_cons_of_mem _ (h2' x hx)

/-- **C42**: for every sequence of requests to a new compiler, each request gives a string with exactly the requested bytes,
two requests give the same string exactly when the bytes are equal, and the list of constant strings contains every
requested string exactly once.  (Two's complement hash arithmetic, see C38.) -/
theorem c42_interning (listCapacity tableCapacity : Int) (h1 : 0 ≤ listCapacity) (h2 : 0 ≤ tableCapacity)
    (vs : List Bytes) (hv : ∀ v ∈ vs, v.length < 2147483647) (hn : vs.length ≤ 805306368) :
    ∃ ps st, (do let st ← init listCapacity tableCapacity; run CHash.hashWrap st vs) = .ok (ps, st) ∧
      ps.length = vs.length ∧
      (∀ i : Nat, (ps[i]?).bind (deref st) = vs[i]?) ∧
      (∀ (i j : Nat) (p q : Nat) (v w : Bytes), ps[i]? = some p → ps[j]? = some q → vs[i]? = some v → vs[j]? = some w → (p = q ↔ v = w)) ∧
      (st.strings.values.take st.strings.length).Nodup ∧
      (∀ p, p ∈ st.strings.values.take st.strings.length ↔ p ∈ ps) := by
  have ⟨l, el, rl⟩ : ∃ l, CList.new 0 listCapacity = .ok l ∧ CList.Rep l ([] : List Nat) := by
    unfold CList.new
    rw [if_neg (by omega)]
    by_cases h0 : listCapacity = 0
    · exact ⟨_, by rw [if_pos h0], ⟨[0], rfl⟩, rfl, by simp⟩
    · exact ⟨_, by rw [if_neg h0], ⟨List.replicate listCapacity.toNat 0, rfl⟩, rfl, by simp; omega⟩
  obtain ⟨h, eh, gh, mh, kh⟩ := CHash.new_ok (ν := Nat) (P := fun _ => True) (H := H) h2
  have i0 : Inv { heap := [], strings := l, symtable := h } :=
    ⟨by simp, gh, fun k => by simp [mh, Spec.Map.empty], by simp [kh], by simpa using rl⟩
  obtain ⟨st, e, i, hm, m, hh, hh'⟩ := run_ok vs i0 hv (by simpa using hn)
  refine ⟨vs.map fun v => st.heap.idxOf v + 1, st, by simp only [init, el, eh, Out.ok_bind, e], by simp, ?_, ?_, ?_, ?_⟩
  · intro j
    cases hj : vs[j]? with
    | none => simp [hj]
    | some v =>
      have hmem : v ∈ st.heap := hm v (List.mem_of_getElem? hj)
      simp [hj, deref, List.getElem?_eq_getElem (List.idxOf_lt_length_of_mem hmem)]
  · intro a b p q v w hp hq hva hwb
    simp only [List.getElem?_map, hva, hwb, Option.map_some, Option.some.injEq] at hp hq
    have m1 : v ∈ st.heap := hm v (List.mem_of_getElem? hva)
    have m2 : w ∈ st.heap := hm w (List.mem_of_getElem? hwb)
    subst hp hq
    constructor
    · intro heq
      have heq : st.heap.idxOf v = st.heap.idxOf w := by omega
      have e1 := List.getElem_idxOf (List.idxOf_lt_length_of_mem m1)
      have e2 := List.getElem_idxOf (List.idxOf_lt_length_of_mem m2)
      rw [← e1, ← e2]
      simp [heq]
    · rintro rfl; rfl
  · obtain ⟨⟨rest, hv1⟩, hl1, _⟩ := i.list
    rw [hv1, hl1, List.take_left]
    exact List.nodup_range'
  · obtain ⟨⟨rest, hv1⟩, hl1, _⟩ := i.list
    intro p
    rw [hv1, hl1, List.take_left, List.mem_range'_1, List.mem_map]
    constructor
    · intro hp
      have hlt : p - 1 < st.heap.length := by omega
      refine ⟨st.heap[p - 1], ?_, ?_⟩
      · apply hh'
        have : st.heap = m := by simpa using hh
        rw [← this]
        exact List.getElem_mem _
      · rw [i.nodup.idxOf_getElem]; omega
    · rintro ⟨v, hvm, rfl⟩
      have := List.idxOf_lt_length_of_mem (hm v hvm)
      omega

example : ((do let st ← init 0 0; run CHash.hashWrap st [[97], [98, 0], [], [97], [98], []]) >>= fun r => .ok r.1) =
    .ok [1, 2, 3, 1, 4, 3] := by decide +kernel

end Intern
end SPVM
