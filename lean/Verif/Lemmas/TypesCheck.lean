import Verif.Lemmas.TypesIface
/-!
# The compiler's checks of the class hierarchy
-/
set_option linter.unusedSimpArgs false
namespace SPVM
namespace Types
open VM (Bytes)
open Spec.Types

/-- Unique names. -/
def Names (w : World) : Prop := ∀ (i j : Nat) (bi bj : BT), w[i]? = some bi → w[j]? = some bj → bi.name = bj.name → i = j

theorem lookup_eq' {w : World} (hw : Names w) {i : Nat} {b : BT} (h : w[i]? = some b) : lookup w b.name = some i := by
  cases hl : lookup w b.name with
  | none =>
    unfold lookup at hl
    rw [List.findIdx?_eq_none_iff] at hl
    have := hl b (List.mem_of_getElem? h)
    simp at this
  | some j =>
    obtain ⟨b', h1, h2⟩ := lookup_some hl
    rw [hw j i b' b h1 h h2]

theorem parent_iff' {w : World} (hw : Names w) {p c : Nat} : parent w c = some p ↔ Parent w p c := by
  unfold parent Parent
  constructor
  · intro h
    cases hc : w[c]? with
    | none => simp [hc] at h
    | some b =>
      simp only [hc, Option.bind_some] at h
      cases hb : b.parentName with
      | none => simp [hb] at h
      | some n =>
        simp only [hb, Option.bind_some] at h
        obtain ⟨b', h1, h2⟩ := lookup_some h
        exact ⟨b, b', rfl, h1, by rw [hb, h2]⟩
  · rintro ⟨bc, bp, h1, h2, h3⟩
    simp [h1, h3, lookup_eq' hw h2]

/-- The cycle check of one class looks at all its super classes. -/
theorem cycleLoop_true {w : World} (hw : Names w) {name : Bytes} {n c a : Nat} (h : cycleLoop w name n (parent w c) = .ok true)
    (ha : Ancestor w a c) {b : BT} (hb : w[a]? = some b) : b.name ≠ name := by
  induction n generalizing c with
  | zero => simp [cycleLoop] at h
  | succ n ih =>
    cases ha with
    | parent hp =>
      rw [(parent_iff' hw).2 hp] at h
      simp only [cycleLoop, hb, Option.map_some] at h
      intro he
      rw [if_pos (by rw [he])] at h
      cases h
    | up hp h' =>
      rw [(parent_iff' hw).2 hp] at h
      simp only [cycleLoop] at h
      split at h
      · cases h
      · exact ih h h'

theorem checkRelation_true {w : World} (hw : Names w) {n : Nat} (h : checkRelation w n = .ok true) :
    (∀ (c : Nat) (b : BT) (p : Bytes), w[c]? = some b → b.parentName = some p →
      HasCat w c .cls ∧ ∃ q, Parent w q c ∧ HasCat w q .cls) ∧ ∀ c, ¬ Ancestor w c c := by
  unfold checkRelation at h
  cases h1 : andAll (checkParent w) w with
  | die m => rw [h1] at h; cases h
  | ub => rw [h1] at h; cases h
  | ok b =>
    rw [h1] at h
    cases b with
    | false => cases h
    | true =>
      simp only [Out.ok_bind, if_true, checkCycles] at h
      rw [andAll_true] at h h1
      constructor
      · intro c b p hc hp
        have := h1 b (List.mem_of_getElem? hc)
        simp only [checkParent, hp] at this
        cases hl : lookup w p with
        | none => rw [hl] at this; cases this
        | some q =>
          simp only [hl] at this
          split at this
          · cases this
          · rename_i h3
            split at this
            · cases this
            · rename_i h4
              obtain ⟨b', k1, k2⟩ := lookup_some hl
              refine ⟨⟨b, hc, by simpa using h4⟩, q, ⟨b, b', hc, k1, by rw [hp, k2]⟩, ?_⟩
              rw [hasCat_iff (by simp)]; simpa using h3
      · intro c hcc
        have hlt : ∃ b, w[c]? = some b := by
          cases hcc with
          | parent hp => obtain ⟨b, _, h1, _⟩ := hp; exact ⟨b, h1⟩
          | up hp _ => obtain ⟨b, _, h1, _⟩ := hp; exact ⟨b, h1⟩
        obtain ⟨b, hb⟩ := hlt
        have := h c (List.mem_range.2 (List.getElem?_eq_some_iff.1 hb).1)
        simp only [hb, Option.map_some, Option.getD_some] at this
        exact cycleLoop_true hw this hcc hb rfl

/-- A decision procedure for `WfTy`. -/
def wfTyB (w : World) (t : Ty) : Bool :=
  decide (cat w t.bt ≠ .unknown) &&
  decide (t.ref = true → t.dim = 0 ∧ (cat w t.bt = .numeric ∨ cat w t.bt = .mulnum)) &&
  decide (t.isMut = true → cat w t.bt = .string) &&
  decide (0 < t.dim → cat w t.bt ≠ .undef ∧ cat w t.bt ≠ .void)

theorem wfTyB_true {w : World} {t : Ty} (h : wfTyB w t = true) : WfTy w t := by
  simp only [wfTyB, Bool.and_eq_true, decide_eq_true_eq] at h
  obtain ⟨⟨⟨h1, h2⟩, h3⟩, h4⟩ := h
  refine ⟨?_, ?_, ?_, ?_⟩
  · cases hb : w[t.bt]? with
    | none => simp [cat, hb] at h1
    | some b => exact ⟨b, rfl, by simpa [cat, hb] using h1⟩
  · rw [hasCat_iff (by simp), hasCat_iff (by simp)]; exact h2
  · rw [hasCat_iff (by simp)]; exact h3
  · rw [hasCat_iff (by simp), hasCat_iff (by simp)]; exact h4

/-- A decision procedure for `Wf`, used for concrete programs. -/
def wfB (w : World) (n : Nat) : Bool :=
  decide (17 ≤ w.length) &&
  (List.range w.length).all (fun i =>
    decide ((cat w i = .undef ↔ i = 1) ∧ (cat w i = .void ↔ i = 2) ∧ (cat w i = .numeric ↔ 3 ≤ i ∧ i ≤ 8) ∧
      (cat w i = .string ↔ i = 9) ∧ (cat w i = .anyObject ↔ i = 10) ∧ (11 ≤ i → i ≤ 16 → cat w i = .cls))) &&
  decide ((w.map BT.name).Nodup) &&
  decide (checkRelation w n = .ok true) &&
  w.all (fun b => decide ((b.methods.map Method.name).Nodup) && b.methods.all (fun m => wfTyB w m.ret && m.args.all (wfTyB w)))

theorem wfB_true {w : World} {n : Nat} (h : wfB w n = true) : Wf w := by
  simp only [wfB, Bool.and_eq_true, decide_eq_true_eq, List.all_eq_true, List.mem_range] at h
  obtain ⟨⟨⟨⟨h0, h1⟩, h2⟩, h3⟩, h4⟩ := h
  have hn : Names w := by
    intro i j bi bj hi hj he
    obtain ⟨li, ei⟩ := List.getElem?_eq_some_iff.1 hi
    obtain ⟨lj, ej⟩ := List.getElem?_eq_some_iff.1 hj
    have P := List.pairwise_iff_getElem.1 h2
    rcases Nat.lt_trichotomy i j with hlt | heq | hlt
    · have := P i j (by simpa using li) (by simpa using lj) hlt
      simp [ei, ej, he] at this
    · exact heq
    · have := P j i (by simpa using lj) (by simpa using li) hlt
      simp [ei, ej, he] at this
  have hc : ∀ i k, k ≠ .unknown → (HasCat w i k ↔ cat w i = k) := fun i k hk => hasCat_iff hk
  have out : ∀ i, w.length ≤ i → cat w i = .unknown := by
    intro i hi; simp [cat, List.getElem?_eq_none hi]
  obtain ⟨p1, p2⟩ := checkRelation_true hn h3
  constructor
  · intro i; rw [hc _ _ (by simp)]
    by_cases hl : i < w.length
    · exact (h1 i hl).1
    · rw [out i (by omega)]; simp; omega
  · intro i; rw [hc _ _ (by simp)]
    by_cases hl : i < w.length
    · exact (h1 i hl).2.1
    · rw [out i (by omega)]; simp; omega
  · intro i; rw [hc _ _ (by simp)]
    by_cases hl : i < w.length
    · exact (h1 i hl).2.2.1
    · rw [out i (by omega)]; simp; omega
  · intro i; rw [hc _ _ (by simp)]
    by_cases hl : i < w.length
    · exact (h1 i hl).2.2.2.1
    · rw [out i (by omega)]; simp; omega
  · intro i; rw [hc _ _ (by simp)]
    by_cases hl : i < w.length
    · exact (h1 i hl).2.2.2.2.1
    · rw [out i (by omega)]; simp; omega
  · intro i a b; rw [hc _ _ (by simp)]
    exact (h1 i (by omega)).2.2.2.2.2 a b
  · exact hn
  · exact p1
  · exact p2
  · intro i b hb
    exact (h4 b (List.mem_of_getElem? hb)).1
  · intro i b hb m hm
    have := (h4 b (List.mem_of_getElem? hb)).2 m hm
    exact ⟨wfTyB_true this.1, fun t ht => wfTyB_true (this.2 t ht)⟩

end Types
end SPVM
