import Verif.Model.Flow
/-!
# The sort of the cases and the binary search of the virtual machine
-/
namespace SPVM
namespace Flow

/-- One comparison of the sort. -/
def sortStep (l : List Int) (i j : Nat) : List Int :=
  if l.getD j 0 < l.getD i 0 then (l.set i (l.getD j 0)).set j (l.getD i 0) else l

theorem sortInner_cons (l : List Int) (i j : Nat) (js : List Nat) : sortInner l i (j :: js) = sortInner (sortStep l i j) i js := rfl

theorem length_sortStep (l : List Int) (i j : Nat) : (sortStep l i j).length = l.length := by
  unfold sortStep; split <;> simp

theorem getD_sortStep (l : List Int) (i j k : Nat) (hi : i < l.length) (hj : j < l.length) (hij : i ≠ j) :
    (sortStep l i j).getD k 0 =
      if k = i then min (l.getD i 0) (l.getD j 0) else if k = j then max (l.getD i 0) (l.getD j 0) else l.getD k 0 := by
  unfold sortStep
  simp only [List.getD_eq_getElem?_getD]
  split
  · rename_i h
    rw [List.getElem?_set, List.getElem?_set]
    simp only [List.length_set]
    by_cases h1 : k = i
    · subst h1; simp [Ne.symm hij, hi, hj] at h ⊢; omega
    · by_cases h2 : k = j
      · subst h2; simp [h1, hi, hj] at h ⊢; omega
      · simp [h1, h2, Ne.symm h1, Ne.symm h2]
  · rename_i h
    by_cases h1 : k = i
    · subst h1; simp; omega
    · by_cases h2 : k = j
      · subst h2; simp [h1]; omega
      · simp [h1, h2]

theorem perm_sortStep (l : List Int) (i j : Nat) (hi : i < l.length) (hj : j < l.length) : (sortStep l i j).Perm l := by
  unfold sortStep
  split
  · have h1 : l.getD j 0 = l[j] := by simp [hj]
    have h2 : l.getD i 0 = l[i] := by simp [hi]
    rw [h1, h2]
    exact List.set_set_perm hi hj
  · exact List.Perm.refl _

theorem sortInner_spec (js : List Nat) (l : List Int) (i : Nat) (hi : i < l.length) (hjs : ∀ j ∈ js, i < j ∧ j < l.length)
    (hnd : js.Nodup) :
    (sortInner l i js).length = l.length ∧ (sortInner l i js).Perm l ∧
      (∀ k, k ≠ i → k ∉ js → (sortInner l i js).getD k 0 = l.getD k 0) ∧
      (sortInner l i js).getD i 0 ≤ l.getD i 0 ∧
      (∀ j ∈ js, (sortInner l i js).getD i 0 ≤ (sortInner l i js).getD j 0) ∧
      (∀ m : Int, (∀ k, i ≤ k → k < l.length → m ≤ l.getD k 0) → ∀ k, i ≤ k → k < l.length → m ≤ (sortInner l i js).getD k 0) := by
  induction js generalizing l with
  | nil => exact ⟨rfl, List.Perm.refl _, fun _ _ _ => rfl, Int.le_refl _, by simp, fun _ h => h⟩
  | cons j js ih =>
    have hj := hjs j (by simp)
    have hij : i ≠ j := by omega
    rw [List.nodup_cons] at hnd
    rw [sortInner_cons]
    have hl := length_sortStep l i j
    have gd := fun k => getD_sortStep l i j k hi hj.2 hij
    obtain ⟨a1, a2, a3, a4, a5, a6⟩ := ih (sortStep l i j) (by omega) (fun k hk => by have := hjs k (by simp [hk]); omega) hnd.2
    refine ⟨by omega, a2.trans (perm_sortStep l i j hi hj.2), ?_, ?_, ?_, ?_⟩
    · intro k h1 h2
      rw [List.mem_cons, not_or] at h2
      rw [a3 k h1 h2.2, gd, if_neg h1, if_neg h2.1]
    · have := gd i; rw [if_pos rfl] at this; omega
    · intro k hk
      rcases List.mem_cons.1 hk with rfl | hk
      · rw [a3 k (by omega) hnd.1]
        have h1 := gd i; rw [if_pos rfl] at h1
        have h2 := gd k; rw [if_neg (by omega), if_pos rfl] at h2
        omega
      · exact a5 k hk
    · intro m hm k h1 h2
      apply a6 m ?_ k h1 (by omega)
      intro k' h1' h2'
      have hmi := hm i (by omega) hi
      have hmj := hm j (by omega) hj.2
      rw [gd]
      split
      · omega
      · split
        · omega
        · exact hm k' h1' (by omega)

/-- The first `i` elements are in order and not larger than the others. -/
def Front (l : List Int) (i : Nat) : Prop := ∀ k, k < i → ∀ j, k < j → j < l.length → l.getD k 0 ≤ l.getD j 0

theorem drop_range (n i : Nat) : (List.range n).drop i = List.range' i (n - i) := by
  rw [List.range_eq_range', List.drop_range']
  simp

theorem sortOuter_spec (m : Nat) : ∀ (i : Nat) (l : List Int), i + m = l.length → Front l i →
    (sortOuter l (List.range' i m)).Perm l ∧ Front (sortOuter l (List.range' i m)) l.length := by
  induction m with
  | zero =>
    intro i l h hf
    exact ⟨List.Perm.refl _, by rw [← h]; exact hf⟩
  | succ m ih =>
    intro i l h hf
    have hi : i < l.length := by omega
    rw [List.range'_succ]
    show (sortOuter (sortInner l i ((List.range l.length).drop (i + 1))) (List.range' (i + 1) m)).Perm l ∧ Front (sortOuter
      (sortInner l i ((List.range l.length).drop (i + 1))) (List.range' (i + 1) m)) l.length
    rw [drop_range]
    obtain ⟨a1, a2, a3, a4, a5, a6⟩ := sortInner_spec (List.range' (i + 1) (l.length - (i + 1))) l i hi
      (fun j hj => by rw [List.mem_range'_1] at hj; omega) List.nodup_range'
    obtain ⟨b1, b2⟩ := ih (i + 1) (sortInner l i (List.range' (i + 1) (l.length - (i + 1)))) (by omega) (by
      intro k hk j h1 h2
      rw [a1] at h2
      by_cases hki : k = i
      · subst hki
        exact a5 j (by rw [List.mem_range'_1]; omega)
      · have hk' : k < i := by omega
        have e : (sortInner l i (List.range' (i + 1) (l.length - (i + 1)))).getD k 0 = l.getD k 0 :=
          a3 k hki (by rw [List.mem_range'_1]; omega)
        rw [e]
        by_cases hj : j < i
        · rw [a3 j (by omega) (by rw [List.mem_range'_1]; omega)]
          exact hf k hk' j h1 h2
        · exact a6 _ (fun k' h1' h2' => hf k hk' k' (by omega) h2') j (by omega) h2)
    rw [a1] at b2
    exact ⟨b1.trans a2, b2⟩

theorem sortCases_perm (l : List Int) : (sortCases l).Perm l := by
  unfold sortCases
  rw [List.range_eq_range']
  exact (sortOuter_spec l.length 0 l (by omega) (fun k hk => by omega)).1

theorem sortCases_sorted (l : List Int) : (sortCases l).Pairwise (· ≤ ·) := by
  have hp := sortCases_perm l
  have hf : Front (sortCases l) l.length := by
    unfold sortCases
    rw [List.range_eq_range']
    exact (sortOuter_spec l.length 0 l (by omega) (fun k hk => by omega)).2
  rw [List.pairwise_iff_getElem]
  intro i j hi hj hij
  have := hf i (by have := hp.length_eq; omega) j hij hj
  simpa [hi, hj] using this

theorem strict_of_no_double (l : List Int) (hs : l.Pairwise (· ≤ ·)) (hd : doubleCases l = false) : l.Pairwise (· < ·) := by
  induction l with
  | nil => exact List.Pairwise.nil
  | cons a l ih =>
    cases l with
    | nil => simp
    | cons b l =>
      simp only [doubleCases, Bool.or_eq_false_iff, beq_eq_false_iff_ne, ne_eq] at hd
      rw [List.pairwise_cons] at hs
      have ih' := ih hs.2 hd.2
      rw [List.pairwise_cons]
      refine ⟨fun x hx => ?_, ih'⟩
      have hab := hs.1 b (by simp)
      rcases List.mem_cons.1 hx with rfl | hx
      · omega
      · have := (List.pairwise_cons.1 ih').1 x hx
        omega

theorem sortCases_strict (l : List Int) (hd : doubleCases (sortCases l) = false) : (sortCases l).Pairwise (· < ·) :=
  strict_of_no_double _ (sortCases_sorted l) hd

theorem nodup_of_no_double (l : List Int) (hd : doubleCases (sortCases l) = false) : l.Nodup := by
  have h := sortCases_strict l hd
  rw [← (sortCases_perm l).nodup_iff]
  exact h.imp (fun h => by omega)

/-! ## The binary search -/

theorem searchCase_ok (code : List Op) (base : Nat) (x : Int) (dflt : Nat) (tab : List (Int × Nat))
    (hcode : ∀ i, (h : i < tab.length) → code[base + i]? = some (.caseInfo tab[i].1 tab[i].2))
    (hs : (tab.map (·.1)).Pairwise (· < ·)) : ∀ (fuel : Nat) (lo hi : Int), 0 ≤ lo → hi < tab.length → lo ≤ hi + 1 → hi - lo + 1 < fuel →
    (∀ i, (h : i < tab.length) → (i : Int) < lo → tab[i].1 < x) → (∀ i, (h : i < tab.length) → hi < (i : Int) → x < tab[i].1) →
    (∃ t, (x, t) ∈ tab ∧ searchCase code base x dflt fuel lo hi = some t) ∨
      ((∀ t, (x, t) ∉ tab) ∧ searchCase code base x dflt fuel lo hi = some dflt) := by
  have hlt : ∀ i j, (hi : i < tab.length) → (hj : j < tab.length) → i < j → tab[i].1 < tab[j].1 := by
    intro i j hi hj hij
    have := (List.pairwise_iff_getElem.1 hs) i j (by simpa using hi) (by simpa using hj) hij
    simpa using this
  intro fuel
  induction fuel with
  | zero => intro lo hi _ _ h1 h2; omega
  | succ fuel ih =>
    intro lo hi h0 hn hle hf hlow hhigh
    unfold searchCase
    by_cases hx : hi < lo
    · rw [if_pos hx]
      refine Or.inr ⟨?_, rfl⟩
      intro t ht
      obtain ⟨i, hi', he⟩ := List.mem_iff_getElem.1 ht
      have e : tab[i].1 = x := by rw [he]
      by_cases h : (i : Int) < lo
      · have := hlow i hi' h; omega
      · have := hhigh i hi' (by omega); omega
    · rw [if_neg hx]
      have hmid : lo ≤ lo + (hi - lo) / 2 ∧ lo + (hi - lo) / 2 ≤ hi := by omega
      generalize hm : lo + (hi - lo) / 2 = mid at hmid ⊢
      have hmn : mid.toNat < tab.length := by omega
      have hmz : (mid.toNat : Int) = mid := by omega
      simp only [hcode mid.toNat hmn]
      by_cases h1 : tab[mid.toNat].1 < x
      · rw [if_pos h1]
        apply ih (mid + 1) hi (by omega) hn (by omega) (by omega) ?_ hhigh
        intro i hi' hlt'
        by_cases e : i = mid.toNat
        · subst e; exact h1
        · have := hlt i mid.toNat hi' hmn (by omega); omega
      · rw [if_neg h1]
        by_cases h2 : x < tab[mid.toNat].1
        · rw [if_pos h2]
          apply ih lo (mid - 1) h0 (by omega) (by omega) (by omega) hlow ?_
          intro i hi' hlt'
          by_cases e : i = mid.toNat
          · subst e; exact h2
          · have := hlt mid.toNat i hmn hi' (by omega); omega
        · rw [if_neg h2]
          refine Or.inl ⟨tab[mid.toNat].2, ?_, rfl⟩
          have : (x, tab[mid.toNat].2) = tab[mid.toNat] := by
            apply Prod.ext
            · show x = tab[mid.toNat].1; omega
            · rfl
          rw [this]; exact List.getElem_mem _

theorem lookup_ok (code : List Op) (pc : Nat) (x : Int) (dflt : Nat) (tab : List (Int × Nat))
    (hcode : ∀ i, (h : i < tab.length) → code[pc + 1 + i]? = some (.caseInfo tab[i].1 tab[i].2))
    (hs : (tab.map (·.1)).Pairwise (· < ·)) :
    (∃ t, (x, t) ∈ tab ∧ lookupTarget code pc x dflt tab.length = some t) ∨
      ((∀ t, (x, t) ∉ tab) ∧ lookupTarget code pc x dflt tab.length = some dflt) := by
  unfold lookupTarget
  by_cases h0 : tab.length = 0
  · rw [if_pos h0]
    have : tab = [] := List.eq_nil_of_length_eq_zero h0
    exact Or.inr ⟨by simp [this], rfl⟩
  · rw [if_neg h0]
    have c0 := hcode 0 (by omega)
    have c1 := hcode (tab.length - 1) (by omega)
    rw [Nat.add_zero] at c0
    simp only [c0, c1]
    have hlt : ∀ i j, (hi : i < tab.length) → (hj : j < tab.length) → i < j → tab[i].1 < tab[j].1 := by
      intro i j hi hj hij
      have := (List.pairwise_iff_getElem.1 hs) i j (by simpa using hi) (by simpa using hj) hij
      simpa using this
    by_cases hx : tab[0].1 ≤ x ∧ x ≤ tab[tab.length - 1].1
    · rw [if_pos hx]
      exact searchCase_ok code (pc + 1) x dflt tab hcode hs (tab.length + 1) 0 (tab.length - 1) (by omega) (by omega) (by omega) (by omega)
        (fun i _ h => by omega) (fun i h1 h2 => by omega)
    · rw [if_neg hx]
      refine Or.inr ⟨?_, rfl⟩
      intro t ht
      obtain ⟨i, hi', he⟩ := List.mem_iff_getElem.1 ht
      have e : tab[i].1 = x := by rw [he]
      apply hx
      constructor
      · by_cases h : i = 0
        · subst h; omega
        · have := hlt 0 i (by omega) hi' (by omega); omega
      · by_cases h : i = tab.length - 1
        · subst h; omega
        · have := hlt i (tab.length - 1) hi' (by omega) (by omega); omega

end Flow
end SPVM
