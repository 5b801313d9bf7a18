import Verif.Model.Immutable
import Verif.Lemmas.Array

/-!
# Lemmas about the immutable lists
-/

namespace SPVM.Immutable

variable {α : Type}

/-- A string that can no longer change: it is read-only, and no `mutable string` variable refers to it. -/
def Frozen (s : St α) (x : Nat) : Prop := (∃ b, s.strs[x]? = some (b, true)) ∧ (x, true) ∉ s.userStrs

/-- The element has the type of the class. -/
def TypeOk (K : Kind) : Val α → Prop
  | .num _ => K ≠ .string
  | .str _ => K = .string

/-- The elements of an array have the right type and point to strings that exist. -/
structure ArrOk (K : Kind) (limit : Nat) (s : St α) (xs : List (Val α)) : Prop where
  elems : ∀ x, Val.str (some x) ∈ xs → x < s.strs.length
  types : ∀ v ∈ xs, TypeOk K v
  len : xs.length ≤ limit

/-- The list is the only one that knows its array, and the strings in it cannot change. -/
def Own (s : St α) (f : Int × Nat) : Prop :=
  f.2 ∉ s.userArrs ∧ ∃ xs, s.heap[f.2]? = some xs ∧ f.1 = xs.length ∧ ∀ x, Val.str (some x) ∈ xs → Frozen s x

structure Inv (K : Kind) (limit : Nat) (s : St α) : Prop where
  arrs : ∀ a ∈ s.userArrs, a < s.heap.length
  strs : ∀ r ∈ s.userStrs, r.1 < s.strs.length
  heap : ∀ xs ∈ s.heap, ArrOk K limit s xs
  lists : ∀ f ∈ s.lists, Own s f

/-- What does not change for the lists. -/
structure Ext (s s' : St α) : Prop where
  lists : ∀ (l : Nat) (f : Int × Nat), s.lists[l]? = some f → s'.lists[l]? = some f
  heap : ∀ f ∈ s.lists, s'.heap[f.2]? = s.heap[f.2]?
  frozen : ∀ x, Frozen s x → s'.strs[x]? = s.strs[x]? ∧ Frozen s' x

theorem Ext.refl (s : St α) : Ext s s := ⟨fun _ _ h => h, fun _ _ => rfl, fun _ h => ⟨rfl, h⟩⟩

theorem Ext.mem {s s' : St α} (e : Ext s s') {f : Int × Nat} (h : f ∈ s.lists) : f ∈ s'.lists := by
  obtain ⟨l, hl⟩ := List.mem_iff_getElem?.mp h
  exact List.mem_iff_getElem?.mpr ⟨l, e.lists l f hl⟩

theorem Ext.trans {a b c : St α} (h1 : Ext a b) (h2 : Ext b c) : Ext a c :=
  ⟨fun l f h => h2.lists l f (h1.lists l f h), fun f h => (h2.heap f (h1.mem h)).trans (h1.heap f h),
    fun x h => ⟨(h2.frozen x (h1.frozen x h).2).1.trans (h1.frozen x h).1, (h2.frozen x (h1.frozen x h).2).2⟩⟩

theorem view_frozen {s s' : St α} {v : Val α} (h : ∀ x, v = .str (some x) → s'.strs[x]? = s.strs[x]?) : view s' v = view s v := by
  match v with
  | .num _ => rfl
  | .str none => rfl
  | .str (some x) => simp only [view, h x rfl]

theorem Ext.contents {K : Kind} {limit : Nat} {s s' : St α} (hi : Inv K limit s) (e : Ext s s') {l : Nat} {f : Int × Nat}
    (hl : s.lists[l]? = some f) : contents s' l = contents s l := by
  have hm : f ∈ s.lists := List.mem_iff_getElem?.mpr ⟨l, hl⟩
  obtain ⟨_, xs, hx, _, hf⟩ := hi.lists f hm
  simp only [Immutable.contents, hl, e.lists l f hl, e.heap f hm, hx, Option.map_some]
  congr 1
  apply List.map_congr_left
  intro v hv
  exact view_frozen (fun x ex => (e.frozen x (hf x (ex ▸ hv))).1)

/-! ## The primitives -/

theorem ArrOk.mono {K : Kind} {limit : Nat} {s s' : St α} {xs : List (Val α)} (h : ArrOk K limit s xs)
    (hs : s.strs.length ≤ s'.strs.length) : ArrOk K limit s' xs :=
  ⟨fun x hx => Nat.lt_of_lt_of_le (h.elems x hx) hs, h.types, h.len⟩

/-- A new string. -/
theorem pushStr {K : Kind} {limit : Nat} {s : St α} (hi : Inv K limit s) (b : List UInt8 × Bool) :
    Inv K limit { s with strs := s.strs ++ [b] } ∧ Ext s { s with strs := s.strs ++ [b] } := by
  have hfr : ∀ x, Frozen s x → (s.strs ++ [b])[x]? = s.strs[x]? ∧ Frozen { s with strs := s.strs ++ [b] } x := by
    rintro x ⟨⟨c, hc⟩, hn⟩
    have hlt : x < s.strs.length := by
      by_cases h : x < s.strs.length
      · exact h
      · rw [List.getElem?_eq_none (by omega)] at hc; cases hc
    have e : (s.strs ++ [b])[x]? = s.strs[x]? := by rw [List.getElem?_append_left hlt]
    exact ⟨e, ⟨c, by show (s.strs ++ [b])[x]? = _; rw [e, hc]⟩, hn⟩
  refine ⟨⟨hi.arrs, fun r hr => ?_, fun xs hx => (hi.heap xs hx).mono (by simp), fun f hf => ?_⟩, fun _ _ h => h, fun _ _ => rfl, hfr⟩
  · have := hi.strs r hr
    simp; omega
  · obtain ⟨h1, xs, h2, h3, h4⟩ := hi.lists f hf
    exact ⟨h1, xs, h2, h3, fun x hx => (hfr x (h4 x hx)).2⟩

/-- A string changes that is not frozen, or becomes read-only. -/
theorem changeStr {K : Kind} {limit : Nat} {s : St α} (hi : Inv K limit s) {x : Nat} {b : List UInt8 × Bool}
    (hb : Frozen s x → s.strs[x]? = some b) :
    Inv K limit { s with strs := s.strs.set x b } ∧ Ext s { s with strs := s.strs.set x b } := by
  have hfr : ∀ y, Frozen s y → (s.strs.set x b)[y]? = s.strs[y]? ∧ Frozen { s with strs := s.strs.set x b } y := by
    rintro y ⟨⟨c, hc⟩, hn⟩
    have e : (s.strs.set x b)[y]? = s.strs[y]? := by
      by_cases hxy : x = y
      · subst hxy
        rw [hb ⟨⟨c, hc⟩, hn⟩, List.getElem?_set]
        have hlt : x < s.strs.length := by
          by_cases h : x < s.strs.length
          · exact h
          · rw [List.getElem?_eq_none (by omega)] at hc; cases hc
        simp [hlt]
      · rw [List.getElem?_set_ne hxy]
    exact ⟨e, ⟨c, by show (s.strs.set x b)[y]? = _; rw [e, hc]⟩, hn⟩
  refine ⟨⟨hi.arrs, fun r hr => ?_, fun xs hx => (hi.heap xs hx).mono (by simp), fun f hf => ?_⟩, fun _ _ h => h, fun _ _ => rfl, hfr⟩
  · have := hi.strs r hr
    simpa using this
  · obtain ⟨h1, xs, h2, h3, h4⟩ := hi.lists f hf
    exact ⟨h1, xs, h2, h3, fun x hx => (hfr x (h4 x hx)).2⟩

/-- The program gets a string. -/
theorem giveStr {K : Kind} {limit : Nat} {s : St α} (hi : Inv K limit s) {x : Nat} {m : Bool} (hx : x < s.strs.length)
    (hm : m = true → ¬ Frozen s x) :
    Inv K limit { s with userStrs := s.userStrs ++ [(x, m)] } ∧ Ext s { s with userStrs := s.userStrs ++ [(x, m)] } := by
  have hfr : ∀ y, Frozen s y → Frozen { s with userStrs := s.userStrs ++ [(x, m)] } y := by
    rintro y ⟨hb, hn⟩
    refine ⟨hb, ?_⟩
    show (y, true) ∉ s.userStrs ++ [(x, m)]
    intro hmem
    rcases List.mem_append.mp hmem with h | h
    · exact hn h
    · simp only [List.mem_singleton, Prod.mk.injEq] at h
      exact hm h.2.symm (h.1 ▸ ⟨hb, hn⟩)
  refine ⟨⟨hi.arrs, fun r hr => ?_, fun xs h => (hi.heap xs h).mono (Nat.le_refl _), fun f hf => ?_⟩, fun _ _ h => h, fun _ _ => rfl,
    fun y h => ⟨rfl, hfr y h⟩⟩
  · rcases List.mem_append.mp hr with h | h
    · exact hi.strs r h
    · simp only [List.mem_singleton] at h
      subst h
      exact hx
  · obtain ⟨h1, xs, h2, h3, h4⟩ := hi.lists f hf
    exact ⟨h1, xs, h2, h3, fun x hx => hfr x (h4 x hx)⟩

/-- The list arrays exist. -/
theorem Inv.lt {K : Kind} {limit : Nat} {s : St α} (hi : Inv K limit s) {f : Int × Nat} (hf : f ∈ s.lists) :
    f.2 < s.heap.length := by
  obtain ⟨_, xs, h2, _⟩ := hi.lists f hf
  by_cases h : f.2 < s.heap.length
  · exact h
  · rw [List.getElem?_eq_none (by omega)] at h2; cases h2

/-- A new array. -/
theorem pushArr {K : Kind} {limit : Nat} {s : St α} (hi : Inv K limit s) {xs : List (Val α)} (hx : ArrOk K limit s xs) :
    Inv K limit { s with heap := s.heap ++ [xs] } ∧ Ext s { s with heap := s.heap ++ [xs] } := by
  have hh : ∀ f ∈ s.lists, (s.heap ++ [xs])[f.2]? = s.heap[f.2]? := fun f hf => by
    rw [List.getElem?_append_left (hi.lt hf)]
  refine ⟨⟨fun a ha => ?_, hi.strs, fun ys hy => ?_, fun f hf => ?_⟩, fun _ _ h => h, hh, fun x h => ⟨rfl, h⟩⟩
  · have := hi.arrs a ha
    simp; omega
  · rcases List.mem_append.mp hy with h | h
    · exact (hi.heap ys h).mono (Nat.le_refl _)
    · simp only [List.mem_singleton] at h
      subst h
      exact hx.mono (Nat.le_refl _)
  · obtain ⟨h1, ys, h2, h3, h4⟩ := hi.lists f hf
    exact ⟨h1, ys, by show (s.heap ++ [xs])[f.2]? = _; rw [hh f hf, h2], h3, h4⟩

/-- An array changes that belongs to no list. -/
theorem changeArr {K : Kind} {limit : Nat} {s : St α} (hi : Inv K limit s) {a : Nat} {xs : List (Val α)}
    (ha : ∀ f ∈ s.lists, f.2 ≠ a) (hx : ArrOk K limit s xs) :
    Inv K limit { s with heap := s.heap.set a xs } ∧ Ext s { s with heap := s.heap.set a xs } := by
  have hh : ∀ f ∈ s.lists, (s.heap.set a xs)[f.2]? = s.heap[f.2]? := fun f hf => by
    rw [List.getElem?_set_ne (Ne.symm (ha f hf))]
  refine ⟨⟨fun a ha => ?_, hi.strs, fun ys hy => ?_, fun f hf => ?_⟩, fun _ _ h => h, hh, fun x h => ⟨rfl, h⟩⟩
  · have := hi.arrs a ha
    simpa using this
  · rcases List.mem_or_eq_of_mem_set hy with h | h
    · exact (hi.heap ys h).mono (Nat.le_refl _)
    · subst h
      exact hx.mono (Nat.le_refl _)
  · obtain ⟨h1, ys, h2, h3, h4⟩ := hi.lists f hf
    exact ⟨h1, ys, by show (s.heap.set a xs)[f.2]? = _; rw [hh f hf, h2], h3, h4⟩

/-- The program gets an array. -/
theorem giveArr {K : Kind} {limit : Nat} {s : St α} (hi : Inv K limit s) {a : Nat} (ha : a < s.heap.length)
    (hl : ∀ f ∈ s.lists, f.2 ≠ a) :
    Inv K limit { s with userArrs := s.userArrs ++ [a] } ∧ Ext s { s with userArrs := s.userArrs ++ [a] } := by
  refine ⟨⟨fun b hb => ?_, hi.strs, fun ys hy => (hi.heap ys hy).mono (Nat.le_refl _), fun f hf => ?_⟩, fun _ _ h => h, fun _ _ => rfl,
    fun x h => ⟨rfl, h⟩⟩
  · rcases List.mem_append.mp hb with h | h
    · exact hi.arrs b h
    · simp only [List.mem_singleton] at h
      subst h
      exact ha
  · obtain ⟨h1, ys, h2, h3, h4⟩ := hi.lists f hf
    refine ⟨fun hm => ?_, ys, h2, h3, h4⟩
    rcases List.mem_append.mp hm with h | h
    · exact h1 h
    · simp only [List.mem_singleton] at h
      exact hl f hf h

/-- The program gets a list. -/
theorem giveList {K : Kind} {limit : Nat} {s : St α} (hi : Inv K limit s) {f : Int × Nat} (hf : Own s f) :
    Inv K limit { s with lists := s.lists ++ [f] } ∧ Ext s { s with lists := s.lists ++ [f] } := by
  refine ⟨⟨hi.arrs, hi.strs, fun ys hy => (hi.heap ys hy).mono (Nat.le_refl _), fun g hg => ?_⟩, fun l g h => ?_, fun _ _ => rfl,
    fun x h => ⟨rfl, h⟩⟩
  · rcases List.mem_append.mp hg with h | h
    · exact hi.lists g h
    · simp only [List.mem_singleton] at h
      subst h
      exact hf
  · have hlt : l < s.lists.length := by
      by_cases h' : l < s.lists.length
      · exact h'
      · rw [List.getElem?_eq_none (by omega)] at h; cases h
    show (s.lists ++ [f])[l]? = _
    rw [List.getElem?_append_left hlt, h]

end SPVM.Immutable
