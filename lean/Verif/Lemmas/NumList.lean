import Verif.Model.NumList
import Verif.Lemmas.Array
import Verif.Spec.Seq
/-! Refinement lemmas for the numeric list. -/
set_option linter.unusedSimpArgs false
namespace SPVM
namespace NumList
open Spec.Seq (Op Res)
variable {α : Type}

/-- A numeric list object represents the sequence `xs`: its fields are consistent and the first `length` slots of the
array are `xs`. -/
structure Rep (l : NumList α) (xs : List α) : Prop where
  len : l.length = xs.length
  cap : l.capacity = l.array.length
  le : xs.length ≤ l.array.length
  int : l.array.length ≤ 2147483647
  elems : ∀ i, i < xs.length → l.array[i]? = xs[i]?

theorem Rep.take {self : NumList α} {xs : List α} (h : Rep self xs) : self.array.take xs.length = xs := by
  apply List.ext_getElem?
  intro i
  have := h.elems i
  grind

theorem newArray_ok {limit : Nat} {zero : α} {n : Int} (h0 : 0 ≤ n) (h1 : n ≤ limit) :
    newArray limit zero n = .ok (List.replicate n.toNat zero) := by
  unfold newArray
  rw [if_pos (by omega), if_pos (by omega)]

theorem maybeExtend_ok {limit : Nat} {zero : α} {self : NumList α} {xs : List α} (h : Rep self xs) {m : Int}
    (h1 : 2 * m ≤ limit) (h2 : 2 * m ≤ 2147483647) :
    ∃ self', maybeExtend limit zero m self = (.ok (), self') ∧ Rep self' xs ∧ m ≤ self'.array.length := by
  have ⟨hl, hc, hle, hi, he⟩ := h
  unfold maybeExtend
  simp only [Prog.get_bind_apply, Prog.ite_apply]
  by_cases hm : m > self.capacity
  · rw [if_neg (by simpa using hm), if_pos (by omega), mul32_ok (by unfold I32; omega)]
    simp only [Prog.lift_ok_bind]
    rw [newArray_ok (by omega) (by omega)]
    simp only [Prog.lift_ok_bind]
    rw [arrayMemcpy_ok (by omega) (by omega) (by omega) (by simp; omega) (by omega) (by unfold I32; omega) (by unfold I32; omega)]
    simp only [Prog.lift_ok_bind, Prog.set_apply]
    have hbl : (blit (List.replicate (m * 2).toNat zero) (0 : Int).toNat self.array (0 : Int).toNat
        self.length.toNat).length = (m * 2).toNat := by
      rw [blit_length (by simp; omega) (by simp; omega)]; simp
    refine ⟨_, rfl, ⟨hl, ?_, ?_, ?_, ?_⟩, ?_⟩
    · simp only [hbl]; omega
    · simp only [hbl]; omega
    · simp only [hbl]; omega
    · intro i hi'
      simp only []
      rw [blit_getElem? (by simp; omega) (by simp; omega)]
      have := he i hi'
      rw [← this, if_pos (by simp; omega)]
      simp
    · simp only [hbl]; omega
  · rw [if_pos (by simpa using hm)]
    exact ⟨self, rfl, h, by omega⟩

/-- `maybeExtend` succeeds, or throws/overflows for lack of resources leaving the object as it was. -/
theorem maybeExtend_cases (limit : Nat) (zero : α) {self : NumList α} {xs : List α} (h : Rep self xs) (m : Int) :
    (∃ self', maybeExtend limit zero m self = (.ok (), self') ∧ Rep self' xs ∧ m ≤ self'.array.length) ∨
    (maybeExtend limit zero m self = (.die msgNewArrayMem, self) ∧ limit < 2 * m) ∨
    (maybeExtend limit zero m self = (.ub, self) ∧ 2147483647 < 2 * m) := by
  by_cases h2 : 2 * m ≤ 2147483647
  · by_cases h1 : 2 * m ≤ limit
    · exact .inl (maybeExtend_ok h h1 h2)
    · by_cases hm : m ≤ self.capacity
      · refine .inl ⟨self, ?_, h, by have := h.cap; omega⟩
        unfold maybeExtend
        simp only [Prog.get_bind_apply, Prog.ite_apply]
        rw [if_pos (by omega)]; rfl
      · refine .inr (.inl ⟨?_, by omega⟩)
        have := h.cap
        unfold maybeExtend
        simp only [Prog.get_bind_apply, Prog.ite_apply]
        rw [if_neg (by omega), if_pos (by omega), mul32_ok (by unfold I32; omega)]
        simp only [Prog.lift_ok_bind]
        rw [newArray, if_pos (by omega), if_neg (by omega)]
        rfl
  · by_cases hm : m ≤ self.capacity
    · refine .inl ⟨self, ?_, h, by have := h.cap; omega⟩
      unfold maybeExtend
      simp only [Prog.get_bind_apply, Prog.ite_apply]
      rw [if_pos (by omega)]; rfl
    · refine .inr (.inr ⟨?_, by omega⟩)
      unfold maybeExtend
      simp only [Prog.get_bind_apply, Prog.ite_apply]
      rw [if_neg (by omega), if_pos (by omega), mul32, chk32, if_neg (by unfold I32; omega)]
      rfl

theorem get_ok {self : NumList α} {xs : List α} (h : Rep self xs) (i : Int) (h0 : 0 ≤ i) (h1 : i.toNat < xs.length) :
    get i self = (.ok xs[i.toNat], self) := by
  have ⟨hl, hc, hle, hi, he⟩ := h
  unfold get
  simp only [Prog.get_bind_apply, Prog.ite_apply]
  rw [if_neg (by omega), if_neg (by omega), aGet_ok h0 (by omega)]
  have := he i.toNat h1
  rw [List.getElem?_eq_getElem (by omega), List.getElem?_eq_getElem (by omega)] at this
  simp_all


theorem set_ok {self : NumList α} {xs : List α} (h : Rep self xs) (i : Int) (e : α) (h0 : 0 ≤ i) (h1 : i.toNat < xs.length) :
    ∃ self', set i e self = (.ok (), self') ∧ Rep self' (xs.set i.toNat e) := by
  have ⟨hl, hc, hle, hi, he⟩ := h
  unfold set
  simp only [Prog.get_bind_apply, Prog.ite_apply]
  rw [if_neg (by omega), if_neg (by omega), aSet_ok h0 (by omega)]
  simp only [Prog.lift_ok_bind, Prog.set_apply]
  refine ⟨_, rfl, by simp [hl], by simp [hc], by simpa using hle, by simpa using hi, ?_⟩
  intro j hj
  have := he j (by simpa using hj)
  simp only [List.getElem?_set, this]
  grind

theorem push_ok {limit : Nat} {zero : α} {self : NumList α} {xs : List α} (h : Rep self xs) (e : α)
    {s1 : NumList α} (e1 : maybeExtend limit zero (self.length + 1) self = (.ok (), s1)) (r1 : Rep s1 xs)
    (hm : self.length + 1 ≤ s1.array.length) :
    ∃ self', push limit zero e self = (.ok (), self') ∧ Rep self' (xs ++ [e]) := by
  unfold push
  simp only [Prog.get_bind_apply]
  rw [add32_ok (by have := h.len; have := r1.int; unfold I32; omega)]
  simp only [Prog.lift_ok_bind]
  rw [Prog.bind_ok e1]
  have hl0 := h.len
  have ⟨hl, hc, hle, hi, he⟩ := r1
  simp only [Prog.get_bind_apply]
  rw [aSet_ok (by omega) (by omega)]
  simp only [Prog.lift_ok_bind, Prog.set_apply]
  refine ⟨_, rfl, by simp [hl0], by simp [hc], by simp; omega, by simpa using hi, ?_⟩
  intro j hj
  simp at hj
  have hjj := he j
  simp only [List.getElem?_set, List.getElem?_append]
  grind

theorem pop_ok {zero : α} {self : NumList α} {xs : List α} (h : Rep self xs) (hne : xs ≠ []) :
    ∃ self', pop zero self = (.ok (xs.getLast hne), self') ∧ Rep self' xs.dropLast := by
  have ⟨hl, hc, hle, hi, he⟩ := h
  have hpos : 0 < xs.length := List.length_pos_iff.mpr hne
  unfold pop
  simp only [Prog.get_bind_apply, Prog.ite_apply]
  rw [if_neg (by omega), sub32_ok (by unfold I32; omega)]
  simp only [Prog.lift_ok_bind]
  rw [aGet_ok (by omega) (by omega), aSet_ok (by omega) (by omega)]
  simp only [Prog.lift_ok_bind, Prog.set_bind_apply, Prog.pure_apply]
  have hlast : self.array[(self.length - 1).toNat]'(by omega) = xs.getLast hne := by
    have := he (xs.length - 1) (by omega)
    rw [List.getElem?_eq_getElem (by omega), List.getElem?_eq_getElem (by omega)] at this
    rw [List.getLast_eq_getElem]
    simp only [Option.some.injEq] at this
    rw [← this]
    congr 1
    omega
  rw [hlast]
  refine ⟨_, rfl, by simp; omega, by simp [hc], by simp; omega, by simpa using hi, ?_⟩
  intro j hj
  simp at hj
  have := he j (by omega)
  simp only [List.getElem?_set, List.getElem?_dropLast]
  grind

theorem unshift_ok {limit : Nat} {zero : α} {self : NumList α} {xs : List α} (h : Rep self xs) (e : α)
    {s1 : NumList α} (e1 : maybeExtend limit zero (self.length + 1) self = (.ok (), s1)) (r1 : Rep s1 xs)
    (hm : self.length + 1 ≤ s1.array.length) :
    ∃ self', unshift limit zero e self = (.ok (), self') ∧ Rep self' (e :: xs) := by
  unfold unshift
  simp only [Prog.get_bind_apply]
  rw [add32_ok (by have := h.len; have := r1.int; unfold I32; omega)]
  simp only [Prog.lift_ok_bind]
  rw [Prog.bind_ok e1]
  have hl0 := h.len
  have ⟨hl, hc, hle, hi, he⟩ := r1
  simp only [Prog.get_bind_apply]
  rw [arrayMemmove_ok (by omega) (by omega) (by omega) (by omega) (by omega) (by unfold I32; omega) (by unfold I32; omega)]
  simp only [Prog.lift_ok_bind, Prog.set_bind_apply]
  have hb := blit_length (dst := s1.array) (d := (1:Int).toNat) (src := s1.array) (s := (0:Int).toNat) (n := self.length.toNat)
    (by simp; omega) (by simp; omega)
  rw [aSet_ok (by omega) (by rw [hb]; simp; omega)]
  simp only [Prog.lift_ok_bind, Prog.set_apply]
  refine ⟨_, rfl, by simp [hl0], by simp only [List.length_set, hb]; omega, by simp only [List.length_set, hb]; (try simp); omega, by simp only [List.length_set, hb]; omega, ?_⟩
  intro j hj
  simp at hj
  simp only [List.getElem?_set, hb]
  rw [blit_getElem? (by simp; omega) (by simp; omega)]
  have hjj := he (j - 1)
  rcases j with _ | j
  · rw [if_pos (by rfl), if_pos (by simp; omega)]; rfl
  · simp at hjj ⊢
    rw [if_pos (by omega)]
    grind

theorem shift_ok {zero : α} {self : NumList α} {x : α} {xs : List α} (h : Rep self (x :: xs)) :
    ∃ self', shift zero self = (.ok x, self') ∧ Rep self' xs := by
  have ⟨hl, hc, hle, hi, he⟩ := h
  simp at hl hle
  unfold shift
  simp only [Prog.get_bind_apply, Prog.ite_apply]
  rw [if_neg (by omega), aGet_ok (by omega) (by simp; omega), sub32_ok (by unfold I32; omega)]
  simp only [Prog.lift_ok_bind]
  rw [arrayMemmove_ok (by omega) (by omega) (by omega) (by omega) (by omega) (by unfold I32; omega) (by unfold I32; omega)]
  simp only [Prog.lift_ok_bind, Prog.set_bind_apply]
  have hb := blit_length (dst := self.array) (d := (0:Int).toNat) (src := self.array) (s := (1:Int).toNat)
    (n := (self.length - 1).toNat) (by simp; omega) (by simp; omega)
  rw [aSet_ok (by omega) (by rw [hb]; omega)]
  simp only [Prog.lift_ok_bind, Prog.set_bind_apply, Prog.pure_apply]
  have hx : self.array[(0:Int).toNat]'(by simp; omega) = x := by
    have := he 0 (by simp)
    rw [List.getElem?_eq_getElem (by omega)] at this
    simpa using this
  rw [hx]
  refine ⟨_, rfl, by simp; omega, by simp only [List.length_set, hb]; omega, by simp only [List.length_set, hb]; (try simp); omega, by simp only [List.length_set, hb]; omega, ?_⟩
  intro j hj
  simp only [List.getElem?_set, hb]
  rw [blit_getElem? (by simp; omega) (by simp; omega)]
  have hjj := he (j + 1) (by simp; omega)
  rw [if_neg (by omega), if_pos (by simp; omega)]
  simp at hjj ⊢
  rw [Nat.add_comm]; exact hjj

theorem insert_ok {limit : Nat} {zero : α} {self : NumList α} {xs : List α} (h : Rep self xs) (i : Int) (e : α)
    (h0 : 0 ≤ i) (hi' : i ≤ xs.length)
    {s1 : NumList α} (e1 : maybeExtend limit zero (self.length + 1) self = (.ok (), s1)) (r1 : Rep s1 xs)
    (hm : self.length + 1 ≤ s1.array.length) :
    ∃ self', insert limit zero i e self = (.ok (), self') ∧ Rep self' (xs.take i.toNat ++ e :: xs.drop i.toNat) := by
  unfold insert
  have hl0 := h.len
  have hint1 := r1.int
  simp only [Prog.get_bind_apply, Prog.ite_apply]
  rw [if_neg (by omega), if_neg (by omega), add32_ok (by unfold I32; omega)]
  simp only [Prog.lift_ok_bind]
  rw [Prog.bind_ok e1]
  have ⟨hl, hc, hle, hi, he⟩ := r1
  simp only [Prog.get_bind_apply]
  have hmove : (if i ≠ self.length then do
        let distIndex ← add32 i 1
        let moveLength ← sub32 self.length i
        arrayMemmove (some s1.array) distIndex (some s1.array) i moveLength
      else Out.ok s1.array) = .ok (blit s1.array (i + 1).toNat s1.array i.toNat (self.length - i).toNat) := by
    by_cases hil : i = self.length
    · simp [hil, blit_zero]
    · rw [if_pos hil, add32_ok (by unfold I32; omega), sub32_ok (by unfold I32; omega)]
      simp only [Out.ok_bind]
      rw [arrayMemmove_ok (by omega) (by omega) (by omega) (by omega) (by omega) (by unfold I32; omega) (by unfold I32; omega)]
  rw [hmove]
  simp only [Prog.lift_ok_bind, Prog.set_bind_apply]
  have hb := blit_length (dst := s1.array) (d := (i + 1).toNat) (src := s1.array) (s := i.toNat)
    (n := (self.length - i).toNat) (by omega) (by omega)
  rw [aSet_ok (by omega) (by rw [hb]; omega)]
  simp only [Prog.lift_ok_bind, Prog.set_apply]
  refine ⟨_, rfl, by simp; omega, by simp only [List.length_set, hb]; omega, by simp only [List.length_set, hb]; (try simp); omega, by simp only [List.length_set, hb]; omega, ?_⟩
  intro j hj
  simp at hj
  simp only [List.getElem?_set, hb]
  rw [blit_getElem? (by omega) (by omega)]
  have hj1 := he j
  have hj2 := he (j - 1)
  rw [List.getElem?_append]
  simp only [List.length_take]
  by_cases c1 : j < i.toNat
  · rw [if_neg (by omega), if_neg (by omega), if_pos (by omega), hj1 (by omega)]
    simp [c1]
  · by_cases c2 : j = i.toNat
    · rw [if_pos (by omega), if_pos (by omega), if_neg (by omega)]
      rw [show j - min i.toNat xs.length = 0 by omega]; simp
    · rw [if_neg (by omega), if_pos (by omega), if_neg (by omega)]
      rw [show j - min i.toNat xs.length = (j - i.toNat - 1) + 1 by omega]
      simp only [List.getElem?_cons_succ, List.getElem?_drop]
      rw [← he _ (by omega)]
      congr 1; omega

theorem remove_ok {self : NumList α} {xs : List α} (h : Rep self xs) (i : Int) (h0 : 0 ≤ i) (h1 : i.toNat < xs.length) :
    ∃ self', remove i self = (.ok xs[i.toNat], self') ∧ Rep self' (xs.eraseIdx i.toNat) := by
  have ⟨hl, hc, hle, hi, he⟩ := h
  unfold remove
  simp only [Prog.get_bind_apply, Prog.ite_apply]
  rw [if_neg (by omega), if_neg (by omega), aGet_ok (by omega) (by omega), add32_ok (by unfold I32; omega),
    sub32_ok (by unfold I32; omega)]
  simp only [Prog.lift_ok_bind, Out.ok_bind]
  rw [sub32_ok (by unfold I32; omega), sub32_ok (by unfold I32; omega)]
  simp only [Prog.lift_ok_bind, Out.ok_bind]
  rw [arrayMemmove_ok (by omega) (by omega) (by omega) (by omega) (by omega) (by unfold I32; omega) (by unfold I32; omega)]
  simp only [Prog.lift_ok_bind, Prog.set_bind_apply, Prog.pure_apply]
  have hb := blit_length (dst := self.array) (d := i.toNat) (src := self.array) (s := (i+1).toNat)
    (n := (self.length - i - 1).toNat) (by omega) (by omega)
  have hx : self.array[i.toNat]'(by omega) = xs[i.toNat] := by
    have := he i.toNat h1
    rw [List.getElem?_eq_getElem (by omega), List.getElem?_eq_getElem (by omega)] at this
    simpa using this
  rw [hx]
  have hlen : (xs.eraseIdx i.toNat).length = xs.length - 1 := List.length_eraseIdx_of_lt h1
  refine ⟨_, rfl, by simp only [hlen]; omega, by simp only [hb]; omega, by simp only [hb, hlen]; omega, by simp only [hb]; omega, ?_⟩
  intro j hj
  rw [hlen] at hj
  simp only []
  rw [blit_getElem? (by omega) (by omega), List.getElem?_eraseIdx]
  by_cases c : j < i.toNat
  · rw [if_neg (by omega), if_pos c, he j (by omega)]
  · rw [if_pos (by omega), if_neg c, ← he (j+1) (by omega)]
    congr 1; omega

theorem replace_ok {limit : Nat} {zero : α} {self : NumList α} {xs : List α} (h : Rep self xs) (o n : Int)
    (r : Option (List α)) (h0 : 0 ≤ o) (hn : 0 ≤ n) (hon : o + n ≤ xs.length)
    {s1 : NumList α} (e1 : maybeExtend limit zero (self.length - n + (r.getD []).length) self = (.ok (), s1)) (r1 : Rep s1 xs)
    (hm : self.length - n + (r.getD []).length ≤ s1.array.length) :
    ∃ self', replace limit zero o n r self = (.ok (), self') ∧
      Rep self' (xs.take o.toNat ++ r.getD [] ++ xs.drop (o + n).toNat) := by
  have hint := h.int
  have hle0 := h.le
  unfold replace
  have hl0 := h.len
  have hint1 := r1.int
  simp only [Prog.get_bind_apply, Prog.ite_apply]
  have hrl : optLen r = (r.getD []).length := by cases r <;> simp [alen, optLen]
  rw [if_neg (by omega), if_neg (by omega), add32_ok (by unfold I32; omega)]
  simp only [Prog.lift_ok_bind, Prog.ite_apply, hrl]
  rw [if_neg (by omega), sub32_ok (by unfold I32; omega)]
  simp only [Out.ok_bind]
  rw [add32_ok (by unfold I32; omega)]
  simp only [Prog.lift_ok_bind]
  rw [Prog.bind_ok e1]
  have ⟨hl, hc, hle, hi, he⟩ := r1
  simp only [Prog.get_bind_apply]
  rw [sub32_ok (by unfold I32; omega)]
  simp only [Out.ok_bind]
  rw [sub32_ok (by unfold I32; omega)]
  simp only [Prog.lift_ok_bind]
  rw [add32_ok (by unfold I32; omega)]
  simp only [Prog.lift_ok_bind]
  rw [arrayMemmove_ok (by omega) (by omega) (by omega) (by omega) (by omega) (by unfold I32; omega) (by unfold I32; omega)]
  simp only [Prog.lift_ok_bind, Prog.set_bind_apply]
  have hb := blit_length (dst := s1.array) (d := (o + (r.getD []).length).toNat) (src := s1.array) (s := (o+n).toNat)
    (n := (s1.length - o - n).toNat) (by omega) (by omega)
  have hb1 := blit_getElem? (dst := s1.array) (d := (o + (r.getD []).length).toNat) (src := s1.array) (s := (o+n).toNat)
    (n := (s1.length - o - n).toNat) (by omega) (by omega)
  generalize blit s1.array (o + (r.getD []).length).toNat s1.array (o+n).toNat (s1.length - o - n).toNat = A1 at hb hb1
  have hfin : (match r with
        | some r' => arrayMemcpy false (some A1) o (some r') 0 (r.getD []).length
        | none => .ok A1) = .ok (blit A1 o.toNat (r.getD []) 0 (r.getD []).length) := by
    cases r with
    | none => simp [blit_zero]
    | some r =>
      simp at hm hint1
      simp only [Option.getD_some]
      rw [arrayMemcpy_ok (by omega) (by omega) (by omega) (by omega) (by omega) (by unfold I32; omega) (by unfold I32; omega)]
      simp
  have hb2 := blit_length (dst := A1) (d := o.toNat) (src := r.getD []) (s := 0)
    (n := (r.getD []).length) (by omega) (by omega)
  have hb3 := blit_getElem? (dst := A1) (d := o.toNat) (src := r.getD []) (s := 0)
    (n := (r.getD []).length) (by omega) (by omega)
  generalize blit A1 o.toNat (r.getD []) 0 (r.getD []).length = A2 at hb2 hb3 hfin
  refine ⟨{ s1 with array := A2, length := self.length - n + (r.getD []).length }, ?_, ?_⟩
  · exact Prog.bind_ok (a := A2) (by rw [← hfin]; rfl)
  · refine ⟨by simp; omega, by simp only [hb2, hb]; omega, by simp [hb2, hb]; omega, by simp only [hb2, hb]; omega, ?_⟩
    intro j hj
    simp at hj
    simp only []
    rw [hb3, hb1, List.append_assoc, List.getElem?_append, List.getElem?_append]
    simp only [List.length_take]
    by_cases c1 : j < o.toNat
    · rw [if_neg (by omega), if_neg (by omega), if_pos (by omega), he j (by omega)]
      simp [c1]
    · by_cases c2 : j < o.toNat + (r.getD []).length
      · rw [if_pos (by omega), if_neg (by omega), if_pos (by omega)]
        congr 1; omega
      · rw [if_neg (by omega), if_pos (by omega), if_neg (by omega), if_neg (by omega), he _ (by omega)]
        simp only [List.getElem?_drop]
        congr 1; omega

theorem reserve_ok {limit : Nat} {zero : α} {self : NumList α} {xs : List α} (h : Rep self xs) (n : Int)
    (h0 : 0 ≤ n) (h1 : n ≤ limit) (h2 : n ≤ 2147483647) :
    ∃ self', reserve limit zero n self = (.ok (), self') ∧ Rep self' xs := by
  have ⟨hl, hc, hle, hi, he⟩ := h
  unfold reserve
  simp only [Prog.get_bind_apply, Prog.ite_apply]
  rw [if_neg (by omega)]
  by_cases hm : n > self.capacity
  · rw [if_pos hm, newArray_ok h0 h1]
    simp only [Prog.lift_ok_bind]
    rw [arrayMemcpy_ok (by omega) (by omega) (by omega) (by simp; omega) (by omega) (by unfold I32; omega) (by unfold I32; omega)]
    simp only [Prog.lift_ok_bind, Prog.set_apply]
    have hbl : (blit (List.replicate n.toNat zero) (0 : Int).toNat self.array (0 : Int).toNat
        self.length.toNat).length = n.toNat := by
      rw [blit_length (by simp; omega) (by simp; omega)]; simp
    refine ⟨_, rfl, ⟨hl, ?_, ?_, ?_, ?_⟩⟩
    · simp only [hbl]; omega
    · simp only [hbl]; omega
    · simp only [hbl]; omega
    · intro i hi'
      simp only []
      rw [blit_getElem? (by simp; omega) (by simp; omega)]
      rw [← he i hi', if_pos (by simp; omega)]
      simp
  · rw [if_neg hm]
    exact ⟨self, rfl, h⟩

theorem resize_ok {limit : Nat} {zero : α} {self : NumList α} {xs : List α} (h : Rep self xs) (n : Int)
    (h0 : 0 ≤ n) {s1 : NumList α} (e1 : n > self.length → maybeExtend limit zero n self = (.ok (), s1))
    (r1 : n > self.length → Rep s1 xs) (hm : n > self.length → n ≤ s1.array.length) :
    ∃ self', resize limit zero n self = (.ok (), self') ∧
      Rep self' (xs.take n.toNat ++ List.replicate (n.toNat - xs.length) zero) := by
  have hl0 := h.len
  unfold resize
  simp only [Prog.get_bind_apply, Prog.ite_apply]
  rw [if_neg (by omega)]
  by_cases c1 : n > self.length
  · rw [if_pos c1]
    replace e1 := e1 c1
    replace r1 := r1 c1
    replace hm := hm c1
    rw [Prog.bind_ok e1]
    have ⟨hl, hc, hle, hi, he⟩ := r1
    simp only [Prog.get_bind_apply]
    rw [sub32_ok (by unfold I32; omega)]
    simp only [Prog.lift_ok_bind]
    rw [arrayMemset_ok (by omega) (by omega) (by omega) (by unfold I32; omega)]
    simp only [Prog.lift_ok_bind, Prog.set_apply]
    have hb := blit_length (dst := s1.array) (d := self.length.toNat) (src := List.replicate (n - self.length).toNat zero) (s := 0)
      (n := (n - self.length).toNat) (by omega) (by simp)
    refine ⟨_, rfl, by simp; omega, by simp only [List.length_set, hb]; omega, by simp only [List.length_set, hb]; (try simp); omega, by simp only [List.length_set, hb]; omega, ?_⟩
    intro j hj
    simp at hj
    simp only []
    rw [blit_getElem? (by omega) (by simp)]
    have := he j
    grind
  · rw [if_neg c1]
    have ⟨hl, hc, hle, hi, he⟩ := h
    by_cases c2 : n < self.length
    · rw [if_pos c2, sub32_ok (by unfold I32; omega)]
      simp only [Prog.lift_ok_bind]
      rw [arrayMemset_ok (by omega) (by omega) (by omega) (by unfold I32; omega)]
      simp only [Prog.lift_ok_bind, Prog.set_apply]
      have hb := blit_length (dst := self.array) (d := n.toNat) (src := List.replicate (self.length - n).toNat zero) (s := 0)
        (n := (self.length - n).toNat) (by omega) (by simp)
      refine ⟨_, rfl, by simp; omega, by simp only [List.length_set, hb]; omega, by simp only [List.length_set, hb]; (try simp); omega, by simp only [List.length_set, hb]; omega, ?_⟩
      intro j hj
      simp at hj
      simp only []
      rw [blit_getElem? (by omega) (by simp)]
      have := he j
      grind
    · rw [if_neg c2]
      refine ⟨_, rfl, by simp; omega, by simp [hc], by simp; omega, by simpa using hi, ?_⟩
      intro j hj
      simp at hj
      have := he j
      grind

theorem toArray_ok {limit : Nat} {zero : α} {self : NumList α} {xs : List α} (h : Rep self xs)
    (h1 : xs.length ≤ limit) : toArray limit zero self = (.ok xs, self) := by
  have ⟨hl, hc, hle, hi, he⟩ := h
  unfold toArray
  simp only [Prog.get_bind_apply]
  rw [newArray_ok (by omega) (by omega)]
  simp only [Prog.lift_ok_bind]
  rw [arrayMemcpy_ok (by omega) (by omega) (by omega) (by simp; omega) (by omega) (by unfold I32; omega) (by unfold I32; omega)]
  have hb := blit_length (dst := List.replicate self.length.toNat zero) (d := 0) (src := self.array) (s := 0)
        (n := self.length.toNat) (by simp) (by omega)
  simp only [Prog.lift_apply, Int.toNat_zero]
  congr 2
  apply List.ext_getElem?
  intro j
  rw [blit_getElem? (by simp) (by omega)]
  have := he j
  grind

theorem newLen_ok {limit : Nat} {zero : α} {n c : Int} (h0 : 0 ≤ n) (h1 : max n (max c 4) ≤ limit)
    (h2 : max n c ≤ 2147483647) :
    ∃ l, newLen limit zero n c = .ok l ∧ Rep l (List.replicate n.toNat zero) := by
  unfold newLen
  rw [if_neg (by omega)]
  simp only []
  generalize hcc : (if n > (if c < 0 then 4 else c) then n else if c < 0 then 4 else c) = cc
  have hcc' : n ≤ cc ∧ cc ≤ limit ∧ cc ≤ 2147483647 := by
    subst hcc; split <;> split <;> omega
  rw [newArray_ok (by omega) (by omega)]
  simp only [Out.ok_bind, Out.pure_eq]
  refine ⟨_, rfl, by simp; omega, by simp; omega, by simp; omega, by simp; omega, ?_⟩
  intro j hj
  simp at hj
  simp only [List.getElem?_replicate]
  grind

theorem new_ok {limit : Nat} {zero : α} {a : Option (List α)} {c : Int}
    (h1 : max ((a.getD []).length : Int) (max c 4) ≤ limit) (h2 : max ((a.getD []).length : Int) c ≤ 2147483647) :
    ∃ l, new limit zero a c = .ok l ∧ Rep l (a.getD []) := by
  unfold new optLen
  cases a with
  | none =>
    simp only []
    obtain ⟨l, e, r⟩ := newLen_ok (limit := limit) (zero := zero) (n := 0) (c := c) (by omega) (by simpa using h1) (by simpa using h2)
    rw [e]; exact ⟨l, rfl, by simpa using r⟩
  | some a =>
    simp only [Option.getD_some] at *
    obtain ⟨l, e, r⟩ := newLen_ok (limit := limit) (zero := zero) (n := alen a) (c := c) (by simp) (by simpa [alen] using h1) (by simpa [alen] using h2)
    rw [e]
    simp only [Out.ok_bind]
    have ⟨hl, hc, hle, hi, he⟩ := r
    simp [alen] at hl hle
    rw [arrayMemcpy_ok (by omega) (by omega) (by simp) (by simp only [alen]; omega) (by simp [alen]) (by unfold I32; simp only [alen]; omega) (by unfold I32; simp only [alen]; omega)]
    have hb := blit_length (dst := l.array) (d := 0) (src := a) (s := 0)
        (n := a.length) (by simpa using hle) (by omega)
    simp only [Out.ok_bind, Out.pure_eq, alen, Int.toNat_natCast, Int.toNat_zero]
    refine ⟨_, rfl, by simp [hl], by simp [hc, hb], by simp [hb, hle], by simpa [hb] using hi, ?_⟩
    intro j hj
    simp only []
    rw [blit_getElem? (by omega) (by omega)]
    grind

end NumList
end SPVM
