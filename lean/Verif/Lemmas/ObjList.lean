import Verif.Model.ObjList
import Verif.Lemmas.Array
import Verif.Props.VM
/-! Lemmas on the ring representation of `List`. -/
set_option linter.unusedSimpArgs false
namespace SPVM

theorem Prog.loopUp_inv {n start : Nat} {body : Nat → Prog σ Unit} {s : σ} (Inv : Nat → σ → Prop) (h0 : Inv start s)
    (hstep : ∀ i s, start ≤ i → i < start + n → Inv i s → ∃ s', body i s = (.ok (), s') ∧ Inv (i + 1) s') :
    ∃ s', Prog.loopUp start n body s = (.ok (), s') ∧ Inv (start + n) s' := by
  induction n generalizing start s with
  | zero => exact ⟨s, rfl, h0⟩
  | succ n ih =>
    obtain ⟨s', e, hi⟩ := hstep start s (by omega) (by omega) h0
    obtain ⟨s'', e', hi'⟩ := ih hi (fun i t h1 h2 h3 => hstep i t (by omega) (by omega) h3)
    refine ⟨s'', ?_, by rwa [show start + (n + 1) = start + 1 + n by omega]⟩
    unfold Prog.loopUp
    rw [Prog.bind_ok e, e']

theorem Prog.loopDown_inv {n : Nat} {body : Nat → Prog σ Unit} {s : σ} (Inv : Nat → σ → Prop) (h0 : Inv n s)
    (hstep : ∀ i s, i < n → Inv (i + 1) s → ∃ s', body i s = (.ok (), s') ∧ Inv i s') :
    ∃ s', Prog.loopDown n body s = (.ok (), s') ∧ Inv 0 s' := by
  induction n generalizing s with
  | zero => exact ⟨s, rfl, h0⟩
  | succ n ih =>
    obtain ⟨s', e, hi⟩ := hstep n s (by omega) h0
    obtain ⟨s'', e', hi'⟩ := ih hi (fun i t h1 h3 => hstep i t (by omega) h3)
    refine ⟨s'', ?_, hi'⟩
    unfold Prog.loopDown
    rw [Prog.bind_ok e, e']

/-- The ring read from `o`. -/
def ring (a : List β) (o : Nat) : List β := a.drop o ++ a.take o

theorem ring_length (a : List β) (o : Nat) : (ring a o).length = a.length := by
  simp [ring]; omega

theorem ring_getElem? (a : List β) (o i : Nat) (ho : o ≤ a.length) (hi : i < a.length) :
    (ring a o)[i]? = a[(o + i) % a.length]? := by
  unfold ring
  rw [List.getElem?_append, List.getElem?_drop, List.getElem?_take, List.length_drop]
  by_cases h : o + i < a.length
  · rw [if_pos (by omega), Nat.mod_eq_of_lt h]
  · rw [if_neg (by omega), if_pos (by omega), Nat.mod_eq_sub_mod (by omega), Nat.mod_eq_of_lt (by omega)]
    congr 1; omega

theorem mod_shift_inj {c o i j : Nat} (ho : o ≤ c) (hi : i < c) (hj : j < c) (h : (o + i) % c = (o + j) % c) : i = j := by
  have : ∀ k, k < c → (o + k) % c = if o + k < c then o + k else o + k - c := by
    intro k hk
    split
    · rw [Nat.mod_eq_of_lt (by assumption)]
    · rw [Nat.mod_eq_sub_mod (by omega), Nat.mod_eq_of_lt (by omega)]
  rw [this i hi, this j hj] at h
  split at h <;> split at h <;> omega

theorem ring_set (a : List β) (o i : Nat) (x : β) (ho : o ≤ a.length) (hi : i < a.length) :
    ring (a.set ((o + i) % a.length) x) o = (ring a o).set i x := by
  apply List.ext_getElem?
  intro k
  by_cases hk : k < a.length
  · rw [ring_getElem? _ _ _ (by simpa using ho) (by simpa using hk), List.getElem?_set, List.getElem?_set, ring_length,
      ring_getElem? _ _ _ ho hk]
    simp only [List.length_set]
    have hlt : (o + i) % a.length < a.length := Nat.mod_lt _ (by omega)
    by_cases hik : i = k
    · subst hik; simp [hlt, hi]
    · rw [if_neg hik, if_neg (fun h => hik (mod_shift_inj ho hi hk h))]
  · rw [List.getElem?_eq_none (by rw [ring_length]; simp; omega), List.getElem?_eq_none (by simp [ring_length]; omega)]

theorem mem_set_imp {l : List β} {i : Nat} {x v : β} (h : v ∈ l.set i x) : v ∈ l ∨ v = x := List.mem_or_eq_of_mem_set h

theorem setElementChecked_ok {accept : α → Bool} {a : List (Option α)} {i : Int} {x : Option α} (h0 : 0 ≤ i)
    (h1 : i.toNat < a.length) (hx : ∀ v, x = some v → accept v = true) :
    VM.setElementChecked accept a i x = .ok (a.set i.toNat x) := by
  unfold VM.setElementChecked
  rw [if_neg (by simp only [alen]; omega)]
  cases x with
  | none => exact aSet_ok h0 h1
  | some v => simp only [hx v rfl, if_true]; exact aSet_ok h0 h1

theorem memcpyObj_ok {accept : α → Bool} {dst src : List (Option α)} {d s len : Int} (hd : 0 ≤ d) (hs : 0 ≤ s)
    (hl : 0 ≤ len) (h1 : d + len ≤ dst.length) (h2 : s + len ≤ src.length) (i1 : I32 (d + len)) (i2 : I32 (s + len))
    (hacc : ∀ v, some v ∈ src → accept v = true) :
    memcpyObj accept dst d src s len = .ok (blit dst d.toNat src s.toNat len.toNat) := by
  unfold memcpyObj
  rw [if_neg (by omega), if_neg (by omega), if_neg (by omega), add32_ok i1, add32_ok i2]
  simp only [Out.ok_bind]
  rw [if_neg (by simp only [alen]; omega), if_neg (by simp only [alen]; omega)]
  obtain ⟨s', e1, e2⟩ := forLoop_inv (start := 0) (n := len.toNat) (s := dst)
    (body := fun i dst => do
          let j ← add32 d i
          let k ← add32 s i
          let x ← aGet src k
          VM.setElementChecked accept dst j x)
    (fun i b => b = blit dst d.toNat src s.toNat i)
    (by simp [blit_zero])
    (by
      intro i b _ hi hb
      have hI : I32 (d + i) := by unfold I32 at *; omega
      have hI2 : I32 (s + i) := by unfold I32 at *; omega
      have hbl : b.length = dst.length := by rw [hb, blit_length (by omega) (by omega)]
      have hk : (s + i).toNat < src.length := by omega
      refine ⟨b.set (d + i).toNat src[(s + i).toNat], ?_, ?_⟩
      · rw [add32_ok hI, add32_ok hI2]
        simp only [Out.ok_bind]
        rw [aGet_ok (by omega) hk]
        simp only [Out.ok_bind]
        rw [setElementChecked_ok (by omega) (by omega)]
        intro v hv
        exact hacc v (hv ▸ List.getElem_mem hk)
      · subst hb
        apply List.ext_getElem?
        intro k
        rw [blit_getElem? (by omega) (by omega), List.getElem?_set, blit_getElem? (by omega) (by omega), hbl]
        have : src[(s + i).toNat]? = some src[(s + i).toNat] := List.getElem?_eq_getElem hk
        by_cases hkk : (d + i).toNat = k
        · rw [if_pos hkk, if_pos (by omega), if_pos (by omega), ← this]
          congr 1; omega
        · rw [if_neg hkk]
          by_cases hr : d.toNat ≤ k ∧ k < d.toNat + i
          · rw [if_pos hr, if_pos (by omega)]
          · rw [if_neg hr, if_neg (by omega)])
  rw [e1, e2]
  simp

namespace ObjList
variable {α : Type}

/-- The list object represents the sequence `xs`; `rest` are the unused slots of the ring behind its end. -/
structure Rep (limit : Nat) (accept : α → Bool) (l : ObjList α) (xs rest : List (Option α)) : Prop where
  len : l.length = xs.length
  cap : l.capacity = l.array.length
  off0 : 0 ≤ l.offset
  off1 : l.offset < l.array.length ∨ l.offset = 0
  lim : l.array.length ≤ limit
  ring : ring l.array l.offset.toNat = xs ++ rest
  acc : ∀ v, some v ∈ xs ++ rest → accept v = true

theorem Rep.alen {limit accept} {l : ObjList α} {xs rest} (h : Rep limit accept l xs rest) :
    l.array.length = xs.length + rest.length := by
  rw [← ring_length l.array l.offset.toNat, h.ring, List.length_append]

theorem Rep.accArr {limit accept} {l : ObjList α} {xs rest} (h : Rep limit accept l xs rest) :
    ∀ v, some v ∈ l.array → accept v = true := by
  intro v hv
  apply h.acc
  rw [← h.ring]
  unfold SPVM.ring
  rw [List.mem_append]
  have : l.array = l.array.take l.offset.toNat ++ l.array.drop l.offset.toNat := (List.take_append_drop _ _).symm
  rw [this, List.mem_append] at hv
  exact hv.symm

theorem realIndex_ok {limit accept} (hlim : limit ≤ 1073741824) {l : ObjList α} {xs rest} (h : Rep limit accept l xs rest)
    (i : Int) (h0 : 0 ≤ i) (h1 : i.toNat < l.array.length) :
    realIndex l i = .ok (((l.offset.toNat + i.toNat) % l.array.length : Nat) : Int) := by
  have ⟨_, hc, ho, ho1, hl, _, _⟩ := h
  unfold realIndex
  rw [add32_ok (by unfold I32; omega)]
  simp only [Out.ok_bind]
  rw [VM.modInt_nonneg (by omega) (by omega) (by omega), hc]
  congr 1
  simp only [Int.natCast_emod, Int.natCast_add]
  rw [Int.toNat_of_nonneg ho, Int.toNat_of_nonneg h0]

theorem get_ok {limit accept} (hlim : limit ≤ 1073741824) {l : ObjList α} {xs rest} (h : Rep limit accept l xs rest)
    (i : Int) (h0 : 0 ≤ i) (h1 : i.toNat < xs.length) : get i l = (.ok xs[i.toNat], l) := by
  have ha := h.alen
  have ⟨hlen, hc, ho, ho1, hl, hr, _⟩ := h
  have hi : i.toNat < l.array.length := by omega
  unfold get
  simp only [Prog.get_bind_apply, Prog.ite_apply]
  rw [if_neg (by omega), if_neg (by omega), realIndex_ok hlim h i h0 hi]
  simp only [Prog.lift_ok_bind, Prog.lift_apply]
  have hlt : (l.offset.toNat + i.toNat) % l.array.length < l.array.length := Nat.mod_lt _ (by omega)
  rw [aGet_ok (by omega) (by rw [Int.toNat_natCast]; exact hlt)]
  simp only [Int.toNat_natCast, Prod.mk.injEq, Out.ok.injEq, and_true]
  have e := ring_getElem? l.array l.offset.toNat i.toNat (by omega) hi
  rw [hr, List.getElem?_append_left h1, List.getElem?_eq_getElem h1, List.getElem?_eq_getElem hlt] at e
  exact (Option.some.inj e).symm

theorem set_ok {limit accept} (hlim : limit ≤ 1073741824) {l : ObjList α} {xs rest} (h : Rep limit accept l xs rest)
    (i : Int) (x : Option α) (h0 : 0 ≤ i) (h1 : i.toNat < xs.length) (hx : ∀ v, x = some v → accept v = true) :
    ∃ l', set accept i x l = (.ok (), l') ∧ Rep limit accept l' (xs.set i.toNat x) rest ∧ l'.capacity = l.capacity ∧
      l'.offset = l.offset := by
  have ha := h.alen
  have ⟨hlen, hc, ho, ho1, hl, hr, hacc⟩ := h
  have hi : i.toNat < l.array.length := by omega
  have hlt : (l.offset.toNat + i.toNat) % l.array.length < l.array.length := Nat.mod_lt _ (by omega)
  refine ⟨{ l with array := l.array.set ((l.offset.toNat + i.toNat) % l.array.length) x }, ?_, ?_, rfl, rfl⟩
  · unfold set
    simp only [Prog.get_bind_apply, Prog.ite_apply]
    rw [if_neg (by omega), if_neg (by omega), realIndex_ok hlim h i h0 hi]
    simp only [Prog.lift_ok_bind]
    rw [setElementChecked_ok (by omega) (by rw [Int.toNat_natCast]; exact hlt) hx]
    simp only [Prog.lift_ok_bind, Prog.set_apply, Int.toNat_natCast]
  · refine ⟨by simp [hlen], by simp [hc], ho, by simpa using ho1, by simpa using hl, ?_, ?_⟩
    · simp only []
      rw [ring_set _ _ _ _ (by omega) hi, hr, List.set_append_left _ _ h1]
    · intro v hv
      rw [List.mem_append] at hv
      rcases hv with hv | hv
      · rcases mem_set_imp hv with h' | h'
        · exact hacc v (List.mem_append_left _ h')
        · exact hx v h'.symm
      · exact hacc v (List.mem_append_right _ hv)

/-- Changing only the length field moves the border between the sequence and the unused slots. -/
theorem Rep.setLength {limit accept} {l : ObjList α} {xs rest} (h : Rep limit accept l xs rest) {ys rest'}
    (he : xs ++ rest = ys ++ rest') (n : Int) (hn : n = ys.length) : Rep limit accept { l with length := n } ys rest' :=
  ⟨hn, h.cap, h.off0, h.off1, h.lim, by rw [h.ring, he], by rw [← he]; exact h.acc⟩

theorem newProto_ok {limit : Nat} {n : Int} (h0 : 0 ≤ n) (h1 : n ≤ limit) :
    (newProto limit n : Out (List (Option α))) = .ok (List.replicate n.toNat none) := by
  unfold newProto
  rw [if_neg (by omega), if_pos (by omega)]

theorem ring_extend (a : List (Option α)) (o n : Nat) (ho : o ≤ a.length) (hn : a.length + o ≤ n) :
    ring (blit (blit (List.replicate n none) o a o (a.length - o)) a.length a 0 o) o =
      ring a o ++ List.replicate (n - a.length) none := by
  have hl1 : (blit (List.replicate n none) o a o (a.length - o)).length = n := by
    rw [blit_length (by simp; omega) (by omega)]; simp
  have hl2 : (blit (blit (List.replicate n none) o a o (a.length - o)) a.length a 0 o).length = n := by
    rw [blit_length (by omega) (by omega), hl1]
  apply List.ext_getElem?
  intro k
  by_cases hk : k < n
  · rw [ring_getElem? _ _ _ (by omega) (by omega), hl2, blit_getElem? (by omega) (by omega),
      blit_getElem? (by simp; omega) (by omega), List.getElem?_append, ring_length]
    rw [List.getElem?_replicate, List.getElem?_replicate]
    by_cases hka : k < a.length
    · rw [if_pos hka, ring_getElem? _ _ _ ho hka]
      rw [Nat.mod_eq_of_lt (show o + k < n by omega)]
      by_cases hok : o + k < a.length
      · rw [if_neg (by omega), if_pos (by omega), Nat.mod_eq_of_lt hok]
        congr 1; omega
      · rw [if_pos (by omega), Nat.mod_eq_sub_mod (by omega), Nat.mod_eq_of_lt (by omega)]
        congr 1; omega
    · rw [if_neg hka, if_pos (show k - a.length < n - a.length by omega)]
      have hm : (o + k) % n = if o + k < n then o + k else o + k - n := by
        split
        · rw [Nat.mod_eq_of_lt (by assumption)]
        · rw [Nat.mod_eq_sub_mod (by omega), Nat.mod_eq_of_lt (by omega)]
      rw [hm]
      split
      · rw [if_neg (by omega), if_neg (by omega)]
      · rw [if_neg (by omega), if_neg (by omega), if_pos (by omega)]
  · rw [List.getElem?_eq_none (by rw [ring_length]; omega), List.getElem?_eq_none (by simp [ring_length]; omega)]

/-- Complete case analysis of `_extend` without `just`. -/
theorem extend_cases {limit accept} (hlim : limit ≤ 1073741824) {l : ObjList α} {xs rest} (h : Rep limit accept l xs rest)
    (m : Int) :
    (∃ l' k, extend limit accept m false l = (.ok (), l') ∧ Rep limit accept l' xs (rest ++ List.replicate k none) ∧
      l'.length = l.length ∧ m ≤ l'.capacity ∧ l'.offset = l.offset) ∨
    (∃ msg, extend limit accept m false l = (.die msg, l) ∧ limit < 2 * m ∧ l.capacity < m) ∨
    (extend limit accept m false l = (.ub, l) ∧ 2147483647 < 2 * m ∧ l.capacity < m) := by
  have ha := h.alen
  have hac := h.accArr
  have ⟨hlen, hc, ho, ho1, hl, hr, hacc⟩ := h
  unfold extend
  simp only [Prog.get_bind_apply, Prog.ite_apply]
  by_cases hm : m > l.capacity
  · rw [if_neg (by omega)]
    simp only [Bool.false_eq_true, if_false]
    rw [if_pos (by omega)]
    by_cases hov : m * 2 ≤ 2147483647
    · rw [mul32_ok (by unfold I32; omega)]
      simp only [Prog.lift_ok_bind]
      by_cases hli : m * 2 ≤ limit
      · left
        rw [newProto_ok (by omega) hli]
        simp only [Prog.lift_ok_bind, Prog.ite_apply]
        rw [if_neg (by simp only [SPVM.alen]; omega), sub32_ok (by unfold I32; omega)]
        simp only [Prog.lift_ok_bind]
        rw [memcpyObj_ok ho ho (by omega) (by simp; omega) (by omega) (by unfold I32; omega) (by unfold I32; omega) hac]
        simp only [Prog.lift_ok_bind]
        have hb : (blit (List.replicate (m * 2).toNat none) l.offset.toNat l.array l.offset.toNat
            (l.capacity - l.offset).toNat).length = (m * 2).toNat := by
          rw [blit_length (by simp; omega) (by omega)]; simp
        rw [memcpyObj_ok (by omega) (by omega) (by omega) (by rw [hb]; omega) (by omega) (by unfold I32; omega)
          (by unfold I32; omega) hac]
        simp only [Prog.lift_ok_bind, Prog.set_apply]
        refine ⟨_, (m * 2).toNat - l.array.length, rfl, ⟨by simpa using hlen, ?_, ho, ?_, ?_, ?_, ?_⟩, rfl, by simp; omega, rfl⟩
        · simp only []
          rw [blit_length (by rw [hb]; omega) (by simp; omega), hb]; omega
        · simp only []
          rw [blit_length (by rw [hb]; omega) (by simp; omega), hb]; omega
        · simp only []
          rw [blit_length (by rw [hb]; omega) (by simp; omega), hb]; omega
        · simp only []
          have e := ring_extend l.array l.offset.toNat (m * 2).toNat (by omega) (by omega)
          rw [hr, List.append_assoc] at e
          rw [← e]
          congr 2
          · congr 1; omega
          · omega
        · intro v hv
          apply hacc
          rw [← List.append_assoc, List.mem_append] at hv
          rcases hv with hv | hv
          · exact hv
          · simp at hv
      · refine .inr (.inl ⟨msgDestUndef, ?_, by omega, by omega⟩)
        unfold newProto
        rw [if_neg (by omega), if_neg (by omega)]
        rfl
    · refine .inr (.inr ⟨?_, by omega, by omega⟩)
      rw [mul32, chk32, if_neg (by unfold I32; omega)]
      rfl
  · left
    rw [if_pos hm]
    exact ⟨l, 0, rfl, by simpa using h, rfl, by omega, rfl⟩

/-- `_extend` with `just` (`reserve`): succeeds or throws without effect, and succeeds when nothing was shifted. -/
theorem reserve_cases {limit accept} (hlim : limit ≤ 1073741824) {l : ObjList α} {xs rest} (h : Rep limit accept l xs rest)
    (m : Int) (hm32 : I32 m) :
    (∃ l' k, extend limit accept m true l = (.ok (), l') ∧ Rep limit accept l' xs (rest ++ List.replicate k none) ∧
      l'.offset = l.offset ∧ m ≤ l'.capacity) ∨
    (∃ msg, extend limit accept m true l = (.die msg, l) ∧
      (limit < m ∨ (l.capacity < m ∧ m < l.capacity + l.offset))) := by
  have ha := h.alen
  have hac := h.accArr
  have ⟨hlen, hc, ho, ho1, hl, hr, hacc⟩ := h
  unfold I32 at hm32
  unfold extend
  simp only [Prog.get_bind_apply, Prog.ite_apply]
  by_cases hm : m > l.capacity
  · rw [if_neg (by omega)]
    simp only [if_true, Prog.lift_ok_bind]
    by_cases hli : m ≤ limit
    · rw [newProto_ok (by omega) hli]
      simp only [Prog.lift_ok_bind, Prog.ite_apply]
      rw [if_neg (by simp only [SPVM.alen]; omega), sub32_ok (by unfold I32; omega)]
      simp only [Prog.lift_ok_bind]
      rw [memcpyObj_ok ho ho (by omega) (by simp; omega) (by omega) (by unfold I32; omega) (by unfold I32; omega) hac]
      simp only [Prog.lift_ok_bind]
      have hb : (blit (List.replicate m.toNat none) l.offset.toNat l.array l.offset.toNat
          (l.capacity - l.offset).toNat).length = m.toNat := by
        rw [blit_length (by simp; omega) (by omega)]; simp
      by_cases hsp : l.capacity + l.offset ≤ m
      · left
        rw [memcpyObj_ok (by omega) (by omega) (by omega) (by rw [hb]; omega) (by omega) (by unfold I32; omega)
          (by unfold I32; omega) hac]
        simp only [Prog.lift_ok_bind, Prog.set_apply]
        refine ⟨_, m.toNat - l.array.length, rfl, ⟨by simpa using hlen, ?_, ho, ?_, ?_, ?_, ?_⟩, rfl, by simp⟩
        · simp only []
          rw [blit_length (by rw [hb]; omega) (by simp; omega), hb]; omega
        · simp only []
          rw [blit_length (by rw [hb]; omega) (by simp; omega), hb]; omega
        · simp only []
          rw [blit_length (by rw [hb]; omega) (by simp; omega), hb]; omega
        · simp only []
          have e := ring_extend l.array l.offset.toNat m.toNat (by omega) (by omega)
          rw [hr, List.append_assoc] at e
          rw [← e]
          congr 2
          · congr 1; omega
          · omega
        · intro v hv
          apply hacc
          rw [← List.append_assoc, List.mem_append] at hv
          rcases hv with hv | hv
          · exact hv
          · simp at hv
      · refine .inr ⟨msgDestRange, ?_, .inr (by omega)⟩
        unfold memcpyObj
        rw [if_neg (by omega), if_neg (by omega), if_neg (by omega), add32_ok (by unfold I32; omega)]
        simp only [Out.ok_bind]
        rw [if_pos (by simp only [SPVM.alen, hb]; omega)]
        rfl
    · refine .inr ⟨msgDestUndef, ?_, .inl (by omega)⟩
      unfold newProto
      rw [if_neg (by omega), if_neg (by omega)]
      rfl
  · left
    rw [if_pos hm]
    exact ⟨l, 0, rfl, by simpa using h, rfl, by omega⟩

theorem ring_next (a : List β) (o : Nat) (ho : o < a.length) (x : β) (r : List β) (h : ring a o = x :: r) :
    ring a (if o + 1 ≥ a.length then o + 1 - a.length else o + 1) = r ++ [x] := by
  unfold ring at *
  rw [List.drop_eq_getElem_cons ho, List.cons_append] at h
  obtain ⟨rfl, rfl⟩ := List.cons.inj h
  split
  · rw [show o + 1 - a.length = 0 by omega, List.drop_eq_nil_of_le (show a.length ≤ o + 1 by omega)]
    simp only [List.drop_zero, List.take_zero, List.append_nil, List.nil_append]
    rw [List.take_append_getElem ho, List.take_of_length_le (by omega)]
  · rw [← List.take_append_getElem ho, List.append_assoc]

theorem ring_prev (a : List β) (o : Nat) (ho : o ≤ a.length) (hne : 0 < a.length) (x : β) (r : List β)
    (h : ring a o = r ++ [x]) (hl : o = 0 ∨ o < a.length) :
    ring a (if o = 0 then a.length - 1 else o - 1) = x :: r := by
  have hlt : (if o = 0 then a.length - 1 else o - 1) < a.length := by split <;> omega
  cases he : ring a (if o = 0 then a.length - 1 else o - 1) with
  | nil => have := ring_length a (if o = 0 then a.length - 1 else o - 1); rw [he] at this; simp at this; omega
  | cons y t =>
    have := ring_next a _ hlt y t he
    have ho' : (if (if o = 0 then a.length - 1 else o - 1) + 1 ≥ a.length then
        (if o = 0 then a.length - 1 else o - 1) + 1 - a.length else (if o = 0 then a.length - 1 else o - 1) + 1) = o := by
      grind
    rw [ho', h] at this
    have := List.append_inj' this rfl
    simp at this
    rw [this.1, this.2]

theorem pop_ok {limit accept} (hlim : limit ≤ 1073741824) {l : ObjList α} {xs rest} {x : Option α}
    (h : Rep limit accept l (xs ++ [x]) rest) :
    ∃ l', pop accept l = (.ok x, l') ∧ Rep limit accept l' xs (none :: rest) ∧ l'.offset = l.offset := by
  have ha := h.alen
  have ⟨hlen, hc, ho, ho1, hl, hr, hacc⟩ := h
  simp at hlen ha
  unfold pop
  simp only [Prog.get_bind_apply, Prog.ite_apply]
  rw [if_neg (by omega), sub32_ok (by unfold I32; omega)]
  simp only [Prog.lift_ok_bind]
  have e1 := get_ok hlim h (l.length - 1) (by omega) (by simp; omega)
  rw [Prog.bind_ok e1]
  obtain ⟨l1, e2, r2, c2, o2⟩ := set_ok hlim h (l.length - 1) none (by omega) (by simp; omega) (by simp)
  rw [Prog.bind_ok e2]
  simp only [Prog.get_bind_apply]
  have hl1 := r2.len
  simp at hl1
  rw [sub32_ok (by unfold I32; omega)]
  simp only [Prog.lift_ok_bind, Prog.set_bind_apply, Prog.pure_apply]
  have hi : (l.length - 1).toNat = xs.length := by omega
  refine ⟨_, Prod.ext ?_ rfl, r2.setLength (ys := xs) (rest' := none :: rest) ?_ _ (by omega), o2⟩
  · simp [hi]
  · simp [hi]

theorem shift_ok {limit accept} (hlim : limit ≤ 1073741824) {l : ObjList α} {xs rest} {x : Option α}
    (h : Rep limit accept l (x :: xs) rest) :
    ∃ l', shift accept l = (.ok x, l') ∧ Rep limit accept l' xs (rest ++ [none]) := by
  have ha := h.alen
  have ⟨hlen, hc, ho, ho1, hl, hr, hacc⟩ := h
  simp at hlen ha
  unfold shift
  simp only [Prog.get_bind_apply, Prog.ite_apply]
  rw [if_neg (by omega)]
  have e1 := get_ok hlim h 0 (by omega) (by simp)
  rw [Prog.bind_ok e1]
  obtain ⟨l1, e2, r2, c2, o2⟩ := set_ok hlim h 0 none (by omega) (by simp) (by simp)
  rw [Prog.bind_ok e2]
  simp only [Prog.get_bind_apply]
  have hl1 := r2.len
  have ha2 := r2.alen
  have hc2 := r2.cap
  simp at hl1 ha2
  rw [sub32_ok (by unfold I32; omega)]
  simp only [Prog.lift_ok_bind, Prog.set_bind_apply, Prog.pure_apply, Prog.get_bind_apply]
  rw [add32_ok (by unfold I32; omega)]
  simp only [Prog.lift_ok_bind, Prog.set_bind_apply, Prog.pure_apply, Prog.get_bind_apply]
  refine ⟨_, Prod.ext (by simp) rfl, ⟨by simp; omega, hc2, ?_, ?_, r2.lim, ?_, ?_⟩⟩
  · simp only []; split <;> omega
  · simp only []; split <;> omega
  · have hr2 := r2.ring
    simp only [Int.toNat_zero, List.set_cons_zero, List.cons_append] at hr2
    have := ring_next l1.array l1.offset.toNat (by omega) _ _ hr2
    rw [List.append_assoc] at this
    rw [← this]
    simp only []
    congr 1
    split <;> split <;> omega
  · intro v hv
    apply hacc
    simp at hv ⊢
    grind

theorem push_ok {limit accept} (hlim : limit ≤ 1073741824) {l l1 : ObjList α} {xs rest} {x : Option α}
    (h : Rep limit accept l xs rest) (hlen1 : l.length + 1 ≤ 2147483647)
    (e1 : extend limit accept (l.length + 1) false l = (.ok (), l1)) {k}
    (r1 : Rep limit accept l1 xs (rest ++ List.replicate k none)) (hm : l.length + 1 ≤ l1.capacity)
    (hx : ∀ v, x = some v → accept v = true) :
    ∃ l' rest', push limit accept x l = (.ok (), l') ∧ Rep limit accept l' (xs ++ [x]) rest' ∧
      (rest ++ List.replicate k none).tail = rest' ∧ l'.offset = l1.offset := by
  have ⟨hlen, hc, ho, ho1, hl, hr, hacc⟩ := h
  unfold push
  simp only [Prog.get_bind_apply]
  rw [add32_ok (by unfold I32; omega)]
  simp only [Prog.lift_ok_bind]
  rw [Prog.bind_ok e1]
  simp only [Prog.get_bind_apply, Prog.set_bind_apply]
  have ha1 := r1.alen
  have hc1 := r1.cap
  have hlen1' := r1.len
  cases hre : rest ++ List.replicate k none with
  | nil => rw [hre] at ha1; simp at ha1; omega
  | cons y t =>
    rw [hre] at r1
    have r1' := r1.setLength (ys := xs ++ [y]) (rest' := t) (by simp) (l.length + 1) (by simp; omega)
    obtain ⟨l2, e2, r2, c2, o2⟩ := set_ok hlim r1' l.length x (by omega) (by simp; omega) hx
    refine ⟨l2, t, e2, ?_, by simp, o2⟩
    rw [show l.length.toNat = xs.length by omega] at r2
    simpa using r2

theorem unshift_ok {limit accept} (hlim : limit ≤ 1073741824) {l l1 : ObjList α} {xs rest} {x : Option α}
    (h : Rep limit accept l xs rest) (hlen1 : l.length + 1 ≤ 2147483647)
    (e1 : extend limit accept (l.length + 1) false l = (.ok (), l1)) {k}
    (r1 : Rep limit accept l1 xs (rest ++ List.replicate k none)) (hm : l.length + 1 ≤ l1.capacity)
    (hx : ∀ v, x = some v → accept v = true) :
    ∃ l' rest', unshift limit accept x l = (.ok (), l') ∧ Rep limit accept l' (x :: xs) rest' ∧
      (rest ++ List.replicate k none).dropLast = rest' := by
  have ⟨hlen, hc, ho, ho1, hl, hr, hacc⟩ := h
  unfold unshift
  simp only [Prog.get_bind_apply]
  rw [add32_ok (by unfold I32; omega)]
  simp only [Prog.lift_ok_bind]
  rw [Prog.bind_ok e1]
  have ha1 := r1.alen
  have ⟨hlen1', hc1, ho', ho1', hl', hr', hacc'⟩ := r1
  simp only [Prog.get_bind_apply, Prog.set_bind_apply]
  rw [sub32_ok (by unfold I32; omega), add32_ok (by unfold I32; omega)]
  simp only [Prog.lift_ok_bind, Prog.set_bind_apply]
  have hne : rest ++ List.replicate k none ≠ [] := by
    intro hc; rw [hc] at ha1; simp at ha1; omega
  obtain ⟨t, y, hre⟩ : ∃ t y, rest ++ List.replicate k none = t ++ [y] :=
    ⟨_, _, (List.dropLast_concat_getLast hne).symm⟩
  rw [hre] at hr' hacc' ha1
  simp at ha1
  rw [← List.append_assoc] at hr'
  have hp := ring_prev l1.array l1.offset.toNat (by omega) (by omega) _ _ hr' (by omega)
  have r1' : Rep limit accept { l1 with offset := if l1.offset - 1 < 0 then l1.capacity - 1 else l1.offset - 1, length := l1.length + 1 }
      (y :: xs) t := by
    refine ⟨by simp; omega, hc1, ?_, ?_, hl', ?_, ?_⟩
    · simp only []; split <;> omega
    · simp only []; split <;> omega
    · rw [List.cons_append, ← hp]
      simp only []
      congr 1
      split <;> split <;> omega
    · intro v hv
      apply hacc'
      simp at hv ⊢
      grind
  obtain ⟨l2, e2, r2, c2, o2⟩ := set_ok hlim r1' 0 x (by omega) (by simp) hx
  exact ⟨l2, t, e2, by simpa using r2, by rw [hre]; simp⟩

/-- Storing a replacement overwrites the positions from `index`. -/
theorem storeRepl_ok {limit accept} (hlim : limit ≤ 1073741824) {l : ObjList α} {xs rest} (h : Rep limit accept l xs rest)
    (index : Int) (repl : List (Option α)) (h0 : 0 ≤ index) (h1 : index + repl.length ≤ xs.length)
    (hx : ∀ v, some v ∈ repl → accept v = true) :
    ∃ l', storeRepl accept index repl l = (.ok (), l') ∧
      Rep limit accept l' (blit xs index.toNat repl 0 repl.length) rest ∧ l'.offset = l.offset := by
  unfold storeRepl
  have hsmall : xs.length ≤ limit := by have := h.alen; have := h.lim; omega
  obtain ⟨l', e, r⟩ := Prog.loopUp_inv (start := 0) (n := repl.length) (s := l)
    (body := fun i => do
      let element ← Prog.lift (aGet repl i)
      let dst ← Prog.lift (add32 index i)
      set accept dst element)
    (fun i s => Rep limit accept s (blit xs index.toNat repl 0 i) rest ∧ s.offset = l.offset)
    (by rw [blit_zero]; exact ⟨h, rfl⟩)
    (by
      intro i s _ hi ⟨hr, hoff⟩
      rw [aGet_ok (by omega) (by simp; omega), add32_ok (by unfold I32; omega)]
      simp only [Prog.lift_ok_bind, Int.toNat_natCast]
      have hb : (blit xs index.toNat repl 0 i).length = xs.length := blit_length (by omega) (by omega)
      obtain ⟨s', e', r', c', o'⟩ := set_ok hlim hr (index + i) repl[i] (by omega) (by rw [hb]; omega)
        (fun v hv => hx v (hv ▸ List.getElem_mem (show i < repl.length by omega)))
      refine ⟨s', e', ?_, by rw [o', hoff]⟩
      have : (blit xs index.toNat repl 0 i).set (index + i).toNat repl[i] = blit xs index.toNat repl 0 (i + 1) := by
        apply List.ext_getElem?
        intro k
        rw [List.getElem?_set, blit_getElem? (by omega) (by omega), blit_getElem? (by omega) (by omega), hb]
        by_cases hk : (index + i).toNat = k
        · rw [if_pos hk, if_pos (by omega), if_pos (by omega), show 0 + (k - index.toNat) = i by omega,
            List.getElem?_eq_getElem (by omega)]
        · rw [if_neg hk]
          by_cases hr : index.toNat ≤ k ∧ k < index.toNat + i
          · rw [if_pos hr, if_pos (by omega)]
          · rw [if_neg hr, if_neg (by omega)]
      rw [this] at r'
      exact r')
  exact ⟨l', e, by simpa using r.1, r.2⟩

theorem Rep.accGet {limit accept} {l : ObjList α} {xs rest} (h : Rep limit accept l xs rest) {i : Nat} (hi : i < xs.length) :
    ∀ v, xs[i] = some v → accept v = true :=
  fun v hv => h.acc v (List.mem_append_left _ (hv ▸ List.getElem_mem hi))

/-- Moving the tail in `replace`. -/
theorem moveTail_ok {limit accept} (hlim : limit ≤ 1073741824) {l : ObjList α} {xs rest} (h : Rep limit accept l xs rest)
    (index rem repl : Int) (h0 : 0 ≤ index) (h1 : 0 ≤ rem) (h2 : 0 ≤ repl) (h3 : index + rem ≤ xs.length)
    (h4 : xs.length - rem + repl ≤ l.capacity) :
    ∃ l' ys rest', moveTail accept index rem repl l = (.ok (), l') ∧
      Rep limit accept { l' with length := xs.length - rem + repl } ys rest' ∧
      (∀ k, k < index.toNat → ys[k]? = xs[k]?) ∧
      (∀ k, (index + repl).toNat ≤ k → ys[k]? = xs[k + rem.toNat - repl.toNat]?) ∧
      ((∀ x ∈ rest, x = none) → rem - repl ≤ xs.length - index - rem → ∀ x ∈ rest', x = none) ∧
      l'.offset = l.offset := by
  have ha := h.alen
  have ⟨hlen, hc, ho, ho1, hl, hr, hacc⟩ := h
  unfold moveTail
  rw [sub32_ok (by unfold I32; omega)]
  simp only [Prog.lift_ok_bind, Prog.get_bind_apply, Prog.ite_apply]
  by_cases hd0 : repl - rem = 0
  · rw [if_pos hd0]
    refine ⟨l, xs, rest, rfl, h.setLength rfl _ (by omega), fun _ _ => rfl, fun k hk => ?_, fun hn _ => hn, rfl⟩
    congr 1; omega
  · rw [if_neg hd0]
    have hm : ((do let t ← sub32 l.length index; sub32 t rem) : Out Int) = .ok (l.length - index - rem) := by
      rw [sub32_ok (by unfold I32; omega)]
      simp only [Out.ok_bind]
      rw [sub32_ok (by unfold I32; omega)]
    have hsrc : ∀ i : Nat, (i : Int) < l.length - index - rem →
        ((do let t ← add32 index rem; add32 t i) : Out Int) = .ok (index + rem + i) := by
      intro i hi
      rw [add32_ok (by unfold I32; omega)]
      simp only [Out.ok_bind]
      rw [add32_ok (by unfold I32; omega)]
    have hdst : ∀ i : Nat, (i : Int) < l.length - index - rem →
        ((do let t ← add32 index repl; add32 t i) : Out Int) = .ok (index + repl + i) := by
      intro i hi
      rw [add32_ok (by unfold I32; omega)]
      simp only [Out.ok_bind]
      rw [add32_ok (by unfold I32; omega)]
    by_cases hd : repl - rem > 0
    · rw [if_pos hd, hm]
      simp only [Prog.lift_ok_bind]
      rw [add32_ok (by unfold I32; omega)]
      simp only [Prog.lift_ok_bind, Prog.set_bind_apply]
      have r1 : Rep limit accept { l with length := l.length + (repl - rem) } (xs ++ rest.take (repl - rem).toNat)
          (rest.drop (repl - rem).toNat) :=
        h.setLength (by simp) _ (by simp; omega)
      obtain ⟨l', e, ys, r2, hlen2, hoff, hys⟩ := Prog.loopDown_inv (n := (l.length - index - rem).toNat)
        (s := { l with length := l.length + (repl - rem) })
        (body := fun i => do
          let src ← Prog.lift (do let t ← add32 index rem; add32 t i)
          let element ← get src
          let dst ← Prog.lift (do let t ← add32 index repl; add32 t i)
          set accept dst element)
        (fun i s => ∃ ys, Rep limit accept s ys (rest.drop (repl - rem).toNat) ∧
          ys.length = (xs.length + (repl - rem)).toNat ∧ s.offset = l.offset ∧
          ∀ k : Nat, ys[k]? = if (index + repl).toNat + i ≤ k ∧ k < (xs.length + (repl - rem)).toNat
            then xs[k + rem.toNat - repl.toNat]? else (xs ++ rest.take (repl - rem).toNat)[k]?)
        (by
          refine ⟨_, r1, by simp; omega, rfl, fun k => ?_⟩
          rw [if_neg (by omega)])
        (by
          intro i s hi ⟨ys, hr2, hl2, hoff, hk⟩
          rw [hsrc i (by omega), hdst i (by omega)]
          simp only [Prog.lift_ok_bind]
          have hs1 : (index + rem + i).toNat < ys.length := by omega
          rw [Prog.bind_ok (get_ok hlim hr2 (index + rem + i) (by omega) hs1)]
          obtain ⟨s', e', r', c', o'⟩ := set_ok hlim hr2 (index + repl + i) ys[(index + rem + i).toNat] (by omega)
            (by omega) (hr2.accGet hs1)
          refine ⟨s', e', _, r', by simp [hl2], by rw [o', hoff], fun k => ?_⟩
          rw [List.getElem?_set]
          by_cases hkk : (index + repl + i).toNat = k
          · rw [if_pos hkk, if_pos (by omega), if_pos (by omega), ← List.getElem?_eq_getElem hs1, hk]
            rw [if_neg (by omega), List.getElem?_append_left (by omega)]
            congr 1; omega
          · rw [if_neg hkk, hk]
            by_cases hb : (index + repl).toNat + i ≤ k ∧ k < (xs.length + (repl - rem)).toNat
            · rw [if_pos hb, if_pos (by omega)]
            · rw [if_neg hb, if_neg (by omega)])
      refine ⟨l', ys, _, e, r2.setLength rfl _ (by omega), ?_, ?_, ?_, hoff⟩
      · intro k hk
        rw [hys, if_neg (by omega), List.getElem?_append_left (by omega)]
      · intro k hk
        rw [hys]
        split
        · rfl
        · rw [List.getElem?_eq_none (by simp; omega), List.getElem?_eq_none (by omega)]
      · intro hn _ x hx
        exact hn x (List.mem_of_mem_drop hx)
    · rw [if_neg hd, hm]
      simp only [Prog.lift_ok_bind]
      obtain ⟨l', e, ys, r2, hlen2, hoff, hys⟩ := Prog.loopUp_inv (start := 0) (n := (l.length - index - rem).toNat) (s := l)
        (body := fun i => do
          let src ← Prog.lift (do let t ← add32 index rem; add32 t i)
          let element ← get src
          let dst ← Prog.lift (do let t ← add32 index repl; add32 t i)
          set accept dst element
          set accept src none)
        (fun i s => ∃ ys, Rep limit accept s ys rest ∧ ys.length = xs.length ∧ s.offset = l.offset ∧
          ∀ k : Nat, ys[k]? = if (index + repl).toNat ≤ k ∧ k < (index + repl).toNat + i
            then xs[k + rem.toNat - repl.toNat]? else
              if (index + rem).toNat ≤ k ∧ k < (index + rem).toNat + i then some none else xs[k]?)
        (by
          refine ⟨_, h, rfl, rfl, fun k => ?_⟩
          rw [if_neg (by omega), if_neg (by omega)])
        (by
          intro i s _ hi ⟨ys, hr2, hl2, hoff, hk⟩
          rw [hsrc i (by omega), hdst i (by omega)]
          simp only [Prog.lift_ok_bind]
          have hs1 : (index + rem + i).toNat < ys.length := by omega
          rw [Prog.bind_ok (get_ok hlim hr2 (index + rem + i) (by omega) hs1)]
          obtain ⟨s', e', r', c', o'⟩ := set_ok hlim hr2 (index + repl + i) ys[(index + rem + i).toNat] (by omega)
            (by omega) (hr2.accGet hs1)
          simp only [Prog.lift_ok_bind]
          rw [Prog.bind_ok e']
          obtain ⟨s'', e'', r'', c'', o''⟩ := set_ok hlim r' (index + rem + i) none (by omega)
            (by simp; omega) (by simp)
          refine ⟨s'', e'', _, r'', by simp [hl2], by rw [o'', o', hoff], fun k => ?_⟩
          rw [List.getElem?_set, List.getElem?_set]
          simp only [List.length_set]
          by_cases hkk : (index + rem + i).toNat = k
          · rw [if_pos hkk, if_pos (by omega), if_neg (by omega), if_pos (by omega)]
          · rw [if_neg hkk]
            by_cases hkd : (index + repl + i).toNat = k
            · rw [if_pos hkd, if_pos (by omega), if_pos (by omega), ← List.getElem?_eq_getElem hs1, hk]
              rw [if_neg (by omega), if_neg (by omega)]
              congr 1; omega
            · rw [if_neg hkd, hk]
              by_cases hb : (index + repl).toNat ≤ k ∧ k < (index + repl).toNat + i
              · rw [if_pos hb, if_pos (by omega)]
              · rw [if_neg hb, if_neg (show ¬ ((index + repl).toNat ≤ k ∧ k < (index + repl).toNat + (i + 1)) by omega)]
                by_cases hb2 : (index + rem).toNat ≤ k ∧ k < (index + rem).toNat + i
                · rw [if_pos hb2, if_pos (by omega)]
                · rw [if_neg hb2, if_neg (by omega)])
      refine ⟨l', ys.take (xs.length - rem + repl).toNat, ys.drop (xs.length - rem + repl).toNat ++ rest, e,
        r2.setLength (by rw [← List.append_assoc, List.take_append_drop]) _ (by simp; omega), ?_, ?_, ?_, hoff⟩
      · intro k hk
        rw [List.getElem?_take, if_pos (by omega), hys, if_neg (by omega), if_neg (by omega)]
      · intro k hk
        rw [List.getElem?_take]
        split
        · rw [hys, if_pos (by omega)]
        · rw [List.getElem?_eq_none (by omega)]
      · intro hn hm x hx
        rw [List.mem_append] at hx
        rcases hx with hx | hx
        · obtain ⟨k, hk⟩ := List.mem_iff_getElem?.mp hx
          rw [List.getElem?_drop, hys, if_neg (by omega)] at hk
          split at hk
          · simpa using hk.symm
          · rw [List.getElem?_eq_none (by omega)] at hk; simp at hk
        · exact hn x hx

/-- Case analysis of `replace` with arguments in range. -/
theorem replace_ok {limit accept} (hlim : limit ≤ 1073741824) {l : ObjList α} {xs rest} (h : Rep limit accept l xs rest)
    (index rem : Int) (repl : Option (List (Option α))) (h0 : 0 ≤ index) (h1 : 0 ≤ rem) (h3 : index + rem ≤ xs.length)
    (hr : (repl.getD []).length ≤ 2147483647)
    (hx : ∀ v, some v ∈ repl.getD [] → accept v = true) :
    (∃ l' rest', replace limit accept index rem repl l = (.ok (), l') ∧
      Rep limit accept l' (xs.take index.toNat ++ repl.getD [] ++ xs.drop (index + rem).toNat) rest' ∧
      ((∀ x ∈ rest, x = none) → rem - (repl.getD []).length ≤ xs.length - index - rem → ∀ x ∈ rest', x = none) ∧
      l'.offset = l.offset) ∨
    (∃ msg, replace limit accept index rem repl l = (.die msg, l) ∧
      limit < 2 * (xs.length - rem + (repl.getD []).length) ∧ l.capacity < xs.length - rem + (repl.getD []).length) ∨
    (replace limit accept index rem repl l = (.ub, l) ∧ 2147483647 < 2 * (xs.length - rem + (repl.getD []).length) ∧
      l.capacity < xs.length - rem + (repl.getD []).length) := by
  have ha := h.alen
  have ⟨hlen, hc, ho, ho1, hl, hrg, hacc⟩ := h
  have hopt : optLen repl = (repl.getD []).length := by cases repl <;> simp [optLen, SPVM.alen]
  unfold replace
  simp only [Prog.get_bind_apply, Prog.ite_apply]
  rw [if_neg (by omega), if_neg (by omega), add32_ok (by unfold I32; omega)]
  simp only [Prog.lift_ok_bind, Prog.ite_apply]
  rw [if_neg (by omega), hopt]
  rw [sub32_ok (by unfold I32; omega)]
  simp only [Out.ok_bind]
  by_cases hov : l.length - rem + (repl.getD []).length ≤ 2147483647
  · rw [add32_ok (by unfold I32; omega)]
    simp only [Prog.lift_ok_bind]
    rcases extend_cases hlim h (l.length - rem + (repl.getD []).length) with ⟨l1, k, e1, r1, hl1, hm1, ho1⟩ | ⟨msg, e1, hb⟩ | ⟨e1, hb⟩
    · left
      rw [Prog.bind_ok e1]
      obtain ⟨l2, ys, rest2, e2, r2, hy1, hy2, hn2, ho2⟩ := moveTail_ok hlim r1 index rem (repl.getD []).length h0 h1
        (by omega) h3 (by omega)
      rw [Prog.bind_ok e2]
      simp only [Prog.get_bind_apply, Prog.set_bind_apply]
      have hyl := r2.len
      simp only [] at hyl
      obtain ⟨l3, e3, r3, ho3⟩ := storeRepl_ok hlim r2 index (repl.getD []) h0 (by omega) hx
      refine ⟨l3, rest2, by rw [hlen]; exact e3, ?_, ?_, by rw [ho3]; simp [ho2, ho1]⟩
      · have : blit ys index.toNat (repl.getD []) 0 (repl.getD []).length =
            xs.take index.toNat ++ repl.getD [] ++ xs.drop (index + rem).toNat := by
          apply List.ext_getElem?
          intro k
          rw [blit_getElem? (by omega) (by omega), List.getElem?_append, List.getElem?_append]
          simp only [List.length_append, List.length_take]
          by_cases hk1 : k < index.toNat
          · rw [if_neg (by omega), if_pos (by omega), if_pos (by omega), hy1 k hk1, List.getElem?_take, if_pos hk1]
          · by_cases hk2 : k < index.toNat + (repl.getD []).length
            · rw [if_pos (by omega), if_pos (by omega), if_neg (by omega)]
              congr 1; omega
            · rw [if_neg (by omega), if_neg (by omega), hy2 k (by omega), List.getElem?_drop]
              congr 1; omega
        rw [this] at r3
        exact r3
      · intro hn hle
        refine hn2 ?_ hle
        intro x hx
        rw [List.mem_append] at hx
        rcases hx with hx | hx
        · exact hn x hx
        · exact (List.mem_replicate.mp hx).2
    · exact .inr (.inl ⟨msg, Prog.bind_die e1, by omega, by omega⟩)
    · exact .inr (.inr ⟨by simp [Prog.bind_apply, e1], by omega, by omega⟩)
  · refine .inr (.inr ⟨?_, by omega, by omega⟩)
    rw [add32, chk32, if_neg (by unfold I32; omega)]
    rfl

theorem toArray_ok {limit accept} (hlim : limit ≤ 1073741824) {l : ObjList α} {xs rest} (h : Rep limit accept l xs rest) :
    toArray limit accept l = (.ok xs, l) := by
  have ha := h.alen
  have hac := h.accArr
  have ⟨hlen, hc, ho, ho1, hl, hr, hacc⟩ := h
  unfold toArray
  simp only [Prog.get_bind_apply]
  rw [newProto_ok (by omega) (by omega)]
  simp only [Prog.lift_ok_bind]
  rw [sub32_ok (by unfold I32; omega)]
  simp only [Out.ok_bind]
  rw [sub32_ok (by unfold I32; omega)]
  simp only [Prog.lift_ok_bind, Prog.ite_apply]
  have key : ∀ k, k < xs.length → xs[k]? = l.array[if l.offset.toNat + k < l.array.length then l.offset.toNat + k else
      l.offset.toNat + k - l.array.length]? := by
    intro k hk
    have := ring_getElem? l.array l.offset.toNat k (by omega) (by omega)
    rw [hr, List.getElem?_append_left hk] at this
    rw [this]
    congr 1
    split
    · rw [Nat.mod_eq_of_lt (by assumption)]
    · rw [Nat.mod_eq_sub_mod (by omega), Nat.mod_eq_of_lt (by omega)]
  by_cases hlo : l.length - (l.capacity - l.offset) > 0
  · rw [if_pos hlo, sub32_ok (by unfold I32; omega)]
    simp only [Prog.lift_ok_bind]
    rw [memcpyObj_ok (by omega) ho (by omega) (by simp; omega) (by omega) (by unfold I32; omega) (by unfold I32; omega) hac]
    simp only [Prog.lift_ok_bind, Prog.lift_apply]
    have hb : (blit (List.replicate l.length.toNat none) (Int.toNat 0) l.array l.offset.toNat
      (l.length - (l.length - (l.capacity - l.offset))).toNat).length = l.length.toNat := by
      rw [blit_length (by simp; omega) (by omega)]; simp
    rw [memcpyObj_ok (by omega) (by omega) (by omega) (by rw [hb]; omega) (by omega) (by unfold I32; omega)
      (by unfold I32; omega) hac]
    congr 2
    apply List.ext_getElem?
    intro k
    rw [blit_getElem? (by rw [hb]; omega) (by simp; omega), blit_getElem? (by simp; omega) (by omega)]
    by_cases hk : k < xs.length
    · rw [key k hk]
      by_cases hk2 : l.offset.toNat + k < l.array.length
      · rw [if_neg (by omega), if_pos (by simp; omega), if_pos hk2]
        simp
      · rw [if_pos (by omega), if_neg hk2]
        congr 1; simp; omega
    · rw [if_neg (by omega), if_neg (by simp; omega), List.getElem?_eq_none (by simp; omega),
        List.getElem?_eq_none (by omega)]
  · rw [if_neg hlo, memcpyObj_ok (by omega) ho (by omega) (by simp; omega) (by omega) (by unfold I32; omega)
      (by unfold I32; omega) hac]
    simp only [Prog.lift_apply]
    congr 2
    apply List.ext_getElem?
    intro k
    rw [blit_getElem? (by simp) (by omega)]
    by_cases hk : k < xs.length
    · rw [key k hk, if_pos (by simp; omega), if_pos (by omega)]
      simp
    · rw [if_neg (by simp; omega), List.getElem?_eq_none (by simp; omega), List.getElem?_eq_none (by omega)]

/-- Clearing the end in `resize`. -/
theorem clear_ok {limit accept} (hlim : limit ≤ 1073741824) {l : ObjList α} {xs rest} (h : Rep limit accept l xs rest)
    (start n : Nat) (hs : start + n = xs.length) :
    ∃ l', Prog.loopUp start n (fun index => set accept index none) l = (.ok (), l') ∧
      Rep limit accept l' (xs.take start ++ List.replicate n none) rest ∧ l'.offset = l.offset := by
  obtain ⟨l', e, ys, r, hoff, hlen, hk⟩ := Prog.loopUp_inv (start := start) (n := n) (s := l)
    (body := fun index => set accept index none)
    (fun i s => ∃ ys, Rep limit accept s ys rest ∧ s.offset = l.offset ∧ ys.length = xs.length ∧
      ∀ k, ys[k]? = if start ≤ k ∧ k < i then some none else xs[k]?)
    ⟨xs, h, rfl, rfl, fun k => by rw [if_neg (by omega)]⟩
    (by
      intro i s h1 h2 ⟨ys, hr, ho, hl, hk⟩
      obtain ⟨s', e', r', c', o'⟩ := set_ok hlim hr i none (by omega) (by simp; omega) (by simp)
      refine ⟨s', e', _, r', by rw [o', ho], by simp [hl], fun k => ?_⟩
      rw [List.getElem?_set]
      simp only [Int.toNat_natCast]
      by_cases hki : i = k
      · rw [if_pos hki, if_pos (by omega), if_pos (by omega)]
      · rw [if_neg hki, hk]
        by_cases hb : start ≤ k ∧ k < i
        · rw [if_pos hb, if_pos (by omega)]
        · rw [if_neg hb, if_neg (by omega)])
  refine ⟨l', e, ?_, hoff⟩
  have : ys = xs.take start ++ List.replicate n none := by
    apply List.ext_getElem?
    intro k
    rw [hk, List.getElem?_append, List.getElem?_take, List.getElem?_replicate]
    simp only [List.length_take]
    by_cases h1 : k < start
    · rw [if_neg (by omega), if_pos (by omega), if_pos h1]
    · rw [if_neg (show ¬ k < min start xs.length by omega)]
      by_cases h2 : k < start + n
      · rw [if_pos (by omega), if_pos (by omega)]
      · rw [if_neg (by omega), if_neg (by omega), List.getElem?_eq_none (by omega)]
  rw [← this]
  exact r

theorem newLen_ok {limit : Nat} {accept} {n c : Int} {l : ObjList α} (h : newLen limit n c = .ok l) :
    0 ≤ n ∧ ∃ k, Rep limit accept l (List.replicate n.toNat none) (List.replicate k none) ∧ l.offset = 0 := by
  unfold newLen at h
  by_cases h0 : 0 ≤ n
  · refine ⟨h0, ?_⟩
    rw [if_neg (by omega)] at h
    simp only [] at h
    generalize hcc : (if n > (if c < 0 then 4 else c) then n else if c < 0 then 4 else c) = cc at h
    have hcc' : n ≤ cc := by subst hcc; split <;> split <;> omega
    unfold newProto at h
    rw [if_neg (by omega)] at h
    by_cases hlim : cc.toNat ≤ limit
    · rw [if_pos hlim] at h
      simp only [Out.ok_bind, Out.pure_eq, Out.ok.injEq] at h
      subst h
      refine ⟨cc.toNat - n.toNat, ⟨by simp; omega, by simp; omega, by simp, by simp, by simpa using hlim, ?_, ?_⟩, rfl⟩
      · simp [ring]; omega
      · intro v hv; simp at hv
    · rw [if_neg hlim] at h; simp at h
  · rw [if_pos (by omega)] at h; simp at h

theorem newLen_succeeds {limit : Nat} {n c : Int} (h0 : 0 ≤ n) (h1 : max n (max c 4) ≤ limit) :
    ∃ l : ObjList α, newLen limit n c = .ok l := by
  unfold newLen
  rw [if_neg (by omega)]
  simp only []
  rw [newProto_ok]
  · exact ⟨_, rfl⟩
  · split <;> split <;> omega
  · split <;> split <;> omega

theorem new_ok {limit accept} (hlim : limit ≤ 1073741824) {a : Option (List (Option α))} {c : Int} {l : ObjList α}
    (ha : ∀ v, some v ∈ a.getD [] → accept v = true) (h : new limit accept a c = .ok l) :
    ∃ k, Rep limit accept l (a.getD []) (List.replicate k none) ∧ l.offset = 0 := by
  unfold new at h
  simp only [] at h
  cases hl : newLen limit (optLen a) c with
  | die m => rw [hl] at h; simp at h
  | ub => rw [hl] at h; simp at h
  | ok l0 =>
    obtain ⟨hn, k, r, ho⟩ := newLen_ok (accept := accept) hl
    rw [hl] at h
    cases a with
    | none => simp [optLen] at h r; subst h; exact ⟨k, r, ho⟩
    | some a =>
      simp only [Out.ok_bind, optLen] at h r
      have hal := r.alen
      have ⟨hlen, hcap, ho0, ho1, hli, hr, hac⟩ := r
      simp [SPVM.alen] at hlen hal
      rw [memcpyObj_ok (by omega) (by omega) (by simp) (by simp only [SPVM.alen]; omega) (by simp [SPVM.alen])
        (by unfold I32; simp only [SPVM.alen]; omega) (by unfold I32; simp only [SPVM.alen]; omega)
        (by simpa using ha)] at h
      simp only [Out.ok_bind, Out.pure_eq, Out.ok.injEq] at h
      subst h
      have hb : (blit l0.array (Int.toNat 0) a (Int.toNat 0) (SPVM.alen a).toNat).length = l0.array.length :=
        blit_length (by simp [SPVM.alen]; omega) (by simp [SPVM.alen])
      have hr0 : l0.array = List.replicate (a.length + k) none := by
        rw [ho] at hr
        simpa [ring, SPVM.alen] using hr
      refine ⟨k, ⟨by simp [hlen], by simp only [hb]; exact hcap, ho0, by simp only [hb]; exact ho1,
        by simp only [hb]; exact hli, ?_, ?_⟩, ho⟩
      · simp only [ho, ring, Int.toNat_zero, List.drop_zero, List.take_zero, List.append_nil, Option.getD_some, SPVM.alen,
          Int.toNat_natCast, hr0, blit]
        simp
      · intro v hv
        simp at hv
        exact ha v (by simpa using hv)

theorem new_succeeds {limit : Nat} {accept : α → Bool} (hlim : limit ≤ 1073741824) {a : Option (List (Option α))} {c : Int}
    (ha : ∀ v, some v ∈ a.getD [] → accept v = true) (h1 : max ((a.getD []).length : Int) (max c 4) ≤ limit) :
    ∃ l : ObjList α, new limit accept a c = .ok l := by
  have hopt : optLen a = (a.getD []).length := by cases a <;> simp [optLen, SPVM.alen]
  obtain ⟨l0, e⟩ := newLen_succeeds (α := α) (limit := limit) (n := optLen a) (c := c) (by omega) (by omega)
  obtain ⟨hn, k, r, ho⟩ := newLen_ok (accept := accept) e
  unfold new
  simp only []
  rw [e]
  cases a with
  | none => exact ⟨_, rfl⟩
  | some a =>
    have hal := r.alen
    have hli := r.lim
    simp [optLen, SPVM.alen] at hal
    simp only [Out.ok_bind, optLen]
    rw [memcpyObj_ok (by omega) (by omega) (by simp) (by simp only [SPVM.alen]; omega) (by simp [SPVM.alen])
        (by unfold I32; simp only [SPVM.alen]; omega) (by unfold I32; simp only [SPVM.alen]; omega)
        (by simpa using ha)]
    exact ⟨_, rfl⟩

end ObjList
end SPVM
