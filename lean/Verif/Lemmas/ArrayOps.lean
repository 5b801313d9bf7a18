import Verif.Lemmas.Array
import Verif.Lemmas.ObjList
import Verif.Model.ArrayOps
import Verif.Spec.Rand
/-!
# Lemmas on arrays of fixed-size elements, exchanges and the random generator
-/
set_option linter.unusedSimpArgs false
namespace SPVM
namespace ArrayOps
open VM (Bytes)

theorem mul32_nat {a b : Nat} (h : a * b ≤ 2147483647) : mul32 a b = .ok ((a * b : Nat) : Int) := by
  have e : (a : Int) * b = ((a * b : Nat) : Int) := by simp
  rw [mul32, e, chk32_ok (by unfold I32; omega)]

theorem add32_nat {a b : Nat} (h : a + b ≤ 2147483647) : add32 a b = .ok ((a + b : Nat) : Int) := by
  have e : (a : Int) + b = ((a + b : Nat) : Int) := by simp
  rw [add32, e, chk32_ok (by unfold I32; omega)]

/-! ## Arrays as blocks of elements of `es` bytes -/

/-- Every element has `es` bytes. -/
def Chunks (es : Nat) (a : List Bytes) : Prop := ∀ c ∈ a, c.length = es

theorem Chunks.tail {es : Nat} {c : Bytes} {a : List Bytes} (h : Chunks es (c :: a)) : Chunks es a :=
  fun x hx => h x (List.mem_cons_of_mem _ hx)

theorem Chunks.set {es : Nat} {a : List Bytes} (h : Chunks es a) {i : Nat} {x : Bytes} (hx : x.length = es) :
    Chunks es (a.set i x) := by
  intro c hc
  rcases List.mem_or_eq_of_mem_set hc with hc | hc
  · exact h c hc
  · rw [hc]; exact hx

theorem flatten_length {es : Nat} {a : List Bytes} (h : Chunks es a) : a.flatten.length = es * a.length := by
  induction a with
  | nil => simp
  | cons c a ih =>
    rw [List.flatten_cons, List.length_append, ih h.tail, h c List.mem_cons_self, List.length_cons, Nat.mul_succ]
    omega

theorem flatten_take {es : Nat} {a : List Bytes} (h : Chunks es a) (k : Nat) :
    (a.take k).flatten = a.flatten.take (es * k) := by
  induction a generalizing k with
  | nil => simp
  | cons c a ih =>
    cases k with
    | zero => simp
    | succ k =>
      have hc : c.length = es := h c List.mem_cons_self
      rw [List.take_succ_cons, List.flatten_cons, List.flatten_cons, ih h.tail, Nat.mul_succ, List.take_append]
      rw [List.take_of_length_le (i := es * k + es) (by omega)]
      congr 2
      omega

theorem flatten_drop {es : Nat} {a : List Bytes} (h : Chunks es a) (k : Nat) :
    (a.drop k).flatten = a.flatten.drop (es * k) := by
  induction a generalizing k with
  | nil => simp
  | cons c a ih =>
    cases k with
    | zero => simp
    | succ k =>
      have hc : c.length = es := h c List.mem_cons_self
      rw [List.drop_succ_cons, List.flatten_cons, ih h.tail, Nat.mul_succ, List.drop_append]
      rw [List.drop_of_length_le (i := es * k + es) (l := c) (by omega)]
      simp only [List.nil_append]
      congr 1
      omega

theorem Chunks.drop {es : Nat} {a : List Bytes} (h : Chunks es a) (k : Nat) : Chunks es (a.drop k) :=
  fun x hx => h x (List.mem_of_mem_drop hx)

/-- Copying whole elements is copying their bytes. -/
theorem blit_flatten {es : Nat} {dst src : List Bytes} (hd : Chunks es dst) (hs : Chunks es src) (d s n : Nat) :
    blit dst.flatten (es * d) src.flatten (es * s) (es * n) = (blit dst d src s n).flatten := by
  unfold blit
  rw [List.flatten_append, List.flatten_append, flatten_take hd, flatten_drop hd, flatten_take (hs.drop s), flatten_drop hs,
    Nat.mul_add]

theorem blit_one {dst src : List α} {d s : Nat} (h1 : d < dst.length) (h2 : s < src.length) :
    blit dst d src s 1 = dst.set d src[s] := by
  apply List.ext_getElem?
  intro k
  rw [blit_getElem? (by omega) (by omega), List.getElem?_set]
  by_cases hk : d = k
  · subst hk
    rw [if_pos (by omega), if_pos rfl, if_pos h1, Nat.sub_self, Nat.add_zero, List.getElem?_eq_getElem h2]
  · rw [if_neg (by omega), if_neg hk]

theorem blit_chunk {es : Nat} {dst src : List Bytes} (hd : Chunks es dst) (hs : Chunks es src) {d s : Nat}
    (h1 : d < dst.length) (h2 : s < src.length) :
    blit dst.flatten (es * d) src.flatten (es * s) es = (dst.set d src[s]).flatten := by
  have := blit_flatten hd hs d s 1
  rw [Nat.mul_one, blit_one h1 h2] at this
  exact this

/-! ## Exchanges -/

theorem spec_swap_eq {a : List α} {i j : Nat} (hi : i < a.length) (hj : j < a.length) :
    Spec.Rand.swap a i j = (a.set i a[j]).set j a[i] := by
  unfold Spec.Rand.swap
  rw [List.getElem?_eq_getElem hi, List.getElem?_eq_getElem hj]

theorem swap_length (a : List α) (i j : Nat) : (Spec.Rand.swap a i j).length = a.length := by
  unfold Spec.Rand.swap
  split <;> simp

theorem swap_getElem? {a : List α} {i j : Nat} (hi : i < a.length) (hj : j < a.length) (k : Nat) :
    (Spec.Rand.swap a i j)[k]? = if k = j then a[i]? else if k = i then a[j]? else a[k]? := by
  rw [spec_swap_eq hi hj, List.getElem?_set, List.getElem?_set]
  simp only [List.length_set]
  grind

/-- Exchanging two elements is a permutation. -/
theorem swap_perm (a : List α) (i j : Nat) : (Spec.Rand.swap a i j).Perm a := by
  unfold Spec.Rand.swap
  split
  · rename_i x y hx hy
    obtain ⟨hi, hx⟩ := List.getElem?_eq_some_iff.mp hx
    obtain ⟨hj, hy⟩ := List.getElem?_eq_some_iff.mp hy
    subst hx hy
    exact List.set_set_perm hi hj
  · exact List.Perm.refl _

theorem swap_ok {a : List α} {i j : Int} (hi0 : 0 ≤ i) (hi : i < a.length) (hj0 : 0 ≤ j) (hj : j < a.length) :
    swap a i j = .ok (Spec.Rand.swap a i.toNat j.toNat) := by
  unfold swap
  rw [aGet_ok hi0 (by omega), aGet_ok hj0 (by omega)]
  simp only [Out.ok_bind]
  rw [aSet_ok hi0 (by omega)]
  simp only [Out.ok_bind]
  rw [aSet_ok hj0 (by simp; omega), spec_swap_eq (by omega) (by omega)]

theorem copyCommon_num_ok {raw : Bytes → Int → Bytes → Int → Int → Out Bytes} {es n es' n' : Int}
    {dst src : Bytes} {d s len : Int} (hd : 0 ≤ d) (hs : 0 ≤ s) (hl : 0 ≤ len)
    (h1 : d + len ≤ dst.length) (h2 : s + len ≤ src.length) (h3 : dst.length ≤ 2147483647) (h4 : src.length ≤ 2147483647)
    (e1 : es * n = dst.length) (e2 : es' * n' = src.length)
    (hr : raw dst d src s len = .ok (blit dst d.toNat src s.toNat len.toNat)) :
    FnMem.copyCommon raw (some (numObj es n dst)) d (some (numObj es' n' src)) s len =
      .ok (blit dst d.toNat src s.toNat len.toNat) := by
  unfold FnMem.copyCommon numObj
  simp only [Bool.true_eq_false, Bool.false_eq_true, if_false]
  rw [if_neg (by omega)]
  by_cases h0 : len = 0
  · simp [h0, blit_zero]
  · rw [if_neg h0, mul32, e1, chk32_ok (by unfold I32; omega), mul32, e2, chk32_ok (by unfold I32; omega),
      add32_ok (by unfold I32; omega), add32_ok (by unfold I32; omega)]
    simp only [Out.ok_bind]
    rw [if_neg (by omega), if_neg (by omega), hr]

theorem memcpy_num_ok {es n es' n' : Int} {dst src : Bytes} {d s len : Int} (hd : 0 ≤ d) (hs : 0 ≤ s) (hl : 0 ≤ len)
    (h1 : d + len ≤ dst.length) (h2 : s + len ≤ src.length) (h3 : dst.length ≤ 2147483647) (h4 : src.length ≤ 2147483647)
    (e1 : es * n = dst.length) (e2 : es' * n' = src.length) :
    FnMem.memcpy false (some (numObj es n dst)) d (some (numObj es' n' src)) s len =
      .ok (blit dst d.toNat src s.toNat len.toNat) :=
  copyCommon_num_ok hd hs hl h1 h2 h3 h4 e1 e2 (by simp [rawCopy, rawMove_ok hd hs hl h1 h2])

/-- The byte exchange through a buffer is the exchange of the elements, unless both are the same element and `memcpy` is
read strictly. -/
theorem swapNum_ok {lax : Bool} {es : Nat} {a : List Bytes} (h : Chunks es a) (hsz : es * a.length ≤ 2147483647)
    {temp : Bytes} (ht : temp.length = es) {i j : Nat} (hi : i < a.length) (hj : j < a.length)
    (hne : lax = true ∨ i ≠ j) :
    swapNum lax es a.length temp a.flatten i j = .ok (a[i], (Spec.Rand.swap a i j).flatten) := by
  have hfl := flatten_length h
  have mi : (es : Int) * i = ((es * i : Nat) : Int) := by simp
  have mj : (es : Int) * j = ((es * j : Nat) : Int) := by simp
  have bi : es * i + es ≤ es * a.length := by
    rw [← Nat.mul_succ]; exact Nat.mul_le_mul_left _ hi
  have bj : es * j + es ≤ es * a.length := by
    rw [← Nat.mul_succ]; exact Nat.mul_le_mul_left _ hj
  have hti : Chunks es [temp] := by intro c hc; simp at hc; rw [hc]; exact ht
  have ci : (a[i]).length = es := h _ (List.getElem_mem _)
  have cj : (a[j]).length = es := h _ (List.getElem_mem _)
  unfold swapNum
  rw [mul32, mi, chk32_ok (by unfold I32; omega), mul32, mj, chk32_ok (by unfold I32; omega)]
  simp only [Out.ok_bind]
  rw [memcpy_num_ok (by omega) (by omega) (by omega) (by omega) (by omega) (by omega) (by omega) (by omega)
    (by rw [hfl]; simp)]
  simp only [Out.ok_bind]
  have e1 : blit temp (0 : Int).toNat a.flatten (((es * i : Nat) : Int)).toNat (es : Int).toNat = a[i] := by
    have := blit_chunk hti h (d := 0) (s := i) (by simp) hi
    rw [Int.toNat_natCast, Int.toNat_natCast]
    simpa using this
  rw [e1]
  have hraw : (if lax = true then rawCopyLax true else rawCopy true) a.flatten ((es * i : Nat) : Int) a.flatten
      ((es * j : Nat) : Int) (es : Int) =
      .ok (blit a.flatten ((es * i : Nat) : Int).toNat a.flatten ((es * j : Nat) : Int).toNat (es : Int).toNat) := by
    have hmv := rawMove_ok (dst := a.flatten) (src := a.flatten) (d := ((es * i : Nat) : Int)) (s := ((es * j : Nat) : Int))
      (len := (es : Int)) (by omega) (by omega) (by omega) (by omega) (by omega)
    have far : i ≠ j → ¬ (((es * i : Nat) : Int) < ((es * j : Nat) : Int) + es ∧ ((es * j : Nat) : Int) < ((es * i : Nat) : Int) + es) := by
      intro hne
      rcases Nat.lt_or_gt_of_ne hne with hlt | hlt
      · have : es * i + es ≤ es * j := by rw [← Nat.mul_succ]; exact Nat.mul_le_mul_left _ hlt
        omega
      · have : es * j + es ≤ es * i := by rw [← Nat.mul_succ]; exact Nat.mul_le_mul_left _ hlt
        omega
    by_cases hl : lax = true
    · rw [if_pos hl, rawCopyLax, if_neg (by
        rintro ⟨_, hn, h1, h2⟩
        exact far (by intro hij; subst hij; exact hn rfl) ⟨h1, h2⟩), hmv]
    · rw [if_neg hl, rawCopy, if_neg (by
        rintro ⟨_, h1, h2⟩
        exact far (hne.resolve_left hl) ⟨h1, h2⟩), hmv]
  rw [copyCommon_num_ok (by omega) (by omega) (by omega) (by omega) (by omega) (by omega) (by omega) (by rw [hfl]; simp)
    (by rw [hfl]; simp) hraw]
  simp only [Out.ok_bind]
  have e2 : blit a.flatten ((es * i : Nat) : Int).toNat a.flatten ((es * j : Nat) : Int).toNat (es : Int).toNat =
      (a.set i a[j]).flatten := by
    rw [Int.toNat_natCast, Int.toNat_natCast, Int.toNat_natCast]
    exact blit_chunk h h (d := i) (s := j) hi hj
  rw [e2]
  have h' : Chunks es (a.set i a[j]) := h.set cj
  have hfl' := flatten_length h'
  rw [List.length_set] at hfl'
  rw [memcpy_num_ok (by omega) (by omega) (by omega) (by omega) (by omega) (by omega) (by omega) (by rw [hfl']; simp)
    (by omega)]
  have hci : Chunks es [a[i]] := by intro c hc; simp at hc; rw [hc]; exact ci
  have e3 : blit (a.set i a[j]).flatten ((es * j : Nat) : Int).toNat a[i] (0 : Int).toNat (es : Int).toNat =
      (Spec.Rand.swap a i j).flatten := by
    have := blit_chunk h' hci (d := j) (s := 0) (by simpa using hj) (by simp)
    rw [spec_swap_eq hi hj, Int.toNat_natCast, Int.toNat_natCast]
    simpa using this
  rw [e3]
  rfl

theorem swap_chunks {es : Nat} {a : List Bytes} (h : Chunks es a) (i j : Nat) : Chunks es (Spec.Rand.swap a i j) := by
  intro c hc
  exact h c ((swap_perm a i j).mem_iff.mp hc)

/-! ## Random numbers -/

theorem step_toNat (s : BitVec 32) : (Rand.step s).toNat = Spec.Rand.lcg s.toNat := by
  unfold Rand.step Spec.Rand.lcg
  rw [BitVec.toNat_add, BitVec.toNat_mul, BitVec.toNat_ofNat, BitVec.toNat_ofNat, Nat.mod_add_mod]

theorem xor_add (a b k : Nat) (hb : b < 2 ^ k) : (a * 2 ^ k) ^^^ b = a * 2 ^ k + b := by
  apply Nat.eq_of_testBit_eq
  intro i
  rw [Nat.testBit_xor, Nat.mul_comm a, Nat.testBit_two_pow_mul_add a hb, Nat.testBit_two_pow_mul]
  by_cases hi : i < k
  · simp [hi, show ¬ k ≤ i by omega]
  · have : b.testBit i = false := Nat.testBit_lt_two_pow (Nat.lt_of_lt_of_le hb (Nat.pow_le_pow_right (by omega) (by omega)))
    simp [hi, this, show k ≤ i by omega]

theorem xorInt_add {a b : Nat} (ha : a < 2 ^ 21) (hb : b < 2 ^ 10) (u : BitVec 32) (hu : u.toNat = b) :
    Rand.xorInt ((a : Int) * 2 ^ (10 : Int).toNat) u = ((a * 1024 + b : Nat) : Int) := by
  have e : BitVec.ofInt 32 ((a : Int) * 2 ^ (10 : Int).toNat) = BitVec.ofNat 32 (a * 1024) := by
    rw [show ((a : Int) * 2 ^ (10 : Int).toNat) = ((a * 1024 : Nat) : Int) by simp]
    exact BitVec.ofInt_natCast ..
  have hx := xor_add a b 10 hb
  have ht : (BitVec.ofInt 32 ((a : Int) * 2 ^ (10 : Int).toNat) ^^^ u).toNat = a * 1024 + b := by
    rw [e, BitVec.toNat_xor, BitVec.toNat_ofNat, hu, Nat.mod_eq_of_lt (by omega)]
    simpa using hx
  unfold Rand.xorInt
  rw [BitVec.toInt_eq_toNat_of_lt (by rw [ht]; omega), ht]

theorem combine_ok (n1 n2 n3 : BitVec 32) :
    Rand.combine n1 n2 n3 = .ok (((n1.toNat / 65536 % 2048) * 1048576 + (n2.toNat / 65536 % 1024) * 1024 +
      n3.toNat / 65536 % 1024 : Nat) : Int) := by
  unfold Rand.combine
  have d1 : ((n1 / 65536#32) % 2048#32).toNat = n1.toNat / 65536 % 2048 := by simp
  have d2 : ((n2 / 65536#32) % 1024#32).toNat = n2.toNat / 65536 % 1024 := by simp
  have d3 : ((n3 / 65536#32) % 1024#32).toNat = n3.toNat / 65536 % 1024 := by simp
  have l1 : n1.toNat / 65536 % 2048 < 2048 := Nat.mod_lt _ (by omega)
  have l2 : n2.toNat / 65536 % 1024 < 1024 := Nat.mod_lt _ (by omega)
  have l3 : n3.toNat / 65536 % 1024 < 1024 := Nat.mod_lt _ (by omega)
  simp only [d1]
  generalize n1.toNat / 65536 % 2048 = a at *
  generalize n2.toNat / 65536 % 1024 = b at *
  generalize n3.toNat / 65536 % 1024 = c at *
  have p10 : (2 : Int) ^ (10 : Int).toNat = 1024 := by decide
  have p31 : (2 : Int) ^ (32 - 1) = 2147483648 := by decide
  unfold VM.leftShift
  rw [if_pos (by rw [p10, p31]; unfold VM.shiftOk; omega)]
  simp only [Out.ok_bind]
  rw [xorInt_add (by omega) (by omega) _ d2]
  rw [if_pos (by rw [p10, p31]; unfold VM.shiftOk; omega)]
  simp only [Out.ok_bind]
  rw [xorInt_add (by omega) (by omega) _ d3]
  simp only [Out.pure_eq, Out.ok.injEq]
  omega

theorem crand_ok (s : BitVec 32) :
    ∃ s' : BitVec 32, Rand.crand s = (.ok (Spec.Rand.value s.toNat), s') ∧ s'.toNat = Spec.Rand.next s.toNat := by
  refine ⟨Rand.step (Rand.step (Rand.step s)), ?_, ?_⟩
  rotate_left
  · unfold Spec.Rand.next
    rw [← step_toNat, ← step_toNat, ← step_toNat]
  · unfold Rand.crand
    rw [combine_ok]
    simp only [step_toNat]
    rfl

theorem value_lt (s : Nat) : Spec.Rand.value s < 2147483648 := by
  unfold Spec.Rand.value
  omega

theorem modInt_ok {r m : Nat} (hm : 0 < m) :
    VM.modInt r m = .ok ((r % m : Nat) : Int) := by
  unfold VM.modInt VM.modulo
  rw [if_neg (by omega), VM.cRem, if_neg (by omega)]
  simp only [Out.ok_bind]
  have e : ((r : Int)).tmod m = ((r % m : Nat) : Int) := by
    rw [Int.tmod_eq_emod_of_nonneg (by omega)]
    simp
  rw [e, if_neg (by
    intro ⟨h, _⟩
    have h1 : ¬ ((r : Int) < 0) := by omega
    have h2 : ¬ ((m : Int) < 0) := by omega
    simp [h1, h2] at h)]

end ArrayOps
end SPVM
