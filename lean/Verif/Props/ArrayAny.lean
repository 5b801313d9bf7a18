import Verif.Model.ArrayAny
import Verif.Props.ArrayOps
import Verif.Props.FnMem

/-! C90: functions of `Array` for arrays of every type. -/

namespace SPVM.ArrayAny

open FnMem VM

/-- Every element has the size of its type. -/
def Sized (es : Nat) (x : List Bytes) : Prop := ∀ e ∈ x, e.length = es

theorem Sized.flatten {es : Nat} : ∀ {x : List Bytes}, Sized es x → x.flatten.length = es * x.length
  | [], _ => rfl
  | e :: x, h => by
    have ih := Sized.flatten (x := x) (fun e' he' => h e' (List.mem_cons_of_mem _ he'))
    rw [List.flatten_cons, List.length_append, ih, h e List.mem_cons_self, List.length_cons, Nat.mul_succ, Nat.add_comm]

theorem Sized.drop {es : Nat} {x : List Bytes} (h : Sized es x) (k : Nat) : Sized es (x.drop k) := fun e he => h e (List.mem_of_mem_drop he)
theorem Sized.take {es : Nat} {x : List Bytes} (h : Sized es x) (k : Nat) : Sized es (x.take k) := fun e he => h e (List.mem_of_mem_take he)

/-- Blocks of one size can be read back from the bytes. -/
theorem flatten_inj {es : Nat} : ∀ {x y : List Bytes}, Sized es x → Sized es y → x.length = y.length → x.flatten = y.flatten → x = y
  | [], [], _, _, _, _ => rfl
  | [], _ :: _, _, _, h, _ => by cases h
  | _ :: _, [], _, _, h, _ => by cases h
  | a :: x, b :: y, hx, hy, hl, h => by
    rw [List.flatten_cons, List.flatten_cons] at h
    have := List.append_inj h (by rw [hx a List.mem_cons_self, hy b List.mem_cons_self])
    rw [this.1, flatten_inj (fun e he => hx e (List.mem_cons_of_mem _ he)) (fun e he => hy e (List.mem_cons_of_mem _ he))
      (by simpa using hl) this.2]

theorem flatten_drop {es : Nat} : ∀ {x : List Bytes} (k : Nat), Sized es x → x.flatten.drop (es * k) = (x.drop k).flatten
  | x, 0, _ => by simp
  | [], k + 1, _ => by simp
  | a :: x, k + 1, h => by
    have ha := h a List.mem_cons_self
    rw [List.flatten_cons, Nat.mul_succ, Nat.add_comm, ← List.drop_drop, List.drop_succ_cons,
      show (a ++ x.flatten).drop es = x.flatten by rw [← ha, List.drop_left]]
    exact flatten_drop k (fun e he => h e (List.mem_cons_of_mem _ he))

theorem flatten_take {es : Nat} : ∀ {x : List Bytes} (k : Nat), Sized es x → x.flatten.take (es * k) = (x.take k).flatten
  | x, 0, _ => by simp
  | [], k + 1, _ => by simp
  | a :: x, k + 1, h => by
    have ha := h a List.mem_cons_self
    rw [List.flatten_cons, Nat.mul_succ, Nat.add_comm, List.take_succ_cons, List.flatten_cons,
      show es + es * k = a.length + es * k by rw [ha], List.take_length_add_append,
      flatten_take k (fun e he => h e (List.mem_cons_of_mem _ he))]

theorem valid {es : Nat} {x : List Bytes} (h : Sized es x) (hs : es * x.length ≤ 2147483647) : Valid (memObj es x) := by
  refine ⟨?_, ?_⟩
  · show (es : Int) * (x.length : Int) = (x.flatten.length : Int)
    rw [h.flatten]; exact (Int.natCast_mul es x.length).symm
  · show x.flatten.length ≤ 2147483647
    rw [h.flatten]; exact hs

/-- Arrays of numbers: `equals` is 1 exactly when the elements are the same, and 0 otherwise. -/
theorem equals_num_partial {kind : String → Kind} {objEq} {t : String} {es : Nat} {x y : List Bytes} (hk : kind t = .num es)
    (hx : Sized es x) (hy : Sized es y) (hsx : es * x.length ≤ 2147483647) (shallow : Bool) :
    equals kind objEq (.arr t (.num x)) (.arr t (.num y)) shallow = .ok (if x = y then 1 else 0) := by
  unfold equals
  simp only [ne_eq, not_true, if_false, hk]
  by_cases hl : alen x = alen y
  · have hl' : x.length = y.length := by unfold alen at hl; omega
    have hsy : es * y.length ≤ 2147483647 := by rw [← hl']; exact hsx
    rw [if_pos hl]
    have hm : mul32 (es : Int) (alen x) = .ok (x.flatten.length : Int) := by
      have := (valid hx hsx).mul
      exact this
    rw [hm, Out.ok_bind]
    have hlen : x.flatten.length = y.flatten.length := by rw [hx.flatten, hy.flatten, hl']
    have hb : x.flatten.length ≤ 2147483647 := by rw [hx.flatten]; exact hsx
    rcases c24_memcmp_partial (memObj es x) (memObj es y) 0 0 x.flatten.length (valid hx hsx) (valid hy hsy) (by omega) (by omega)
      (by omega) (by omega) with ⟨_, _, _, _, _, r, hr, _, he⟩ | ⟨hn, _⟩
    · rw [hr, Out.ok_bind]
      have he' : r = 0 ↔ x = y := by
        rw [he]
        show (x.flatten.drop (0 : Int).toNat).take ((x.flatten.length : Int)).toNat = (y.flatten.drop (0 : Int).toNat).take ((x.flatten.length : Int)).toNat ↔ _
        rw [show (0 : Int).toNat = 0 from rfl, List.drop_zero, List.drop_zero, Int.toNat_natCast, List.take_length,
          List.take_of_length_le (by omega)]
        exact ⟨flatten_inj hx hy hl', fun h => by rw [h]⟩
      by_cases h : x = y
      · rw [if_pos h, if_pos (he'.2 h)]
      · rw [if_neg h, if_neg (fun c => h (he'.1 c))]
    · refine absurd ⟨rfl, rfl, by omega, ?_, ?_⟩ hn
      · show (0 : Int) + (x.flatten.length : Int) ≤ (x.flatten.length : Int)
        omega
      · show (0 : Int) + (x.flatten.length : Int) ≤ (y.flatten.length : Int)
        omega
  · rw [if_neg hl, if_neg (fun c => hl (by rw [c]))]

example : Sized 2 [[1, 2], [3, 4]] ∧ equals (fun _ => .num 2) (fun _ _ => .ub) (.arr "short[]" (.num [[1, 2], [3, 4]])) (.arr "short[]" (.num [[1, 2], [3, 5]])) = .ok 0 :=
  ⟨by unfold Sized; decide, by decide +kernel⟩

/-- Arrays of strings: the same strings, or with `$shallow` the same references. -/
theorem equals_str {kind : String → Kind} {objEq} {t : String} {x y : List (Option (Nat × Bytes))} (hk : kind t = .str) :
    equals kind objEq (.arr t (.str x)) (.arr t (.str y)) false = .ok (if x.map (·.map (·.2)) = y.map (·.map (·.2)) then 1 else 0) ∧
    equals kind objEq (.arr t (.str x)) (.arr t (.str y)) true = .ok (if x.map (·.map (·.1)) = y.map (·.map (·.1)) then 1 else 0) := by
  have key : ∀ {γ : Type} (f : Option (Nat × Bytes) → γ) (ne : Option (Nat × Bytes) → Option (Nat × Bytes) → Bool)
      [Decidable (x.map f = y.map f)], (∀ p q, ne p q = false ↔ f p = f q) →
      ArrayOps.equals ne (some x) (some y) = .ok (if x.map f = y.map f then 1 else 0) := by
    intro γ f ne _ hne
    have hr : ∀ (a b : List (Option (Nat × Bytes))), AllRel (fun p q => ne p q = false) a b ↔ a.map f = b.map f := by
      intro a
      induction a with
      | nil =>
        intro b
        cases b with
        | nil => exact ⟨fun _ => rfl, fun _ => .nil⟩
        | cons q b => exact ⟨fun h => (by cases h), fun h => (by cases h)⟩
      | cons p a ih =>
        intro b
        cases b with
        | nil => exact ⟨fun h => (by cases h), fun h => (by cases h)⟩
        | cons q b =>
          constructor
          · intro h
            cases h with
            | cons h1 h2 =>
              rw [List.map_cons, List.map_cons, (ih b).1 h2]
              rw [(hne p q).1 h1]
          · intro h
            rw [List.map_cons, List.map_cons] at h
            injection h with h1 h2
            exact .cons ((hne p q).2 h1) ((ih b).2 h2)
    rcases ArrayOps.c25_equals ne (some x) (some y) with ⟨e, h⟩ | ⟨e, h⟩
    · rcases h with ⟨h, _⟩ | ⟨a, b, ha, hb, h⟩
      · cases h
      · cases ha; cases hb
        rw [e, if_pos ((hr x y).1 h)]
    · rw [e, if_neg (fun c => h (.inr ⟨x, y, rfl, rfl, (hr x y).2 c⟩))]
  unfold equals
  simp only [ne_eq, not_true, if_false, hk, Bool.false_eq_true, if_true]
  exact ⟨key _ strNe (fun p q => by simp [strNe]), key _ refNe (fun p q => by simp [refNe])⟩

/-- Object arrays: `$shallow` compares the references, otherwise the default equality checker decides. -/
theorem equals_obj {kind : String → Kind} {objEq} {t : String} {x y : List (Option Nat)} (hk : kind t = .obj) :
    equals kind objEq (.arr t (.obj x)) (.arr t (.obj y)) true = .ok (if x = y then 1 else 0) ∧
    equals kind objEq (.arr t (.obj x)) (.arr t (.obj y)) false = objEq x y := by
  unfold equals
  simp only [ne_eq, not_true, if_false, hk, Bool.false_eq_true, if_true, and_true]
  have h := ArrayOps.c25_equals_eq (fun p q => p != q) (fun p q => by simp) (some x) (some y)
  by_cases hxy : x = y
  · rw [if_pos hxy]; exact h.2 (by rw [hxy])
  · rw [if_neg hxy]
    rcases ArrayOps.c25_equals (fun p q => p != q) (some x) (some y) with ⟨e, _⟩ | ⟨e, _⟩
    · exact absurd (Option.some.inj (h.1 e)) hxy
    · exact e

/-- Arrays of different types are not equal, `undef` is equal to `undef` only, and what is not an array throws. -/
theorem equals_mixed (kind : String → Kind) (objEq) (shallow : Bool) :
    (∀ t1 d1 t2 d2, t1 ≠ t2 → equals kind objEq (.arr t1 d1) (.arr t2 d2) shallow = .ok 0) ∧
    equals kind objEq .undef .undef shallow = .ok 1 ∧
    (∀ v, v ≠ .undef → equals kind objEq .undef v shallow = .ok 0 ∧ equals kind objEq v .undef shallow = .ok 0) ∧
    (∀ v, v ≠ .undef → (∃ m, equals kind objEq .other v shallow = .die m) ∧ ∃ m, equals kind objEq v .other shallow = .die m) := by
  refine ⟨?_, rfl, ?_, ?_⟩
  · intro t1 d1 t2 d2 h
    unfold equals
    simp only [ne_eq, h, not_false_eq_true, if_true]
  · intro v hv
    cases v with
    | undef => exact absurd rfl hv
    | other => exact ⟨rfl, rfl⟩
    | arr t d => exact ⟨rfl, rfl⟩
  · intro v hv
    cases v with
    | undef => exact absurd rfl hv
    | other => exact ⟨⟨_, rfl⟩, ⟨_, rfl⟩⟩
    | arr t d => exact ⟨⟨_, rfl⟩, ⟨_, rfl⟩⟩

/-- `0.0 == -0.0`, but the arrays of one element each are not equal: bytes are compared. -/
theorem equals_zero_violated :
    equals (fun _ => .num 8) (fun _ _ => .ub) (.arr "double[]" (.num [[0, 0, 0, 0, 0, 0, 0, 0]])) (.arr "double[]" (.num [[0, 0, 0, 0, 0, 0, 0, 0x80]])) = .ok 0 := by
  decide +kernel

/-- The size of an array of 2^28 doubles overflows. -/
theorem equals_big_violated (x : List Bytes) (hl : x.length = 268435456) :
    equals (fun _ => .num 8) (fun _ _ => .ub) (.arr "double[]" (.num x)) (.arr "double[]" (.num x)) = .ub := by
  have h : mul32 ((8 : Nat) : Int) (alen x) = .ub := by
    unfold mul32 alen
    rw [hl]
    rfl
  unfold equals
  simp only [ne_eq, not_true, if_false, if_true, h]
  rfl

/-! ### `copy_any_numeric` -/

/-- The length that is copied. -/
def span (n offset length : Int) : Int := if length < 0 then n - offset else length

/-- A range inside the array is copied, every other range throws, unless the sums leave the range of int. -/
theorem copy_any_partial {limit : Nat} {kind : String → Kind} {t : String} {es : Nat} {x : List Bytes} {offset length : Int}
    (hk : kind t = .num es) (hes : 0 < es) (hx : Sized es x) (hs : es * x.length ≤ 2147483646)
    (ho : offset + span x.length offset length ≤ 2147483647) (hlim : x.length ≤ limit) (hoff : offset ≤ 2147483647) :
    (0 ≤ offset ∧ 0 ≤ span x.length offset length ∧ offset + span x.length offset length ≤ x.length ∧
      copyAny limit kind (.arr t (.num x)) offset length =
        .ok ((x.drop offset.toNat).take (span x.length offset length).toNat).flatten) ∨
    (¬ (0 ≤ offset ∧ 0 ≤ span x.length offset length ∧ offset + span x.length offset length ≤ x.length) ∧
      ∃ m, copyAny limit kind (.arr t (.num x)) offset length = .die m) := by
  have hxl : x.length ≤ es * x.length := Nat.le_mul_of_pos_left _ hes
  unfold copyAny
  simp only [hk]
  by_cases h0 : offset ≥ 0
  · rw [if_neg (by omega)]
    have heff : ArrayOps.effLength (alen x) offset length = .ok (span x.length offset length) := by
      unfold ArrayOps.effLength span alen
      split
      · exact sub32_ok (by unfold I32; omega)
      · rfl
    rw [heff, Out.ok_bind]
    have hsp : -2147483647 ≤ span x.length offset length := by unfold span; split <;> omega
    generalize hL : span x.length offset length = L at *
    rw [add32_ok (by unfold I32; omega), Out.ok_bind]
    by_cases hr : offset + L ≤ alen x
    · rw [if_neg (by omega)]
      have hr' : offset + L ≤ (x.length : Int) := hr
      by_cases hL0 : 0 ≤ L
      · refine .inl ⟨h0, hL0, hr', ?_⟩
        obtain ⟨k, rfl⟩ := Int.eq_ofNat_of_zero_le hL0
        obtain ⟨o, rfl⟩ := Int.eq_ofNat_of_zero_le h0
        have hok : o + k ≤ x.length := by omega
        have hbk : es * (o + k) ≤ es * x.length := Nat.mul_le_mul_left _ hok
        rw [Nat.mul_add] at hbk
        have hnew : ArrayOps.newProtoAny limit (List.replicate es (0 : UInt8)) (k : Int) = .ok (some (List.replicate k (List.replicate es 0))) := by
          unfold ArrayOps.newProtoAny
          rw [if_neg (by omega), add32_ok (by unfold I32; omega), Out.ok_bind, Int.toNat_natCast, if_pos (by omega)]
          rfl
        rw [hnew, Out.ok_bind]
        have hmo : mul32 (es : Int) (o : Int) = .ok ((es * o : Nat) : Int) := by
          unfold mul32
          rw [← Int.natCast_mul]
          exact chk32_ok (by unfold I32; omega)
        have hmk : mul32 (es : Int) (k : Int) = .ok ((es * k : Nat) : Int) := by
          unfold mul32
          rw [← Int.natCast_mul]
          exact chk32_ok (by unfold I32; omega)
        have hz : Sized es (List.replicate k (List.replicate es (0 : UInt8))) := by
          intro e he
          rw [List.eq_of_mem_replicate he, List.length_replicate]
        have hzl : (List.replicate k (List.replicate es (0 : UInt8))).flatten.length = es * k := by
          rw [hz.flatten, List.length_replicate]
        rw [hmo, Out.ok_bind, hmk, Out.ok_bind, Option.map_some]
        rcases c24_memcpy_partial false (memObj es (List.replicate k (List.replicate es 0))) (memObj es x) 0 (es * o : Nat) (es * k : Nat)
          (valid hz (by rw [List.length_replicate]; omega)) (valid hx (by omega)) (by omega) (by omega) (by omega) (by omega)
          (by intro c; cases c) with ⟨_, res, hres, hl, hc⟩ | ⟨hn, _⟩
        · rw [hres]
          have hl : res.length = es * k := by
            rw [hl]; exact hzl
          refine congrArg Out.ok (List.ext_getElem? fun i => ?_)
          have hc := hc i
          have hd : ((x.drop o).take k).flatten = (x.flatten.drop (es * o)).take (es * k) := by
            rw [flatten_drop o hx, flatten_take k (hx.drop o)]
          rw [Int.toNat_natCast, Int.toNat_natCast, hd, List.getElem?_take]
          by_cases hi : i < es * k
          · rw [if_pos hi, List.getElem?_drop, hc, if_pos (by omega)]
            show x.flatten[_]? = _
            congr 1
          · rw [if_neg hi, List.getElem?_eq_none (by omega)]
        · refine absurd ⟨rfl, rfl, rfl, by omega, .inr ⟨?_, ?_⟩⟩ hn
          · show (0 : Int) + ((es * k : Nat) : Int) ≤ ((List.replicate k (List.replicate es (0 : UInt8))).flatten.length : Int)
            rw [hzl]; omega
          · show ((es * o : Nat) : Int) + ((es * k : Nat) : Int) ≤ (x.flatten.length : Int)
            rw [hx.flatten]; omega
      · refine .inr ⟨fun c => hL0 c.2.1, "The length $length must be greater than or equal to 0.", ?_⟩
        unfold ArrayOps.newProtoAny
        rw [if_pos (by omega)]
        rfl
    · rw [if_pos hr]
      exact .inr ⟨fun c => hr c.2.2, _, rfl⟩
  · rw [if_pos h0]
    exact .inr ⟨fun c => h0 c.1, _, rfl⟩

example : copyAny 100 (fun _ => .num 2) (.arr "short[]" (.num [[1, 2], [3, 4], [5, 6]])) 1 = .ok [3, 4, 5, 6] := by decide +kernel

/-- The range check itself overflows. -/
theorem copy_any_overflow_violated :
    copyAny 100 (fun _ => .num 2) (.arr "short[]" (.num [[1, 2], [3, 4]])) 1 2147483647 = .ub := by decide +kernel

/-! ### Boxes -/

/-- `to_object_array` makes one new object for each number, in order, and touches no other object. -/
theorem to_object_array {limit : Nat} (h : List α) (a : List α) (hl : a.length ≤ limit) :
    toObjectArray limit h (some a) = .ok (h ++ a, (List.range a.length).map fun i => some (h.length + i)) := by
  unfold toObjectArray
  simp only
  unfold newArray
  rw [if_pos (by simp), show (alen a).toNat = a.length by simp [alen], if_pos hl, Out.ok_bind]
  obtain ⟨s, hs, h1, h2, h3⟩ := forLoop_inv (start := 0) (n := a.length)
    (body := fun i (s : List α × List (Option Nat)) => do
      let x ← aGet a i
      let b := box s.1 x
      let r ← aSet s.2 i (some b.2)
      Out.ok (b.1, r))
    (s := (h, List.replicate a.length none))
    (fun i s => s.1 = h ++ a.take i ∧ s.2.length = a.length ∧ ∀ (j : Nat), j < i → s.2[j]? = some (some (h.length + j)))
    ⟨by simp, by simp, fun j hj => by omega⟩
    (by
      intro i s _ hi ⟨e1, e2, e3⟩
      have hi : i < a.length := by omega
      refine ⟨(h ++ a.take (i + 1), s.2.set i (some (h.length + i))), ?_, rfl, by simp [e2], ?_⟩
      · rw [aGet_ok (by omega) (by simpa using hi), Out.ok_bind]
        simp only [box, e1, Int.toNat_natCast]
        have : aSet s.2 (i : Int) (some (h ++ a.take i).length) = .ok (s.2.set i (some (h.length + i))) := by
          unfold aSet alen
          rw [if_neg (by omega), Int.toNat_natCast, if_pos (by omega), List.length_append, List.length_take, Nat.min_eq_left (by omega)]
        rw [this, Out.ok_bind, List.take_succ_eq_append_getElem hi, List.append_assoc]
      · intro j hj
        by_cases hji : j = i
        · rw [hji, List.getElem?_set_self (by omega)]
        · rw [List.getElem?_set_ne (by omega)]
          exact e3 j (by omega))
  rw [hs]
  congr 1
  have : s.2 = (List.range a.length).map fun i => some (h.length + i) := by
    apply List.ext_getElem?
    intro i
    by_cases hi : i < a.length
    · rw [h3 i (by omega)]; simp [hi]
    · rw [List.getElem?_eq_none (by omega), List.getElem?_eq_none (by simp; omega)]
  rw [← this]
  cases s
  simp only at h1
  rw [h1, Nat.zero_add, List.take_length]

/-- `to_array` reads the numbers of the objects. -/
theorem to_array {limit : Nat} {zero : α} {h : List α} {os : List (Option Nat)} {a : List α} (hl : os.length ≤ limit)
    (ha : a.length = os.length) (hv : ∀ (i : Nat), i < os.length → ∃ k, os[i]? = some (some k) ∧ h[k]? = a[i]?) :
    toArray limit zero h (some os) = .ok a := by
  unfold toArray
  simp only
  unfold newArray
  rw [if_pos (by simp), show (alen os).toNat = os.length by simp [alen], if_pos hl, Out.ok_bind]
  obtain ⟨s, hs, h1, h2⟩ := forLoop_inv (start := 0) (n := os.length)
    (body := fun i (s : List α) => do
      let o ← aGet os i
      let x ← unbox h o
      aSet s i x)
    (s := List.replicate os.length zero)
    (fun i s => s.length = os.length ∧ ∀ (j : Nat), j < i → s[j]? = a[j]?)
    ⟨by simp, fun j hj => by omega⟩
    (by
      intro i s _ hi ⟨e1, e2⟩
      have hi : i < os.length := by omega
      obtain ⟨k, hk, hx⟩ := hv i hi
      have hia : i < a.length := by omega
      rw [List.getElem?_eq_getElem hia] at hx
      refine ⟨s.set i a[i], ?_, by simp [e1], ?_⟩
      · rw [aGet_ok (by omega) (by simpa using hi), Out.ok_bind]
        have : os[(i : Int).toNat]'(by simpa using hi) = some k := by
          rw [List.getElem?_eq_getElem hi] at hk
          exact Option.some.inj hk
        rw [this, show unbox h (some k) = .ok a[i] by simp only [unbox, hx], Out.ok_bind]
        unfold aSet alen
        rw [if_neg (by omega), Int.toNat_natCast, if_pos (by omega)]
      · intro j hj
        by_cases hji : j = i
        · rw [hji, List.getElem?_set_self (by omega), List.getElem?_eq_getElem hia]
        · rw [List.getElem?_set_ne (by omega)]
          exact e2 j (by omega))
  rw [hs]
  congr 1
  apply List.ext_getElem?
  intro i
  by_cases hi : i < os.length
  · exact h2 i (by omega)
  · rw [List.getElem?_eq_none (by omega), List.getElem?_eq_none (by omega)]

/-- Numbers put into objects come back unchanged. -/
theorem box_round_trip {limit : Nat} (zero : α) (h a : List α) (hl : a.length ≤ limit) :
    ∃ h' os, toObjectArray limit h (some a) = .ok (h', os) ∧ toArray limit zero h' (some os) = .ok a ∧ os.length = a.length ∧
      (∀ (k : Nat) (x : α), h[k]? = some x → h'[k]? = some x) := by
  refine ⟨_, _, to_object_array h a hl, ?_, by simp, ?_⟩
  · refine to_array (by simpa using hl) (by simp) ?_
    intro i hi
    have hi : i < a.length := by simpa using hi
    refine ⟨h.length + i, by simp [hi], ?_⟩
    rw [List.getElem?_append_right (by omega)]
    congr 1
    omega
  · intro k x hk
    have : k < h.length := by
      rcases Nat.lt_or_ge k h.length with c | c
      · exact c
      · rw [List.getElem?_eq_none c] at hk; cases hk
    rw [List.getElem?_append_left this]; exact hk

example : toObjectArray 10 [(7 : Int)] (some [1, 2]) = .ok ([7, 1, 2], [some 1, some 2]) ∧
    toArray 10 0 [(7 : Int), 1, 2] (some [some 1, some 2]) = .ok [1, 2] ∧
    toArray 10 0 [(7 : Int), 1, 2] (some [some 1, none]) = .die "An unboxing conversion cannot be performed on undef." := by
  refine ⟨rfl, rfl, rfl⟩

/-- An undefined element throws. -/
theorem to_array_undef {limit : Nat} {zero : α} {h : List α} : ∀ {os : List (Option Nat)}, os.length ≤ limit →
    (∀ (k : Nat), some k ∈ os → k < h.length) → none ∈ os → ∃ m, toArray limit zero h (some os) = .die m := by
  intro os hl hv hn
  unfold toArray
  simp only
  unfold newArray
  rw [if_pos (by simp), show (alen os).toNat = os.length by simp [alen], if_pos hl, Out.ok_bind]
  have key : ∀ (n start : Nat) (s : List α), start + n = os.length → s.length = os.length → none ∈ os.drop start →
      ∃ m, forLoop start n (fun i (s : List α) => do
        let o ← aGet os i
        let x ← unbox h o
        aSet s i x) s = .die m := by
    intro n
    induction n with
    | zero =>
      intro start s hs _ hm
      rw [List.drop_of_length_le (by omega)] at hm
      cases hm
    | succ n ih =>
      intro start s hs hsl hm
      have hi : start < os.length := by omega
      unfold forLoop
      rw [aGet_ok (by omega) (by simpa using hi), Out.ok_bind]
      simp only [Int.toNat_natCast]
      rw [List.drop_eq_getElem_cons hi] at hm
      cases ho : os[start] with
      | none => exact ⟨_, rfl⟩
      | some k =>
        have hk := hv k (by rw [← ho]; exact List.getElem_mem hi)
        rw [show unbox h (some k) = .ok h[k] by simp only [unbox, List.getElem?_eq_getElem hk], Out.ok_bind]
        have : aSet s (start : Int) h[k] = .ok (s.set start h[k]) := by
          unfold aSet alen
          rw [if_neg (by omega), Int.toNat_natCast, if_pos (by omega)]
        rw [this, Out.ok_bind]
        rw [ho] at hm
        exact ih (start + 1) _ (by omega) (by simpa using hsl) (by
          rcases List.mem_cons.1 hm with c | c
          · cases c
          · exact c)
  exact key os.length 0 _ (by omega) (by simp) (by simpa using hn)

end SPVM.ArrayAny
