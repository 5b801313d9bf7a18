import Verif.Lemmas.Immutable

/-!
# The operations of the immutable lists
-/

namespace SPVM.Immutable

variable {α : Type}

theorem arr_ok {s : St α} {a : Nat} {xs : List (Val α)} (h : s.heap[a]? = some xs) : arr a s = (.ok xs, s) := by
  simp [arr, h]

theorem set_last (l : List β) (x y : β) : (l ++ [x]).set l.length y = l ++ [y] := by
  induction l with
  | nil => rfl
  | cons a l ih => simp [ih]

theorem lt_of_get {l : List β} {i : Nat} {x : β} (h : l[i]? = some x) : i < l.length := by
  by_cases hi : i < l.length
  · exact hi
  · rw [List.getElem?_eq_none (by omega)] at h; cases h

theorem zero_ok (K : Kind) (zero : α) (limit : Nat) (s : St α) (n : Nat) (hn : n ≤ limit) :
    ArrOk K limit s (List.replicate n (zeroOf zero K)) := by
  refine ⟨fun x hx => ?_, fun v hv => ?_, by simpa using hn⟩
  · have := List.eq_of_mem_replicate hx
    cases K <;> cases this
  · have := List.eq_of_mem_replicate hv
    subst this
    cases K <;> simp [zeroOf, TypeOk]

theorem newLen_ok (K : Kind) (zero : α) {limit : Nat} {n : Int} (h0 : 0 ≤ n) (h1 : n.toNat ≤ limit) (s : St α) :
    newLen K zero limit n s =
      (.ok (n, s.heap.length), { s with heap := s.heap ++ [List.replicate n.toNat (zeroOf zero K)] }) := by
  unfold newLen newArray
  rw [if_pos (by omega), if_pos (by omega), if_pos h1]
  rfl

theorem newLen_die (K : Kind) (zero : α) {limit : Nat} {n : Int} (h : ¬ (0 ≤ n ∧ n.toNat ≤ limit)) (s : St α) :
    ∃ m, newLen K zero limit n s = (.die m, s) := by
  unfold newLen newArray
  by_cases h0 : 0 ≤ n
  · rw [if_pos (by omega), if_pos (by omega), if_neg (by omega)]
    exact ⟨_, rfl⟩
  · rw [if_neg (by omega)]
    exact ⟨_, rfl⟩

theorem memcpy_all {limit : Nat} (hlim : limit ≤ 2147483647) {xs dst : List β} (hl : xs.length ≤ limit)
    (hd : dst.length = xs.length) : arrayMemcpy false (some dst) 0 (some xs) 0 (xs.length : Int) = .ok xs := by
  rw [arrayMemcpy_ok (by omega) (by omega) (by omega) (by omega) (by omega) (by constructor <;> omega) (by constructor <;> omega)]
  simp [blit]
  omega

/-- `new` of a numeric list. -/
theorem new_num {K : Kind} {zero : α} {limit : Nat} (hlim : limit ≤ 2147483647) (hK : K ≠ .string) {s : St α} {u : Nat}
    {xs : List (Val α)} (hu : s.heap[u]? = some xs) (hl : xs.length ≤ limit) :
    new K zero limit (some u) s = (.ok ((xs.length : Int), s.heap.length), { s with heap := s.heap ++ [xs] }) := by
  have hlt := lt_of_get hu
  simp only [new, Prog.bind_apply, arr_ok hu]
  rw [newLen_ok K zero (n := alen xs) (by simp) (by simpa [alen] using hl)]
  simp only [hK, if_false]
  have h1 : (s.heap ++ [List.replicate (alen xs).toNat (zeroOf zero K)])[s.heap.length]? =
      some (List.replicate (alen xs).toNat (zeroOf zero K)) := by simp
  have h2 : (s.heap ++ [List.replicate (alen xs).toNat (zeroOf zero K)])[u]? = some xs := by
    rw [List.getElem?_append_left hlt, hu]
  simp only [Prog.bind_apply]
  rw [arr_ok (s := { s with heap := s.heap ++ [List.replicate (alen xs).toNat (zeroOf zero K)] }) h1]
  dsimp only
  rw [arr_ok (s := { s with heap := s.heap ++ [List.replicate (alen xs).toNat (zeroOf zero K)] }) h2]
  have := memcpy_all hlim (xs := xs) (dst := List.replicate (alen xs).toNat (zeroOf zero K)) hl (by simp [alen])
  simp only [alen, Prog.lift] at this ⊢
  rw [this]
  simp only [setArr, set_last, Prog.pure_apply]

/-- The loop of `new` for strings, all of them defined: new read-only strings with the same bytes. -/
theorem copyLoop_ok {source dest : Nat} (hne : source ≠ dest) {src : List (Val α)} : ∀ (bs : List (List UInt8)) (i : Nat) (s : St α)
    (dst : List (Val α)), s.heap[source]? = some src → s.heap[dest]? = some dst → dst.length = i + bs.length →
    (∀ j (_ : j < bs.length), ∃ x ro, src[i + j]? = some (.str (some x)) ∧ s.strs[x]? = some (bs[j], ro)) →
    copyLoop source dest bs.length (i : Int) s =
      (.ok (), { s with strs := s.strs ++ bs.map (·, true),
                        heap := s.heap.set dest (dst.take i ++ (List.range' s.strs.length bs.length).map (fun x => .str (some x))) }) := by
  intro bs
  induction bs with
  | nil =>
    intro i s dst _ hd hl _
    have hlt := lt_of_get hd
    have e : s.heap.set dest (dst.take i) = s.heap := by
      rw [List.take_of_length_le (by simp at hl; omega)]
      apply List.ext_getElem?
      intro j
      by_cases hj : dest = j
      · subst hj; rw [List.getElem?_set_self hlt, hd]
      · rw [List.getElem?_set_ne hj]
    simp [copyLoop, e]
  | cons b bs ih =>
    intro i s dst hs hd hl hb
    have hlt := lt_of_get hd
    obtain ⟨x, ro, hx, hxb⟩ := hb 0 (by simp)
    simp only [Nat.add_zero, List.getElem_cons_zero] at hx hxb
    have hsi := lt_of_get hx
    have hget : aGet src (i : Int) = .ok (.str (some x)) := by
      rw [aGet_ok (by omega) (by simpa using hsi)]
      rw [List.getElem?_eq_getElem hsi] at hx
      simpa using hx
    simp only [List.length_cons] at hl
    have hset : ∀ v : Val α, aSet dst (i : Int) v = .ok (dst.set i v) := fun v => by
      rw [aSet_ok (by omega) (by simp; omega)]
      simp
    simp only [List.length_cons, copyLoop, Prog.bind_apply, arr_ok hs, hget, Prog.lift, copyStr, hxb, allocStr, Out.bind, makeRO]
    have e1 : (s.strs ++ [(b, false)])[s.strs.length]? = some (b, false) := by simp
    simp only [e1, set_last]
    rw [arr_ok (s := { s with strs := s.strs ++ [(b, true)] }) hd]
    simp only [hset, setArr]
    have hd' : (s.heap.set dest (dst.set i (.str (some s.strs.length))))[dest]? = some (dst.set i (.str (some s.strs.length))) := by
      rw [List.getElem?_set_self hlt]
    have hs' : (s.heap.set dest (dst.set i (.str (some s.strs.length))))[source]? = some src := by
      rw [List.getElem?_set_ne (Ne.symm hne), hs]
    have key := ih (i + 1) { s with strs := s.strs ++ [(b, true)], heap := s.heap.set dest (dst.set i (.str (some s.strs.length))) }
      (dst.set i (.str (some s.strs.length))) hs' hd' (by simp; omega) (by
        intro j hj
        obtain ⟨y, ro', hy, hyb⟩ := hb (j + 1) (by simp; omega)
        refine ⟨y, ro', by rw [show i + 1 + j = i + (j + 1) by omega]; exact hy, ?_⟩
        rw [List.getElem_cons_succ] at hyb
        show (s.strs ++ [(b, true)])[y]? = _
        rw [List.getElem?_append_left (lt_of_get hyb), hyb])
    rw [show ((i : Int) + 1) = ((i + 1 : Nat) : Int) by omega, key]
    congr 1
    have e2 : (dst.set i (.str (some s.strs.length))).take (i + 1) = dst.take i ++ [.str (some s.strs.length)] := by
      rw [List.take_add_one, List.take_set_of_le (Nat.le_refl _), List.getElem?_set_self (by omega)]
      rfl
    simp only [e2, List.set_set, List.map_cons, List.append_assoc, List.singleton_append, List.length_append, List.length_singleton,
      List.range'_succ]

/-- An undefined string makes the loop of `new` follow the null pointer. -/
theorem copyLoop_ub {source dest : Nat} (hne : source ≠ dest) {src : List (Val α)} : ∀ (left i : Nat) (s : St α) (dst : List (Val α)),
    s.heap[source]? = some src → s.heap[dest]? = some dst → dst.length = i + left →
    (∀ x, Val.str (some x) ∈ src → x < s.strs.length) →
    (∃ j, j < left ∧ src[i + j]? = some (.str none)) → (copyLoop source dest left (i : Int) s).1 = .ub := by
  intro left
  induction left with
  | zero => rintro i s dst _ _ _ _ ⟨j, hj, _⟩; omega
  | succ left ih =>
    rintro i s dst hs hd hl hb ⟨j, hj, hn⟩
    have hsi : i < src.length := by have := lt_of_get hn; omega
    have hget : aGet src (i : Int) = .ok src[i] := by
      rw [aGet_ok (by omega) (by simpa using hsi)]
      simp
    have hlt := lt_of_get hd
    simp only [copyLoop, Prog.bind_apply, arr_ok hs, hget, Prog.lift]
    match he : src[i] with
    | .num v => simp [copyStr]
    | .str none => simp [copyStr, makeRO]
    | .str (some x) =>
      have hx : x < s.strs.length := hb x (by rw [← he]; exact List.getElem_mem hsi)
      have hxb : s.strs[x]? = some s.strs[x] := List.getElem?_eq_getElem hx
      generalize hbb : s.strs[x] = bb at hxb
      obtain ⟨b, ro⟩ := bb
      have hset : ∀ v : Val α, aSet dst (i : Int) v = .ok (dst.set i v) := fun v => by
        rw [aSet_ok (by omega) (by simp; omega)]
        simp
      have e1 : (s.strs ++ [(b, false)])[s.strs.length]? = some (b, false) := by simp
      simp only [copyStr, hxb, allocStr, Out.bind, makeRO, e1, set_last]
      rw [arr_ok (s := { s with strs := s.strs ++ [(b, true)] }) hd]
      simp only [hset, setArr]
      have hj0 : j ≠ 0 := by
        intro h0
        subst h0
        simp only [Nat.add_zero] at hn
        rw [List.getElem?_eq_getElem hsi, he] at hn
        cases hn
      rw [show ((i : Int) + 1) = ((i + 1 : Nat) : Int) by omega]
      refine ih (i + 1) _ (dst.set i (.str (some s.strs.length))) ?_ ?_ (by simp; omega) ?_ ⟨j - 1, by omega, ?_⟩
      · show (s.heap.set dest _)[source]? = _
        rw [List.getElem?_set_ne (Ne.symm hne), hs]
      · show (s.heap.set dest _)[dest]? = _
        rw [List.getElem?_set_self hlt]
      · intro y hy
        have := hb y hy
        simp; omega
      · rw [show i + 1 + (j - 1) = i + j by omega]; exact hn

/-- The loop that copies references. -/
theorem copyRefs_ok {source dest : Nat} (hne : source ≠ dest) {src : List (Val α)} : ∀ (left i : Nat) (s : St α) (dst : List (Val α)),
    s.heap[source]? = some src → s.heap[dest]? = some dst → dst.length = i + left → src.length = i + left →
    copyRefs source dest left (i : Int) s = (.ok (), { s with heap := s.heap.set dest (dst.take i ++ src.drop i) }) := by
  intro left
  induction left with
  | zero =>
    intro i s dst _ hd hl hl2
    have hlt := lt_of_get hd
    have e : s.heap.set dest (dst.take i ++ src.drop i) = s.heap := by
      rw [List.take_of_length_le (by omega), List.drop_eq_nil_of_le (by omega), List.append_nil]
      apply List.ext_getElem?
      intro j
      by_cases hj : dest = j
      · subst hj; rw [List.getElem?_set_self hlt, hd]
      · rw [List.getElem?_set_ne hj]
    simp [copyRefs, e]
  | succ left ih =>
    intro i s dst hs hd hl hl2
    have hlt := lt_of_get hd
    have hsi : i < src.length := by omega
    have hget : aGet src (i : Int) = .ok src[i] := by
      rw [aGet_ok (by omega) (by simpa using hsi)]
      simp
    have hset : ∀ v : Val α, aSet dst (i : Int) v = .ok (dst.set i v) := fun v => by
      rw [aSet_ok (by omega) (by simp; omega)]
      simp
    simp only [copyRefs, Prog.bind_apply, arr_ok hs, hget, Prog.lift, arr_ok hd, hset, setArr]
    rw [show ((i : Int) + 1) = ((i + 1 : Nat) : Int) by omega]
    rw [ih (i + 1) { s with heap := s.heap.set dest (dst.set i src[i]) } (dst.set i src[i])
      (by show (s.heap.set dest _)[source]? = _; rw [List.getElem?_set_ne (Ne.symm hne), hs])
      (by show (s.heap.set dest _)[dest]? = _; rw [List.getElem?_set_self hlt]) (by simp; omega) (by omega)]
    have e2 : (dst.set i src[i]).take (i + 1) = dst.take i ++ [src[i]] := by
      rw [List.take_add_one, List.take_set_of_le (Nat.le_refl _), List.getElem?_set_self (by omega)]
      rfl
    simp only [e2, List.set_set, List.append_assoc, List.singleton_append]
    rw [List.drop_eq_getElem_cons hsi]

/-- `to_array`. -/
theorem toArray_ok {K : Kind} {zero : α} {limit : Nat} (hlim : limit ≤ 2147483647) {s : St α} {f : Int × Nat} {xs : List (Val α)}
    (hf : s.heap[f.2]? = some xs) (hn : f.1 = xs.length) (hl : xs.length ≤ limit) :
    toArray K zero limit f s = (.ok (if K = .double then f.2 else s.heap.length), { s with heap := s.heap ++ [xs] }) := by
  have hlt := lt_of_get hf
  have hna : newArray limit (zeroOf zero K) f.1 = .ok (List.replicate xs.length (zeroOf zero K)) := by
    unfold newArray
    rw [hn, if_pos (by omega), if_pos (by simpa using hl)]
    simp
  have h1 : (s.heap ++ [List.replicate xs.length (zeroOf zero K)])[s.heap.length]? = some (List.replicate xs.length (zeroOf zero K)) := by simp
  have h2 : (s.heap ++ [List.replicate xs.length (zeroOf zero K)])[f.2]? = some xs := by
    rw [List.getElem?_append_left hlt, hf]
  simp only [toArray, Prog.bind_apply, Prog.lift, hna, allocArr]
  by_cases hK : K = .string
  · simp only [hK, if_true]
    subst hK
    have := copyRefs_ok (source := f.2) (dest := s.heap.length) (by omega) xs.length 0
      { s with heap := s.heap ++ [List.replicate xs.length (zeroOf zero .string)] } _ h2 h1 (by simp) (by simp)
    rw [hn]
    simp only [Int.toNat_natCast, Prog.bind_apply]
    rw [show ((0 : Nat) : Int) = 0 from rfl] at this
    rw [this]
    simp
  · simp only [hK, if_false, Prog.bind_apply]
    rw [arr_ok (s := { s with heap := s.heap ++ [List.replicate xs.length (zeroOf zero K)] }) h1]
    dsimp only
    rw [arr_ok (s := { s with heap := s.heap ++ [List.replicate xs.length (zeroOf zero K)] }) h2]
    have := memcpy_all hlim (xs := xs) (dst := List.replicate xs.length (zeroOf zero K)) hl (by simp)
    rw [hn]
    simp only [this, Prog.lift, setArr, set_last]
    split <;> rfl

/-- The bytes of defined strings. -/
theorem bytes_exist {s : St α} : ∀ xs : List (Val α), (∀ v ∈ xs, ∃ x, v = .str (some x) ∧ x < s.strs.length) →
    ∃ bs : List (List UInt8), bs.length = xs.length ∧
      ∀ j (_ : j < bs.length), ∃ x ro, xs[j]? = some (.str (some x)) ∧ s.strs[x]? = some (bs[j], ro) := by
  intro xs
  induction xs with
  | nil => intro _; exact ⟨[], rfl, fun j hj => absurd hj (by simp)⟩
  | cons v xs ih =>
    intro h
    obtain ⟨bs, hl, hb⟩ := ih (fun v hv => h v (List.mem_cons_of_mem _ hv))
    obtain ⟨x, hx, hlt⟩ := h v List.mem_cons_self
    refine ⟨(s.strs[x]).1 :: bs, by simp [hl], fun j hj => ?_⟩
    cases j with
    | zero => exact ⟨x, (s.strs[x]).2, by simp [hx], by rw [List.getElem?_eq_getElem hlt]; rfl⟩
    | succ j =>
      obtain ⟨y, ro, h1, h2⟩ := hb j (by simpa using hj)
      exact ⟨y, ro, by simpa using h1, by simpa using h2⟩

/-- `new` of a string list, all strings defined. -/
theorem new_str {zero : α} {limit : Nat} {s : St α} {u : Nat} {xs : List (Val α)} (hu : s.heap[u]? = some xs) (hl : xs.length ≤ limit)
    {bs : List (List UInt8)} (hlen : bs.length = xs.length)
    (hb : ∀ j (_ : j < bs.length), ∃ x ro, xs[j]? = some (.str (some x)) ∧ s.strs[x]? = some (bs[j], ro)) :
    new .string zero limit (some u) s = (.ok ((xs.length : Int), s.heap.length),
      { s with strs := s.strs ++ bs.map (·, true),
               heap := s.heap ++ [(List.range' s.strs.length bs.length).map (fun x => .str (some x))] }) := by
  have hlt := lt_of_get hu
  simp only [new, Prog.bind_apply, arr_ok hu]
  rw [newLen_ok .string zero (n := alen xs) (by simp) (by simpa [alen] using hl)]
  simp only [if_true, Prog.bind_apply]
  have h1 : (s.heap ++ [List.replicate (alen xs).toNat (zeroOf zero .string)])[s.heap.length]? =
      some (List.replicate (alen xs).toNat (zeroOf zero .string)) := by simp
  have h2 : (s.heap ++ [List.replicate (alen xs).toNat (zeroOf zero .string)])[u]? = some xs := by
    rw [List.getElem?_append_left hlt, hu]
  have := copyLoop_ok (source := u) (dest := s.heap.length) (by omega) bs 0
    { s with heap := s.heap ++ [List.replicate (alen xs).toNat (zeroOf zero .string)] } _ h2 h1 (by simp [alen, hlen])
    (fun j hj => by obtain ⟨x, ro, a, b⟩ := hb j hj; exact ⟨x, ro, by simpa using a, b⟩)
  rw [show ((0 : Nat) : Int) = 0 from rfl, hlen] at this
  rw [this]
  simp [alen, hlen]

/-- `new` of a string list with an undefined string. -/
theorem new_str_ub {zero : α} {limit : Nat} {s : St α} {u : Nat} {xs : List (Val α)} (hu : s.heap[u]? = some xs)
    (hok : ArrOk .string limit s xs) (hn : Val.str none ∈ xs) : (new .string zero limit (some u) s).1 = .ub := by
  have hlt := lt_of_get hu
  simp only [new, Prog.bind_apply, arr_ok hu]
  rw [newLen_ok .string zero (n := alen xs) (by simp) (by simpa [alen] using hok.len)]
  simp only [if_true, Prog.bind_apply]
  have h1 : (s.heap ++ [List.replicate (alen xs).toNat (zeroOf zero .string)])[s.heap.length]? =
      some (List.replicate (alen xs).toNat (zeroOf zero .string)) := by simp
  have h2 : (s.heap ++ [List.replicate (alen xs).toNat (zeroOf zero .string)])[u]? = some xs := by
    rw [List.getElem?_append_left hlt, hu]
  obtain ⟨j, hj⟩ := List.mem_iff_getElem?.mp hn
  have hjl := lt_of_get hj
  have := copyLoop_ub (source := u) (dest := s.heap.length) (by omega) xs.length 0
    { s with heap := s.heap ++ [List.replicate (alen xs).toNat (zeroOf zero .string)] } _ h2 h1 (by simp [alen])
    hok.elems ⟨j, hjl, by simpa using hj⟩
  rw [show ((0 : Nat) : Int) = 0 from rfl] at this
  generalize copyLoop u s.heap.length xs.length 0 _ = r at this ⊢
  obtain ⟨o, s'⟩ := r
  dsimp only at this
  subst this
  rfl

end SPVM.Immutable
