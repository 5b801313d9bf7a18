import Verif.Model.CHash
import Verif.Props.VM
set_option linter.unusedSimpArgs false
namespace SPVM
namespace CHash
open VM (Bytes)
variable {ν : Type}

theorem keyMatch_eq (k e : Bytes) : keyMatch k e = .ok (decide (k = e)) := by
  unfold keyMatch
  by_cases h0 : k.length = 0 ∧ e.length = 0
  · rw [if_pos h0]
    have h1 := List.length_eq_zero_iff.mp h0.1
    have h2 := List.length_eq_zero_iff.mp h0.2
    simp [h1, h2]
  · rw [if_neg h0]
    by_cases h1 : e.length = k.length
    · rw [if_pos h1]
      obtain ⟨r, er, hr⟩ := VM.memcmp_spec k e k.length (Nat.le_refl _) (by omega)
      rw [er]
      simp only [Out.ok_bind]
      congr 1
      rcases hr with ⟨h2, h3⟩ | ⟨h2, h3⟩ | ⟨h2, h3⟩
      · rw [List.take_length, ← h1, List.take_length] at h3
        simp [h2, h3]
      · have : k ≠ e := by rintro rfl; exact VM.strLt_irrefl (some k) (by simpa [VM.StrLt] using h3)
        simp [this]; omega
      · have : k ≠ e := by rintro rfl; exact VM.strLt_irrefl (some k) (by simpa [VM.StrLt] using h3)
        simp [this]; omega
    · rw [if_neg h1]
      have : k ≠ e := by rintro rfl; exact h1 rfl
      simp [this]

/-- The value stored for `k`. -/
def find (k : Bytes) : List (Entry ν) → Option ν
  | [] => none
  | e :: es => if k = e.1 then some e.2 else find k es

theorem search_eq (k : Bytes) (c : List (Entry ν)) : search k c = .ok (find k c) := by
  induction c with
  | nil => rfl
  | cons e es ih =>
    simp only [search, keyMatch_eq, Out.ok_bind, find]
    by_cases h : k = e.1
    · simp [h]
    · simp [h, ih]

/-- `setChain` as a function. -/
def put (k : Bytes) (v : ν) : List (Entry ν) → List (Entry ν)
  | [] => [(k, v)]
  | e :: es => if k = e.1 then (e.1, v) :: es else e :: put k v es

theorem setChain_eq (k : Bytes) (v : ν) (c : List (Entry ν)) : ∃ b, setChain k v c = .ok (put k v c, b) := by
  induction c with
  | nil => exact ⟨true, rfl⟩
  | cons e es ih =>
    obtain ⟨b, hb⟩ := ih
    simp only [setChain, keyMatch_eq, Out.ok_bind, put]
    by_cases h : k = e.1
    · exact ⟨false, by simp [h]⟩
    · exact ⟨b, by simp [h, hb]⟩

theorem find_put (k : Bytes) (v : ν) (c : List (Entry ν)) (k' : Bytes) :
    find k' (put k v c) = if k' = k then some v else find k' c := by
  induction c with
  | nil => simp [put, find]
  | cons e es ih =>
    simp only [put]
    by_cases h : k = e.1
    · rw [if_pos h]; simp only [find, ← h]; split <;> rfl
    · rw [if_neg h]; simp only [find, ih]
      by_cases h2 : k' = e.1
      · rw [if_pos h2, if_pos h2, if_neg (by rintro rfl; exact h h2)]
      · rw [if_neg h2, if_neg h2]

theorem mem_put {k : Bytes} {v : ν} {c : List (Entry ν)} {e : Entry ν} (h : e ∈ put k v c) : e.1 = k ∨ e ∈ c := by
  induction c with
  | nil => simp [put] at h; exact .inl (by rw [h])
  | cons a es ih =>
    simp only [put] at h
    split at h
    · rename_i hk
      rcases List.mem_cons.mp h with h | h
      · left; rw [h, hk]
      · right; exact List.mem_cons_of_mem _ h
    · rcases List.mem_cons.mp h with h | h
      · right; rw [h]; exact List.mem_cons_self
      · rcases ih h with h | h
        · exact .inl h
        · exact .inr (List.mem_cons_of_mem _ h)

/-- The hash function answers `H key`. -/
def Hashes (hf : Bytes → Out Int) (H : Bytes → Nat) (k : Bytes) : Prop := hf k = .ok (H k : Int)

theorem tableIndex_ok {hf : Bytes → Out Int} {H : Bytes → Nat} {k : Bytes} (h : Hashes hf H k) {n : Nat} (hn : 0 < n) :
    tableIndex hf k n = .ok ((H k % n : Nat) : Int) := by
  simp only [tableIndex, show hf k = _ from h, Out.ok_bind]
  rw [if_neg (by omega)]
  unfold VM.cRem
  rw [if_neg (by omega)]
  congr 1

theorem bucket_ok {t : List (List (Entry ν))} {i : Nat} (h : i < t.length) : bucket t (i : Int) = .ok t[i] := by
  simp [bucket, List.getElem?_eq_getElem h]

theorem setBucket_ok {t : List (List (Entry ν))} {i : Nat} {c : List (Entry ν)} (h : i < t.length) :
    setBucket t (i : Int) c = .ok (t.set i c) := by
  simp [setBucket, h]

/-- Every entry is in the bucket of its key, and all keys satisfy `P`. -/
structure Good (P : Bytes → Prop) (H : Bytes → Nat) (t : List (List (Entry ν))) : Prop where
  pos : 0 < t.length
  home : ∀ i (h : i < t.length), ∀ e ∈ t[i], H e.1 % t.length = i ∧ P e.1

/-- The map a table represents. -/
def toMap (H : Bytes → Nat) (t : List (List (Entry ν))) : Spec.Map.Map Bytes ν := fun k =>
  (t[H k % t.length]?).bind (find k)

theorem find_eq_none {k : Bytes} {c : List (Entry ν)} (h : ∀ e ∈ c, e.1 ≠ k) : find k c = none := by
  induction c with
  | nil => rfl
  | cons e es ih =>
    simp only [find]
    rw [if_neg (fun hk => h e List.mem_cons_self hk.symm)]
    exact ih (fun x hx => h x (List.mem_cons_of_mem _ hx))

theorem find_append (k : Bytes) (a b : List (Entry ν)) : find k (a ++ b) = (find k a).or (find k b) := by
  induction a with
  | nil => rfl
  | cons e es ih =>
    simp only [List.cons_append, find]
    split
    · rfl
    · exact ih

theorem find_filter (k : Bytes) (p : Entry ν → Bool) (l : List (Entry ν)) (hp : ∀ e : Entry ν, e.1 = k → p e = true) :
    find k (l.filter p) = find k l := by
  induction l with
  | nil => rfl
  | cons e es ih =>
    by_cases hpe : p e = true
    · rw [List.filter_cons_of_pos hpe]; simp only [find, ih]
    · rw [List.filter_cons_of_neg hpe, ih]
      simp only [find]
      rw [if_neg (fun hk => hpe (hp e hk.symm))]

theorem find_flatten {P : Bytes → Prop} {H : Bytes → Nat} {t : List (List (Entry ν))} (g : Good P H t) (k : Bytes) :
    find k t.flatten = toMap H t k := by
  have hlt : H k % t.length < t.length := Nat.mod_lt _ g.pos
  unfold toMap
  rw [List.getElem?_eq_getElem hlt, Option.bind_some]
  have hs : t = t.take (H k % t.length) ++ t[H k % t.length] :: t.drop (H k % t.length + 1) := by
    rw [← List.drop_eq_getElem_cons hlt, List.take_append_drop]
  have hne : ∀ i (hi : i < t.length), i ≠ H k % t.length → ∀ e ∈ t[i], e.1 ≠ k := by
    intro i hi hne e he hk
    have := (g.home i hi e he).1
    rw [hk] at this
    exact hne this.symm
  conv => lhs; rw [hs]
  rw [List.flatten_append, List.flatten_cons, find_append, find_append]
  have h1 : find k (t.take (H k % t.length)).flatten = none := by
    apply find_eq_none
    intro e he
    obtain ⟨c, hc, hec⟩ := List.mem_flatten.mp he
    obtain ⟨i, hi, hi2⟩ := List.mem_iff_getElem.mp hc
    rw [List.length_take] at hi
    rw [List.getElem_take] at hi2
    exact hne i (by omega) (by omega) e (by rw [hi2]; exact hec)
  have h2 : find k (t.drop (H k % t.length + 1)).flatten = none := by
    apply find_eq_none
    intro e he
    obtain ⟨c, hc, hec⟩ := List.mem_flatten.mp he
    obtain ⟨i, hi, hi2⟩ := List.mem_iff_getElem.mp hc
    rw [List.length_drop] at hi
    rw [List.getElem_drop] at hi2
    exact hne (H k % t.length + 1 + i) (by omega) (by omega) e (by rw [hi2]; exact hec)
  rw [h1, h2]
  simp

/-- The table of a list of entries, in order. -/
def distribute (H : Bytes → Nat) (n : Nat) (l : List (Entry ν)) : List (List (Entry ν)) :=
  (List.range n).map fun i => l.filter fun e => H e.1 % n == i

theorem distribute_length (H : Bytes → Nat) (n : Nat) (l : List (Entry ν)) : (distribute H n l).length = n := by
  simp [distribute]

theorem setEntry_distribute {hf : Bytes → Out Int} {H : Bytes → Nat} {n : Nat} (hn : 0 < n) (l : List (Entry ν)) (e : Entry ν)
    (he : Hashes hf H e.1) : setEntry hf (distribute H n l) e = .ok (distribute H n (l ++ [e])) := by
  have hlt : H e.1 % n < n := Nat.mod_lt _ hn
  simp only [setEntry, distribute_length, tableIndex_ok he hn, Out.ok_bind]
  rw [bucket_ok (by rw [distribute_length]; exact hlt)]
  simp only [Out.ok_bind]
  rw [setBucket_ok (by rw [distribute_length]; exact hlt)]
  congr 1
  apply List.ext_getElem
  · simp [distribute]
  · intro i h1 h2
    simp only [distribute, List.getElem_set, List.getElem_map, List.getElem_range, List.filter_append]
    by_cases hi : H e.1 % n = i
    · rw [if_pos hi]; subst hi; simp
    · rw [if_neg hi]; simp [hi]

theorem rehashChain_eq {hf : Bytes → Out Int} {H : Bytes → Nat} {n : Nat} (hn : 0 < n) (l c : List (Entry ν))
    (hc : ∀ e ∈ c, Hashes hf H e.1) : rehashChain hf (distribute H n l) c = .ok (distribute H n (l ++ c)) := by
  induction c generalizing l with
  | nil => simp [rehashChain]
  | cons e es ih =>
    simp only [rehashChain]
    rw [setEntry_distribute hn l e (hc e List.mem_cons_self)]
    simp only [Out.ok_bind]
    rw [ih (l ++ [e]) (fun x hx => hc x (List.mem_cons_of_mem _ hx))]
    simp

theorem rehashTable_eq {hf : Bytes → Out Int} {H : Bytes → Nat} {n : Nat} (hn : 0 < n) (l : List (Entry ν))
    (t : List (List (Entry ν))) (ht : ∀ c ∈ t, ∀ e ∈ c, Hashes hf H e.1) :
    rehashTable hf (distribute H n l) t = .ok (distribute H n (l ++ t.flatten)) := by
  induction t generalizing l with
  | nil => simp [rehashTable]
  | cons c cs ih =>
    simp only [rehashTable]
    rw [rehashChain_eq hn l c (ht c List.mem_cons_self)]
    simp only [Out.ok_bind]
    rw [ih (l ++ c) (fun x hx => ht x (List.mem_cons_of_mem _ hx))]
    simp

theorem distribute_nil (H : Bytes → Nat) (n : Nat) : distribute (ν := ν) H n [] = List.replicate n [] := by
  apply List.ext_getElem <;> simp [distribute]

theorem toMap_distribute {H : Bytes → Nat} {n : Nat} (hn : 0 < n) (l : List (Entry ν)) (k : Bytes) :
    toMap H (distribute H n l) k = find k l := by
  unfold toMap
  rw [distribute_length]
  have hlt : H k % n < n := Nat.mod_lt _ hn
  rw [List.getElem?_eq_getElem (by rw [distribute_length]; exact hlt)]
  simp only [distribute, List.getElem_map, List.getElem_range, Option.bind_some]
  exact find_filter k _ l (fun e he => by simp [he])

theorem good_distribute {P : Bytes → Prop} {H : Bytes → Nat} {n : Nat} (hn : 0 < n) {l : List (Entry ν)}
    (hl : ∀ e ∈ l, P e.1) : Good P H (distribute H n l) := by
  constructor
  · rw [distribute_length]; exact hn
  · intro i hi e he
    rw [distribute_length]
    simp only [distribute, List.getElem_map, List.getElem_range, List.mem_filter, beq_iff_eq] at he
    exact ⟨he.2, hl e he.1⟩

theorem rehash_ok {hf : Bytes → Out Int} {P : Bytes → Prop} {H : Bytes → Nat} {h : CHash ν} (hP : ∀ k, P k → Hashes hf H k)
    (g : Good P H h.table) {n : Int} (hn : 0 < n) :
    ∃ t, rehash hf h n = .ok { h with table := t } ∧ Good P H t ∧ toMap H t = toMap H h.table := by
  have hmem : ∀ c ∈ h.table, ∀ e ∈ c, P e.1 := by
    intro c hc e he
    obtain ⟨i, hi, hi2⟩ := List.mem_iff_getElem.mp hc
    exact (g.home i hi e (by rw [hi2]; exact he)).2
  refine ⟨distribute H n.toNat h.table.flatten, ?_, good_distribute (by omega) ?_, ?_⟩
  · unfold rehash
    rw [if_neg (by omega)]
    rw [← distribute_nil H, rehashTable_eq (by omega) [] h.table (fun c hc e he => hP _ (hmem c hc e he))]
    simp
  · intro e he
    obtain ⟨c, hc, hec⟩ := List.mem_flatten.mp he
    exact hmem c hc e hec
  · funext k
    rw [toMap_distribute (by omega), find_flatten g]

theorem maybeRehash_ok {hf : Bytes → Out Int} {P : Bytes → Prop} {H : Bytes → Nat} {h : CHash ν} (hP : ∀ k, P k → Hashes hf H k)
    (g : Good P H h.table) (hk : h.keysLength ≤ 805306368) :
    ∃ t, maybeRehash hf h = .ok { h with table := t } ∧ Good P H t ∧ toMap H t = toMap H h.table := by
  unfold maybeRehash
  by_cases hc : 4 * h.keysLength > 3 * h.table.length
  · rw [if_pos hc]
    have h1 : (h.table.length : Int) ≤ 1073741823 := by omega
    have e1 : mul32 h.table.length 2 = .ok ((h.table.length : Int) * 2) := mul32_ok (by constructor <;> omega)
    have e2 : add32 ((h.table.length : Int) * 2) 1 = .ok ((h.table.length : Int) * 2 + 1) := add32_ok (by constructor <;> omega)
    rw [e1, Out.ok_bind, e2, Out.ok_bind]
    clear hc hk h1
    exact rehash_ok hP g (by omega)
  · rw [if_neg hc]
    exact ⟨h.table, rfl, g, rfl⟩

theorem set_ok {hf : Bytes → Out Int} {P : Bytes → Prop} {H : Bytes → Nat} {h : CHash ν} (hP : ∀ k, P k → Hashes hf H k)
    (g : Good P H h.table) (hk : h.keysLength ≤ 805306368) (k : Bytes) (hPk : P k) (v : ν) :
    ∃ h', set hf h k v = .ok h' ∧ Good P H h'.table ∧ toMap H h'.table = Spec.Map.put (toMap H h.table) k (some v) ∧
      h'.keysLength ≤ h.keysLength + 1 := by
  obtain ⟨t, e1, g1, m1⟩ := maybeRehash_ok hP g hk
  have hlt : H k % t.length < t.length := Nat.mod_lt _ g1.pos
  obtain ⟨b, e2⟩ := setChain_eq k v t[H k % t.length]
  refine ⟨{ table := t.set (H k % t.length) (put k v t[H k % t.length]), keysLength := if b then h.keysLength + 1 else h.keysLength }, ?_, ?_, ?_, ?_⟩
  · simp only [set, e1, Out.ok_bind, tableIndex_ok (hP k hPk) g1.pos, bucket_ok hlt, e2, setBucket_ok hlt]
  · constructor
    · simpa using g1.pos
    · intro i hi e he
      simp only [List.length_set] at hi ⊢
      simp only [List.getElem_set] at he
      split at he
      · rename_i hki
        rcases mem_put he with h | h
        · rw [h]; exact ⟨hki, hPk⟩
        · have := g1.home _ hlt e h; exact ⟨by rw [this.1, hki], this.2⟩
      · exact g1.home i hi e he
  · funext k'
    rw [← m1]
    unfold toMap Spec.Map.put
    simp only [List.length_set]
    by_cases hidx : H k' % t.length = H k % t.length
    · rw [hidx, List.getElem?_set_self hlt, List.getElem?_eq_getElem hlt, Option.bind_some, Option.bind_some, find_put]
    · rw [List.getElem?_set_ne (fun h => hidx h.symm)]
      rw [if_neg (by rintro rfl; exact hidx rfl)]
  · simp only; split <;> omega

theorem get_ok {hf : Bytes → Out Int} {P : Bytes → Prop} {H : Bytes → Nat} {h : CHash ν} (hP : ∀ k, P k → Hashes hf H k)
    (g : Good P H h.table) (k : Bytes) (hPk : P k) (null : ν) :
    get hf null h k = .ok ((toMap H h.table k).getD null) := by
  have hlt : H k % h.table.length < h.table.length := Nat.mod_lt _ g.pos
  simp only [get, tableIndex_ok (hP k hPk) g.pos, Out.ok_bind, bucket_ok hlt, search_eq, toMap,
    List.getElem?_eq_getElem hlt, Option.bind_some]

theorem new_ok {P : Bytes → Prop} {H : Bytes → Nat} {capacity : Int} (hc : 0 ≤ capacity) :
    ∃ h : CHash ν, new capacity = .ok h ∧ Good P H h.table ∧ toMap H h.table = Spec.Map.empty ∧ h.keysLength = 0 := by
  unfold new
  rw [if_neg (by omega)]
  refine ⟨_, rfl, ⟨?_, ?_⟩, ?_, rfl⟩
  · simp only [List.length_replicate]; split <;> omega
  · intro i hi e he; simp at he
  · funext k
    simp only [toMap, Spec.Map.empty, List.length_replicate, List.getElem?_replicate]
    split <;> simp [find]

end CHash
end SPVM
