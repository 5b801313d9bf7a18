import Verif.Model.Hash
import Verif.Lemmas.Array
import Verif.Spec.Map
set_option linter.unusedSimpArgs false
namespace SPVM
namespace Hash
open VM (Bytes)
open Spec.Hash (Op Res Item)
variable {α : Type}

/-! ## Chains -/

def keysOf (l : List (HEntry α)) : List Bytes := l.map (·.key)

theorem findEntry_append (k : Bytes) (a b : List (HEntry α)) :
    findEntry k (a ++ b) = (findEntry k a).or (findEntry k b) := by
  induction a with
  | nil => simp [findEntry]
  | cons e a ih =>
    simp only [List.cons_append, findEntry]
    split <;> simp [ih]

theorem findEntry_none {k : Bytes} {l : List (HEntry α)} : findEntry k l = none ↔ k ∉ keysOf l := by
  induction l with
  | nil => simp [findEntry, keysOf]
  | cons e l ih =>
    simp only [findEntry, keysOf, List.map_cons, List.mem_cons]
    split
    · rename_i h; simp [h]
    · rename_i h; rw [ih, keysOf]; simp; intro _ hc; exact h hc.symm

theorem findEntry_some {k : Bytes} {l : List (HEntry α)} {e : HEntry α} (h : findEntry k l = some e) :
    e ∈ l ∧ e.key = k := by
  induction l with
  | nil => simp [findEntry] at h
  | cons x l ih =>
    simp only [findEntry] at h
    split at h
    · cases h; simp [*]
    · have := ih h; simp [this]

theorem findEntry_of_mem {l : List (HEntry α)} (hn : (keysOf l).Nodup) {e : HEntry α} (h : e ∈ l) :
    findEntry e.key l = some e := by
  induction l with
  | nil => simp at h
  | cons x l ih =>
    simp only [keysOf, List.map_cons, List.nodup_cons] at hn
    simp only [findEntry]
    rcases List.mem_cons.1 h with rfl | h
    · simp
    · rw [if_neg]
      · exact ih hn.2 h
      · intro hk
        exact hn.1 (hk ▸ List.mem_map_of_mem h)

theorem setChain_find (k : Bytes) (v : Option α) (c : List (HEntry α)) (k' : Bytes) :
    findEntry k' (setChain k v c).1 = if k' = k then some ⟨k, v, false⟩ else findEntry k' c := by
  induction c with
  | nil => simp only [setChain, findEntry]; split <;> rename_i h <;> simp [h, eq_comm]
  | cons e c ih =>
    simp only [setChain]
    split
    · rename_i h
      simp only [findEntry]
      by_cases hk : k' = k
      · subst hk; simp [h]
      · rw [if_neg hk, if_neg (by rw [h]; exact fun x => hk x.symm), if_neg (by rw [h]; exact fun x => hk x.symm)]
    · rename_i h
      simp only [findEntry, ih]
      by_cases hk : k' = k
      · subst hk; simp [h]
      · simp [hk]

theorem setChain_added (k : Bytes) (v : Option α) (c : List (HEntry α)) :
    ((setChain k v c).2 = true ∧ k ∉ keysOf c ∧ (setChain k v c).1 = c ++ [⟨k, v, false⟩]) ∨
    ((setChain k v c).2 = false ∧ k ∈ keysOf c ∧ keysOf (setChain k v c).1 = keysOf c) := by
  induction c with
  | nil => simp [setChain, keysOf]
  | cons e c ih =>
    simp only [setChain]
    split
    · rename_i h
      exact .inr ⟨rfl, by simp [keysOf, h], by simp [keysOf]⟩
    · rename_i h
      rcases ih with ⟨h1, h2, h3⟩ | ⟨h1, h2, h3⟩
      · refine .inl ⟨h1, ?_, by simp [h3]⟩
        simp only [keysOf, List.map_cons, List.mem_cons, not_or]
        exact ⟨fun x => h x.symm, h2⟩
      · refine .inr ⟨h1, ?_, ?_⟩
        · simp only [keysOf, List.map_cons, List.mem_cons]; exact .inr h2
        · simp only [keysOf, List.map_cons]; simp only [keysOf] at h3; rw [h3]

theorem updateChain_keys (k : Bytes) (f : HEntry α → HEntry α) (hf : ∀ e, (f e).key = e.key) (c : List (HEntry α)) :
    keysOf (updateChain k f c) = keysOf c := by
  induction c with
  | nil => rfl
  | cons e c ih =>
    simp only [updateChain]
    split
    · simp [keysOf, hf]
    · simp only [keysOf, List.map_cons]; simp only [keysOf] at ih; rw [ih]

theorem updateChain_find (k : Bytes) (f : HEntry α → HEntry α) (hf : ∀ e, (f e).key = e.key) (c : List (HEntry α))
    (k' : Bytes) : findEntry k' (updateChain k f c) = if k' = k then (findEntry k' c).map f else findEntry k' c := by
  induction c with
  | nil => simp [updateChain, findEntry]
  | cons e c ih =>
    simp only [updateChain]
    split
    · rename_i h
      simp only [findEntry, hf]
      by_cases hk : k' = k
      · subst hk; simp [h]
      · have hne : ¬ e.key = k' := by rw [h]; exact fun x => hk x.symm
        simp [hk, hne]
    · rename_i h
      simp only [findEntry, ih]
      by_cases hk : k' = k
      · subst hk; simp [h]
      · simp [hk]

theorem deleteChain_none {k : Bytes} {c : List (HEntry α)} (h : deleteChain k c = none) : k ∉ keysOf c := by
  induction c with
  | nil => simp [keysOf]
  | cons e c ih =>
    simp only [deleteChain] at h
    split at h
    · cases h
    · rename_i hk
      simp only [Option.map_eq_none_iff] at h
      simp only [keysOf, List.map_cons, List.mem_cons, not_or]
      exact ⟨fun x => hk x.symm, ih h⟩

theorem deleteChain_some {k : Bytes} {c d : List (HEntry α)} {v : Option α} (h : deleteChain k c = some (v, d)) :
    ∃ a e b, c = a ++ e :: b ∧ d = a ++ b ∧ e.key = k ∧ e.value = v ∧ k ∉ keysOf a := by
  induction c generalizing d with
  | nil => cases h
  | cons e c ih =>
    simp only [deleteChain] at h
    split at h
    · rename_i hk
      cases h
      exact ⟨[], e, c, rfl, rfl, hk, rfl, by simp [keysOf]⟩
    · rename_i hk
      simp only [Option.map_eq_some_iff] at h
      obtain ⟨⟨v', d'⟩, h1, h2⟩ := h
      cases h2
      obtain ⟨a, x, b, e1, e2, e3, e4, e5⟩ := ih h1
      refine ⟨e :: a, x, b, by simp [e1], by simp [e2], e3, e4, ?_⟩
      simp only [keysOf, List.map_cons, List.mem_cons, not_or]
      exact ⟨fun x => hk x.symm, e5⟩

/-! ## The representation invariant -/

/-- Bucket of a key. -/
def idx (hash : Bytes → BitVec 64) (n : Nat) (k : Bytes) : Nat := (hash k).toNat % n

theorem indexByKey_ok (hash : Bytes → BitVec 64) (k : Bytes) {n : Nat} (h1 : 1 ≤ n) (h2 : n ≤ 2147483647) :
    indexByKey hash k (n : Int) = .ok (idx hash n k : Int) := by
  unfold indexByKey VM.moduloUnsigned
  have hn : (BitVec.ofInt 64 (n : Int)).toNat = n := by
    simp [BitVec.toNat_ofInt]; omega
  rw [if_neg]
  · simp only [Out.ok_bind, hn, idx, BitVec.toNat_ofNat]
    have := Nat.mod_lt (hash k).toNat (by omega : 0 < n)
    rw [Nat.mod_eq_of_lt (by omega : (hash k).toNat % n < 2 ^ 64)]
  · intro h
    have := congrArg BitVec.toNat h
    rw [hn] at this
    simp at this
    omega

/-- Well-formed buckets. -/
structure Good (hash : Bytes → BitVec 64) (entries : List (List (HEntry α))) : Prop where
  pos : 1 ≤ entries.length
  small : entries.length ≤ 2147483647
  bucket : ∀ (i : Nat) (c : List (HEntry α)), entries[i]? = some c → ∀ e ∈ c, idx hash entries.length e.key = i
  nodup : (keysOf entries.flatten).Nodup

/-- The invariant of a `Hash` object. -/
structure Inv (hash : Bytes → BitVec 64) (h : Hash α) : Prop where
  good : Good hash h.entries
  count : h.keysLength = h.entries.flatten.length

/-- The map a `Hash` object stands for. -/
def toMap (h : Hash α) : Spec.Map.Map Bytes (Option α) := fun k => (findEntry k h.entries.flatten).map (·.value)

theorem keysOf_append (a b : List (HEntry α)) : keysOf (a ++ b) = keysOf a ++ keysOf b := by simp [keysOf]

/-- The chain of the bucket of `k`, and what surrounds it. -/
theorem Good.split {hash : Bytes → BitVec 64} {es : List (List (HEntry α))} (g : Good hash es) (k : Bytes) :
    ∃ A c B, es = A ++ c :: B ∧ A.length = idx hash es.length k ∧ k ∉ keysOf A.flatten ∧ k ∉ keysOf B.flatten := by
  have hi : idx hash es.length k < es.length := Nat.mod_lt _ g.pos
  refine ⟨es.take (idx hash es.length k), es[idx hash es.length k], es.drop (idx hash es.length k + 1), ?_, ?_, ?_, ?_⟩
  · rw [← List.drop_eq_getElem_cons hi, List.take_append_drop]
  · simp; omega
  · intro hk
    simp only [keysOf, List.mem_map, List.mem_flatten] at hk
    obtain ⟨e, ⟨c, hc, he⟩, rfl⟩ := hk
    obtain ⟨i, hi'⟩ := List.mem_iff_getElem?.1 hc
    rw [List.getElem?_take] at hi'
    split at hi'
    · have := g.bucket i c hi' e he; omega
    · cases hi'
  · intro hk
    simp only [keysOf, List.mem_map, List.mem_flatten] at hk
    obtain ⟨e, ⟨c, hc, he⟩, rfl⟩ := hk
    obtain ⟨i, hi'⟩ := List.mem_iff_getElem?.1 hc
    rw [List.getElem?_drop] at hi'
    have := g.bucket _ c hi' e he; omega

theorem find_flat {A B : List (List (HEntry α))} {c : List (HEntry α)} {k : Bytes}
    (h1 : k ∉ keysOf A.flatten) (h2 : k ∉ keysOf B.flatten) :
    findEntry k (A ++ c :: B).flatten = findEntry k c := by
  simp only [List.flatten_append, List.flatten_cons, findEntry_append, findEntry_none.2 h1, findEntry_none.2 h2]
  simp

theorem find_flat_other {A B : List (List (HEntry α))} {c d : List (HEntry α)} {k : Bytes}
    (h : findEntry k d = findEntry k c) : findEntry k (A ++ d :: B).flatten = findEntry k (A ++ c :: B).flatten := by
  simp only [List.flatten_append, List.flatten_cons, findEntry_append, h]

theorem aGet_mid {A B : List β} {c : β} {i : Int} (h : i = A.length) : aGet (A ++ c :: B) i = .ok c := by
  rw [aGet_ok (by omega) (by simp; omega)]
  simp [h]

theorem aSet_mid {A B : List β} {c d : β} {i : Int} (h : i = A.length) :
    aSet (A ++ c :: B) i d = .ok (A ++ d :: B) := by
  rw [aSet_ok (by omega) (by simp; omega)]
  simp [h]

/-- Replacing the chain of bucket `A.length`. -/
theorem Good.replace {hash : Bytes → BitVec 64} {A B : List (List (HEntry α))} {c d : List (HEntry α)}
    (g : Good hash (A ++ c :: B))
    (hb : ∀ e ∈ d, (∃ e' ∈ c, e.key = e'.key) ∨ idx hash (A ++ c :: B).length e.key = A.length)
    (hn : (keysOf (A ++ d :: B).flatten).Nodup) : Good hash (A ++ d :: B) where
  pos := by simp; omega
  small := by have := g.small; simp at this ⊢; omega
  nodup := hn
  bucket := by
    intro i x hx e he
    have hlen : (A ++ d :: B).length = (A ++ c :: B).length := by simp
    rw [hlen]
    by_cases hi : i = A.length
    · subst hi
      simp at hx
      subst hx
      rcases hb e he with ⟨e', h1, h2⟩ | h
      · rw [h2]; exact g.bucket A.length c (by simp) e' h1
      · exact h
    · refine g.bucket i x ?_ e he
      rw [← hx, List.getElem?_append, List.getElem?_append]
      split
      · rfl
      · have : ∃ j, i - A.length = j + 1 := ⟨i - A.length - 1, by omega⟩
        obtain ⟨j, hj⟩ := this
        rw [hj]; simp

theorem nodup_mid {a b c d : List (HEntry α)} (h : (keysOf (a ++ (c ++ b))).Nodup) (hk : keysOf d = keysOf c) :
    (keysOf (a ++ (d ++ b))).Nodup := by
  simp only [keysOf_append, hk] at h ⊢; exact h

/-- `_set_to_container`. -/
theorem setToContainer_ok {hash : Bytes → BitVec 64} {es : List (List (HEntry α))} (g : Good hash es) {n : Int}
    (hn : -2147483648 ≤ n) (hn' : n < 2147483647) (k : Bytes) (v : Option α) :
    ∃ es' n', setToContainer hash es (es.length : Int) n k v = .ok (es', n') ∧ Good hash es' ∧ es'.length = es.length ∧
      (∀ k', findEntry k' es'.flatten = if k' = k then some ⟨k, v, false⟩ else findEntry k' es.flatten) ∧
      ((k ∉ keysOf es.flatten ∧ n' = n + 1 ∧ es'.flatten.length = es.flatten.length + 1) ∨
       (k ∈ keysOf es.flatten ∧ n' = n ∧ es'.flatten.length = es.flatten.length)) := by
  obtain ⟨A, c, B, he, hA, hkA, hkB⟩ := g.split k
  have hidx := indexByKey_ok hash k g.pos g.small
  have hAl : idx hash es.length k = A.length := hA.symm
  rw [hAl] at hidx
  unfold setToContainer
  rw [hidx]
  subst he
  simp only [Out.ok_bind]
  rw [aGet_mid rfl]
  simp only [Out.ok_bind]
  rw [aSet_mid rfl]
  simp only [Out.ok_bind]
  have hfind : ∀ k', findEntry k' (A ++ (setChain k v c).1 :: B).flatten =
      if k' = k then some ⟨k, v, false⟩ else findEntry k' (A ++ c :: B).flatten := by
    intro k'
    have hs := setChain_find k v c k'
    split
    · rename_i h; subst h
      rw [find_flat hkA hkB, hs]; simp
    · rename_i h
      rw [if_neg h] at hs
      exact find_flat_other hs
  have hmem : k ∈ keysOf (A ++ c :: B).flatten ↔ k ∈ keysOf c := by
    simp only [List.flatten_append, List.flatten_cons, keysOf_append, List.mem_append, hkA, hkB]; simp
  rcases setChain_added k v c with ⟨h1, h2, h3⟩ | ⟨h1, h2, h3⟩
  · rw [h1]
    simp only [if_true]
    rw [add32_ok (by unfold I32; omega)]
    refine ⟨_, _, rfl, ?_, by simp, hfind, .inl ⟨fun h => h2 (hmem.1 h), rfl, ?_⟩⟩
    · refine g.replace ?_ ?_
      · intro e he
        rw [h3] at he
        rcases List.mem_append.1 he with he | he
        · exact .inl ⟨e, he, rfl⟩
        · simp at he; subst he; exact .inr hAl
      · rw [h3]
        have := g.nodup
        simp only [List.flatten_append, List.flatten_cons, keysOf_append] at this ⊢
        have e1 : keysOf [⟨k, v, false⟩] = ([k] : List Bytes) := rfl
        have e2 : (keysOf (α := α) [⟨k, v, false⟩]) = [k] := rfl
        rw [e2]
        have hp : (keysOf A.flatten ++ (keysOf c ++ [k] ++ keysOf B.flatten)).Perm
            (k :: (keysOf A.flatten ++ (keysOf c ++ keysOf B.flatten))) := by
          rw [List.append_assoc, ← List.append_assoc (keysOf A.flatten)]
          rw [← List.append_assoc (keysOf A.flatten) (keysOf c)]
          exact List.perm_middle
        rw [hp.nodup_iff, List.nodup_cons]
        exact ⟨by simp [hkA, hkB, h2], this⟩
    · rw [h3]; simp; omega
  · rw [h1]
    simp only [Bool.false_eq_true, if_false]
    refine ⟨_, _, rfl, ?_, by simp, hfind, .inr ⟨hmem.2 h2, rfl, ?_⟩⟩
    · refine g.replace ?_ ?_
      · intro e he
        have : e.key ∈ keysOf (setChain k v c).1 := List.mem_map_of_mem he
        rw [h3] at this
        obtain ⟨e', a1, a2⟩ := List.mem_map.1 this
        exact .inl ⟨e', a1, a2.symm⟩
      · have := g.nodup
        simp only [List.flatten_append, List.flatten_cons] at this ⊢
        exact nodup_mid this h3
    · have := congrArg List.length h3
      simp [keysOf] at this
      simp [this]

/-! ## Rehash -/

/-- State of the rebuild after the entries `p`. -/
structure Built (hash : Bytes → BitVec 64) (n : Nat) (p : List (HEntry α)) (s : List (List (HEntry α)) × Int) : Prop where
  good : Good hash s.1
  len : s.1.length = n
  cnt : s.2 = p.length
  flat : s.1.flatten.length = p.length
  find : ∀ k, findEntry k s.1.flatten = (findEntry k p).map (fun e => { e with weak := false })

theorem mem_keysOf_of_find {a b : List (HEntry α)} {k : Bytes} {f : HEntry α → HEntry α}
    (h : findEntry k a = (findEntry k b).map f) : k ∈ keysOf a ↔ k ∈ keysOf b := by
  have h1 := findEntry_none (k := k) (l := a)
  have h2 := findEntry_none (k := k) (l := b)
  rw [h, Option.map_eq_none_iff, h2] at h1
  constructor <;> intro h <;> apply Classical.byContradiction <;> intro h' <;> simp_all

theorem rehashChain_ok {hash : Bytes → BitVec 64} {n : Nat} (c : List (HEntry α)) {p : List (HEntry α)}
    {s : List (List (HEntry α)) × Int} (b : Built hash n p s) (hn : (keysOf (p ++ c)).Nodup)
    (hl : (p ++ c).length ≤ 2147483647) :
    ∃ s', rehashChain hash n c s = .ok s' ∧ Built hash n (p ++ c) s' := by
  induction c generalizing p s with
  | nil => exact ⟨s, rfl, by simpa using b⟩
  | cons e c ih =>
    simp only [rehashChain]
    have hc := b.cnt
    simp at hl
    obtain ⟨es', n', h1, h2, h3, h4, h5⟩ := setToContainer_ok b.good (n := s.2) (by omega) (by omega) e.key e.value
    rw [b.len] at h1
    rw [h1]
    simp only [Out.ok_bind]
    have hne : e.key ∉ keysOf p := by
      simp only [keysOf_append, List.nodup_append] at hn
      intro h
      exact hn.2.2 _ h e.key (by simp [keysOf]) rfl
    have hne' : e.key ∉ keysOf s.1.flatten := fun h => hne ((mem_keysOf_of_find (b.find e.key)).1 h)
    have hadd : n' = s.2 + 1 ∧ es'.flatten.length = s.1.flatten.length + 1 := by
      rcases h5 with h | h
      · exact h.2
      · exact absurd h.1 hne'
    have b' : Built hash n (p ++ [e]) (es', n') := by
      refine ⟨h2, by rw [h3, b.len], by simp; omega, by have := b.flat; rw [hadd.2, this]; simp, ?_⟩
      intro k
      rw [h4 k]
      rw [findEntry_append]
      split
      · rename_i hk
        subst hk
        rw [findEntry_none.2 hne]
        simp [findEntry]
      · rename_i hk
        rw [b.find k]
        have : findEntry k [e] = none := by simp [findEntry]; exact fun h => hk h.symm
        rw [this]; simp
    have := ih b' (by simpa using hn) (by simp; omega)
    simpa using this

theorem good_replicate (hash : Bytes → BitVec 64) {n : Nat} (h1 : 1 ≤ n) (h2 : n ≤ 2147483647) :
    Good (α := α) hash (List.replicate n []) where
  pos := by simpa using h1
  small := by simpa using h2
  bucket := by
    intro i c h e he
    rw [List.getElem?_replicate] at h
    split at h
    · cases h; cases he
    · cases h
  nodup := by simp [keysOf]

theorem toMap_weak {a b : List (HEntry α)} (f : HEntry α → HEntry α) (hf : ∀ e, (f e).value = e.value) {k : Bytes}
    (h : findEntry k a = (findEntry k b).map f) : (findEntry k a).map (·.value) = (findEntry k b).map (·.value) := by
  rw [h]
  cases findEntry k b <;> simp [hf]

theorem rehash_cases {hash : Bytes → BitVec 64} {limit : Nat} {h : Hash α} (i : Inv hash h)
    (hk : h.keysLength ≤ 2147483647) :
    (∃ es', rehash hash limit h = (.ok (), ⟨h.keysLength, es'⟩) ∧ Inv hash ⟨h.keysLength, es'⟩ ∧
      es'.length = 2 * h.entries.length ∧ es'.length ≤ limit ∧
      ∀ k, findEntry k es'.flatten = (findEntry k h.entries.flatten).map (fun e => { e with weak := false })) ∨
    (rehash hash limit h = (.die msgNewArrayMem, h) ∧ limit < 2 * h.entries.length) ∨
    (rehash hash limit h = (.ub, h) ∧ 2147483647 < 2 * h.entries.length) := by
  have hp := i.good.pos
  unfold rehash
  simp only [Prog.get_bind_apply]
  by_cases hb : alen h.entries * 2 ≤ 2147483647
  · rw [mul32_ok (by unfold I32; have := alen_nonneg h.entries; omega)]
    simp only [Prog.lift_ok_bind]
    simp only [alen] at hb ⊢
    unfold newArray
    rw [if_pos (by omega)]
    have ht : ((h.entries.length : Int) * 2).toNat = 2 * h.entries.length := by omega
    rw [ht]
    by_cases hl : 2 * h.entries.length ≤ limit
    · rw [if_pos hl]
      simp only [Prog.lift_ok_bind]
      have hcnt := i.count
      obtain ⟨s, h1, h2⟩ := forLoop_inv (start := 0) (n := h.entries.length)
        (body := fun i s => do
          let chain ← aGet h.entries i
          rehashChain hash ((h.entries.length : Int) * 2) chain s)
        (s := (List.replicate (2 * h.entries.length) [], (0 : Int)))
        (fun i s => Built hash (2 * h.entries.length) (h.entries.take i).flatten s)
        (by
          refine ⟨good_replicate hash (by omega) (by omega), by simp, by simp, by simp, ?_⟩
          intro k; simp [findEntry])
        (by
          intro j s _ hj b
          simp only [Nat.zero_add] at hj
          rw [aGet_ok (by omega) (by simpa using hj)]
          simp only [Out.ok_bind, Int.toNat_natCast]
          have hcast : ((h.entries.length : Int) * 2) = ((2 * h.entries.length : Nat) : Int) := by omega
          rw [hcast]
          have hsplit : (h.entries.take (j + 1)).flatten = (h.entries.take j).flatten ++ h.entries[j] := by
            rw [List.take_succ_eq_append_getElem hj, List.flatten_append, List.flatten_singleton]
          have hpre : (h.entries.take j).flatten ++ h.entries[j] ++ (h.entries.drop (j + 1)).flatten = h.entries.flatten := by
            rw [← hsplit, ← List.flatten_append, List.take_append_drop]
          rw [hsplit]
          apply rehashChain_ok _ b
          · have hnn := i.good.nodup
            rw [← hpre, keysOf_append, List.nodup_append] at hnn
            exact hnn.1
          · have := congrArg List.length hpre
            rw [List.length_append] at this
            omega)
      rw [h1]
      simp only [Prog.lift_ok_bind, Prog.set_apply]
      simp only [Nat.zero_add, List.take_length] at h2
      exact .inl ⟨s.1, rfl, ⟨h2.good, by rw [hcnt, h2.flat]⟩, h2.len, by rw [h2.len]; exact hl, h2.find⟩
    · rw [if_neg hl]
      exact .inr (.inl ⟨rfl, by omega⟩)
  · unfold mul32 chk32
    rw [if_neg (by unfold I32; omega)]
    exact .inr (.inr ⟨rfl, by simp only [alen] at hb; omega⟩)

theorem maybeRehash_cases {hash : Bytes → BitVec 64} {limit : Nat} {h : Hash α} (i : Inv hash h)
    (hk : h.keysLength ≤ 2147483647) :
    (∃ es', maybeRehash hash limit h = (.ok (), ⟨h.keysLength, es'⟩) ∧ Inv hash ⟨h.keysLength, es'⟩ ∧
      ((overloaded h ∧ es'.length = 2 * h.entries.length ∧ es'.length ≤ limit ∧
        ∀ k, findEntry k es'.flatten = (findEntry k h.entries.flatten).map (fun e => { e with weak := false })) ∨
       (¬ overloaded h ∧ es' = h.entries))) ∨
    (maybeRehash hash limit h = (.die msgNewArrayMem, h) ∧ overloaded h ∧ limit < 2 * h.entries.length) ∨
    (maybeRehash hash limit h = (.ub, h) ∧ overloaded h ∧ 2147483647 < 2 * h.entries.length) := by
  unfold maybeRehash
  simp only [Prog.get_bind_apply, Prog.ite_apply]
  by_cases ho : overloaded h
  · rw [if_pos ho]
    rcases rehash_cases (limit := limit) i hk with ⟨es', h1, h2, h3, h3', h4⟩ | ⟨h1, h2⟩ | ⟨h1, h2⟩
    · exact .inl ⟨es', h1, h2, .inl ⟨ho, h3, h3', h4⟩⟩
    · exact .inr (.inl ⟨h1, ho, h2⟩)
    · exact .inr (.inr ⟨h1, ho, h2⟩)
  · rw [if_neg ho]
    exact .inl ⟨h.entries, rfl, i, .inr ⟨ho, rfl⟩⟩

/-- `set`. -/
theorem set_cases {hash : Bytes → BitVec 64} {limit : Nat} {h : Hash α} (i : Inv hash h)
    (hk : h.keysLength < 2147483647) (k : Bytes) (v : Option α) :
    (∃ h', set hash limit (some k) v h = (.ok (), h') ∧ Inv hash h' ∧
      h'.keysLength = h.keysLength + (if k ∈ keysOf h.entries.flatten then 0 else 1) ∧
      ((overloaded h ∧ h'.entries.length = 2 * h.entries.length ∧ h'.entries.length ≤ limit ∧ ∀ k', findEntry k' h'.entries.flatten =
          if k' = k then some ⟨k, v, false⟩ else (findEntry k' h.entries.flatten).map (fun e => { e with weak := false })) ∨
       (¬ overloaded h ∧ h'.entries.length = h.entries.length ∧ ∀ k', findEntry k' h'.entries.flatten =
          if k' = k then some ⟨k, v, false⟩ else findEntry k' h.entries.flatten))) ∨
    (set hash limit (some k) v h = (.die msgNewArrayMem, h) ∧ overloaded h ∧ limit < 2 * h.entries.length) ∨
    (set hash limit (some k) v h = (.ub, h) ∧ overloaded h ∧ 2147483647 < 2 * h.entries.length) := by
  simp only [set]
  rcases maybeRehash_cases (limit := limit) i (by omega) with ⟨es', h1, h2, h3⟩ | ⟨h1, h2⟩ | ⟨h1, h2⟩
  · rw [Prog.bind_ok h1]
    simp only [Prog.get_bind_apply]
    have hc := i.count
    obtain ⟨es2, n2, e1, e2, e3, e4, e5⟩ := setToContainer_ok h2.good (n := h.keysLength) (by omega) (by omega) k v
    simp only [alen]
    simp only at e1
    rw [e1]
    simp only [Prog.lift_ok_bind, Prog.set_apply]
    have hmem : k ∈ keysOf es'.flatten ↔ k ∈ keysOf h.entries.flatten := by
      rcases h3 with ⟨_, _, _, h3⟩ | ⟨_, rfl⟩
      · exact mem_keysOf_of_find (h3 k)
      · rfl
    refine .inl ⟨_, rfl, ⟨e2, ?_⟩, ?_, ?_⟩
    · have := h2.count
      simp only at this e5 ⊢
      rcases e5 with ⟨_, e5, e6⟩ | ⟨_, e5, e6⟩ <;> omega
    · simp only at e5 ⊢
      rw [hmem] at e5
      rcases e5 with ⟨e7, e5, e6⟩ | ⟨e7, e5, e6⟩
      · rw [if_neg e7]; omega
      · rw [if_pos e7]; omega
    · rcases h3 with ⟨ho, h3, h3', h4⟩ | ⟨ho, rfl⟩
      · refine .inl ⟨ho, by simp only at e3 ⊢; omega, by simp only at e3 ⊢; omega, ?_⟩
        intro k'
        simp only at e4 ⊢
        rw [e4 k', h4 k']
      · exact .inr ⟨ho, e3, e4⟩
  · exact .inr (.inl ⟨Prog.bind_die h1, h2⟩)
  · exact .inr (.inr ⟨by simp [Prog.bind_apply, h1], h2⟩)

/-! ## Lookup -/

theorem getEntry_ok {hash : Bytes → BitVec 64} {h : Hash α} (i : Inv hash h) (k : Bytes) :
    getEntry hash h (some k) = .ok (findEntry k h.entries.flatten) := by
  obtain ⟨A, c, B, he, hA, hkA, hkB⟩ := i.good.split k
  have hidx := indexByKey_ok hash k i.good.pos i.good.small
  rw [← hA] at hidx
  simp only [getEntry, alen]
  rw [hidx]
  simp only [Out.ok_bind]
  rw [he, aGet_mid rfl, find_flat hkA hkB]
  rfl

theorem updateEntry_ok {hash : Bytes → BitVec 64} {h : Hash α} (i : Inv hash h) (k : Bytes) (f : HEntry α → HEntry α)
    (hf : ∀ e, (f e).key = e.key) :
    ∃ h', updateEntry hash (some k) f h = (.ok (), h') ∧ Inv hash h' ∧ h'.keysLength = h.keysLength ∧
      h'.entries.length = h.entries.length ∧
      keysOf h'.entries.flatten = keysOf h.entries.flatten ∧
      ∀ k', findEntry k' h'.entries.flatten =
        if k' = k then (findEntry k' h.entries.flatten).map f else findEntry k' h.entries.flatten := by
  have hg := getEntry_ok i k
  obtain ⟨A, c, B, he, hA, hkA, hkB⟩ := i.good.split k
  have hidx := indexByKey_ok hash k i.good.pos i.good.small
  rw [← hA] at hidx
  obtain ⟨n, es⟩ := h
  simp only at he hidx
  subst he
  simp only [updateEntry, Prog.get_bind_apply]
  rw [hg]
  simp only [Prog.lift_ok_bind, Option.getD_some, alen]
  rw [hidx]
  simp only [Prog.lift_ok_bind]
  rw [aGet_mid rfl]
  simp only [Prog.lift_ok_bind]
  rw [aSet_mid rfl]
  simp only [Prog.lift_ok_bind, Prog.set_apply]
  have hk := updateChain_keys k f hf c
  refine ⟨_, rfl, ⟨?_, ?_⟩, rfl, by simp, ?_, ?_⟩
  · refine i.good.replace ?_ ?_
    · intro e he
      have : e.key ∈ keysOf (updateChain k f c) := List.mem_map_of_mem he
      rw [hk] at this
      obtain ⟨e', a1, a2⟩ := List.mem_map.1 this
      exact .inl ⟨e', a1, a2.symm⟩
    · have := i.good.nodup
      simp only [List.flatten_append, List.flatten_cons] at this ⊢
      exact nodup_mid this hk
  · have := i.count
    have h2 := congrArg List.length hk
    simp [keysOf] at h2
    simp [h2] at this ⊢; omega
  · simp only [List.flatten_append, List.flatten_cons, keysOf_append, hk]
  · intro k'
    have hs := updateChain_find k f hf c k'
    simp only
    split
    · rename_i h; subst h
      rw [find_flat hkA hkB, hs, find_flat hkA hkB]; simp
    · rename_i h
      rw [if_neg h] at hs
      exact find_flat_other hs

/-- `delete`. -/
theorem delete_ok {hash : Bytes → BitVec 64} {h : Hash α} (i : Inv hash h) (hk : h.keysLength ≤ 2147483647) (k : Bytes) :
    ∃ h', delete hash (some k) h = (.ok ((findEntry k h.entries.flatten).bind (·.value)), h') ∧ Inv hash h' ∧
      h'.keysLength ≤ h.keysLength ∧ h'.entries.length = h.entries.length ∧
      ∀ k', findEntry k' h'.entries.flatten = if k' = k then none else findEntry k' h.entries.flatten := by
  obtain ⟨A, c, B, he, hA, hkA, hkB⟩ := i.good.split k
  have hidx := indexByKey_ok hash k i.good.pos i.good.small
  rw [← hA] at hidx
  obtain ⟨n, es⟩ := h
  simp only at he hidx
  subst he
  simp only [delete, Prog.get_bind_apply, alen]
  rw [hidx]
  simp only [Prog.lift_ok_bind]
  rw [aGet_mid rfl]
  simp only [Prog.lift_ok_bind]
  cases hd : deleteChain k c with
  | none =>
    have hn := deleteChain_none hd
    simp only [finishDelete, Prog.pure_apply]
    have hf : findEntry k (A ++ c :: B).flatten = none := by rw [find_flat hkA hkB]; exact findEntry_none.2 hn
    refine ⟨_, by rw [hf]; rfl, i, by simp, rfl, ?_⟩
    intro k'
    simp only
    split
    · rename_i h; subst h; exact hf
    · rfl
  | some r =>
    obtain ⟨v, d⟩ := r
    obtain ⟨a, e, b, e1, e2, e3, e4, e5⟩ := deleteChain_some hd
    have hc := i.count
    have hflat : (A ++ c :: B).flatten.length = (A ++ d :: B).flatten.length + 1 := by
      rw [e1, e2]; simp; omega
    simp only [finishDelete]
    rw [aSet_mid rfl]
    simp only [Prog.lift_ok_bind]
    simp only at hc hk
    rw [sub32_ok (by unfold I32; omega)]
    simp only [Prog.lift_ok_bind, Prog.set_bind_apply, Prog.pure_apply]
    have hfe : findEntry k c = some e := by
      rw [e1, findEntry_append, findEntry_none.2 e5]
      simp [findEntry, e3]
    have hnodc : (keysOf c).Nodup := by
      have := i.good.nodup
      simp only [List.flatten_append, List.flatten_cons, keysOf_append, List.nodup_append] at this
      exact this.2.1.1
    have hkd : k ∉ keysOf d := by
      rw [e1] at hnodc
      rw [e2]
      rw [keysOf_append, List.nodup_append] at hnodc
      simp only [keysOf, List.map_cons, List.nodup_cons] at hnodc
      simp only [keysOf_append, List.mem_append, not_or]
      exact ⟨e5, by rw [← e3]; exact hnodc.2.1.1⟩
    have hsub : (keysOf d).Sublist (keysOf c) := by
      rw [e1, e2]
      simp [keysOf]
    refine ⟨⟨n - 1, A ++ d :: B⟩, by rw [find_flat hkA hkB, hfe]; simp [e4], ⟨?_, ?_⟩, by simp only; omega, by simp, ?_⟩
    · refine i.good.replace ?_ ?_
      · intro x hx
        refine .inl ⟨x, ?_, rfl⟩
        rw [e2] at hx
        rw [e1]
        simp at hx ⊢
        rcases hx with hx | hx <;> simp [hx]
      · have := i.good.nodup
        simp only [List.flatten_append, List.flatten_cons, keysOf_append] at this ⊢
        exact this.sublist (List.Sublist.append_left (List.Sublist.append_right hsub _) _)
    · simp only; omega
    · intro k'
      simp only
      split
      · rename_i h; subst h
        rw [find_flat hkA hkB]; exact findEntry_none.2 hkd
      · rename_i h
        apply find_flat_other
        rw [e1, e2, findEntry_append, findEntry_append]
        have : findEntry k' (e :: b) = findEntry k' b := by
          simp only [findEntry]; rw [if_neg (by rw [e3]; exact fun x => h x.symm)]
        rw [this]

/-! ## Enumeration -/

theorem writeChain_cons (f : HEntry α → β) {e : HEntry α} {es : List (HEntry α)} {a a' : List β} {n n' : Int}
    (h1 : aSet a n (f e) = .ok a') (h2 : add32 n 1 = .ok n') : writeChain f (e :: es) (a, n) = writeChain f es (a', n') := by
  simp [writeChain, h1, h2]

theorem writeChain_ok (f : HEntry α → β) (u : β) {N : Nat} (hN : (N : Int) ≤ 2147483647) (c : List (HEntry α)) (p : List (HEntry α))
    (hl : (p ++ c).length ≤ N) :
    writeChain f c (p.map f ++ List.replicate (N - p.length) u, (p.length : Int)) =
      .ok ((p ++ c).map f ++ List.replicate (N - (p ++ c).length) u, ((p ++ c).length : Int)) := by
  induction c generalizing p with
  | nil => simp [writeChain]
  | cons e c ih =>
    simp at hl
    have hr : List.replicate (N - p.length) u = u :: List.replicate (N - (p ++ [e]).length) u := by
      have hm : N - p.length = (N - (p ++ [e]).length) + 1 := by rw [List.length_append, List.length_singleton]; omega
      rw [hm, List.replicate_succ]
    have h3 : add32 (p.length : Int) 1 = .ok ((p.length : Int) + 1) := add32_ok (by unfold I32; omega)
    rw [hr, writeChain_cons f (aSet_mid (by rw [List.length_map])) h3]
    have h4 := ih (p ++ [e]) (by rw [List.length_append, List.length_append, List.length_singleton]; omega)
    rw [List.map_append, List.append_assoc, List.append_assoc, List.length_append, List.length_singleton] at h4
    simp only [List.map_cons, List.map_nil, List.singleton_append, List.nil_append, List.cons_append] at h4
    rw [List.length_append, List.length_singleton]
    exact h4

theorem collect_cases (limit : Nat) (u : β) (f : HEntry α → β) {hash : Bytes → BitVec 64} {h : Hash α} (i : Inv hash h)
    (hk : h.keysLength ≤ 2147483647) :
    (h.keysLength ≤ limit ∧ collect limit u f h = .ok (h.entries.flatten.map f)) ∨
    (limit < h.keysLength ∧ collect limit u f h = .die msgNewArrayMem) := by
  have hc := i.count
  unfold collect newArray
  rw [if_pos (by omega)]
  by_cases hl : h.keysLength ≤ limit
  · rw [if_pos (by omega)]
    simp only [Out.ok_bind]
    refine .inl ⟨hl, ?_⟩
    have hN : h.keysLength.toNat = h.entries.flatten.length := by omega
    rw [hN]
    obtain ⟨s, h1, h2⟩ := forLoop_inv (start := 0) (n := h.entries.length)
        (body := fun i s => do
          let chain ← aGet h.entries i
          writeChain f chain s)
        (s := (List.replicate h.entries.flatten.length u, (0 : Int)))
        (fun i s => s = ((h.entries.take i).flatten.map f ++
          List.replicate (h.entries.flatten.length - (h.entries.take i).flatten.length) u, ((h.entries.take i).flatten.length : Int)))
        (by simp)
        (by
          intro j s _ hj hs
          simp only [Nat.zero_add] at hj
          rw [aGet_ok (by omega) (by simpa using hj)]
          simp only [Out.ok_bind, Int.toNat_natCast]
          have hsplit : (h.entries.take (j + 1)).flatten = (h.entries.take j).flatten ++ h.entries[j] := by
            rw [List.take_succ_eq_append_getElem hj, List.flatten_append, List.flatten_singleton]
          have hpre : (h.entries.take j).flatten ++ h.entries[j] ++ (h.entries.drop (j + 1)).flatten = h.entries.flatten := by
            rw [← hsplit, ← List.flatten_append, List.take_append_drop]
          have := congrArg List.length hpre
          rw [List.length_append] at this
          refine ⟨_, ?_, rfl⟩
          rw [hs, hsplit]
          exact writeChain_ok f u (by omega) _ _ (by omega))
    rw [h1]
    simp only [Nat.zero_add, List.take_length, Nat.sub_self, List.replicate_zero, List.append_nil] at h2
    rw [h2]; rfl
  · rw [if_neg (by omega)]
    exact .inr ⟨by omega, rfl⟩

theorem toMap_enumerates {hash : Bytes → BitVec 64} {h : Hash α} (i : Inv hash h) :
    Spec.Map.Enumerates h.toMap (keysOf h.entries.flatten) := by
  refine ⟨i.good.nodup, fun k => ?_⟩
  have := findEntry_none (k := k) (l := h.entries.flatten)
  simp only [toMap, ne_eq, Option.map_eq_none_iff, this, Classical.not_not]

theorem toArrayBody_ok {hash : Bytes → BitVec 64} {h : Hash α} {ks : List (Option Bytes)} {i : Nat} {k : Option Bytes}
    {v : Option α} {j : Int} {a a1 a2 : List (Item α)} (h1 : aGet ks i = .ok k) (h2 : mul32 i 2 = .ok j)
    (h3 : aSet a j (Item.key k) = .ok a1) (h4 : (get hash k h).1 = .ok v) (h5 : add32 j 1 = .ok (j + 1))
    (h6 : aSet a1 (j + 1) (Item.value v) = .ok a2) : toArrayBody hash h ks i a = .ok a2 := by
  unfold toArrayBody
  rw [h1, Out.ok_bind, h2, Out.ok_bind, h3, Out.ok_bind, h4, Out.ok_bind, h5, Out.ok_bind, h6]

theorem toArray_ok {hash : Bytes → BitVec 64} {limit : Nat} {h : Hash α} (i : Inv hash h)
    (hl : 2 * h.keysLength ≤ limit) (hlim : limit ≤ 2147483647) :
    toArray hash limit h = .ok (h.entries.flatten.flatMap (fun e => [Item.key (some e.key), Item.value e.value])) := by
  have hc := i.count
  rcases collect_cases limit (none : Option Bytes) (fun e => some e.key) i (by omega) with ⟨_, h1⟩ | ⟨h0, _⟩
  · unfold toArray keys
    simp only [Prog.get_bind_apply, Prog.lift_apply]
    rw [h1]
    simp only [Out.ok_bind, alen, List.length_map]
    rw [mul32_ok (by unfold I32; omega)]
    simp only [Out.ok_bind]
    unfold newArray
    rw [if_pos (by omega), if_pos (by omega)]
    simp only [Out.ok_bind]
    have hN : ((h.entries.flatten.length : Int) * 2).toNat = 2 * h.entries.flatten.length := by omega
    rw [hN]
    generalize hg : (fun e : HEntry α => [Item.key (some e.key), Item.value e.value]) = g
    have glen : ∀ l : List (HEntry α), (l.flatMap g).length = 2 * l.length := by
      intro l
      induction l with
      | nil => rfl
      | cons x l ih => rw [List.flatMap_cons, List.length_append, ih, ← hg]; simp only [List.length_cons, List.length_nil]; omega
    obtain ⟨s, h1, h2⟩ := forLoop_inv (start := 0) (n := h.entries.flatten.length)
        (body := toArrayBody hash h (h.entries.flatten.map (fun e => some e.key)))
        (s := List.replicate (2 * h.entries.flatten.length) (Item.value none))
        (fun i s => s = (h.entries.flatten.take i).flatMap g ++ List.replicate (2 * (h.entries.flatten.length - i)) (Item.value none))
        (by simp)
        (by
          intro j s _ hj hs
          simp only [Nat.zero_add] at hj
          have g1 : aGet (h.entries.flatten.map (fun e => some e.key)) (j : Int) = .ok (some h.entries.flatten[j].key) := by
            rw [aGet_ok (by omega) (by rw [List.length_map]; omega)]
            simp only [Int.toNat_natCast, List.getElem_map]
          have i2 : I32 ((j : Int) * 2) := by constructor <;> omega
          have g2 := mul32_ok i2
          have i5 : I32 ((j : Int) * 2 + 1) := by constructor <;> omega
          have g5 := add32_ok i5
          have hr : List.replicate (2 * (h.entries.flatten.length - j)) (Item.value (none : Option α)) =
              .value none :: .value none :: List.replicate (2 * (h.entries.flatten.length - (j + 1))) (Item.value none) := by
            have hm : 2 * (h.entries.flatten.length - j) = 2 * (h.entries.flatten.length - (j + 1)) + 1 + 1 := by omega
            rw [hm, List.replicate_succ, List.replicate_succ]
          have hmin : ((h.entries.flatten.take j).flatMap g).length = 2 * j := by rw [glen, List.length_take]; omega
          have hget : (get hash (some h.entries.flatten[j].key) h).1 = .ok h.entries.flatten[j].value := by
            unfold get
            simp only [Prog.get_bind_apply]
            rw [getEntry_ok i, findEntry_of_mem i.good.nodup (List.getElem_mem hj)]
            rfl
          have hcat : List.flatMap g (List.take j h.entries.flatten) ++
              Item.key (some h.entries.flatten[j].key) :: Item.value none ::
                List.replicate (2 * (h.entries.flatten.length - (j + 1))) (Item.value none) =
              (List.flatMap g (List.take j h.entries.flatten) ++ [Item.key (some h.entries.flatten[j].key)]) ++
               Item.value none :: List.replicate (2 * (h.entries.flatten.length - (j + 1))) (Item.value none) := by simp
          rw [hs, hr]
          refine ⟨_, toArrayBody_ok g1 g2 (aSet_mid (by rw [hmin]; omega)) hget g5
            (by rw [hcat]; exact aSet_mid (by rw [List.length_append, hmin, List.length_singleton]; omega)), ?_⟩
          rw [List.take_succ_eq_append_getElem hj]
          simp only [List.flatMap_append, List.flatMap_singleton, ← hg, List.append_assoc, List.cons_append, List.nil_append])
    simp only [Nat.zero_add, List.take_length, Nat.sub_self, Nat.mul_zero, List.replicate_zero, List.append_nil] at h2
    rw [h1, h2]
  · omega

end Hash
end SPVM
