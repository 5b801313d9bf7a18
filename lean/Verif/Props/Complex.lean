import Verif.Spec.Complex
import Verif.Props.ArrayAny

/-!
# C92 — Arrays of complex numbers are the sequences of their parts

`Complex_2d` and `Complex_2f`: an array made from pairs has the pairs' numbers as real and imaginary parts, `to_pairs` gives the pairs back,
`to_re_array` and `to_im_array` give the parts, and arrays made from one part have zero as the other.
-/

namespace SPVM.Complex

open FnMem VM ArrayAny

/-! ### Memory -/

theorem sized_memory {es : Nat} {z : List Z} (h : Parts es z) : Sized (es + es) (memory z) := by
  intro e he
  obtain ⟨c, hc, rfl⟩ := List.mem_map.1 he
  rw [List.length_append, (h c hc).1, (h c hc).2]

theorem flatten_memory : ∀ (z : List Z), (memory z).flatten = (pairsOf z).flatten
  | [] => rfl
  | c :: z => by
    have ih := flatten_memory z
    unfold memory pairsOf at *
    simp only [List.map_cons, List.flatten_cons, List.flatMap_cons, List.flatten_append, ih, List.flatten_nil, List.append_nil]

theorem length_pairsOf : ∀ (z : List Z), (pairsOf z).length = 2 * z.length
  | [] => rfl
  | c :: z => by
    have ih := length_pairsOf z
    unfold pairsOf at *
    simp only [List.flatMap_cons, List.length_append, ih, List.length_cons, List.length_nil]
    omega

theorem sized_pairsOf {es : Nat} {z : List Z} (h : Parts es z) : Sized es (pairsOf z) := by
  intro e he
  obtain ⟨c, hc, hm⟩ := List.mem_flatMap.1 he
  rcases List.mem_cons.1 hm with rfl | hm
  · exact (h c hc).1
  · rw [List.mem_singleton.1 hm]; exact (h c hc).2

theorem cells_flatten {es : Nat} : ∀ {x : List Bytes}, Sized es x → cells es x.length x.flatten = x
  | [], _ => rfl
  | e :: x, h => by
    have he := h e List.mem_cons_self
    rw [List.length_cons, cells, List.flatten_cons]
    rw [show (e ++ x.flatten).take es = e by rw [← he, List.take_left], show (e ++ x.flatten).drop es = x.flatten by rw [← he, List.drop_left],
      cells_flatten (fun e' h' => h e' (List.mem_cons_of_mem _ h'))]

theorem complexes_memory {es : Nat} {z : List Z} (h : Parts es z) : complexes es z.length (memory z).flatten = z := by
  unfold complexes
  have : cells (es + es) z.length (memory z).flatten = memory z := by
    have := cells_flatten (sized_memory h)
    rw [show (memory z).length = z.length from List.length_map _] at this
    exact this
  rw [this]
  unfold memory
  rw [List.map_map]
  conv => rhs; rw [← List.map_id z]
  refine List.map_congr_left fun c hc => ?_
  show ((c.1 ++ c.2).take es, (c.1 ++ c.2).drop es) = c
  rw [show (c.1 ++ c.2).take es = c.1 by rw [← (h c hc).1, List.take_left], show (c.1 ++ c.2).drop es = c.2 by rw [← (h c hc).1, List.drop_left]]

/-- A list of even length is a list of pairs. -/
theorem exists_pairs : ∀ (n : Nat) (p : List Bytes), p.length = 2 * n → ∃ z, pairsOf z = p
  | 0, [], _ => ⟨[], rfl⟩
  | 0, _ :: _, h => by cases h
  | n + 1, [], h => by simp at h
  | n + 1, [_], h => by simp at h; omega
  | n + 1, a :: b :: p, h => by
    obtain ⟨z, hz⟩ := exists_pairs n p (by simp at h; omega)
    exact ⟨(a, b) :: z, by unfold pairsOf at *; simp [hz]⟩

theorem parts_of_sized {es : Nat} {z : List Z} (h : Sized es (pairsOf z)) : Parts es z := by
  intro c hc
  exact ⟨h c.1 (List.mem_flatMap.2 ⟨c, hc, by simp⟩), h c.2 (List.mem_flatMap.2 ⟨c, hc, by simp⟩)⟩

/-- Copying a whole array over one of the same size in bytes. -/
theorem copy_all {d s : Nat} {new x : List Bytes} (hn : Sized d new) (hx : Sized s x) (hl : d * new.length = s * x.length)
    (hs : s * x.length ≤ 2147483647) :
    FnMem.memcpy false (some (memObj d new)) 0 (some (memObj s x)) 0 ((s * x.length : Nat) : Int) = .ok x.flatten := by
  rcases c24_memcpy_partial false (memObj d new) (memObj s x) 0 0 ((s * x.length : Nat) : Int)
    (valid hn (by omega)) (valid hx hs) (by omega) (by omega) (by omega) (by omega) (by intro c; cases c) with ⟨_, res, hres, hl', hc⟩ | ⟨hne, _⟩
  · rw [hres]
    have hl' : res.length = s * x.length := by
      rw [hl']; show new.flatten.length = _; rw [hn.flatten, hl]
    refine congrArg Out.ok (List.ext_getElem? fun i => ?_)
    have hc := hc i
    by_cases hi : i < s * x.length
    · rw [hc, if_pos (by omega)]
      show x.flatten[_]? = _
      congr 1
      omega
    · rw [List.getElem?_eq_none (by omega), List.getElem?_eq_none (by rw [hx.flatten]; omega)]
  · refine absurd ⟨rfl, rfl, rfl, by omega, .inr ⟨?_, ?_⟩⟩ hne
    · show (0 : Int) + _ ≤ (new.flatten.length : Int); rw [hn.flatten]; omega
    · show (0 : Int) + _ ≤ (x.flatten.length : Int); rw [hx.flatten]; omega

theorem parts_zero (es n : Nat) : Parts es (List.replicate n (zero es, zero es)) := by
  intro c hc
  rw [List.eq_of_mem_replicate hc]
  exact ⟨List.length_replicate, List.length_replicate⟩

theorem newArray_ok {limit n : Nat} {x : α} (h : n ≤ limit) : newArray limit x (n : Int) = .ok (List.replicate n x) := by
  unfold newArray
  rw [if_pos (by omega), Int.toNat_natCast, if_pos h]

theorem mul_bytes {es n : Nat} (h : es * (2 * n) ≤ 2147483647) : mul32 ((es : Int) * 2) (n : Int) = .ok ((es * (2 * n) : Nat) : Int) := by
  have : (es : Int) * 2 * (n : Int) = ((es * (2 * n) : Nat) : Int) := by
    rw [Int.natCast_mul, Int.natCast_mul, Int.mul_assoc]; rfl
  unfold mul32
  rw [this]
  exact chk32_ok (by unfold I32; omega)

/-! ### The theorems -/

/-- An array made from pairs: the pairs of the result are the given ones.  Partial: as long as the numbers are less than 2^31 bytes
(see `pairs_big_violated`). -/
theorem from_pairs_partial {limit es : Nat} {z : List Z} (hz : Sized es (pairsOf z)) (hs : es * (2 * z.length) ≤ 2147483647)
    (hl : z.length ≤ limit) : fromPairs limit es (some (pairsOf z)) = .ok z := by
  have hp := parts_of_sized hz
  unfold fromPairs
  simp only
  have hlen := length_pairsOf z
  have h2 : alen (pairsOf z) / 2 = (z.length : Int) := by unfold alen; omega
  rw [if_neg (by unfold alen; omega), h2, newArray_ok hl, Out.ok_bind, mul_bytes hs, Out.ok_bind]
  have := copy_all (sized_memory (parts_zero es z.length)) hz
    (by rw [show (memory (List.replicate z.length (zero es, zero es))).length = z.length by simp [memory], hlen, Nat.add_mul, ← Nat.mul_assoc, Nat.mul_comm es 2,
      Nat.mul_assoc]; omega) (by rw [hlen]; exact hs)
  rw [hlen] at this
  rw [this, Out.ok_bind, List.length_replicate, ← flatten_memory, complexes_memory hp]

/-- Every array of even length is accepted, every other throws. -/
theorem from_pairs_accepts_partial {limit es : Nat} {p : List Bytes} (hp : Sized es p) (hs : es * p.length ≤ 2147483647) (hl : p.length ≤ limit) :
    (p.length % 2 = 0 → ∃ z, fromPairs limit es (some p) = .ok z ∧ pairsOf z = p) ∧
    (p.length % 2 = 1 → ∃ m, fromPairs limit es (some p) = .die m) ∧
    ∃ m, fromPairs limit es none = .die m := by
  refine ⟨fun he => ?_, fun ho => ?_, _, rfl⟩
  · obtain ⟨z, rfl⟩ := exists_pairs (p.length / 2) p (by omega)
    have := length_pairsOf z
    exact ⟨z, from_pairs_partial hp (by rw [← this]; exact hs) (by omega), rfl⟩
  · unfold fromPairs
    simp only
    rw [if_pos (by unfold alen; omega)]
    exact ⟨_, rfl⟩

/-- `to_pairs` gives the pairs. -/
theorem to_pairs_partial {limit es : Nat} {z : List Z} (hz : Parts es z) (hes : 0 < es) (hs : es * (2 * z.length) ≤ 2147483647)
    (hl : 2 * z.length ≤ limit) : toPairs limit es (some z) = .ok (pairsOf z) := by
  have hle : 2 * z.length ≤ es * (2 * z.length) := Nat.le_mul_of_pos_left _ hes
  unfold toPairs
  simp only
  have h2 : mul32 (alen z) 2 = .ok ((2 * z.length : Nat) : Int) := by
    unfold mul32 alen
    rw [show (z.length : Int) * 2 = ((2 * z.length : Nat) : Int) by omega]
    exact chk32_ok (by unfold I32; omega)
  have hsz : Sized es (List.replicate (2 * z.length) (zero es)) := by
    intro e he
    rw [List.eq_of_mem_replicate he]
    exact List.length_replicate
  have hml : (memory z).length = z.length := List.length_map _
  have hee : (es + es) * z.length = es * (2 * z.length) := by rw [Nat.add_mul, ← Nat.mul_assoc, Nat.mul_comm es 2, Nat.mul_assoc]; omega
  have := copy_all hsz (sized_memory hz) (by rw [List.length_replicate, hml, hee]) (by rw [hml, hee]; exact hs)
  rw [hml, hee] at this
  rw [h2, Out.ok_bind, newArray_ok hl, Out.ok_bind, show alen z = (z.length : Int) from rfl, mul_bytes hs, Out.ok_bind, this, Out.ok_bind,
    List.length_replicate, flatten_memory, ← length_pairsOf z, cells_flatten (sized_pairsOf hz)]

/-- Pairs to complex numbers and back. -/
theorem pairs_round_trip_partial {limit es : Nat} {z : List Z} (hz : Parts es z) (hes : 0 < es) (hs : es * (2 * z.length) ≤ 2147483647)
    (hl : 2 * z.length ≤ limit) : (toPairs limit es (some z) >>= fun p => fromPairs limit es (some p)) = .ok z := by
  rw [to_pairs_partial hz hes hs hl, Out.ok_bind]
  exact from_pairs_partial (sized_pairsOf hz) hs (by omega)

/-- A loop that computes one element after the other. -/
theorem fill_loop {init res : List β} {body : Nat → List β → Out (List β)} (hl : res.length = init.length)
    (hb : ∀ (i : Nat) (s : List β), i < init.length → s.length = init.length → s[i]? = init[i]? →
      ∃ v, body i s = .ok (s.set i v) ∧ res[i]? = some v) : forLoop 0 init.length body init = .ok res := by
  obtain ⟨s, hs, h1, h2, _⟩ := forLoop_inv (start := 0) (n := init.length) (body := body) (s := init)
    (fun i s => s.length = init.length ∧ (∀ (j : Nat), j < i → s[j]? = res[j]?) ∧ ∀ (j : Nat), i ≤ j → s[j]? = init[j]?)
    ⟨rfl, fun j hj => by omega, fun j _ => rfl⟩
    (by
      intro i s _ hi ⟨e1, e2, e3⟩
      have hi : i < init.length := by omega
      obtain ⟨v, hv, hr⟩ := hb i s hi e1 (e3 i (Nat.le_refl _))
      refine ⟨_, hv, by rw [List.length_set, e1], ?_, ?_⟩
      · intro j hj
        by_cases hji : j = i
        · rw [hji, List.getElem?_set_self (by omega), hr]
        · rw [List.getElem?_set_ne (by omega)]
          exact e2 j (by omega)
      · intro j hj
        rw [List.getElem?_set_ne (by omega)]
        exact e3 j (by omega))
  rw [hs]
  refine congrArg Out.ok (List.ext_getElem? fun i => ?_)
  by_cases hi : i < init.length
  · exact h2 i (by omega)
  · rw [List.getElem?_eq_none (by omega), List.getElem?_eq_none (by omega)]

theorem aGet_some {a : List α} {i : Nat} {x : α} (h : a[i]? = some x) : aGet a (i : Int) = .ok x := by
  have hi : i < a.length := by
    rw [← Nat.not_le]
    intro c
    rw [List.getElem?_eq_none c] at h
    cases h
  unfold aGet alen
  rw [if_neg (by omega), Int.toNat_natCast, h]

theorem aSet_ok' {a : List α} {i : Nat} (x : α) (h : i < a.length) : aSet a (i : Int) x = .ok (a.set i x) := by
  unfold aSet alen
  rw [if_neg (by omega), Int.toNat_natCast, if_pos h]

/-- `to_re_array` gives the real parts, `to_im_array` the imaginary parts. -/
theorem to_parts {limit es : Nat} {z : List Z} (hl : z.length ≤ limit) :
    toRe limit es (some z) = .ok (z.map (·.1)) ∧ toIm limit es (some z) = .ok (z.map (·.2)) := by
  have key : ∀ (part : Z → Bytes), forLoop 0 z.length (fun i s => do
      let c ← aGet z i
      aSet s i (part c)) (List.replicate z.length (zero es)) = .ok (z.map part) := by
    intro part
    have := fill_loop (init := List.replicate z.length (zero es)) (res := z.map part) (body := fun i s => do
      let c ← aGet z i
      aSet s i (part c)) (by simp) (by
        intro i s hi hsl _
        rw [List.length_replicate] at hi hsl
        refine ⟨part z[i], ?_, by rw [List.getElem?_map, List.getElem?_eq_getElem hi, Option.map_some]⟩
        rw [aGet_some (List.getElem?_eq_getElem hi), Out.ok_bind, aSet_ok' _ (by omega)])
    rw [List.length_replicate] at this
    exact this
  constructor
  · unfold toRe
    simp only
    rw [show alen z = (z.length : Int) from rfl, newArray_ok hl, Out.ok_bind]
    exact key (·.1)
  · unfold toIm
    simp only
    rw [show alen z = (z.length : Int) from rfl, newArray_ok hl, Out.ok_bind]
    exact key (·.2)

/-- An array made from real parts has them and zero imaginary parts, and the other way round. -/
theorem from_parts {limit es : Nat} {r : List Bytes} (hl : r.length ≤ limit) :
    fromRe limit es (some r) = .ok (r.map fun x => (x, zero es)) ∧ fromIm limit es (some r) = .ok (r.map fun x => (zero es, x)) := by
  have key : ∀ (put : Bytes → Z → Z), forLoop 0 r.length (fun i s => do
      let x ← aGet r i
      let c ← aGet s i
      aSet s i (put x c)) (List.replicate r.length (zero es, zero es)) = .ok (r.map fun x => put x (zero es, zero es)) := by
    intro put
    have := fill_loop (init := List.replicate r.length (zero es, zero es)) (res := r.map fun x => put x (zero es, zero es)) (body := fun i s => do
      let x ← aGet r i
      let c ← aGet s i
      aSet s i (put x c)) (by simp) (by
        intro i s hi hsl h0
        rw [List.length_replicate] at hi hsl
        refine ⟨put r[i] (zero es, zero es), ?_, by rw [List.getElem?_map, List.getElem?_eq_getElem hi, Option.map_some]⟩
        rw [aGet_some (List.getElem?_eq_getElem hi), Out.ok_bind,
          aGet_some (h0.trans (by rw [List.getElem?_replicate, if_pos hi])), Out.ok_bind, aSet_ok' _ (by omega)])
    rw [List.length_replicate] at this
    exact this
  constructor
  · unfold fromRe
    simp only
    rw [show alen r = (r.length : Int) from rfl, newArray_ok hl, Out.ok_bind]
    exact key fun x c => (x, c.2)
  · unfold fromIm
    simp only
    rw [show alen r = (r.length : Int) from rfl, newArray_ok hl, Out.ok_bind]
    exact key fun x c => (c.1, x)

/-- The parts of the numbers made from pairs: the real part at position `i` is the number at position `2 i` of the pairs, the imaginary
part the number behind it. -/
theorem parts_of_pairs_partial {limit es : Nat} {p : List Bytes} {i : Nat} (hp : Sized es p) (hs : es * p.length ≤ 2147483647) (hl : p.length ≤ limit)
    (he : p.length % 2 = 0) (hi : 2 * i < p.length) :
    ∃ re im, (fromPairs limit es (some p) >>= fun z => toRe limit es (some z)) = .ok re ∧
      (fromPairs limit es (some p) >>= fun z => toIm limit es (some z)) = .ok im ∧ re[i]? = p[2 * i]? ∧ im[i]? = p[2 * i + 1]? := by
  obtain ⟨z, hz, rfl⟩ := (from_pairs_accepts_partial hp hs hl).1 he
  have hlen := length_pairsOf z
  have hzl : z.length ≤ limit := by omega
  refine ⟨z.map (·.1), z.map (·.2), ?_, ?_, ?_⟩
  · rw [hz, Out.ok_bind, (to_parts hzl).1]
  · rw [hz, Out.ok_bind, (to_parts hzl).2]
  · have : ∀ (z : List Z) (i : Nat), (pairsOf z)[2 * i]? = (z.map (·.1))[i]? ∧ (pairsOf z)[2 * i + 1]? = (z.map (·.2))[i]? := by
      intro z
      induction z with
      | nil => intro i; simp [pairsOf]
      | cons c z ih =>
        intro i
        cases i with
        | zero => simp [pairsOf]
        | succ i =>
          have := ih i
          unfold pairsOf at *
          simp only [List.flatMap_cons, List.map_cons, List.getElem?_cons_succ]
          rw [show 2 * (i + 1) = 2 * i + 1 + 1 by omega]
          simpa using this
    exact ⟨(this z i).1.symm, (this z i).2.symm⟩

/-! ### Witnesses -/

/-- Non-vacuity. -/
example : fromPairs 100 4 (some [[1, 2, 3, 4], [5, 6, 7, 8], [9, 9, 9, 9], [0, 0, 0, 1]]) =
    .ok [([1, 2, 3, 4], [5, 6, 7, 8]), ([9, 9, 9, 9], [0, 0, 0, 1])] := by decide +kernel
example : Parts 4 [([1, 2, 3, 4], [5, 6, 7, 8]), ([9, 9, 9, 9], [0, 0, 0, 1])] := by unfold Parts; decide

/-- The size in bytes of 2^27 complex numbers of type `double` overflows. -/
theorem pairs_big_violated {limit : Nat} (z : List Z) (hl : z.length = 134217728) (hlim : 268435456 ≤ limit) :
    toPairs limit 8 (some z) = .ub ∧ fromPairs limit 8 (some (pairsOf z)) = .ub := by
  have hm : mul32 (((8 : Nat) : Int) * 2) ((134217728 : Nat) : Int) = .ub := rfl
  constructor
  · unfold toPairs
    simp only
    rw [show alen z = ((134217728 : Nat) : Int) by unfold alen; rw [hl], show mul32 ((134217728 : Nat) : Int) 2 = .ok ((268435456 : Nat) : Int) from rfl, Out.ok_bind,
      newArray_ok hlim, Out.ok_bind, hm]
    rfl
  · have hlen := length_pairsOf z
    unfold fromPairs
    simp only
    rw [if_neg (by unfold alen; omega), show alen (pairsOf z) / 2 = ((134217728 : Nat) : Int) by unfold alen; omega,
      newArray_ok (by omega), Out.ok_bind, hm]
    rfl

end SPVM.Complex
