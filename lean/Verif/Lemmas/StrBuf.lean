import Verif.Lemmas.Str
import Verif.Model.StrBuf
/-!
# Lemmas for `StringBuffer`
-/
set_option linter.unusedSimpArgs false
namespace SPVM
namespace StrBuf
open VM (Bytes)
open Str

/-- The buffer holds `xs`, followed by the unused bytes `rest`. -/
structure Rep (limit : Nat) (b : StrBuf) (xs rest : Bytes) : Prop where
  len : b.length = xs.length
  cap : b.capacity = b.string.length
  str : b.string = xs ++ rest
  lim : b.string.length ≤ limit

/-- The unused bytes are all zero. -/
def Clean (rest : Bytes) : Prop := ∀ x ∈ rest, x = 0

theorem clean_replicate (n : Nat) : Clean (List.replicate n 0) := fun _ h => (List.mem_replicate.mp h).2

theorem newLen_cases {limit : Nat} (length capacity : Int) :
    (length < 0 ∧ newLen limit length capacity = .die msgLenNeg) ∨
    (0 ≤ length ∧ max length (if capacity < 0 then 4 else capacity) ≤ limit ∧
      ∃ b k, newLen limit length capacity = .ok b ∧ Rep limit b (List.replicate length.toNat 0) (List.replicate k 0)) ∨
    (0 ≤ length ∧ limit < max length (if capacity < 0 then 4 else capacity) ∧ ∃ m, newLen limit length capacity = .die m) := by
  unfold newLen
  by_cases h0 : 0 ≤ length
  · rw [if_neg (by omega)]
    have e : (if length > (if capacity < 0 then 4 else capacity) then length else (if capacity < 0 then 4 else capacity)) =
        max length (if capacity < 0 then 4 else capacity) := by
      split <;> omega
    simp only [e]
    generalize hM : max length (if capacity < 0 then 4 else capacity) = M
    by_cases h1 : M ≤ limit
    · refine .inr (.inl ⟨h0, h1, ?_⟩)
      rw [newStringLen_ok (by omega) h1]
      refine ⟨_, M.toNat - length.toNat, rfl, ⟨by simp; omega, by simp; omega, ?_, by simp; omega⟩⟩
      have : length ≤ M := by omega
      simp only [List.replicate_append_replicate]
      congr 1
      omega
    · refine .inr (.inr ⟨h0, by omega, msgNewStringMem, ?_⟩)
      rw [newStringLen_mem (by omega)]
      rfl
  · rw [if_pos (by omega)]
    exact .inl ⟨by omega, rfl⟩

theorem blit_prefix {dst : Bytes} {src : Bytes} (h : src.length ≤ dst.length) (n : Nat) (hn : n = src.length) :
    blit dst 0 src 0 n = src ++ dst.drop src.length := by
  subst hn
  simp [blit]

theorem blit_prefix' {dst xs rest : Bytes} (n : Nat) (hn : n = xs.length) :
    blit dst 0 (xs ++ rest) 0 n = xs ++ dst.drop xs.length := by
  subst hn
  simp [blit]

theorem new_ok {limit : Nat} (hlim : limit ≤ 2147483646) (string : Option Bytes) (capacity : Int)
    (h : max ((string.getD []).length : Int) (max capacity 4) ≤ limit) :
    ∃ b k, new limit string capacity = .ok b ∧ Rep limit b (string.getD []) (List.replicate k 0) := by
  cases string with
  | none =>
    rcases newLen_cases (limit := limit) 0 capacity with ⟨h0, _⟩ | ⟨_, _, b, k, e, r⟩ | ⟨_, h0, _⟩
    · omega
    · exact ⟨b, k, e, by simpa using r⟩
    · simp at h; split at h0 <;> omega
  | some s =>
    simp at h
    rcases newLen_cases (limit := limit) s.length capacity with ⟨h0, _⟩ | ⟨_, _, b, k, e, r⟩ | ⟨_, h0, _⟩
    · omega
    · have ⟨r1, r2, r3, r4⟩ := r
      have hl : b.string.length = s.length + k := by rw [r3]; simp
      unfold new
      simp only []
      rw [e]
      simp only [Out.ok_bind]
      rw [memcpy_ok (by omega) (by omega) (by omega) (by omega) (by omega) (by omega) (by omega)]
      simp only [Out.ok_bind]
      have e2 : blit b.string (Int.toNat 0) s (Int.toNat 0) (Int.toNat s.length) = s ++ List.replicate k 0 := by
        show blit b.string 0 s 0 s.length = _
        rw [blit_prefix (by omega) _ rfl, r3]
        simp
      rw [e2]
      refine ⟨_, k, rfl, ⟨by simpa using r1, by simp; omega, rfl, by simp; omega⟩⟩
    · split at h0 <;> omega

theorem extend_cases {limit : Nat} (hlim : limit ≤ 2147483646) {b : StrBuf} {xs rest : Bytes} (h : Rep limit b xs rest) (m : Int) :
    (∃ b' rest', extend limit m b = (.ok (), b') ∧ Rep limit b' xs rest' ∧ m ≤ b'.capacity ∧ (Clean rest → Clean rest') ∧
      (b.capacity < m → Clean rest')) ∨
    (∃ msg, extend limit m b = (.die msg, b) ∧ limit < 2 * m ∧ b.capacity < m) ∨
    (extend limit m b = (.ub, b) ∧ 2147483647 < 2 * m ∧ b.capacity < m) := by
  have ⟨h1, h2, h3, h4⟩ := h
  have hsl : b.string.length = xs.length + rest.length := by rw [h3]; simp
  unfold extend
  simp only [Prog.get_bind_apply, Prog.ite_apply]
  by_cases hm : m > b.capacity
  · rw [if_neg (by omega), if_pos (by omega)]
    by_cases hov : m * 2 ≤ 2147483647
    · rw [mul32_ok (by unfold I32; omega)]
      simp only [Prog.lift_ok_bind]
      by_cases hli : m * 2 ≤ limit
      · rw [newStringLen_ok (by omega) hli]
        simp only [Prog.lift_ok_bind]
        rw [memcpy_ok (by omega) (by omega) (by omega) (by simp; omega) (by omega) (by simp; omega) (by omega)]
        simp only [Prog.lift_ok_bind, Prog.set_apply]
        have e : blit (List.replicate (m * 2).toNat 0) (Int.toNat 0) b.string (Int.toNat 0) b.length.toNat =
            xs ++ List.replicate ((m * 2).toNat - xs.length) 0 := by
          show blit (List.replicate (m * 2).toNat 0) 0 b.string 0 b.length.toNat = _
          rw [h3, blit_prefix' _ (by omega)]
          simp
        rw [e]
        exact .inl ⟨_, _, rfl, ⟨h1, by simp; omega, rfl, by simp; omega⟩, by simp; omega,
          fun _ => clean_replicate _, fun _ => clean_replicate _⟩
      · rw [newStringLen_mem (by omega)]
        exact .inr (.inl ⟨_, rfl, by omega, by omega⟩)
    · rw [mul32, chk32, if_neg (by unfold I32; omega)]
      exact .inr (.inr ⟨rfl, by omega, by omega⟩)
  · rw [if_pos hm]
    exact .inl ⟨b, rest, rfl, h, by omega, id, fun h => by omega⟩

theorem clean_drop {rest : Bytes} (h : Clean rest) (n : Nat) : Clean (rest.drop n) :=
  fun x hx => h x (List.mem_of_mem_drop hx)

/-- `push` in range. -/
theorem push_cases {limit : Nat} (hlim : limit ≤ 2147483646) {b : StrBuf} {xs rest : Bytes} (h : Rep limit b xs rest)
    (s : Bytes) (offset n : Int) (h0 : 0 ≤ offset) (h1 : 0 ≤ n) (h2 : offset + n ≤ s.length) (h3 : s.length ≤ 2147483647)
    (len : Int) (hlen : (len = -1 ∧ n = s.length - offset) ∨ (len = n)) :
    (∃ b' rest', push limit (some s) offset len b = (.ok (), b') ∧
      Rep limit b' (xs ++ (s.drop offset.toNat).take n.toNat) rest' ∧ (Clean rest → Clean rest')) ∨
    (∃ msg, push limit (some s) offset len b = (.die msg, b) ∧ limit < 2 * (xs.length + n)) ∨
    (push limit (some s) offset len b = (.ub, b) ∧ 2147483647 < 2 * (xs.length + n)) := by
  have ⟨r1, r2, r3, r4⟩ := h
  have hsl : b.string.length = xs.length + rest.length := by rw [r3]; simp
  unfold push
  simp only [Prog.ite_apply]
  rw [if_neg (by omega)]
  have e : (if len = -1 then sub32 (s.length : Int) offset else Out.ok len) = .ok n := by
    rcases hlen with ⟨rfl, rfl⟩ | rfl
    · rw [if_pos rfl, sub32_ok (by unfold I32; omega)]
    · rw [if_neg (by omega)]
  rw [e]
  simp only [Prog.lift_ok_bind]
  rw [add32_ok (by unfold I32; omega)]
  simp only [Prog.lift_ok_bind, Prog.ite_apply]
  rw [if_neg (by omega)]
  simp only [Prog.get_bind_apply]
  by_cases hov : b.length + n ≤ 2147483647
  · rw [add32_ok (by unfold I32; omega)]
    simp only [Prog.lift_ok_bind]
    rcases extend_cases hlim h (b.length + n) with ⟨b', rest', e1, r, hm, hcl, hcl2⟩ | ⟨m, e1, hb, _⟩ | ⟨e1, hb, _⟩
    · left
      have ⟨q1, q2, q3, q4⟩ := r
      have hsl' : b'.string.length = xs.length + rest'.length := by rw [q3]; simp
      rw [Prog.bind_ok e1]
      simp only [Prog.get_bind_apply]
      rw [memcpy_ok (by omega) h0 h1 (by omega) h2 (by omega) h3]
      simp only [Prog.lift_ok_bind, Prog.set_bind_apply, Prog.get_bind_apply]
      rw [add32_ok (by unfold I32; omega)]
      simp only [Prog.lift_ok_bind, Prog.set_apply]
      have e2 : blit b'.string b.length.toNat s offset.toNat n.toNat =
          (xs ++ (s.drop offset.toNat).take n.toNat) ++ rest'.drop n.toNat := by
        rw [q3, r1]
        simp [blit, List.drop_append]
      rw [e2]
      refine ⟨_, _, rfl, ⟨?_, ?_, rfl, ?_⟩, fun hc => clean_drop (hcl hc) _⟩
      · simp [q1]; omega
      · simp; omega
      · simp; omega
    · refine .inr (.inl ⟨m, Prog.bind_die e1, by omega⟩)
    · refine .inr (.inr ⟨by simp [Prog.bind_apply, e1], by omega⟩)
  · rw [add32, chk32, if_neg (by unfold I32; omega)]
    exact .inr (.inr ⟨rfl, by omega⟩)

/-- `push` out of range throws and changes nothing. -/
theorem push_die {limit : Nat} {b : StrBuf} {xs rest : Bytes} (hlim : limit ≤ 2147483646) (h : Rep limit b xs rest)
    (s : Option Bytes) (offset len : Int) (hs : (s.getD []).length ≤ 2147483647) (ho : I32 offset) (hl : I32 len)
    (hsum : offset + len ≤ 2147483647)
    (hbad : ∀ s', s = some s' → ¬ (0 ≤ offset ∧ ((len = -1 ∧ offset ≤ s'.length) ∨ (0 ≤ len ∧ offset + len ≤ s'.length)))) :
    ∃ m, push limit s offset len b = (.die m, b) := by
  have ⟨r1, r2, r3, r4⟩ := h
  have hsl : b.string.length = xs.length + rest.length := by rw [r3]; simp
  unfold I32 at ho hl
  cases s with
  | none => exact ⟨_, rfl⟩
  | some s =>
    replace hbad := hbad s rfl
    simp only [Option.getD_some] at hs
    unfold push
    simp only [Prog.ite_apply]
    by_cases h0 : 0 ≤ offset
    · rw [if_neg (by omega)]
      obtain ⟨n, e, hn⟩ : ∃ n, (if len = -1 then sub32 (s.length : Int) offset else Out.ok len) = .ok n ∧
          ((len = -1 ∧ n = s.length - offset) ∨ (len ≠ -1 ∧ n = len)) := by
        by_cases hl1 : len = -1
        · exact ⟨_, by rw [if_pos hl1, sub32_ok (by unfold I32; omega)], .inl ⟨hl1, rfl⟩⟩
        · exact ⟨_, by rw [if_neg hl1], .inr ⟨hl1, rfl⟩⟩
      rw [e]
      simp only [Prog.lift_ok_bind]
      rw [add32_ok (by unfold I32; omega)]
      simp only [Prog.lift_ok_bind, Prog.ite_apply]
      by_cases h2 : offset + n ≤ s.length
      · rw [if_neg (by omega)]
        simp only [Prog.get_bind_apply]
        have hneg : n < 0 := by omega
        rw [add32_ok (by unfold I32; omega)]
        simp only [Prog.lift_ok_bind]
        have hex : extend limit (b.length + n) b = (.ok (), b) := by
          unfold extend
          simp only [Prog.get_bind_apply, Prog.ite_apply]
          rw [if_pos (by omega)]
          rfl
        rw [Prog.bind_ok hex]
        simp only [Prog.get_bind_apply]
        rw [memcpy_neg hneg]
        exact ⟨_, rfl⟩
      · rw [if_pos (by omega)]
        exact ⟨_, rfl⟩
    · rw [if_pos (by omega)]
      exact ⟨_, rfl⟩

theorem pushChar_cases {limit : Nat} (hlim : limit ≤ 2147483646) {b : StrBuf} {xs rest : Bytes} (h : Rep limit b xs rest)
    (c : Int) :
    (∃ b' rest', pushChar limit c b = (.ok (), b') ∧
      Rep limit b' (xs ++ [toByte c]) rest' ∧ (Clean rest → Clean rest')) ∨
    (∃ msg, pushChar limit c b = (.die msg, b) ∧ limit < 2 * (xs.length + 1)) ∨
    (pushChar limit c b = (.ub, b) ∧ 2147483647 < 2 * (xs.length + 1)) := by
  have ⟨r1, r2, r3, r4⟩ := h
  have hsl : b.string.length = xs.length + rest.length := by rw [r3]; simp
  unfold pushChar
  simp only [Prog.get_bind_apply]
  rw [add32_ok (by unfold I32; omega)]
  simp only [Prog.lift_ok_bind]
  rcases extend_cases hlim h (b.length + 1) with ⟨b', rest', e1, r, hm, hcl, hcl2⟩ | ⟨m, e1, hb, _⟩ | ⟨e1, hb, _⟩
  · left
    have ⟨q1, q2, q3, q4⟩ := r
    have hsl' : b'.string.length = xs.length + rest'.length := by rw [q3]; simp
    rw [Prog.bind_ok e1]
    simp only [Prog.get_bind_apply]
    rw [add32_ok (by unfold I32; omega)]
    simp only [Prog.lift_ok_bind, Prog.set_bind_apply]
    rw [aSet_ok (by omega) (by omega)]
    simp only [Prog.lift_ok_bind, Prog.set_apply]
    obtain ⟨y, ys, rfl⟩ : ∃ y ys, rest' = y :: ys := by
      cases rest' with
      | nil => simp at hsl'; omega
      | cons y ys => exact ⟨y, ys, rfl⟩
    refine ⟨_, ys, rfl, ⟨by simp; omega, by simp; omega, ?_, by simp; omega⟩, fun hc x hx => hcl hc x (List.mem_cons_of_mem _ hx)⟩
    simp only []
    rw [q3, q1]
    simp
  · exact .inr (.inl ⟨m, Prog.bind_die e1, by omega⟩)
  · exact .inr (.inr ⟨by simp [Prog.bind_apply, e1], by omega⟩)

/-- `replace` in range. -/
theorem replace_cases {limit : Nat} (hlim : limit ≤ 2147483646) {b : StrBuf} {xs rest : Bytes} (h : Rep limit b xs rest)
    (o n : Int) (r : Option Bytes) (h0 : 0 ≤ o) (h1 : 0 ≤ n) (h2 : o + n ≤ xs.length) (h3 : (r.getD []).length ≤ 2147483647) :
    (∃ b' rest', replace limit o n r b = (.ok (), b') ∧
      Rep limit b' (xs.take o.toNat ++ r.getD [] ++ xs.drop (o + n).toNat) rest' ∧
      (Clean rest → n ≤ (r.getD []).length → Clean rest')) ∨
    (∃ msg, replace limit o n r b = (.die msg, b) ∧ limit < 2 * (xs.length - n + (r.getD []).length)) ∨
    (replace limit o n r b = (.ub, b) ∧ 2147483647 < 2 * (xs.length - n + (r.getD []).length)) := by
  have ⟨r1, r2, r3, r4⟩ := h
  have hsl : b.string.length = xs.length + rest.length := by rw [r3]; simp
  unfold replace
  simp only [Prog.ite_apply]
  rw [if_neg (by omega), if_neg (by omega)]
  simp only [Prog.get_bind_apply]
  rw [add32_ok (by unfold I32; omega)]
  simp only [Prog.lift_ok_bind, Prog.ite_apply]
  rw [if_neg (by omega), sub32_ok (by unfold I32; omega)]
  simp only [Out.ok_bind]
  by_cases hov : b.length - n + (r.getD []).length ≤ 2147483647
  · rw [add32_ok (by unfold I32; omega)]
    simp only [Prog.lift_ok_bind]
    rcases extend_cases hlim h (b.length - n + (r.getD []).length) with ⟨b', rest', e1, rr, hm, hcl, hcl2⟩ | ⟨m, e1, hb, _⟩ | ⟨e1, hb, _⟩
    · left
      have ⟨q1, q2, q3, q4⟩ := rr
      have hsl' : b'.string.length = xs.length + rest'.length := by rw [q3]; simp
      rw [Prog.bind_ok e1]
      unfold replaceTail
      simp only [Prog.get_bind_apply]
      rw [sub32_ok (by unfold I32; omega)]
      simp only [Out.ok_bind]
      rw [sub32_ok (by unfold I32; omega), add32_ok (by unfold I32; omega), add32_ok (by unfold I32; omega)]
      simp only [Prog.lift_ok_bind]
      rw [memmove_ok (by omega) (by omega) (by omega) (by omega) (by omega) (by omega)]
      simp only [Prog.lift_ok_bind, Prog.set_bind_apply]
      generalize hM : blit b'.string (o + (r.getD []).length).toNat b'.string (o + n).toNat (b'.length - o - n).toNat = M
      have hMl : M.length = b'.string.length := by rw [← hM, blit_length (by omega) (by omega)]
      have e2 : storeReplace M o r (r.getD []).length = .ok (blit M o.toNat (r.getD []) 0 (r.getD []).length) := by
        unfold storeReplace
        cases r with
        | none => simp [blit_zero]
        | some r' =>
          simp only [Option.getD_some] at h3 hov hm ⊢
          rw [memcpy_ok h0 (by omega) (by omega) (by omega) (by omega) (by omega) (by omega)]
          rfl
      rw [e2]
      simp only [Prog.lift_ok_bind, Prog.set_apply]
      have e3 : blit M o.toNat (r.getD []) 0 (r.getD []).length =
          (xs.take o.toNat ++ r.getD [] ++ xs.drop (o + n).toNat) ++
            b'.string.drop (b.length - n + (r.getD []).length).toNat := by
        apply List.ext_getElem?
        intro k
        rw [blit_getElem? (by omega) (by omega), ← hM, blit_getElem? (by omega) (by omega)]
        have hxs : ∀ j, j < xs.length → b'.string[j]? = xs[j]? := by
          intro j hj
          rw [q3, List.getElem?_append_left hj]
        simp only [List.getElem?_append, List.length_append, List.length_take, List.length_drop, List.getElem?_take,
          List.getElem?_drop]
        by_cases k1 : k < o.toNat
        · rw [if_neg (by omega), if_neg (by omega), if_pos (by omega), if_pos (by omega), if_pos (by omega), if_pos k1,
            hxs k (by omega)]
        · by_cases k2 : k < o.toNat + (r.getD []).length
          · rw [if_pos (by omega), if_pos (by omega), if_pos (by omega), if_neg (by omega)]
            congr 1; omega
          · by_cases k3 : k < (b.length - n + (r.getD []).length).toNat
            · rw [if_neg (by omega), if_pos (by omega), if_pos (by omega), if_neg (by omega), hxs _ (by omega)]
              congr 1; omega
            · rw [if_neg (by omega), if_neg (by omega), if_neg (by omega)]
              congr 1; omega
      refine ⟨_, b'.string.drop (b.length - n + (r.getD []).length).toNat, rfl, ⟨?_, ?_, e3, ?_⟩, ?_⟩
      · simp only [List.length_append, List.length_take, List.length_drop]; omega
      · simp only []
        rw [blit_length (by omega) (by omega)]; omega
      · simp only []
        rw [blit_length (by omega) (by omega)]; omega
      · intro hc hle x hx
        rw [q3, List.drop_append, List.drop_eq_nil_of_le (by omega), List.nil_append] at hx
        exact hcl hc x (List.mem_of_mem_drop hx)
    · exact .inr (.inl ⟨m, Prog.bind_die e1, by omega⟩)
    · exact .inr (.inr ⟨by simp [Prog.bind_apply, e1], by omega⟩)
  · rw [add32, chk32, if_neg (by unfold I32; omega)]
    exact .inr (.inr ⟨rfl, by omega⟩)

theorem setLength_cases {limit : Nat} (hlim : limit ≤ 2147483646) {b : StrBuf} {xs rest : Bytes} (h : Rep limit b xs rest)
    (n : Int) (h0 : 0 ≤ n) :
    (∃ b' rest' ys, setLength limit n b = (.ok (), b') ∧ Rep limit b' ys rest' ∧ Clean rest' ∧
      (n ≤ xs.length ∨ Clean rest → ys = xs.take n.toNat ++ List.replicate (n.toNat - xs.length) 0)) ∨
    (∃ msg, setLength limit n b = (.die msg, b) ∧ limit < 2 * n ∧ 0 < n) ∨
    (setLength limit n b = (.ub, b) ∧ 2147483647 < 2 * n ∧ 0 < n) := by
  have ⟨r1, r2, r3, r4⟩ := h
  have hsl : b.string.length = xs.length + rest.length := by rw [r3]; simp
  unfold setLength
  simp only [Prog.ite_apply]
  rw [if_neg (by omega)]
  rcases extend_cases hlim h n with ⟨b', rest', e1, rr, hm, hcl, hcl2⟩ | ⟨m, e1, hb, hc⟩ | ⟨e1, hb, hc⟩
  · left
    have ⟨q1, q2, q3, q4⟩ := rr
    have hsl' : b'.string.length = xs.length + rest'.length := by rw [q3]; simp
    rw [Prog.bind_ok e1]
    simp only [Prog.get_bind_apply, Prog.set_bind_apply]
    have e2 : (if n < b'.capacity then do
        let k ← sub32 b'.capacity n
        memsetChar b'.string 0 n k
      else Out.ok b'.string) = .ok (b'.string.take n.toNat ++ List.replicate (b'.string.length - n.toNat) 0) := by
      by_cases hlt : n < b'.capacity
      · rw [if_pos hlt, sub32_ok (by unfold I32; omega)]
        simp only [Out.ok_bind]
        rw [memsetChar_ok h0 (by omega) (by omega) (by unfold I32; omega)]
        congr 1
        unfold blit
        have : b'.string.drop (n.toNat + (b'.capacity - n).toNat) = [] := List.drop_eq_nil_of_le (by omega)
        rw [this, List.drop_zero, List.take_replicate, Nat.min_self, List.append_nil,
          show (b'.capacity - n).toNat = b'.string.length - n.toNat by omega]
        rfl
      · rw [if_neg hlt, List.take_of_length_le (by omega), show b'.string.length - n.toNat = 0 by omega]
        simp
    rw [e2]
    simp only [Prog.lift_ok_bind, Prog.set_apply]
    refine ⟨_, List.replicate (b'.string.length - n.toNat) 0, b'.string.take n.toNat, rfl,
      ⟨by simp; omega, by simp; omega, rfl, by simp; omega⟩, clean_replicate _, ?_⟩
    intro hp
    rw [q3, List.take_append]
    congr 1
    by_cases hn : n ≤ xs.length
    · rw [show n.toNat - xs.length = 0 by omega]; simp
    · have hc' : Clean rest' := by
        rcases hp with hp | hp
        · omega
        · exact hcl hp
      rw [List.eq_replicate_iff]
      refine ⟨by simp; omega, fun x hx => hc' x (List.mem_of_mem_take hx)⟩
  · exact .inr (.inl ⟨m, Prog.bind_die e1, by omega, by omega⟩)
  · exact .inr (.inr ⟨by simp [Prog.bind_apply, e1], by omega, by omega⟩)

theorem reserve_cases {limit : Nat} (hlim : limit ≤ 2147483646) {b : StrBuf} {xs rest : Bytes} (h : Rep limit b xs rest)
    (n : Int) (h0 : 0 ≤ n) :
    (∃ b' rest', reserve limit n b = (.ok (), b') ∧ Rep limit b' xs rest' ∧ (Clean rest → Clean rest')) ∨
    (∃ msg, reserve limit n b = (.die msg, b) ∧ limit < n) := by
  have ⟨r1, r2, r3, r4⟩ := h
  have hsl : b.string.length = xs.length + rest.length := by rw [r3]; simp
  unfold reserve
  simp only [Prog.ite_apply]
  rw [if_neg (by omega)]
  simp only [Prog.get_bind_apply, Prog.ite_apply]
  by_cases hm : n > b.capacity
  · rw [if_pos hm]
    by_cases hli : n ≤ limit
    · rw [newStringLen_ok (by omega) hli]
      simp only [Prog.lift_ok_bind]
      rw [memcpy_ok (by omega) (by omega) (by omega) (by simp; omega) (by omega) (by simp; omega) (by omega)]
      simp only [Prog.lift_ok_bind, Prog.set_apply]
      have e : blit (List.replicate n.toNat 0) (Int.toNat 0) b.string (Int.toNat 0) b.length.toNat =
          xs ++ List.replicate (n.toNat - xs.length) 0 := by
        show blit (List.replicate n.toNat 0) 0 b.string 0 b.length.toNat = _
        rw [r3, blit_prefix' _ (by omega)]
        simp
      rw [e]
      exact .inl ⟨_, _, rfl, ⟨r1, by simp; omega, rfl, by simp; omega⟩, fun _ => clean_replicate _⟩
    · rw [newStringLen_mem (by omega)]
      exact .inr ⟨_, rfl, by omega⟩
  · rw [if_neg hm]
    exact .inl ⟨b, rest, rfl, h, id⟩

theorem toString_ok {limit : Nat} (hlim : limit ≤ 2147483646) {b : StrBuf} {xs rest : Bytes} (h : Rep limit b xs rest) :
    toString limit b = (.ok xs, b) := by
  have ⟨r1, r2, r3, r4⟩ := h
  have hsl : b.string.length = xs.length + rest.length := by rw [r3]; simp
  unfold toString
  simp only [Prog.get_bind_apply, Prog.lift_apply]
  rw [substr_ok (by omega) (by omega) (by omega) (by omega) (by omega), r3, r1]
  simp

end StrBuf
end SPVM
