import Verif.Lemmas.ArrayOps
import Verif.Props.ArrayCopy
import Verif.Spec.Array
import Verif.Props.ObjList
/-!
# C26 repeat
-/
set_option linter.unusedSimpArgs false
namespace SPVM
namespace ArrayOps
open VM (Bytes)
open Spec.Rand (value next draws fisherYates)

/-! ## C26 -/

/-- **C26 is false**: `Array->repeat` of a three-element array, twice, interleaves a prefix instead of repeating the
array; and with a count greater than the length it throws. -/
theorem c26_repeat_violated :
    repeatObject 100 (fun _ => true) (some [some 1, some 2, some 3]) 2 =
      .ok (some [some 1, some 2, some 1, some 2, some 1, some 2]) ∧
    repeatNum 100 1 3 [1, 2, 3] 2 = .ok (some [1, 2, 1, 2, 1, 2]) ∧
    repeatObject 100 (fun _ => true) (some [some 1, some 2]) 3 = .die msgSourceRange ∧
    repeatNum 100 1 2 [1, 2] 3 = .die FnMem.msgSourceRange := by
  decide +kernel

theorem times_succ (a : List α) (i : Nat) : Spec.Array.times a (i + 1) = Spec.Array.times a i ++ a := by
  unfold Spec.Array.times
  rw [List.replicate_succ', List.flatten_append]
  simp

theorem times_length (a : List α) (i : Nat) : (Spec.Array.times a i).length = i * a.length := by
  induction i with
  | zero => simp [Spec.Array.times]
  | succ i ih => rw [times_succ, List.length_append, ih, Nat.succ_mul]

theorem blit_append {x y src : List α} {n : Nat} (hy : y.length = n) (t : List α) :
    blit (x ++ (y ++ t)) x.length src 0 n = x ++ src.take n ++ t := by
  unfold blit
  rw [List.take_left' rfl, ← hy, ← List.append_assoc x y t, ← List.length_append, List.drop_left' rfl]
  simp

/-- The copy made in one iteration. -/
theorem repeat_step (accept : α → Bool) (a : List (Option α)) (count i : Nat)
    (hacc : ∀ v, some v ∈ a → accept v = true) (hc : count ≤ a.length) (hsz : count * a.length < 2147483647)
    (ha : a.length ≤ 2147483647) (hi : i < a.length) :
    (do
      let d ← mul32 count (i : Nat)
      let r ← memcpyObj accept
        (some (Spec.Array.times (a.take count) i ++ List.replicate (count * (a.length - i)) none)) d a 0 count
      Out.ok (some r)) =
    .ok (some (Spec.Array.times (a.take count) (i + 1) ++ List.replicate (count * (a.length - (i + 1))) none)) := by
  have htl : (a.take count).length = count := by simp; omega
  have hb : count * i + count ≤ count * a.length := by
    rw [← Nat.mul_succ]; exact Nat.mul_le_mul_left _ hi
  have hsplit : count * (a.length - i) = count + count * (a.length - (i + 1)) := by
    rw [show a.length - i = (a.length - (i + 1)) + 1 by omega, Nat.mul_succ]; omega
  have hlen : (Spec.Array.times (a.take count) i).length = count * i := by
    rw [times_length, htl, Nat.mul_comm]
  have hcp : SPVM.memcpyObj accept (Spec.Array.times (a.take count) i ++ List.replicate (count * (a.length - i)) none)
      ((count * i : Nat) : Int) a 0 count = _ :=
    SPVM.memcpyObj_ok (by omega) (by omega) (by omega) (by
          rw [List.length_append, hlen, List.length_replicate, hsplit]; omega) (by omega)
        (by unfold I32; omega) (by unfold I32; omega) hacc
  rw [mul32_nat (by omega)]
  simp only [Out.ok_bind, memcpyObj]
  rw [hcp, Out.ok_bind]
  clear hcp hsz ha
  rw [hsplit, ← List.replicate_append_replicate, Int.toNat_natCast, Int.toNat_natCast]
  rw [← hlen, show Int.toNat 0 = 0 from rfl, blit_append (by simp), times_succ]

/-- What `Array->repeat` does for `count ≤ length` on object arrays: the first `count` elements, `length` times. -/
theorem repeatObject_actual (limit : Nat) (accept : α → Bool) (a : List (Option α)) (count : Nat)
    (hacc : ∀ v, some v ∈ a → accept v = true) (hc : count ≤ a.length) (hsz : count * a.length < 2147483647)
    (hlim : count * a.length ≤ limit) (ha : a.length ≤ 2147483647) :
    repeatObject limit accept (some a) count = .ok (some (Spec.Array.times (a.take count) a.length)) := by
  have em := mul32_nat (a := count) (b := a.length) (by omega)
  have en : newProtoAny limit (none : Option α) ((count * a.length : Nat) : Int) =
      .ok (some (List.replicate (count * a.length) none)) := by
    unfold newProtoAny
    rw [if_neg (by omega), add32_ok (by unfold I32; omega)]
    simp only [Out.ok_bind, Out.pure_eq, Int.toNat_natCast]
    rw [if_pos hlim]
  obtain ⟨r, e, h⟩ := forLoop_inv (start := 0) (n := a.length)
    (s := some (List.replicate (count * a.length) (none : Option α)))
    (body := fun i ret => do
      let d ← mul32 count (i : Nat)
      let r ← memcpyObj accept ret d a 0 count
      Out.ok (some r))
    (fun i r => r = some (Spec.Array.times (a.take count) i ++ List.replicate (count * (a.length - i)) none))
    (by simp [Spec.Array.times])
    (by
      intro i r _ hi hr
      subst hr
      exact ⟨_, repeat_step accept a count i hacc hc hsz ha (by omega), rfl⟩)
  clear hsz ha
  unfold repeatObject
  simp only []
  rw [if_neg (by omega), show alen a = ((a.length : Nat) : Int) from rfl, em, Out.ok_bind, en, Out.ok_bind]
  simp only [Out.pure_eq]
  rw [e, h]
  simp

/-- **C26** (partial): when the count is 0, or the array is empty, or the count happens to equal the length, the result is
the array repeated `count` times.  For other counts the claim is false (`c26_repeat_violated`). -/
theorem c26_repeat_partial (limit : Nat) (accept : α → Bool) (a : List (Option α)) (count : Nat)
    (hacc : ∀ v, some v ∈ a → accept v = true) (hc : count = 0 ∨ a = [] ∨ count = a.length)
    (hsz : count * a.length < 2147483647) (hlim : count * a.length ≤ limit) (ha : a.length ≤ 2147483647)
    (hci : count ≤ 2147483647) :
    repeatObject limit accept (some a) count = .ok (some (Spec.Array.times a count)) := by
  rcases hc with hc | hc | hc
  · subst hc
    rw [repeatObject_actual limit accept a 0 hacc (by omega) (by omega) (by omega) ha]
    simp [Spec.Array.times]
  · subst hc
    have em : mul32 count (alen ([] : List (Option α))) = .ok 0 := by
      rw [mul32, alen]; simp [chk32, I32]
    unfold repeatObject
    simp only []
    rw [if_neg (by omega), em]
    simp [newProtoAny, add32, chk32, I32, forLoop, Spec.Array.times]
  · rw [repeatObject_actual limit accept a count hacc (by omega) hsz hlim ha, hc, List.take_length]

/-- **C26** (negative counts and undefined arrays throw). -/
theorem c26_repeat_throws (limit : Nat) (accept : α → Bool) (a : Option (List (Option α))) (count : Int)
    (h : a = none ∨ count < 0) : ∃ m, repeatObject limit accept a count = .die m := by
  cases a with
  | none => exact ⟨_, rfl⟩
  | some a =>
    unfold repeatObject
    simp only []
    rw [if_pos (by simp at h; omega)]
    exact ⟨_, rfl⟩

/-! ### repeat_string -/

theorem push_spec {limit : Nat} {accept : Bytes → Bool} (hlim : limit ≤ 1073741824) {l : ObjList Bytes} {xs rest}
    (h : ObjList.Rep limit accept l xs rest) (x : Option Bytes) (hx : ∀ v, x = some v → accept v = true)
    (hroom : 2 * (xs.length + 1) ≤ limit) :
    ∃ l' rest', ObjList.push limit accept x l = (.ok (), l') ∧ ObjList.Rep limit accept l' (xs ++ [x]) rest' := by
  have hlen := h.len
  rcases ObjList.extend_cases hlim h (l.length + 1) with ⟨l1, k, e1, r1, _, hm, _⟩ | ⟨_, _, hb, _⟩ | ⟨_, hb, _⟩
  · obtain ⟨l', rest', e, r, _, _⟩ := ObjList.push_ok hlim h (by omega) e1 r1 hm hx
    exact ⟨l', rest', e, r⟩
  · omega
  · omega

theorem pushAll {limit : Nat} (hlim : limit ≤ 1073741824) (ss : List (Option Bytes)) (k n : Nat) (hk : k + n = ss.length)
    {l : ObjList Bytes} {xs rest} (h : ObjList.Rep limit (fun _ => true) l xs rest) (hroom : 2 * (xs.length + n) ≤ limit) :
    ∃ l' rest', (Prog.loopUp k n fun k => do
        let x ← Prog.lift (aGet ss (k : Nat))
        ObjList.push limit (fun _ => true) x) l = (.ok (), l') ∧
      ObjList.Rep limit (fun _ => true) l' (xs ++ ss.drop k) rest' := by
  induction n generalizing k l xs rest with
  | zero => exact ⟨l, rest, rfl, by rw [List.drop_eq_nil_of_le (by omega)]; simpa using h⟩
  | succ n ih =>
    obtain ⟨l1, r1, e1, h1⟩ := push_spec hlim h ss[k] (by simp) (by omega)
    obtain ⟨l2, r2, e2, h2⟩ := ih (k + 1) (by omega) h1 (by simp; omega)
    refine ⟨l2, r2, ?_, ?_⟩
    · unfold Prog.loopUp
      rw [Prog.bind_ok (a := ()) (s' := l1)]
      · exact e2
      · rw [aGet_ok (by omega) (by omega)]
        simpa using e1
    · rw [List.append_assoc] at h2
      rw [List.drop_eq_getElem_cons (by omega)]
      exact h2

theorem pushTimes {limit : Nat} (hlim : limit ≤ 1073741824) (ss : List (Option Bytes)) (st n : Nat)
    {l : ObjList Bytes} {xs rest} (h : ObjList.Rep limit (fun _ => true) l xs rest)
    (hroom : 2 * (xs.length + n * ss.length) ≤ limit) :
    ∃ l' rest', (Prog.loopUp st n fun _ => Prog.loopUp 0 ss.length fun k => do
        let x ← Prog.lift (aGet ss (k : Nat))
        ObjList.push limit (fun _ => true) x) l = (.ok (), l') ∧
      ObjList.Rep limit (fun _ => true) l' (xs ++ Spec.Array.times ss n) rest' := by
  induction n generalizing st l xs rest with
  | zero => exact ⟨l, rest, rfl, by simpa [Spec.Array.times] using h⟩
  | succ n ih =>
    rw [Nat.succ_mul n ss.length] at hroom
    obtain ⟨l1, r1, e1, h1⟩ := pushAll hlim ss 0 ss.length (by omega) h (by omega)
    rw [List.drop_zero] at h1
    obtain ⟨l2, r2, e2, h2⟩ := ih (st + 1) h1 (by simp; omega)
    refine ⟨l2, r2, ?_, ?_⟩
    · unfold Prog.loopUp
      rw [Prog.bind_ok e1]
      exact e2
    · rw [List.append_assoc] at h2
      have : Spec.Array.times ss (n + 1) = ss ++ Spec.Array.times ss n := by
        simp [Spec.Array.times, List.replicate_succ]
      rw [this]
      exact h2

/-- **C26** (`Array->repeat_string`): for every array of strings and every count, given room for twice the result, the
result is the array repeated `count` times. -/
theorem c26_repeat_string (limit : Nat) (hlim : limit ≤ 1073741824) (h4 : 4 ≤ limit) (strings : List (Option Bytes))
    (count : Nat) (hroom : 2 * (count * strings.length) ≤ limit) :
    repeatString limit (some strings) count = .ok (Spec.Array.times strings count) := by
  obtain ⟨l, e⟩ := ObjList.new_succeeds (limit := limit) (accept := fun _ : Bytes => true) hlim (a := some []) (c := -1)
    (by simp) (by simp; omega)
  obtain ⟨k, r, _⟩ := ObjList.new_ok hlim (by simp) e
  obtain ⟨l', rest', e', r'⟩ := pushTimes hlim strings 0 count r (by simp; omega)
  have et := ObjList.toArray_ok hlim r'
  clear hlim h4 hroom
  unfold repeatString
  simp only []
  rw [if_neg (by omega), e, Out.ok_bind, Int.toNat_natCast]
  have ep : repeatStringPush limit strings count l = (.ok (), l') := e'
  rw [Prog.bind_ok ep, et]
  simp

/-- Non-vacuity of C26. -/
example : repeatString 100 (some [some [65], none]) 2 = .ok [some [65], none, some [65], none] := by decide +kernel
example : repeatObject 100 (fun _ => true) (some [some 1, some 2]) 2 = .ok (some [some 1, some 2, some 1, some 2]) := by decide +kernel

end ArrayOps
end SPVM
