import Verif.Lemmas.Str
import Verif.Model.FnStr
import Verif.Spec.FnStr
/-!
# Lemmas for the string functions of `Fn`
-/
set_option linter.unusedSimpArgs false
namespace SPVM

/-- A statement about all 256 bytes can be decided. -/
instance decForallUInt8 (p : UInt8 → Prop) [DecidablePred p] : Decidable (∀ b, p b) :=
  decidable_of_iff (∀ n : Fin 256, p (UInt8.ofNat n.val)) (by
    constructor
    · intro h b
      have := h ⟨b.toNat, b.toNat_lt⟩
      simpa using this
    · intro h n
      exact h _)

theorem searchUp_spec {start n : Nat} {body : Nat → Out (Option β)} (f : Nat → Option β)
    (h : ∀ i, start ≤ i → i < start + n → body i = .ok (f i)) :
    ∃ r, searchUp start n body = .ok r ∧
      ((r = none ∧ ∀ i, start ≤ i → i < start + n → f i = none) ∨
       (∃ i v, r = some v ∧ start ≤ i ∧ i < start + n ∧ f i = some v ∧ ∀ j, start ≤ j → j < i → f j = none)) := by
  induction n generalizing start with
  | zero => exact ⟨none, rfl, .inl ⟨rfl, fun i h1 h2 => by omega⟩⟩
  | succ n ih =>
    unfold searchUp
    rw [h start (by omega) (by omega)]
    simp only [Out.ok_bind]
    cases hf : f start with
    | some v => exact ⟨some v, rfl, .inr ⟨start, v, rfl, by omega, by omega, hf, fun j h1 h2 => by omega⟩⟩
    | none =>
      obtain ⟨r, e, hr⟩ := ih (start := start + 1) (fun i h1 h2 => h i (by omega) (by omega))
      refine ⟨r, e, ?_⟩
      rcases hr with ⟨rfl, hn⟩ | ⟨i, v, rfl, h1, h2, h3, h4⟩
      · refine .inl ⟨rfl, fun i h1 h2 => ?_⟩
        by_cases hi : i = start
        · rw [hi]; exact hf
        · exact hn i (by omega) (by omega)
      · refine .inr ⟨i, v, rfl, by omega, by omega, h3, fun j h5 h6 => ?_⟩
        by_cases hi : j = start
        · rw [hi]; exact hf
        · exact h4 j (by omega) h6

theorem searchDown_spec {lo n : Nat} {body : Nat → Out (Option β)} (f : Nat → Option β)
    (h : ∀ i, lo ≤ i → i < lo + n → body i = .ok (f i)) :
    ∃ r, searchDown lo n body = .ok r ∧
      ((r = none ∧ ∀ i, lo ≤ i → i < lo + n → f i = none) ∨
       (∃ i v, r = some v ∧ lo ≤ i ∧ i < lo + n ∧ f i = some v ∧ ∀ j, i < j → j < lo + n → f j = none)) := by
  induction n with
  | zero => exact ⟨none, rfl, .inl ⟨rfl, fun i h1 h2 => by omega⟩⟩
  | succ n ih =>
    unfold searchDown
    rw [h (lo + n) (by omega) (by omega)]
    simp only [Out.ok_bind]
    cases hf : f (lo + n) with
    | some v => exact ⟨some v, rfl, .inr ⟨lo + n, v, rfl, by omega, by omega, hf, fun j h1 h2 => by omega⟩⟩
    | none =>
      obtain ⟨r, e, hr⟩ := ih (fun i h1 h2 => h i (by omega) (by omega))
      refine ⟨r, e, ?_⟩
      rcases hr with ⟨rfl, hn⟩ | ⟨i, v, rfl, h1, h2, h3, h4⟩
      · refine .inl ⟨rfl, fun i h1 h2 => ?_⟩
        by_cases hi : i = lo + n
        · rw [hi]; exact hf
        · exact hn i (by omega) (by omega)
      · refine .inr ⟨i, v, rfl, by omega, by omega, h3, fun j h5 h6 => ?_⟩
        by_cases hi : j = lo + n
        · rw [hi]; exact hf
        · exact h4 j (by omega) (by omega)

namespace FnStr
open VM (Bytes)
open Str
open Spec.FnStr (OccursAt IsFirst IsLast)

theorem occursAt_iff {sub s : Bytes} {p : Nat} :
    OccursAt sub s p ↔ p + sub.length ≤ s.length ∧ ∀ k, k < sub.length → s[p + k]? = sub[k]? := by
  constructor
  · rintro ⟨a, b, rfl, rfl⟩
    refine ⟨by simp only [List.length_append]; omega, fun k hk => ?_⟩
    rw [List.append_assoc, List.getElem?_append_right (by omega), List.getElem?_append_left (by omega)]
    congr 1
    omega
  · rintro ⟨h1, h2⟩
    refine ⟨s.take p, s.drop (p + sub.length), ?_, by simp; omega⟩
    apply List.ext_getElem?
    intro i
    by_cases hi : i < p
    · rw [List.append_assoc, List.getElem?_append_left (by simp; omega), List.getElem?_take_of_lt hi]
    · rw [List.append_assoc, List.getElem?_append_right (by simp; omega)]
      rw [show (s.take p).length = p by simp; omega]
      by_cases hi2 : i - p < sub.length
      · rw [List.getElem?_append_left hi2, ← h2 _ hi2]
        congr 1; omega
      · rw [List.getElem?_append_right (by omega), List.getElem?_drop]
        congr 1; omega

/-- The inner loop decides whether the substring occurs in range. -/
theorem matchAt_ok {s sub : Bytes} {e : Int} {i : Nat} (hs : s.length ≤ 2147483647)
    (he : e < s.length) (hi : (i : Int) ≤ e) (hsub : 0 < sub.length) (hsub' : sub.length ≤ 2147483647) :
    ∃ b, matchAt s sub e i = .ok b ∧ (b = true ↔ ((i : Int) + sub.length ≤ e + 1 ∧ OccursAt sub s i)) := by
  have key : ∀ n k, k + n = sub.length → (i : Int) + k ≤ e + 1 →
      ∃ r, searchUp k n (fun k => do
        let p ← add32 i (k : Nat)
        if p > e then .ok (some ())
        else do
          let c ← aGet s p
          let d ← aGet sub k
          .ok (if c = d then none else some ())) = .ok r ∧
        (r.isNone = true ↔ ((i : Int) + sub.length ≤ e + 1 ∧ ∀ j, k ≤ j → j < sub.length → s[i + j]? = sub[j]?)) := by
    intro n
    induction n with
    | zero =>
      intro k hk hb
      exact ⟨none, rfl, by simp; exact ⟨by omega, fun j h1 h2 => by omega⟩⟩
    | succ n ih =>
      intro k hk hb
      unfold searchUp
      rw [add32_ok (by unfold I32; omega)]
      simp only [Out.ok_bind]
      by_cases hgt : (i : Int) + k > e
      · rw [if_pos hgt]
        exact ⟨some (), rfl, by simp; intro h; omega⟩
      · rw [if_neg hgt, aGet_ok (by omega) (by omega), aGet_ok (by omega) (by omega)]
        simp only [Out.ok_bind, Int.toNat_natCast]
        have e1 : (↑i + ↑k : Int).toNat = i + k := by omega
        simp only [e1]
        by_cases hc : s[i + k] = sub[k]
        · rw [if_pos hc]
          obtain ⟨r, er, hr⟩ := ih (k + 1) (by omega) (by omega)
          refine ⟨r, er, ?_⟩
          rw [hr]
          constructor
          · rintro ⟨h1, h2⟩
            refine ⟨h1, fun j h3 h4 => ?_⟩
            by_cases hj : j = k
            · subst hj
              rw [List.getElem?_eq_getElem (by omega), List.getElem?_eq_getElem (by omega), hc]
            · exact h2 j (by omega) h4
          · rintro ⟨h1, h2⟩
            exact ⟨h1, fun j h3 h4 => h2 j (by omega) h4⟩
        · rw [if_neg hc]
          refine ⟨some (), rfl, ?_⟩
          simp only [Option.isNone_some, Bool.false_eq_true, false_iff]
          rintro ⟨h1, h2⟩
          have := h2 k (by omega) (by omega)
          rw [List.getElem?_eq_getElem (by omega), List.getElem?_eq_getElem (by omega)] at this
          exact hc (Option.some.inj this)
  obtain ⟨r, er, hr⟩ := key sub.length 0 (by omega) (by omega)
  refine ⟨r.isNone, ?_, ?_⟩
  · unfold matchAt
    rw [er]
    rfl
  · rw [hr, occursAt_iff]
    constructor
    · rintro ⟨h1, h2⟩
      exact ⟨h1, by omega, fun k hk => h2 k (by omega) hk⟩
    · rintro ⟨h1, h2, h3⟩
      exact ⟨h1, fun j _ hj => h3 j hj⟩

theorem matchExit_ok {s sub : Bytes} {e : Int} {i : Nat} (hs : s.length ≤ 2147483647)
    (he : e < s.length) (hi : (i : Int) ≤ e) (hsub : 0 < sub.length) (hsub' : sub.length ≤ 2147483647) :
    ∃ o, matchExit s sub e i = .ok o ∧ (o = none ∧ ¬ ((i : Int) + sub.length ≤ e + 1 ∧ OccursAt sub s i) ∨
      o = some (i : Int) ∧ ((i : Int) + sub.length ≤ e + 1 ∧ OccursAt sub s i)) := by
  obtain ⟨b, eb, hb⟩ := matchAt_ok hs he hi hsub hsub'
  unfold matchExit
  rw [eb]
  simp only [Out.ok_bind]
  cases b with
  | true => exact ⟨some (i : Int), rfl, .inr ⟨rfl, hb.mp rfl⟩⟩
  | false => exact ⟨none, rfl, .inl ⟨rfl, fun h => by simpa using hb.mpr h⟩⟩

theorem searchEnd_eq (s : Bytes) (end_ : Int) (h : end_ ≤ s.length) :
    let e := if end_ < 0 then (s.length : Int) else end_
    (Spec.FnStr.searchEnd s end_ : Int) = (if e = s.length then e - 1 else e) + 1 := by
  simp only []
  unfold Spec.FnStr.searchEnd
  split <;> split <;> (try split) <;> omega

/-- `index` with valid arguments. -/
theorem index_first {s sub : Bytes} {begin_ end_ : Int} (hs : s.length ≤ 2147483647) (hsub : sub.length ≤ 2147483647)
    (h0 : 0 ≤ begin_) (h1 : begin_ ≤ (if end_ < 0 then (s.length : Int) else end_)) (h2 : end_ ≤ s.length) :
    ∃ r, index (some s) (some sub) begin_ end_ = .ok r ∧
      IsFirst sub s begin_.toNat (Spec.FnStr.searchEnd s end_) r := by
  have hse := searchEnd_eq s end_ h2
  simp only [] at hse
  have hle : (if end_ < 0 then (s.length : Int) else end_) ≤ s.length := by split <;> omega
  unfold index searchArgs
  simp only []
  rw [if_neg (by omega), if_neg (by omega), if_neg (by omega)]
  unfold indexBody
  by_cases hz : (sub.length : Int) = 0
  · rw [if_pos hz]
    have hnil : sub = [] := List.length_eq_zero_iff.mp (by omega)
    refine ⟨begin_, rfl, .inr ⟨begin_.toNat, by omega, by omega, ?_, ?_, fun q h3 h4 => by omega⟩⟩
    · rw [hnil]
      simp only [List.length_nil]
      split at hse <;> omega
    · exact occursAt_iff.mpr ⟨by omega, fun k hk => by omega⟩
  · rw [if_neg hz]
    simp only []
    generalize hE : (if (if end_ < 0 then (s.length : Int) else end_) = s.length then
      (if end_ < 0 then (s.length : Int) else end_) - 1 else (if end_ < 0 then (s.length : Int) else end_)) = E at *
    have hEs : E < s.length := by
      rw [← hE]; split <;> omega
    have hex : ∀ i, begin_.toNat ≤ i → i < begin_.toNat + (E + 1 - begin_).toNat →
        ∃ o, matchExit s sub E i = .ok o ∧ (o = none ∧ ¬ ((i : Int) + sub.length ≤ E + 1 ∧ OccursAt sub s i) ∨
          o = some (i : Int) ∧ ((i : Int) + sub.length ≤ E + 1 ∧ OccursAt sub s i)) := fun i h3 h4 =>
      matchExit_ok hs hEs (by omega) (by omega) hsub
    obtain ⟨f, hf⟩ : ∃ f : Nat → Option Int, ∀ i, begin_.toNat ≤ i → i < begin_.toNat + (E + 1 - begin_).toNat →
        matchExit s sub E i = .ok (f i) ∧ (f i = none ∧ ¬ ((i : Int) + sub.length ≤ E + 1 ∧ OccursAt sub s i) ∨
          f i = some (i : Int) ∧ ((i : Int) + sub.length ≤ E + 1 ∧ OccursAt sub s i)) := by
      refine ⟨fun i => match matchExit s sub E i with | .ok o => o | _ => none, fun i h3 h4 => ?_⟩
      obtain ⟨o, eo, ho⟩ := hex i h3 h4
      simp only [eo]
      exact ⟨trivial, ho⟩
    obtain ⟨r, er, hr⟩ := searchUp_spec f (fun i h3 h4 => (hf i h3 h4).1)
    rw [er]
    simp only [Out.ok_bind]
    refine ⟨_, rfl, ?_⟩
    rcases hr with ⟨rfl, hn⟩ | ⟨i, v, rfl, h3, h4, h5, h6⟩
    · refine .inl ⟨rfl, fun p h7 h8 h9 => ?_⟩
      have hp : p < begin_.toNat + (E + 1 - begin_).toNat := by omega
      rcases (hf p h7 hp).2 with ⟨_, hno⟩ | ⟨hsome, _⟩
      · exact hno ⟨by omega, h9⟩
      · rw [hn p h7 hp] at hsome; simp at hsome
    · rcases (hf i h3 h4).2 with ⟨hnone, _⟩ | ⟨hsome, hoc⟩
      · rw [hnone] at h5; simp at h5
      · rw [h5] at hsome
        obtain rfl := Option.some.inj hsome
        refine .inr ⟨i, rfl, h3, by omega, hoc.2, fun q h7 h8 h9 => ?_⟩
        rcases (hf q h7 (by omega)).2 with ⟨_, hno⟩ | ⟨hs', _⟩
        · exact hno ⟨by omega, h9⟩
        · rw [h6 q h7 h8] at hs'; simp at hs'

/-- `rindex` with valid arguments and a non-empty substring. -/
theorem rindex_last {s sub : Bytes} {begin_ end_ : Int} (hs : s.length ≤ 2147483647) (hsub : sub.length ≤ 2147483647)
    (hne : 0 < sub.length)
    (h0 : 0 ≤ begin_) (h1 : begin_ ≤ (if end_ < 0 then (s.length : Int) else end_)) (h2 : end_ ≤ s.length) :
    ∃ r, rindex (some s) (some sub) end_ begin_ = .ok r ∧
      IsLast sub s begin_.toNat (Spec.FnStr.searchEnd s end_) r := by
  have hse := searchEnd_eq s end_ h2
  simp only [] at hse
  have hle : (if end_ < 0 then (s.length : Int) else end_) ≤ s.length := by split <;> omega
  unfold rindex searchArgs
  simp only []
  rw [if_neg (by omega), if_neg (by omega), if_neg (by omega)]
  unfold rindexBody
  rw [if_neg (by omega)]
  simp only []
  generalize hE : (if (if end_ < 0 then (s.length : Int) else end_) = s.length then
    (if end_ < 0 then (s.length : Int) else end_) - 1 else (if end_ < 0 then (s.length : Int) else end_)) = E at *
  have hEs : E < s.length := by
    rw [← hE]; split <;> omega
  have hex : ∀ i, begin_.toNat ≤ i → i < begin_.toNat + (E + 1 - begin_).toNat →
      ∃ o, matchExit s sub E i = .ok o ∧ (o = none ∧ ¬ ((i : Int) + sub.length ≤ E + 1 ∧ OccursAt sub s i) ∨
        o = some (i : Int) ∧ ((i : Int) + sub.length ≤ E + 1 ∧ OccursAt sub s i)) := fun i h3 h4 =>
    matchExit_ok hs hEs (by omega) (by omega) hsub
  obtain ⟨f, hf⟩ : ∃ f : Nat → Option Int, ∀ i, begin_.toNat ≤ i → i < begin_.toNat + (E + 1 - begin_).toNat →
      matchExit s sub E i = .ok (f i) ∧ (f i = none ∧ ¬ ((i : Int) + sub.length ≤ E + 1 ∧ OccursAt sub s i) ∨
        f i = some (i : Int) ∧ ((i : Int) + sub.length ≤ E + 1 ∧ OccursAt sub s i)) := by
    refine ⟨fun i => match matchExit s sub E i with | .ok o => o | _ => none, fun i h3 h4 => ?_⟩
    obtain ⟨o, eo, ho⟩ := hex i h3 h4
    simp only [eo]
    exact ⟨trivial, ho⟩
  obtain ⟨r, er, hr⟩ := searchDown_spec f (fun i h3 h4 => (hf i h3 h4).1)
  rw [er]
  simp only [Out.ok_bind]
  refine ⟨_, rfl, ?_⟩
  rcases hr with ⟨rfl, hn⟩ | ⟨i, v, rfl, h3, h4, h5, h6⟩
  · refine .inl ⟨rfl, fun p h7 h8 h9 => ?_⟩
    have hp : p < begin_.toNat + (E + 1 - begin_).toNat := by omega
    rcases (hf p h7 hp).2 with ⟨_, hno⟩ | ⟨hsome, _⟩
    · exact hno ⟨by omega, h9⟩
    · rw [hn p h7 hp] at hsome; simp at hsome
  · rcases (hf i h3 h4).2 with ⟨hnone, _⟩ | ⟨hsome, hoc⟩
    · rw [hnone] at h5; simp at h5
    · rw [h5] at hsome
      obtain rfl := Option.some.inj hsome
      refine .inr ⟨i, rfl, h3, by omega, hoc.2, fun q h7 h8 h9 => ?_⟩
      have hq : q < begin_.toNat + (E + 1 - begin_).toNat := by omega
      rcases (hf q (by omega) hq).2 with ⟨_, hno⟩ | ⟨hs', _⟩
      · exact hno ⟨by omega, h9⟩
      · rw [h6 q h7 hq] at hs'; simp at hs'

/-- Filling a new string byte by byte. -/
theorem mapString_ok {limit : Nat} {f : UInt8 → UInt8} {s : Bytes} (h : s.length ≤ limit) :
    mapString limit f (some s) = .ok (s.map f) := by
  unfold mapString
  simp only []
  rw [newStringLen_ok (by omega) (by omega), Out.ok_bind, Int.toNat_natCast]
  obtain ⟨t, e, ht⟩ := forLoop_inv (start := 0) (n := s.length)
    (body := fun i new => do
      let c ← aGet s (i : Nat)
      aSet new i (f c)) (s := List.replicate s.length 0)
    (fun i new => new = (s.map f).take i ++ List.replicate (s.length - i) 0)
    (by simp)
    (by
      intro i new _ hi hnew
      refine ⟨new.set i (f s[i]), ?_, ?_⟩
      · rw [aGet_ok (by omega) (by omega)]
        simp only [Out.ok_bind, Int.toNat_natCast]
        rw [aSet_ok (by omega) (by simp [hnew]; omega)]
        simp
      · subst hnew
        apply List.ext_getElem?
        intro k
        simp only [List.getElem?_set, List.getElem?_append, List.length_take, List.length_append, List.length_map,
          List.length_replicate, List.getElem?_take, List.getElem?_map, List.getElem?_replicate]
        grind)
  rw [e, ht]
  simp
  exact List.take_of_length_le (by simp)

end FnStr
end SPVM
