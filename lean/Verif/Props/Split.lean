import Verif.Props.FnStr
import Verif.Props.Repeat
import Verif.Lemmas.StrBuf
/-!
# `split` and `join` (C14)
-/
set_option linter.unusedSimpArgs false
set_option linter.unusedVariables false
namespace SPVM
namespace FnStr
open VM (Bytes)
open Str
open Spec.FnStr (OccursAt IsFirst IsLast IsSplit IsSplitN joined)

/-! ## join -/

theorem push_room {limit : Nat} (hlim : limit ≤ 2147483646) {b : StrBuf} {xs rest : Bytes} (h : StrBuf.Rep limit b xs rest)
    (s : Bytes) (hroom : 2 * (xs.length + s.length) ≤ limit) :
    ∃ b' rest', StrBuf.push limit (some s) 0 (-1) b = (.ok (), b') ∧ StrBuf.Rep limit b' (xs ++ s) rest' := by
  rcases StrBuf.push_cases hlim h s 0 s.length (by omega) (by omega) (by omega) (by omega) (-1) (.inl ⟨rfl, by omega⟩) with
    ⟨b', rest', e, r, _⟩ | ⟨m, e, hb⟩ | ⟨e, hb⟩
  · refine ⟨b', rest', e, ?_⟩
    simpa using r
  · omega
  · omega

theorem joinLoop {limit : Nat} (hlim : limit ≤ 2147483646) (sep : Bytes) (ss : List (Option Bytes)) (n k : Nat)
    (hk : k + n = ss.length) {b : StrBuf} {xs rest : Bytes} (h : StrBuf.Rep limit b xs rest)
    (hroom : 2 * (xs.length + (joined sep ((ss.map (·.getD [])).drop k)).length) ≤ limit) :
    ∃ b' rest', Prog.loopUp k n (joinStep limit sep ss) b = (.ok (), b') ∧
      StrBuf.Rep limit b' (xs ++ joined sep ((ss.map (·.getD [])).drop k)) rest' := by
  induction n generalizing k b xs rest with
  | zero =>
    refine ⟨b, rest, rfl, ?_⟩
    rw [List.drop_eq_nil_of_le (by simp; omega)]
    simpa [joined] using h
  | succ n ih =>
    have hkl : k < ss.length := by omega
    have hget : aGet ss (k : Nat) = .ok ss[k] := by
      rw [aGet_ok (by omega) (by omega)]; simp
    have hdrop : (ss.map (·.getD [])).drop k = ss[k].getD [] :: (ss.map (·.getD [])).drop (k + 1) := by
      rw [List.drop_eq_getElem_cons (by simpa using hkl)]
      simp
    by_cases hlast : n = 0
    · subst hlast
      have hnil : (ss.map (·.getD [])).drop (k + 1) = [] := List.drop_eq_nil_of_le (by simp; omega)
      rw [hdrop, hnil, joined] at hroom ⊢
      obtain ⟨b1, r1, e1, h1⟩ := push_room hlim h _ hroom
      refine ⟨b1, r1, ?_, h1⟩
      unfold Prog.loopUp
      rw [Prog.bind_ok (a := ()) (s' := b1)]
      · rfl
      · unfold joinStep
        rw [hget, Prog.lift_ok_bind, Prog.bind_ok e1, if_neg (by unfold alen; omega)]
        rfl
    · have hcons : ∃ q ps, (ss.map (·.getD [])).drop (k + 1) = q :: ps := by
        rw [List.drop_eq_getElem_cons (by simp; omega)]
        exact ⟨_, _, rfl⟩
      obtain ⟨q, ps, hq⟩ := hcons
      rw [hdrop, hq, joined, ← hq] at hroom ⊢
      simp only [List.length_append] at hroom
      obtain ⟨b1, r1, e1, h1⟩ := push_room hlim h (ss[k].getD []) (by omega)
      obtain ⟨b2, r2, e2, h2⟩ := push_room hlim h1 sep (by simp; omega)
      obtain ⟨b3, r3, e3, h3⟩ := ih (k + 1) (by omega) h2 (by simp only [List.length_append]; omega)
      refine ⟨b3, r3, ?_, ?_⟩
      · unfold Prog.loopUp
        rw [Prog.bind_ok (a := ()) (s' := b2)]
        · exact e3
        · unfold joinStep
          rw [hget, Prog.lift_ok_bind, Prog.bind_ok e1, if_pos (by unfold alen; omega)]
          exact e2
      · simpa [List.append_assoc] using h3

/-- **C14** (`join`): for every separator and every array of strings (an undefined element counts as empty), given room
for twice the result, the strings with the separator between them. -/
theorem c14_join (limit : Nat) (hlim : limit ≤ 2147483646) (h4 : 4 ≤ limit) (sep : Bytes) (ss : List (Option Bytes))
    (hroom : 2 * (joined sep (ss.map (·.getD []))).length ≤ limit) :
    join limit (some sep) (some ss) = .ok (joined sep (ss.map (·.getD []))) := by
  obtain ⟨b, k, e, r⟩ := StrBuf.new_ok hlim none (-1) (by simp; omega)
  obtain ⟨b', rest', e', r'⟩ := joinLoop hlim sep ss ss.length 0 (by omega) r (by simpa using hroom)
  unfold join
  simp only []
  rw [e, Out.ok_bind, Prog.bind_ok e', StrBuf.toString_ok hlim r']
  simp

/-- **C14** (`join`, undefined arguments throw). -/
theorem c14_join_throws (limit : Nat) (sep : Option Bytes) (ss : Option (List (Option Bytes))) (h : sep = none ∨ ss = none) :
    ∃ m, join limit sep ss = .die m := by
  cases sep with
  | none => exact ⟨_, rfl⟩
  | some sep =>
    cases ss with
    | none => exact ⟨_, rfl⟩
    | some ss => simp at h

/-! ## split -/

theorem occursAt_drop {sub s : Bytes} {o p : Nat} (ho : o ≤ s.length) :
    OccursAt sub (s.drop o) p ↔ OccursAt sub s (o + p) := by
  rw [occursAt_iff, occursAt_iff]
  simp only [List.length_drop, List.getElem?_drop]
  constructor
  · rintro ⟨h1, h2⟩
    refine ⟨by omega, fun k hk => ?_⟩
    rw [← h2 k hk]; congr 1; omega
  · rintro ⟨h1, h2⟩
    refine ⟨by omega, fun k hk => ?_⟩
    rw [← h2 k hk]; congr 1; omega

/-- The representation invariant of the loop. -/
structure SplitInv (limit : Nat) (s : Bytes) (st : SplitState) (parts : List (Option Bytes)) : Prop where
  rep : ∃ rest, ObjList.Rep limit (fun _ => true) st.list parts rest
  off0 : 0 ≤ st.offset
  off1 : st.offset ≤ s.length
  few : (parts.length : Int) ≤ st.offset
  cnt : st.count = parts.length

theorem splitPush_ok {limit : Nat} (hlim : limit ≤ 1073741824) {st : SplitState} {parts rest} (part : Bytes)
    (h : ObjList.Rep limit (fun _ => true) st.list parts rest) (hroom : 2 * (parts.length + 1) ≤ limit) :
    ∃ l rest', splitPush limit part st = (.ok (), { st with list := l }) ∧
      ObjList.Rep limit (fun _ => true) l (parts ++ [some part]) rest' := by
  obtain ⟨l, rest', e, r⟩ := ArrayOps.push_spec hlim h (some part) (by simp) hroom
  refine ⟨l, rest', ?_, r⟩
  unfold splitPush
  rw [e]

theorem splitMatch_none {limit : Nat} {sep s : Bytes} {st : SplitState} (e : index (some s) (some sep) st.offset = .ok (-1)) :
    splitMatch limit sep s st = (.ok (), st) := by
  unfold splitMatch
  rw [Prog.get_bind_apply, e, Prog.lift_ok_bind, if_neg (by omega)]
  rfl

/-- Once no separator is left the loop does nothing. -/
theorem splitLoop_none {limit : Nat} {sep s : Bytes} {lim : Int} {st : SplitState}
    (e : index (some s) (some sep) st.offset = .ok (-1)) (n : Nat) : splitLoop limit sep s lim n st = (.ok (), st) := by
  induction n with
  | zero => rfl
  | succ n ih =>
    unfold splitLoop
    rw [Prog.get_bind_apply, Prog.ite_apply]
    split
    · rfl
    · rw [Prog.bind_ok (splitMatch_none e), ih]

theorem splitMatch_some {limit : Nat} (hlim : limit ≤ 1073741824) {sep s : Bytes} (hroom : 2 * (s.length + 2) ≤ limit)
    (hsep : 0 < sep.length) (hsep1 : sep.length ≤ 2147483647) {st : SplitState} {parts}
    (h : SplitInv limit s st parts) {p : Nat}
    (e : index (some s) (some sep) st.offset = .ok (p : Int)) (hp : st.offset ≤ p) (hp1 : p + sep.length ≤ s.length) :
    ∃ st', splitMatch limit sep s st = (.ok (), st') ∧
      SplitInv limit s st' (parts ++ [some ((s.drop st.offset.toNat).take (p - st.offset.toNat))]) ∧
      st'.offset = p + sep.length ∧ st'.count = st.count + 1 := by
  have ⟨⟨rest, r⟩, h0, h1, hfew, hcnt⟩ := h
  obtain ⟨l, rest', ep, rp⟩ := splitPush_ok hlim ((s.drop st.offset.toNat).take (p - st.offset.toNat)) r (by omega)
  refine ⟨{ list := l, offset := p + sep.length, count := st.count + 1 }, ?_, ⟨⟨rest', rp⟩, by simp only []; omega, by simp only []; omega,
    by simp; omega, by simp; omega⟩, rfl, rfl⟩
  unfold splitMatch
  rw [Prog.get_bind_apply, e, Prog.lift_ok_bind, if_pos (by omega), add32_ok (by unfold I32; omega), Prog.lift_ok_bind,
    sub32_ok (by unfold I32; omega), Prog.lift_ok_bind,
    substr_ok (by omega) (by omega) (by omega) (by omega) (by omega), Prog.lift_ok_bind]
  rw [show ((p : Int) - st.offset).toNat = p - st.offset.toNat by omega, Prog.bind_ok ep, Prog.get_bind_apply,
    add32_ok (by unfold I32; omega), Prog.lift_ok_bind]
  rfl

/-- The separators still allowed. -/
def allowed (lim : Int) (count : Int) (n : Nat) : Nat := if lim > 0 then (lim - 1 - count).toNat else n

theorem splitLoop_ok {limit : Nat} (hlim : limit ≤ 1073741824) {sep s : Bytes} (hroom : 2 * (s.length + 2) ≤ limit)
    (hsep : 0 < sep.length) (hsep1 : sep.length ≤ 2147483647) (lim : Int) (n : Nat) {st : SplitState} {parts}
    (h : SplitInv limit s st parts) (hn : (s.length : Int) - st.offset ≤ n) :
    ∃ st' ps, splitLoop limit sep s lim n st = (.ok (), st') ∧ SplitInv limit s st' (parts ++ ps.map some) ∧
      IsSplitN sep (allowed lim st.count n) (s.drop st.offset.toNat) (ps ++ [s.drop st'.offset.toNat]) := by
  induction n generalizing st parts with
  | zero =>
    refine ⟨st, [], rfl, by simpa using h, ?_⟩
    have h1 := h.off1
    have hnil : s.drop st.offset.toNat = [] := List.drop_eq_nil_of_le (by omega)
    rw [hnil]
    refine IsSplitN.last (fun p hp => ?_)
    have := (occursAt_iff.mp hp).1
    rw [List.length_nil] at this
    omega
  | succ n ih =>
    have h0 := h.off0
    have h1 := h.off1
    unfold splitLoop
    rw [Prog.get_bind_apply, Prog.ite_apply]
    by_cases hstop : lim > 0 ∧ st.count ≥ lim - 1
    · rw [if_pos hstop]
      refine ⟨st, [], rfl, by simpa using h, ?_⟩
      have : allowed lim st.count (n + 1) = 0 := by unfold allowed; rw [if_pos hstop.1]; omega
      rw [this]
      exact IsSplitN.stop
    · rw [if_neg hstop]
      obtain ⟨r, e, hr⟩ := index_first (s := s) (sub := sep) (begin_ := st.offset) (end_ := -1) (by omega) hsep1 h0
        (by simp; omega) (by omega)
      have hse : Spec.FnStr.searchEnd s (-1) = s.length := by simp [Spec.FnStr.searchEnd]
      rw [hse] at hr
      rcases hr with ⟨rfl, hno⟩ | ⟨p, rfl, hp0, hp1, hoc, hfirst⟩
      · rw [Prog.bind_ok (splitMatch_none e), splitLoop_none e]
        refine ⟨st, [], rfl, by simpa using h, ?_⟩
        refine IsSplitN.last (fun p hp => ?_)
        rw [occursAt_drop (by omega)] at hp
        exact hno _ (by omega) (occursAt_iff.mp hp).1 hp
      · obtain ⟨st1, e1, i1, ho1, hc1⟩ := splitMatch_some hlim hroom hsep hsep1 h e (by omega) hp1
        obtain ⟨st2, ps, e2, i2, hs2⟩ := ih i1 (by rw [ho1]; omega)
        refine ⟨st2, (s.drop st.offset.toNat).take (p - st.offset.toNat) :: ps, ?_, ?_, ?_⟩
        · rw [Prog.bind_ok e1, e2]
        · simpa [List.append_assoc] using i2
        · have hal : allowed lim st.count (n + 1) = allowed lim st1.count n + 1 := by
            unfold allowed
            rw [hc1]
            split <;> omega
          rw [hal]
          generalize ha : (s.drop st.offset.toNat).take (p - st.offset.toNat) = a
          have hal : a.length = p - st.offset.toNat := by rw [← ha]; simp; omega
          have hdec : s.drop st.offset.toNat = a ++ sep ++ s.drop st1.offset.toNat := by
            obtain ⟨u, v, hu, hul⟩ := (occursAt_drop (p := p - st.offset.toNat) (o := st.offset.toNat) (sub := sep) (s := s)
              (by omega)).mpr (by rw [show st.offset.toNat + (p - st.offset.toNat) = p by omega]; exact hoc)
            have hau : a = u := by
              rw [← ha, hu, List.append_assoc, ← hul, List.take_left]
            have hv : v = s.drop st1.offset.toNat := by
              have : (s.drop st.offset.toNat).drop (u.length + sep.length) = v := by
                rw [hu, ← List.length_append, List.drop_left]
              rw [← this, List.drop_drop]
              congr 1
              omega
            rw [hu, hau, hv]
          rw [List.cons_append, hdec]
          refine IsSplitN.cons (fun q hq hoq => ?_) hs2
          rw [← hdec, occursAt_drop (by omega)] at hoq
          exact hfirst _ (by omega) (by omega) hoq

theorem splitLast_ok {limit : Nat} (hlim : limit ≤ 1073741824) {s : Bytes} (hroom : 2 * (s.length + 2) ≤ limit)
    {st : SplitState} {parts} (h : SplitInv limit s st parts) :
    ∃ l rest, splitLast limit s st = (.ok (), { st with list := l }) ∧
      ObjList.Rep limit (fun _ => true) l (parts ++ [some (s.drop st.offset.toNat)]) rest := by
  have ⟨⟨rest, r⟩, h0, h1, hfew, hcnt⟩ := h
  unfold splitLast
  rw [Prog.get_bind_apply, Prog.ite_apply]
  by_cases hend : st.offset = s.length
  · rw [if_pos hend]
    obtain ⟨l, rest', ep, rp⟩ := splitPush_ok hlim [] r (by omega)
    refine ⟨l, rest', ep, ?_⟩
    rw [List.drop_eq_nil_of_le (by omega)]
    exact rp
  · rw [if_neg hend, sub32_ok (by unfold I32; omega), Prog.lift_ok_bind,
      substr_ok (by omega) (by omega) (by omega) (by omega) (by omega), Prog.lift_ok_bind]
    obtain ⟨l, rest', ep, rp⟩ := splitPush_ok hlim ((s.drop st.offset.toNat).take (↑s.length - st.offset).toNat) r (by omega)
    refine ⟨l, rest', ep, ?_⟩
    rw [List.take_of_length_le (by simp; omega)] at rp
    exact rp

/-- Trailing empty parts removed. -/
def dropTrailing (ps : List Bytes) : List Bytes := (ps.reverse.dropWhile (· = [])).reverse

theorem splitDropEmpty_ok {limit : Nat} (hlim : limit ≤ 1073741824) (n : Nat) {l : ObjList Bytes} {ps : List Bytes} {rest}
    (h : ObjList.Rep limit (fun _ => true) l (ps.map some) rest) (hn : ps.length ≤ n) :
    ∃ l' rest', splitDropEmpty n l = (.ok (), l') ∧
      ObjList.Rep limit (fun _ => true) l' ((dropTrailing ps).map some) rest' := by
  induction n generalizing l ps rest with
  | zero =>
    have : ps = [] := List.length_eq_zero_iff.mp (by omega)
    subst this
    exact ⟨l, rest, rfl, h⟩
  | succ n ih =>
    have hlen := h.len
    simp at hlen
    unfold splitDropEmpty
    rw [Prog.get_bind_apply, Prog.ite_apply]
    rcases List.eq_nil_or_concat ps with rfl | ⟨qs, q, rfl⟩
    · simp at hlen
      rw [if_neg (by omega)]
      exact ⟨l, rest, rfl, h⟩
    · simp at hlen
      rw [if_pos (by omega)]
      have hg := ObjList.get_ok hlim h (l.length - 1) (by omega) (by simp; omega)
      have hel : (List.map some (qs.concat q))[(l.length - 1).toNat]'(by simp; omega) = some q := by
        simp only [List.concat_eq_append]
        have : (l.length - 1).toNat = qs.length := by omega
        simp only [this]
        simp
      rw [hel] at hg
      rw [Prog.bind_ok hg, Prog.ite_apply]
      by_cases hq : q = []
      · subst hq
        rw [if_pos rfl]
        rw [List.concat_eq_append, List.map_append] at h
        obtain ⟨l1, e1, r1, _⟩ := ObjList.pop_ok hlim h
        obtain ⟨l2, rest2, e2, r2⟩ := ih r1 (by simp at hn; omega)
        refine ⟨l2, rest2, by rw [Prog.bind_ok e1, e2], ?_⟩
        simpa [dropTrailing] using r2
      · rw [if_neg (by simpa using hq)]
        refine ⟨l, rest, rfl, ?_⟩
        have : dropTrailing (qs.concat q) = qs.concat q := by
          simp [dropTrailing, hq]
        rw [this]
        exact h

/-- All cases of `split` at once. -/
theorem split_ok (limit : Nat) (hlim : limit ≤ 1073741824) (sep s : Bytes) (hroom : 2 * (s.length + 2) ≤ limit)
    (hsep : sep ≠ []) (hsep1 : sep.length ≤ 2147483647) (lim : Int) :
    ∃ ps, IsSplitN sep (allowed lim 0 s.length) s ps ∧
      split limit (some sep) (some s) lim = .ok ((if lim = 0 then dropTrailing ps else ps).map some) := by
  have hsep0 := List.length_pos_iff.mpr hsep
  obtain ⟨l, el⟩ := ObjList.newLen_succeeds (α := Bytes) (limit := limit) (n := 0) (c := -1) (by omega) (by omega)
  obtain ⟨_, k, r, _⟩ := ObjList.newLen_ok (accept := fun _ => true) el
  have hinv : SplitInv limit s ⟨l, 0, 0⟩ [] := ⟨⟨_, by simpa using r⟩, by simp, by simp, by simp, by simp⟩
  obtain ⟨st, ps, e1, i1, hs⟩ := splitLoop_ok hlim hroom hsep0 hsep1 lim s.length hinv (by simp)
  obtain ⟨l2, rest2, e2, r2⟩ := splitLast_ok hlim hroom i1
  refine ⟨ps ++ [s.drop st.offset.toNat], by simpa using hs, ?_⟩
  unfold split
  simp only []
  rw [if_neg (by omega), el, Out.ok_bind]
  have eboth : (do splitLoop limit sep s lim s.length; splitLast limit s : Prog SplitState Unit) ⟨l, 0, 0⟩ =
      (.ok (), { st with list := l2 }) := by
    rw [Prog.bind_ok e1, e2]
  rw [eboth]
  simp only []
  have r2' : ObjList.Rep limit (fun _ => true) l2 ((ps ++ [s.drop st.offset.toNat]).map some) rest2 := by
    simpa using r2
  have hl2 : l2.length.toNat = (ps ++ [s.drop st.offset.toNat]).length := by
    have := r2'.len
    simp only [List.length_map] at this
    omega
  by_cases h0 : lim = 0
  · rw [if_pos h0, if_pos h0]
    obtain ⟨l3, rest3, e3, r3⟩ := splitDropEmpty_ok hlim l2.length.toNat r2' (by omega)
    rw [Prog.bind_ok e3, ObjList.toArray_ok hlim r3]
  · rw [if_neg h0, if_neg h0]
    rw [ObjList.toArray_ok hlim r2']

theorem isSplit_of_N {sep s : Bytes} {n : Nat} {ps : List Bytes} (hsep : sep ≠ []) (h : IsSplitN sep n s ps) (hn : s.length ≤ n) :
    IsSplit sep s ps := by
  have hsep0 := List.length_pos_iff.mpr hsep
  induction h with
  | stop =>
    refine IsSplit.last (fun p hp => ?_)
    have := (occursAt_iff.mp hp).1
    omega
  | last h => exact IsSplit.last h
  | cons h _ ih =>
    refine IsSplit.cons h (ih ?_)
    simp at hn
    omega

/-- **C14** (`split` without limit, `limit < 0`): exactly the parts between the successive leftmost occurrences of the
separator. -/
theorem c14_split (limit : Nat) (hlim : limit ≤ 1073741824) (sep s : Bytes) (hroom : 2 * (s.length + 2) ≤ limit)
    (hsep : sep ≠ []) (hsep1 : sep.length ≤ 2147483647) (lim : Int) (hneg : lim < 0) :
    ∃ ps, IsSplit sep s ps ∧ split limit (some sep) (some s) lim = .ok (ps.map some) := by
  obtain ⟨ps, h, e⟩ := split_ok limit hlim sep s hroom hsep hsep1 lim
  rw [if_neg (by omega)] at e
  refine ⟨ps, ?_, e⟩
  rw [show allowed lim 0 s.length = s.length by unfold allowed; rw [if_neg (by omega)]] at h
  exact isSplit_of_N hsep h (by omega)

/-- **C14** (default limit 0): as without limit, with the trailing empty parts removed. -/
theorem c14_split_default (limit : Nat) (hlim : limit ≤ 1073741824) (sep s : Bytes) (hroom : 2 * (s.length + 2) ≤ limit)
    (hsep : sep ≠ []) (hsep1 : sep.length ≤ 2147483647) :
    ∃ (qs : List Bytes) (k : Nat), IsSplit sep s (qs ++ List.replicate k []) ∧ (∀ q, qs.getLast? = some q → q ≠ []) ∧
      split limit (some sep) (some s) = .ok (qs.map some) := by
  obtain ⟨ps, h, e⟩ := split_ok limit hlim sep s hroom hsep hsep1 0
  rw [if_pos rfl] at e
  rw [show allowed 0 0 s.length = s.length by unfold allowed; rw [if_neg (by omega)]] at h
  have hrev : ∀ (u : List Bytes), ∃ k, u = List.replicate k [] ++ u.dropWhile (· = []) := by
    intro u
    induction u with
    | nil => exact ⟨0, rfl⟩
    | cons x u ih =>
      obtain ⟨k, hk⟩ := ih
      by_cases hx : x = []
      · refine ⟨k + 1, ?_⟩
        rw [List.dropWhile_cons, if_pos (by simpa using hx), List.replicate_succ, List.cons_append, ← hk, hx]
      · exact ⟨0, by rw [List.dropWhile_cons, if_neg (by simpa using hx)]; simp⟩
  obtain ⟨k, hk⟩ := hrev ps.reverse
  refine ⟨dropTrailing ps, k, ?_, ?_, e⟩
  · have : ps = dropTrailing ps ++ List.replicate k [] := by
      have := congrArg List.reverse hk
      rw [List.reverse_reverse, List.reverse_append, List.reverse_replicate] at this
      exact this
    rw [← this]
    exact isSplit_of_N hsep h (by omega)
  · intro q hq
    unfold dropTrailing at hq
    rw [List.getLast?_reverse] at hq
    have := List.head?_dropWhile_not (p := fun x : Bytes => decide (x = [])) (l := ps.reverse)
    rw [hq] at this
    simpa using this

/-- **C14** (limit `n > 0`): at most `n` parts; the first `n - 1` separators split, the rest is kept whole. -/
theorem c14_split_limit (limit : Nat) (hlim : limit ≤ 1073741824) (sep s : Bytes) (hroom : 2 * (s.length + 2) ≤ limit)
    (hsep : sep ≠ []) (hsep1 : sep.length ≤ 2147483647) (n : Nat) :
    ∃ ps, IsSplitN sep n s ps ∧ ps.length ≤ n + 1 ∧ split limit (some sep) (some s) (n + 1 : Nat) = .ok (ps.map some) := by
  obtain ⟨ps, h, e⟩ := split_ok limit hlim sep s hroom hsep hsep1 (n + 1 : Nat)
  rw [if_neg (by omega)] at e
  rw [show allowed (n + 1 : Nat) 0 s.length = n by unfold allowed; rw [if_pos (by omega)]; omega] at h
  refine ⟨ps, h, ?_, e⟩
  clear e
  induction h with
  | stop => simp
  | last => simp
  | cons _ _ ih =>
    simp at hroom
    have := ih (by omega)
    simp; omega

theorem joined_splitN {sep s : Bytes} {n : Nat} {ps : List Bytes} (h : IsSplitN sep n s ps) : joined sep ps = s := by
  induction h with
  | stop => rfl
  | last => rfl
  | cons _ h ih =>
    cases h <;> simp [joined] at ih ⊢
    all_goals (rw [ih])

/-- **C14** (round trip): for every string and non-empty separator and every limit but 0, joining the parts gives the
string back. -/
theorem c14_join_split (limit : Nat) (hlim : limit ≤ 1073741824) (sep s : Bytes) (hroom : 2 * (s.length + 2) ≤ limit)
    (hsep : sep ≠ []) (hsep1 : sep.length ≤ 2147483647) (lim : Int) (h0 : lim ≠ 0) :
    ∃ parts, split limit (some sep) (some s) lim = .ok parts ∧ join limit (some sep) (some parts) = .ok s := by
  obtain ⟨ps, h, e⟩ := split_ok limit hlim sep s hroom hsep hsep1 lim
  rw [if_neg h0] at e
  refine ⟨_, e, ?_⟩
  have hj := joined_splitN h
  have hmap : (ps.map some).map (·.getD []) = ps := by
    rw [List.map_map]
    exact List.map_id' ps
  have := c14_join limit (by omega) (by omega) sep (ps.map some) (by rw [hmap, hj]; omega)
  rw [this, hmap, hj]

/-- **C14** (with the default limit 0 the round trip fails: a trailing separator is lost). -/
theorem c14_join_split_default_violated :
    split 100 (some [44]) (some [97, 44]) = .ok [some [97]] ∧ join 100 (some [44]) (some [some [97]]) = .ok [97] := by
  decide +kernel

theorem isSplit_sep_ne {sep s : Bytes} {ps : List Bytes} (h : IsSplit sep s ps) : sep ≠ [] := by
  induction h with
  | @last s h =>
    rintro rfl
    exact h 0 ⟨[], s, by simp, rfl⟩
  | cons _ _ ih => exact ih

/-- No part of a split contains the separator. -/
theorem c14_parts_clean {sep s : Bytes} {ps : List Bytes} (h : IsSplit sep s ps) :
    ∀ q ∈ ps, ∀ p, ¬ OccursAt sep q p := by
  induction h with
  | last h =>
    intro q hq p
    rw [List.mem_singleton] at hq
    subst hq
    exact h p
  | @cons a rest ps hfirst _ ih =>
    intro q hq p hoc
    rcases List.mem_cons.mp hq with rfl | hq
    · obtain ⟨u, v, hu, hul⟩ := hoc
      by_cases hp : p < q.length
      · refine hfirst p hp ⟨u, v ++ sep ++ rest, ?_, hul⟩
        conv => lhs; rw [hu]
        simp [List.append_assoc]
      · have hs : sep = [] := by
          have := congrArg List.length hu
          simp at this
          exact List.length_eq_zero_iff.mp (by omega)
        subst hs
        by_cases hq0 : 0 < q.length
        · exact hfirst 0 hq0 ⟨[], q ++ [] ++ rest, by simp, rfl⟩
        · have : q = [] := List.length_eq_zero_iff.mp (by omega)
          subst this
          rename_i h2
          exact isSplit_sep_ne h2 rfl
    · exact ih q hq p hoc

/-- The split of a string is unique. -/
theorem c14_split_unique {sep s : Bytes} {ps qs : List Bytes} (h : IsSplit sep s ps) (h' : IsSplit sep s qs) : ps = qs := by
  induction h generalizing qs with
  | last h =>
    cases h' with
    | last _ => rfl
    | @cons a rest => exact absurd ⟨a, rest, rfl, rfl⟩ (h a.length)
  | @cons a rest ps hf _ ih =>
    generalize hS : a ++ sep ++ rest = S at h'
    cases h' with
    | last h => exact absurd ⟨a, rest, hS.symm, rfl⟩ (h a.length)
    | @cons b rest' _ hf' h2 =>
      have hlen : a.length = b.length := by
        rcases Nat.lt_trichotomy a.length b.length with h | h | h
        · exact absurd ⟨a, rest, hS.symm, rfl⟩ (hf' _ h)
        · exact h
        · exact absurd ⟨b, rest', hS, rfl⟩ (hf _ h)
      rw [List.append_assoc, List.append_assoc] at hS
      obtain ⟨rfl, h1⟩ := List.append_inj hS hlen
      obtain ⟨_, rfl⟩ := List.append_inj h1 rfl
      rw [ih h2]

/-- **C14** (invalid arguments of `split` throw). -/
theorem c14_split_throws (limit : Nat) (sep s : Option Bytes) (lim : Int) (h : sep = none ∨ s = none ∨ sep = some []) :
    ∃ m, split limit sep s lim = .die m := by
  unfold split
  cases sep with
  | none => exact ⟨_, rfl⟩
  | some sep =>
    cases s with
    | none => exact ⟨_, rfl⟩
    | some s =>
      simp at h
      subst h
      exact ⟨_, rfl⟩

/-- Non-vacuity of C14: "a,b,,c,". -/
example : split 100 (some [44]) (some [97, 44, 98, 44, 44, 99, 44]) =
    .ok [some [97], some [98], some [], some [99]] := by decide +kernel
example : split 100 (some [44]) (some [97, 44, 98, 44, 44, 99, 44]) 2 = .ok [some [97], some [98, 44, 44, 99, 44]] := by
  decide +kernel
example : join 100 (some [44]) (some [some [97], none, some [99]]) = .ok [97, 44, 44, 99] := by decide +kernel

end FnStr
end SPVM
