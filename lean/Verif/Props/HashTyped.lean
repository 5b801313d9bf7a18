import Verif.Model.HashTyped
import Verif.Props.Hash
import Verif.Props.Sort
/-!
# C74: the typed methods of `Hash`
-/
namespace SPVM
namespace Hash
open Spec.Hash (Bytes Op Res Item Allows)
open Spec.Map (put Enumerates Map)
open Spec.HashTyped (Val Kind Answer TOp TRes Reads TAllows Sets whole Before)

/-- The outcomes of a history are those of a map: each call is allowed by the specification, or is a memory exhaustion
exception that changes nothing, which needs a map with more than a third of `limit` keys. -/
def TFollows (limit : Nat) (m : Map Bytes (Option Val)) : List TOp → List (Out TRes) → Prop
  | [], [] => True
  | op :: ops, o :: os => o ≠ .ub ∧ ∃ m',
      (TAllows m op (seen o) m' ∨ (m' = m ∧ seen o = none ∧ ∃ ks, Enumerates m ks ∧ limit < 3 * ks.length)) ∧
      TFollows limit m' ops os
  | _, _ => False

theorem get_toMap {hash : Bytes → BitVec 64} {h : Hash α} (i : Inv hash h) (k : Bytes) :
    get hash (some k) h = (.ok (h.toMap k).join, h) := by
  simp only [get, Prog.get_bind_apply]
  rw [getEntry_ok i]
  simp only [Prog.lift_ok_bind, Prog.pure_apply, toMap]
  rw [bind_value]

theorem exist_toMap {hash : Bytes → BitVec 64} {h : Hash α} (i : Inv hash h) (k : Bytes) :
    exist hash (some k) h = (.ok (if (h.toMap k).isSome then 1 else 0), h) := by
  simp only [exist, Prog.get_bind_apply]
  rw [getEntry_ok i]
  simp [toMap]

theorem delete_toMap {hash : Bytes → BitVec 64} {limit : Nat} (hlim : limit < 1073741824) {h : Hash α} (w : Wf hash limit h)
    (k : Bytes) : ∃ v h', delete hash (some k) h = (.ok v, h') ∧ Wf hash limit h' ∧ h'.toMap = put h.toMap k none := by
  have hl := w.load
  have hf := w.fits
  obtain ⟨h', e1, e2, e3, e4, e5⟩ := delete_ok w.toInv (by omega) k
  refine ⟨_, h', e1, ⟨e2, by rw [e4]; omega, by omega⟩, ?_⟩
  funext k'
  simp only [toMap, put, e5]
  split <;> rfl

/-- `set` for one key. -/
theorem set_toMap {hash : Bytes → BitVec 64} {limit : Nat} (hlim : limit < 1073741824) {h : Hash α} (w : Wf hash limit h)
    (k : Bytes) (v : Option α) :
    (∃ h', set hash limit (some k) v h = (.ok (), h') ∧ Wf hash limit h' ∧ h'.toMap = put h.toMap k (some v)) ∨
    (∃ m, set hash limit (some k) v h = (.die m, h) ∧ limit < 3 * h.keysLength) := by
  have hl := w.load
  have hp := w.good.pos
  have hf := w.fits
  rcases set_cases (limit := limit) w.toInv (by omega) k v with ⟨h', e1, e2, e3, e4⟩ | ⟨e1, e2, e3⟩ | ⟨_, _, e3⟩
  · have hadd : h'.keysLength ≤ h.keysLength + 1 := by rw [e3]; split <;> omega
    refine .inl ⟨h', e1, ?_, ?_⟩
    · rcases e4 with ⟨ho, e4, e4', _⟩ | ⟨ho, e4, _⟩ <;> unfold overloaded alen at ho
      · exact ⟨e2, by rw [e4]; omega, e4'⟩
      · exact ⟨e2, by rw [e4]; omega, by omega⟩
    · rcases e4 with ⟨_, _, _, e4⟩ | ⟨_, _, e4⟩
      · exact toMap_put (fun e => { e with weak := false }) (fun _ => rfl) e4
      · exact toMap_put id (fun _ => rfl) (by simpa using e4)
  · exact .inr ⟨_, e1, by unfold overloaded alen at e2; omega⟩
  · omega

theorem signExtend_toInt {n m : Nat} (h : n ≤ m) (v : BitVec n) : (v.signExtend m).toInt = v.toInt := by
  rw [BitVec.toInt_signExtend_of_le h]

theorem setWidth_toInt {n m : Nat} (h : m ≤ n) (v : BitVec n) : (v.setWidth m).toInt = v.toInt.bmod (2 ^ m) := by
  rw [BitVec.toInt_setWidth, BitVec.toInt_eq_toNat_bmod, Int.bmod_bmod_of_dvd]
  exact_mod_cast Nat.pow_dvd_pow 2 h

/-- The getters read the documented types, and throw on every other value. -/
theorem getKind_cases {hash : Bytes → BitVec 64} {h : Hash Val} (i : Inv hash h) (kind : Kind) (k : Bytes) :
    (∃ a, getKind hash kind (some k) h = (.ok a, h) ∧ Reads kind (h.toMap k).join a) ∨
    (∃ m, getKind hash kind (some k) h = (.die m, h) ∧ ∀ a, ¬ Reads kind (h.toMap k).join a) := by
  have hg := get_toMap i k
  generalize (h.toMap k).join = v at hg ⊢
  cases kind <;> simp only [getKind, getByte, getShort, getInt, getLong, getFloat, getDouble, getString, Reads] <;>
    (try rw [Prog.bind_ok hg])
  case object => exact .inl ⟨_, hg, rfl⟩
  case string =>
    rcases v with _ | v
    · exact .inl ⟨none, rfl, rfl⟩
    · cases v
      case string s => exact .inl ⟨some s, rfl, rfl⟩
      all_goals exact .inr ⟨_, rfl, by intro a; cases a <;> simp⟩
  case float =>
    rcases v with _ | v
    · exact .inr ⟨_, rfl, by simp⟩
    · cases v
      case float s => exact .inl ⟨s, rfl, rfl⟩
      all_goals exact .inr ⟨_, rfl, by simp⟩
  case double =>
    rcases v with _ | v
    · exact .inr ⟨_, rfl, by simp⟩
    · cases v
      case double s => exact .inl ⟨s, rfl, rfl⟩
      all_goals exact .inr ⟨_, rfl, by simp⟩
  all_goals
    rcases v with _ | v
    · exact .inr ⟨_, rfl, by simp⟩
    · cases v <;> first
        | exact .inl ⟨_, rfl, _, _, rfl, rfl, by omega⟩
        | exact .inl ⟨_, rfl, _, 8, rfl, congrArg (fun z => some (8, z)) (signExtend_toInt (by omega) _).symm, by omega⟩
        | exact .inl ⟨_, rfl, _, 16, rfl, congrArg (fun z => some (16, z)) (signExtend_toInt (by omega) _).symm, by omega⟩
        | exact .inl ⟨_, rfl, _, 32, rfl, congrArg (fun z => some (32, z)) (signExtend_toInt (by omega) _).symm, by omega⟩
        | (refine .inr ⟨_, rfl, ?_⟩
           rintro a ⟨o, n, ho, hw, hn⟩
           cases ho
           simp [whole] at hw
           try omega)

theorem sets_cases {hash : Bytes → BitVec 64} {limit : Nat} (hlim : limit < 1073741824) {h : Hash Val} (w : Wf hash limit h)
    (key : Option Bytes) (v : Option Val) :
    (let p : Prog (Hash Val) TRes := do set hash limit key v; pure (.base .unit)
     ((p h).1 ≠ .ub ∧ Sets h.toMap key v (seen (p h).1) (p h).2.toMap ∧ Wf hash limit (p h).2) ∨
     ((∃ m, p h = (.die m, h)) ∧ limit < 3 * h.keysLength)) := by
  intro p
  cases key with
  | none => exact .inl ⟨by simp [p, set, Prog.bind_apply], ⟨rfl, rfl⟩, w⟩
  | some k =>
    rcases set_toMap hlim w k v with ⟨h', e1, e2, e3⟩ | ⟨m, e1, e2⟩
    · have e : p h = (.ok (.base .unit), h') := by simp only [p]; rw [Prog.bind_ok e1]; rfl
      rw [e]
      exact .inl ⟨by simp, ⟨rfl, e3⟩, e2⟩
    · exact .inr ⟨⟨m, by simp only [p]; exact Prog.bind_die e1⟩, e2⟩

/-! ### `to_array` -/

theorem before_of_lexLt {a b : Bytes} (h : VM.LexLt a b) : Before a b := by
  induction h with
  | nil => exact .nil
  | head h => exact .head h
  | tail _ ih => exact .tail ih

/-- The order of the keys after `sort_string_asc` and `sort_string_desc`. -/
theorem sortKeys_ok (limit : Nat) (hlim : limit < 1073741824) (sort : BitVec 32) (ks : List Bytes) (hl : ks.length ≤ limit)
    (hn : ks.Nodup) : ∃ zs : List Bytes, sortKeys limit sort (ks.map some) = .ok (zs.map some) ∧ zs.Perm ks ∧
      (0 < sort.toInt → zs.Pairwise Before) ∧ (sort.toInt < 0 → zs.Pairwise (fun x y => Before y x)) := by
  have key : ∀ (ys : List (Option Bytes)), ys.Perm (ks.map some) → ∃ zs : List Bytes, ys = zs.map some ∧ zs.Perm ks := by
    intro ys hp
    have hall : ∀ y ∈ ys, y.isSome := by
      intro y hy
      obtain ⟨k, _, rfl⟩ := List.mem_map.1 (hp.mem_iff.1 hy)
      rfl
    refine ⟨ys.filterMap id, ?_, ?_⟩
    · clear hp
      induction ys with
      | nil => rfl
      | cons y ys ih =>
        cases y with
        | none => exact absurd (hall none (by simp)) (by simp)
        | some y =>
          simp only [List.filterMap_cons, id, List.map_cons]
          rw [← ih (fun z hz => hall z (by simp [hz]))]
    · have := hp.filterMap id
      simpa [List.filterMap_map] using this
  have strict : ∀ (R : Option Bytes → Option Bytes → Prop) (zs : List Bytes), zs.Perm ks →
      (zs.map some).Pairwise R → zs.Pairwise (fun x y => R (some x) (some y) ∧ x ≠ y) := by
    intro R zs hp hs
    have h1 := List.pairwise_map.1 hs
    have h2 : zs.Pairwise (· ≠ ·) := (hp.nodup_iff.2 hn)
    exact h1.and h2
  have total : ∀ x y : Bytes, ¬ VM.StrLt (some y) (some x) → x ≠ y → Before x y := by
    intro x y h1 h2
    rcases VM.stringCmp_spec (some x) (some y) with ⟨_, h⟩ | ⟨_, h⟩ | ⟨_, h⟩
    · exact before_of_lexLt h
    · exact absurd (Option.some.inj h) h2
    · exact absurd h h1
  unfold sortKeys
  split
  · rename_i h0
    obtain ⟨ys, e1, e2, e3, e4⟩ := MSort.c10_sort_string_asc limit (ks.map some) (by rw [List.length_map]; omega)
      (by rw [List.length_map]; omega)
    obtain ⟨zs, rfl, hp⟩ := key ys e3
    refine ⟨zs, ?_, hp, fun _ => ?_, fun h => by omega⟩
    · generalize MSort.sort limit none (some MSort.strAscCmp) (some (ks.map some)) () = r at e1 e2
      obtain ⟨r1, r2, r3⟩ := r
      simp only at e1 e2
      subst e1 e2
      rfl
    · refine (strict _ zs hp e4).imp ?_
      rintro x y ⟨h1, h2⟩
      exact total x y h1 h2
  · split
    · rename_i h0 h1
      obtain ⟨ys, e1, e2, e3, e4⟩ := MSort.c10_sort_string_desc limit (ks.map some) (by rw [List.length_map]; omega)
        (by rw [List.length_map]; omega)
      obtain ⟨zs, rfl, hp⟩ := key ys e3
      refine ⟨zs, ?_, hp, fun _ => by omega, fun h => ?_⟩
      · generalize MSort.sort limit none (some MSort.strDescCmp) (some (ks.map some)) () = r at e1 e2
        obtain ⟨r1, r2, r3⟩ := r
        simp only at e1 e2
        subst e1 e2
        rfl
      · refine (strict _ zs hp e4).imp ?_
        rintro x y ⟨h1, h2⟩
        exact total y x h1 (fun h => h2 h.symm)
    · exact ⟨ks, rfl, List.Perm.refl _, fun _ => by omega, fun _ => by omega⟩

/-- The loop of `to_array` for any list of keys. -/
theorem toArray_loop {hash : Bytes → BitVec 64} {h : Hash α} (i : Inv hash h) (ks : List Bytes)
    (hk : 2 * ks.length ≤ 2147483647) :
    forLoop 0 ks.length (toArrayBody hash h (ks.map some)) (List.replicate (2 * ks.length) (Item.value none)) =
      .ok (ks.flatMap (fun k => [Item.key (some k), Item.value (h.toMap k).join])) := by
  generalize hg : (fun k : Bytes => [Item.key (some k), Item.value (h.toMap k).join]) = g
  have glen : ∀ l : List Bytes, (l.flatMap g).length = 2 * l.length := by
    intro l
    induction l with
    | nil => rfl
    | cons x l ih => rw [List.flatMap_cons, List.length_append, ih, ← hg]; simp only [List.length_cons, List.length_nil]; omega
  obtain ⟨s, h1, h2⟩ := forLoop_inv (start := 0) (n := ks.length)
      (body := toArrayBody hash h (ks.map some))
      (s := List.replicate (2 * ks.length) (Item.value none))
      (fun i s => s = (ks.take i).flatMap g ++ List.replicate (2 * (ks.length - i)) (Item.value none))
      (by simp)
      (by
        intro j s _ hj hs
        simp only [Nat.zero_add] at hj
        have g1 : aGet (ks.map some) (j : Int) = .ok (some ks[j]) := by
          rw [aGet_ok (by omega) (by rw [List.length_map]; omega)]
          simp only [Int.toNat_natCast, List.getElem_map]
        have i2 : I32 ((j : Int) * 2) := by constructor <;> omega
        have g2 := mul32_ok i2
        have i5 : I32 ((j : Int) * 2 + 1) := by constructor <;> omega
        have g5 := add32_ok i5
        have hr : List.replicate (2 * (ks.length - j)) (Item.value (none : Option α)) =
            .value none :: .value none :: List.replicate (2 * (ks.length - (j + 1))) (Item.value none) := by
          have hm : 2 * (ks.length - j) = 2 * (ks.length - (j + 1)) + 1 + 1 := by omega
          rw [hm, List.replicate_succ, List.replicate_succ]
        have hmin : ((ks.take j).flatMap g).length = 2 * j := by rw [glen, List.length_take]; omega
        have hget : (get hash (some ks[j]) h).1 = .ok (h.toMap ks[j]).join := by rw [get_toMap i]
        have hcat : List.flatMap g (List.take j ks) ++
            Item.key (some ks[j]) :: Item.value none ::
              List.replicate (2 * (ks.length - (j + 1))) (Item.value none) =
            (List.flatMap g (List.take j ks) ++ [Item.key (some ks[j])]) ++
             Item.value none :: List.replicate (2 * (ks.length - (j + 1))) (Item.value none) := by simp
        rw [hs, hr]
        refine ⟨_, toArrayBody_ok g1 g2 (aSet_mid (by rw [hmin]; omega)) hget g5
          (by rw [hcat]; exact aSet_mid (by rw [List.length_append, hmin, List.length_singleton]; omega)), ?_⟩
        rw [List.take_succ_eq_append_getElem hj]
        simp only [List.flatMap_append, List.flatMap_singleton, ← hg, List.append_assoc, List.cons_append, List.nil_append])
  simp only [Nat.zero_add, List.take_length, Nat.sub_self, Nat.mul_zero, List.replicate_zero, List.append_nil] at h2
  rw [h1, h2]

theorem enumerates_perm {m : Map Bytes ν} {ks zs : List Bytes} (h : Enumerates m ks) (hp : zs.Perm ks) : Enumerates m zs :=
  ⟨hp.nodup_iff.2 h.1, fun k => by rw [hp.mem_iff]; exact h.2 k⟩

theorem toArraySort_cases {hash : Bytes → BitVec 64} {limit : Nat} (hlim : limit < 1073741824) {h : Hash α}
    (w : Wf hash limit h) (sort : BitVec 32) :
    (∃ ks, toArraySort hash limit sort h = .ok (ks.flatMap (fun k => [Item.key (some k), Item.value (h.toMap k).join])) ∧
      Enumerates h.toMap ks ∧ (0 < sort.toInt → ks.Pairwise Before) ∧ (sort.toInt < 0 → ks.Pairwise (fun x y => Before y x))) ∨
    (limit < 3 * h.keysLength ∧ ∃ m, toArraySort hash limit sort h = .die m) := by
  have hl := w.load
  have hf := w.fits
  have hc := w.count
  have hen := toMap_enumerates w.toInv
  have hlen : (keysOf h.entries.flatten).length = h.keysLength := by rw [hc]; simp only [keysOf, List.length_map]
  rcases collect_cases limit (none : Option Bytes) (fun e => some e.key) w.toInv (by omega) with ⟨hb, e⟩ | ⟨hb, e⟩
  · have ek : (keys limit h).1 = .ok ((keysOf h.entries.flatten).map some) := by
      simp only [keys, Prog.get_bind_apply, Prog.lift_apply]
      rw [e]
      simp only [keysOf, List.map_map]; rfl
    obtain ⟨zs, e1, hp, o1, o2⟩ := sortKeys_ok limit hlim sort (keysOf h.entries.flatten) (by omega) hen.1
    have hzl : zs.length = (keysOf h.entries.flatten).length := hp.length_eq
    unfold toArraySort
    rw [ek]
    simp only [Out.ok_bind]
    rw [e1]
    simp only [Out.ok_bind, List.length_map]
    have i2 : I32 (((keysOf h.entries.flatten).length : Int) * 2) := by constructor <;> omega
    rw [mul32_ok i2]
    simp only [Out.ok_bind]
    unfold newArray
    rw [if_pos (by omega)]
    by_cases hb : 2 * h.keysLength ≤ limit
    · rw [if_pos (by omega)]
      simp only [Out.ok_bind]
      have hN : (((keysOf h.entries.flatten).length : Int) * 2).toNat = 2 * zs.length := by omega
      rw [hN, ← hzl, toArray_loop w.toInv zs (by omega)]
      exact .inl ⟨zs, rfl, enumerates_perm hen hp, o1, o2⟩
    · rw [if_neg (by omega)]
      exact .inr ⟨by omega, _, rfl⟩
  · refine .inr ⟨by omega, msgNewArrayMem, ?_⟩
    unfold toArraySort keys
    simp only [Prog.get_bind_apply, Prog.lift_apply]
    rw [e]; rfl

/-- One call. -/
theorem tstep_cases {hash : Bytes → BitVec 64} {limit : Nat} (hlim : limit < 1073741824) {h : Hash Val} (w : Wf hash limit h)
    (op : TOp) :
    ((tstep hash limit op h).1 ≠ .ub ∧ TAllows h.toMap op (seen (tstep hash limit op h).1) (tstep hash limit op h).2.toMap ∧
      Wf hash limit (tstep hash limit op h).2) ∨
    ((∃ m, tstep hash limit op h = (.die m, h)) ∧ limit < 3 * h.keysLength) := by
  cases op with
  | base op =>
    rcases step_cases hlim w op with ⟨h1, h2, h3, _⟩ | ⟨⟨m, e⟩, hb⟩
    · left
      simp only [tstep, Prog.bind_apply]
      generalize step hash limit op h = r at h1 h2 h3
      obtain ⟨r1, r2⟩ := r
      cases r1 with
      | ok r => exact ⟨by simp, ⟨_, h2, rfl⟩, h3⟩
      | die m => exact ⟨by simp, ⟨_, h2, rfl⟩, h3⟩
      | ub => exact absurd rfl h1
    · exact .inr ⟨⟨m, by simp only [tstep]; exact Prog.bind_die e⟩, hb⟩
  | setByte k v =>
    rcases sets_cases hlim w k (some (.byte (v.setWidth 8))) with ⟨h1, h2, h3⟩ | h1
    · exact .inl ⟨h1, ⟨_, setWidth_toInt (by omega) v, h2⟩, h3⟩
    · exact .inr h1
  | setShort k v =>
    rcases sets_cases hlim w k (some (.short (v.setWidth 16))) with ⟨h1, h2, h3⟩ | h1
    · exact .inl ⟨h1, ⟨_, setWidth_toInt (by omega) v, h2⟩, h3⟩
    · exact .inr h1
  | setInt k v => exact sets_cases hlim w k (some (.int v))
  | setLong k v => exact sets_cases hlim w k (some (.long v))
  | setFloat k v => exact sets_cases hlim w k (some (.float v))
  | setDouble k v => exact sets_cases hlim w k (some (.double v))
  | setString k v => exact sets_cases hlim w k (v.map .string)
  | get kind k =>
    left
    cases k with
    | none =>
      cases kind <;>
        exact ⟨by simp [tstep, getKind, getByte, getShort, getInt, getLong, getFloat, getDouble, getString, get, getEntry,
          Prog.bind_apply], ⟨rfl, rfl⟩, w⟩
    | some k =>
      rcases getKind_cases w.toInv kind k with ⟨a, e, ha⟩ | ⟨m, e, ha⟩
      · have es : tstep hash limit (.get kind (some k)) h = (.ok (.answer kind a), h) := by
          simp only [tstep]; exact bind_res e
        rw [es]
        exact ⟨by simp, ⟨rfl, .inl ⟨a, ha, rfl⟩⟩, w⟩
      · have es : tstep hash limit (.get kind (some k)) h = (.die m, h) := by
          simp only [tstep]; exact Prog.bind_die e
        rw [es]
        exact ⟨by simp, ⟨rfl, .inr ⟨ha, rfl⟩⟩, w⟩
  | getOr kind k d =>
    left
    cases k with
    | none => exact ⟨by simp [tstep, getOrDefault, exist, getEntry, Prog.bind_apply], ⟨rfl, rfl⟩, w⟩
    | some k =>
      have he := exist_toMap w.toInv k
      cases hm : h.toMap k with
      | none =>
        have es : tstep hash limit (.getOr kind (some k) d) h = (.ok (.answer kind d), h) := by
          simp only [tstep]; apply bind_res
          simp only [getOrDefault]; rw [Prog.bind_ok he, hm]; rfl
        rw [es]
        exact ⟨by simp, ⟨rfl, by rw [hm]; trivial⟩, w⟩
      | some v =>
        have eg : getOrDefault hash kind (some k) d h = getKind hash kind (some k) h := by
          simp only [getOrDefault]; rw [Prog.bind_ok he, hm]; rfl
        rcases getKind_cases w.toInv kind k with ⟨a, e, ha⟩ | ⟨m, e, ha⟩
        · have es : tstep hash limit (.getOr kind (some k) d) h = (.ok (.answer kind a), h) := by
            simp only [tstep]; exact bind_res (eg.trans e)
          rw [es]
          rw [hm] at ha
          exact ⟨by simp, ⟨rfl, by rw [hm]; exact .inl ⟨a, ha, rfl⟩⟩, w⟩
        · have es : tstep hash limit (.getOr kind (some k) d) h = (.die m, h) := by
            simp only [tstep]; exact Prog.bind_die (eg.trans e)
          rw [es]
          rw [hm] at ha
          exact ⟨by simp, ⟨rfl, by rw [hm]; exact .inr ⟨ha, rfl⟩⟩, w⟩
  | deleteOr kind k d =>
    left
    cases k with
    | none => exact ⟨by simp [tstep, deleteOrDefault, exist, getEntry, Prog.bind_apply], ⟨rfl, rfl⟩, w⟩
    | some k =>
      have he := exist_toMap w.toInv k
      cases hm : h.toMap k with
      | none =>
        have es : tstep hash limit (.deleteOr kind (some k) d) h = (.ok (.answer kind d), h) := by
          simp only [tstep]; apply bind_res
          simp only [deleteOrDefault]; rw [Prog.bind_ok he, hm]; rfl
        rw [es]
        exact ⟨by simp, by simp only [TAllows]; rw [hm]; exact ⟨by simp [seen], trivial⟩, w⟩
      | some v =>
        rcases getKind_cases w.toInv kind k with ⟨a, e, ha⟩ | ⟨m, e, ha⟩
        · obtain ⟨x, h', d1, d2, d3⟩ := delete_toMap hlim w k
          have es : tstep hash limit (.deleteOr kind (some k) d) h = (.ok (.answer kind a), h') := by
            simp only [tstep]; apply bind_res
            simp only [deleteOrDefault]; rw [Prog.bind_ok he, hm]
            simp only [Option.isSome_some, if_true, ne_eq, Int.one_ne_zero, not_false_eq_true]
            rw [Prog.bind_ok e, Prog.bind_ok d1]; rfl
          rw [es]
          rw [hm] at ha
          exact ⟨by simp, by simp only [TAllows]; rw [hm]; exact .inl ⟨a, ha, rfl, d3⟩, d2⟩
        · have es : tstep hash limit (.deleteOr kind (some k) d) h = (.die m, h) := by
            simp only [tstep]; apply Prog.bind_die
            simp only [deleteOrDefault]; rw [Prog.bind_ok he, hm]
            simp only [Option.isSome_some, if_true, ne_eq, Int.one_ne_zero, not_false_eq_true]
            rw [Prog.bind_die e]
          rw [es]
          rw [hm] at ha
          exact ⟨by simp, by simp only [TAllows]; rw [hm]; exact .inr ⟨ha, rfl, trivial⟩, w⟩
  | toArray sort =>
    rcases toArraySort_cases hlim w sort with ⟨ks, e, h1, h2, h3⟩ | ⟨hb, m, e⟩
    · have es : tstep hash limit (.toArray sort) h =
          (.ok (.base (.items (ks.flatMap (fun k => [Item.key (some k), Item.value (h.toMap k).join])))), h) := by
        simp only [tstep, Prog.get_bind_apply]; rw [e]; rfl
      rw [es]
      exact .inl ⟨by simp, ⟨rfl, ks, h1, h2, h3, rfl⟩, w⟩
    · exact .inr ⟨⟨m, by simp only [tstep, Prog.get_bind_apply]; rw [e]; rfl⟩, hb⟩

/-- Every history on a well-formed hash. -/
theorem trun_follows {hash : Bytes → BitVec 64} {limit : Nat} (hlim : limit < 1073741824) {h : Hash Val} (w : Wf hash limit h)
    (ops : List TOp) : TFollows limit h.toMap ops (trun hash limit h ops) := by
  induction ops generalizing h with
  | nil => trivial
  | cons op ops ih =>
    simp only [trun, TFollows]
    rcases tstep_cases hlim w op with ⟨h1, h2, h3⟩ | ⟨⟨m, e⟩, hb⟩
    · exact ⟨h1, _, .inl h2, ih h3⟩
    · rw [e]
      refine ⟨by simp, h.toMap, .inr ⟨rfl, rfl, _, toMap_enumerates w.toInv, ?_⟩, ih w⟩
      have := w.count
      rw [keysOf, List.length_map]
      omega

theorem wf_trunState {hash : Bytes → BitVec 64} {limit : Nat} (hlim : limit < 1073741824) {h : Hash Val} (w : Wf hash limit h)
    (ops : List TOp) : Wf hash limit (trunState hash limit h ops) := by
  induction ops generalizing h with
  | nil => exact w
  | cons op ops ih =>
    simp only [trunState]
    rcases tstep_cases hlim w op with ⟨_, _, h3⟩ | ⟨⟨m, e⟩, _⟩
    · exact ih h3
    · rw [e]; exact ih w

/-- **C74** (any history of the untyped and typed methods on `Hash->new`): the hash is a map, typed setters store the number
itself (reduced to the size of `byte` and `short`), typed getters return exactly the number stored when the object has one of
the documented types and throw otherwise, the `_or_default` methods return the default exactly for absent keys,
`delete_or_default` removes the key exactly when it returns the stored value, and `to_array` lists the keys in the order
asked for.  For every hash function. -/
theorem c74_typed_history (hash : Bytes → BitVec 64) (limit : Nat) (h1 : 1 ≤ limit) (h2 : limit < 1073741824)
    (asString : Val → Option Bytes) (ops : List TOp) :
    ∃ h, new hash limit asString none = .ok h ∧ TFollows limit Spec.Map.empty ops (trun hash limit h ops) := by
  refine ⟨⟨0, [[]]⟩, by simp [new, empty_ok h1], ?_⟩
  rw [← toMap_empty]
  exact trun_follows h2 (wf_empty hash h1) ops

/-- **C74**: with the `sort` 0, after any history, `to_array` lists the keys in the order in which `keys` does. -/
theorem c74_unsorted (hash : Bytes → BitVec 64) (limit : Nat) (h1 : 1 ≤ limit) (h2 : limit < 1073741824) (ops : List TOp) (a : List (Item Val))
    (ha : toArraySort hash limit 0#32 (trunState hash limit (⟨0, [[]]⟩ : Hash Val) ops) = .ok a) :
    ∃ ks : List Bytes, (keys limit (trunState hash limit (⟨0, [[]]⟩ : Hash Val) ops)).1 = .ok (ks.map some) ∧ a = ks.flatMap fun k =>
      [.key (some k), .value ((trunState hash limit (⟨0, [[]]⟩ : Hash Val) ops).toMap k).join] := by
  have w : Wf hash limit (trunState hash limit (⟨0, [[]]⟩ : Hash Val) ops) := wf_trunState h2 (wf_empty hash h1) ops
  generalize trunState hash limit (⟨0, [[]]⟩ : Hash Val) ops = h at ha w ⊢
  have hl := w.load
  have hf := w.fits
  have hc := w.count
  have hlen : (keysOf h.entries.flatten).length = h.keysLength := by rw [hc]; simp only [keysOf, List.length_map]
  rcases collect_cases limit (none : Option Bytes) (fun e => some e.key) w.toInv (by omega) with ⟨hb, e⟩ | ⟨hb, e⟩
  · have ek : (keys limit h).1 = .ok ((keysOf h.entries.flatten).map some) := by
      simp only [keys, Prog.get_bind_apply, Prog.lift_apply]
      rw [e]
      simp only [keysOf, List.map_map]; rfl
    refine ⟨_, ek, ?_⟩
    unfold toArraySort at ha
    rw [ek] at ha
    have e0 : ∀ ks, sortKeys limit 0#32 ks = .ok ks := fun ks => rfl
    simp only [Out.ok_bind, e0, List.length_map] at ha
    have i2 : I32 (((keysOf h.entries.flatten).length : Int) * 2) := by constructor <;> omega
    rw [mul32_ok i2] at ha
    simp only [Out.ok_bind] at ha
    unfold newArray at ha
    rw [if_pos (by omega)] at ha
    by_cases hb : 2 * h.keysLength ≤ limit
    · rw [if_pos (by omega)] at ha
      simp only [Out.ok_bind] at ha
      have hN : (((keysOf h.entries.flatten).length : Int) * 2).toNat = 2 * (keysOf h.entries.flatten).length := by omega
      rw [hN, toArray_loop w.toInv _ (by omega)] at ha
      injection ha with ha
      exact ha.symm
    · rw [if_neg (by omega)] at ha
      cases ha
  · unfold toArraySort keys at ha
    simp only [Prog.get_bind_apply, Prog.lift_apply] at ha
    rw [e] at ha
    cases ha

/-- A decidable view of the results. -/
def viewAnswer : (kind : Kind) → Answer kind → Int ⊕ Option Val
  | .byte, a | .short, a | .int, a | .float, a => .inl (BitVec.toInt a)
  | .long, a | .double, a => .inl (BitVec.toInt a)
  | .string, a => .inr (a.map .string)
  | .object, a => .inr a
def view : Out TRes → Option (Res Val ⊕ (Int ⊕ Option Val))
  | .ok (.base r) => some (.inl r)
  | .ok (.answer kind a) => some (.inr (viewAnswer kind a))
  | _ => none

example : (trun badHash 100 (⟨0, [[]]⟩ : Hash Val)
    [.setByte (some kA) 200#32, .get .byte (some kA), .get .long (some kA), .get .float (some kA), .getOr .int (some kB) 7#32,
      .setString (some kB) none, .get .string (some kB), .get .int (some kB), .deleteOr .short (some kB) 1#32,
      .toArray 1#32, .toArray (-1#32), .deleteOr .short (some kA) 1#32, .deleteOr .short (some kA) 1#32, .base .keys]).map view =
    [some (.inl .unit), some (.inr (.inl (-56))), some (.inr (.inl (-56))), none, some (.inr (.inl 7)), some (.inl .unit),
      some (.inr (.inr none)), none, none,
      some (.inl (.items [.key (some kA), .value (some (.byte 200#8)), .key (some kB), .value none])),
      some (.inl (.items [.key (some kB), .value none, .key (some kA), .value (some (.byte 200#8))])),
      some (.inr (.inl (-56))), some (.inr (.inl 1)), some (.inl (.keys [some kB]))] := by decide +kernel

/-! ### `copy` -/

theorem copyLoop_cases {hash hash' : Bytes → BitVec 64} {limit : Nat} (hlim : limit < 1073741824) {self : Hash α}
    (i : Inv hash self) (ks : List Bytes) {r : Hash α} (w : Wf hash' limit r) (hd : ∀ k ∈ ks, r.toMap k = none) (hn : ks.Nodup) :
    (∃ r', copyLoop hash hash' limit self (ks.map some) r = (.ok (), r') ∧ Wf hash' limit r' ∧
      r'.toMap = fun k => if k ∈ ks then some (self.toMap k).join else r.toMap k) ∨
    (∃ m r', copyLoop hash hash' limit self (ks.map some) r = (.die m, r') ∧ limit < 3 * (r.keysLength + ks.length)) := by
  induction ks generalizing r with
  | nil => exact .inl ⟨r, rfl, w, by simp⟩
  | cons k ks ih =>
    simp only [List.map_cons, copyLoop]
    rw [get_toMap i k]
    simp only [Prog.lift_ok_bind]
    rcases set_toMap hlim w k (self.toMap k).join with ⟨r1, e1, e2, e3⟩ | ⟨m, e1, e2⟩
    · rw [Prog.bind_ok e1]
      have hcount : r1.keysLength = r.keysLength + 1 := by
        have hl := w.load
        have hf := w.fits
        rcases set_cases (limit := limit) w.toInv (by omega) k (self.toMap k).join with ⟨h', f1, _, f3, _⟩ | ⟨f1, _⟩ | ⟨f1, _⟩
        · rw [e1] at f1
          injection f1 with _ f1
          subst f1
          rw [f3, if_neg]
          rw [← findEntry_none]
          have := hd k (by simp)
          simpa [toMap] using this
        · rw [e1] at f1; injection f1 with f1; cases f1
        · rw [e1] at f1; injection f1 with f1; cases f1
      have hd' : ∀ k' ∈ ks, r1.toMap k' = none := by
        intro k' hk'
        rw [e3]
        simp only [put]
        rw [if_neg (by rintro rfl; exact (List.nodup_cons.1 hn).1 hk')]
        exact hd k' (by simp [hk'])
      rcases ih e2 hd' (List.nodup_cons.1 hn).2 with ⟨r', f1, f2, f3⟩ | ⟨m, r', f1, f2⟩
      · refine .inl ⟨r', f1, f2, ?_⟩
        rw [f3]
        funext k'
        by_cases hk : k' = k
        · subst hk
          rw [if_neg (List.nodup_cons.1 hn).1, if_pos (by simp), e3]
          simp [put]
        · by_cases hm : k' ∈ ks
          · rw [if_pos hm, if_pos (by simp [hm])]
          · rw [if_neg hm, if_neg (by simp [hk, hm]), e3]
            simp [put, hk]
      · refine .inr ⟨m, r', f1, ?_⟩
        rw [List.length_cons]; omega
    · refine .inr ⟨m, r, by rw [Prog.bind_die e1], ?_⟩
      rw [List.length_cons]; omega

/-- **C74** (`copy`, `clone`): after any history, the copy is a hash with its own seed which shows the same map as the
original: both follow, in whatever is done next with them, the same map.  It can fail only for lack of memory. -/
theorem c74_copy (hash hash' : Bytes → BitVec 64) (limit : Nat) (h1 : 1 ≤ limit) (h2 : limit < 1073741824)
    (asString : Val → Option Bytes) (ops : List TOp) :
    ∃ h m, new hash limit asString none = .ok h ∧
      (∀ next, TFollows limit m next (trun hash limit (trunState hash limit h ops) next)) ∧
      ((∃ h', copy hash hash' limit (trunState hash limit h ops) = .ok h' ∧
          ∀ next, TFollows limit m next (trun hash' limit h' next)) ∨
       (∃ msg ks, copy hash hash' limit (trunState hash limit h ops) = .die msg ∧ Enumerates m ks ∧
          limit < 3 * ks.length)) := by
  have w := wf_trunState (hash := hash) h2 (wf_empty (α := Val) hash h1) ops
  refine ⟨⟨0, [[]]⟩, (trunState hash limit ⟨0, [[]]⟩ ops).toMap, by simp [new, empty_ok h1],
    fun next => trun_follows h2 w next, ?_⟩
  generalize trunState hash limit (⟨0, [[]]⟩ : Hash Val) ops = h at w ⊢
  have hl := w.load
  have hf := w.fits
  have hc := w.count
  have hen := toMap_enumerates w.toInv
  have hlen : (keysOf h.entries.flatten).length = h.keysLength := by rw [hc]; simp only [keysOf, List.length_map]
  rcases collect_cases limit (none : Option Bytes) (fun e => some e.key) w.toInv (by omega) with ⟨hb, e⟩ | ⟨hb, e⟩
  · have ek : (keys limit h).1 = .ok ((keysOf h.entries.flatten).map some) := by
      simp only [keys, Prog.get_bind_apply, Prog.lift_apply]
      rw [e]
      simp only [keysOf, List.map_map]; rfl
    unfold copy
    rw [empty_ok h1, ek]
    simp only [Out.ok_bind]
    rcases copyLoop_cases (hash' := hash') h2 w.toInv (keysOf h.entries.flatten) (wf_empty hash' h1) (fun _ _ => rfl) hen.1 with
      ⟨r', f1, f2, f3⟩ | ⟨m, r', f1, f2⟩
    · rw [f1]
      refine .inl ⟨r', rfl, fun next => ?_⟩
      have : h.toMap = r'.toMap := by
        rw [f3]
        funext k
        by_cases hk : k ∈ keysOf h.entries.flatten
        · rw [if_pos hk]
          have := (hen.2 k).1 hk
          cases hm : h.toMap k with
          | none => exact absurd hm this
          | some v => rfl
        · rw [if_neg hk]
          apply Classical.byContradiction
          intro hne
          exact hk ((hen.2 k).2 hne)
      rw [this]
      exact trun_follows h2 f2 next
    · rw [f1]
      have f2' : (limit : Int) < 3 * (0 + ((keysOf h.entries.flatten).length : Int)) := f2
      exact .inr ⟨m, _, rfl, hen, by omega⟩
  · refine .inr ⟨msgNewArrayMem, _, ?_, hen, by omega⟩
    unfold copy keys
    rw [empty_ok h1]
    simp only [Out.ok_bind, Prog.get_bind_apply, Prog.lift_apply]
    rw [e]; rfl

example : (toArraySort badHash 100 0#32 (trunState badHash 100 (⟨0, [[]]⟩ : Hash Val) [.setByte (some kB) 1#32, .setByte (some kA) 2#32]) =
    .ok [.key (some kB), .value (some (.byte 1#8)), .key (some kA), .value (some (.byte 2#8))]) := by decide +kernel

example : (match copy badHash (fun _ => 0#64) 100 (trunState badHash 100 (⟨0, [[]]⟩ : Hash Val)
      [.setInt (some kA) 5#32, .setString (some kB) none]) with
    | .ok h => (trun (fun _ => 0#64) 100 h [.get .int (some kA), .getOr .string (some kB) (some []), .base .keysLength]).map view
    | _ => []) = [some (.inr (.inl 5)), some (.inr (.inr none)), some (.inl (.num 2))] := by decide +kernel

end Hash
end SPVM
