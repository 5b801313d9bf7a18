import Verif.Lemmas.Hash
/-!
# C07, C08, C09: `Hash`
-/
set_option linter.unusedSimpArgs false
namespace SPVM
namespace Hash
open VM (Bytes)
open Spec.Hash (Op Res Item Allows ofPairs)
open Spec.Map (put Enumerates Map)
variable {α : Type}

/-- What the specification sees of an outcome: a result, or `none` for a thrown exception. -/
def seen : Out β → Option β
  | .ok r => some r
  | _ => none

/-- The outcomes of a history are those of a map: each call is allowed by the map specification, or is a memory
exhaustion exception that changes nothing, which needs a map with more than a third of `limit` keys.  No call reaches
undefined behaviour. -/
def Follows (limit : Nat) (m : Map Bytes (Option α)) : List (Op α) → List (Out (Res α)) → Prop
  | [], [] => True
  | op :: ops, o :: os => o ≠ .ub ∧ ∃ m',
      (Allows m op (seen o) m' ∨ (m' = m ∧ seen o = none ∧ ∃ ks, Enumerates m ks ∧ limit < 3 * ks.length)) ∧
      Follows limit m' ops os
  | _, _ => False

/-- The invariant of every hash built by the API. -/
structure Wf (hash : Bytes → BitVec 64) (limit : Nat) (h : Hash α) : Prop extends Inv hash h where
  load : 4 * h.keysLength ≤ 3 * (h.entries.length : Int) + 4
  fits : h.entries.length ≤ limit

theorem toMap_put {h h' : Hash α} {k : Bytes} {v : Option α} (g : HEntry α → HEntry α) (hg : ∀ e, (g e).value = e.value)
    (hf : ∀ k', findEntry k' h'.entries.flatten =
      if k' = k then some ⟨k, v, false⟩ else (findEntry k' h.entries.flatten).map g) :
    h'.toMap = put h.toMap k (some v) := by
  funext k'
  simp only [toMap, put, hf]
  split
  · rfl
  · cases findEntry k' h.entries.flatten <;> simp [hg]

theorem toMap_same {h h' : Hash α} (hf : ∀ k', (findEntry k' h'.entries.flatten).map (·.value) =
    (findEntry k' h.entries.flatten).map (·.value)) : h'.toMap = h.toMap := by
  funext k'; exact hf k'

theorem bind_value (o : Option (HEntry α)) : o.bind (·.value) = (o.map (·.value)).join := by
  cases o <;> rfl

/-- The keys present, in the order of `keys`. -/
theorem enum_map {hash : Bytes → BitVec 64} {h : Hash α} (i : Inv hash h) :
    (keysOf h.entries.flatten).map (fun k => (h.toMap k).join) = h.entries.flatten.map (·.value) := by
  simp only [keysOf, List.map_map]
  apply List.map_congr_left
  intro e he
  simp only [Function.comp, toMap, findEntry_of_mem i.good.nodup he]
  rfl

theorem enum_items {hash : Bytes → BitVec 64} {h : Hash α} (i : Inv hash h) :
    (keysOf h.entries.flatten).flatMap (fun k => [Item.key (some k), Item.value (h.toMap k).join]) =
      h.entries.flatten.flatMap (fun e => [Item.key (some e.key), Item.value e.value]) := by
  simp only [keysOf, List.flatMap_map]
  rw [List.flatMap_def, List.flatMap_def]
  congr 1
  apply List.map_congr_left
  intro e he
  simp only [toMap, findEntry_of_mem i.good.nodup he]
  rfl

theorem toArray_cases {hash : Bytes → BitVec 64} {limit : Nat} (hlim : limit < 1073741824) {h : Hash α} (w : Wf hash limit h) :
    (2 * h.keysLength ≤ limit ∧ toArray hash limit h =
      .ok (h.entries.flatten.flatMap (fun e => [Item.key (some e.key), Item.value e.value]))) ∨
    (limit < 2 * h.keysLength ∧ ∃ m, toArray hash limit h = .die m) := by
  have hl := w.load
  have hf := w.fits
  have hc := w.count
  by_cases hb : 2 * h.keysLength ≤ limit
  · exact .inl ⟨hb, toArray_ok w.toInv hb (by omega)⟩
  · refine .inr ⟨by omega, ?_⟩
    unfold toArray keys
    simp only [Prog.get_bind_apply, Prog.lift_apply]
    rcases collect_cases limit (none : Option Bytes) (fun e => some e.key) w.toInv (by omega) with ⟨_, h1⟩ | ⟨_, h1⟩
    · rw [h1]
      simp only [Out.ok_bind, alen, List.length_map]
      have i2 : I32 ((h.entries.flatten.length : Int) * 2) := by constructor <;> omega
      rw [mul32_ok i2]
      unfold newArray
      simp only [Out.ok_bind]
      rw [if_pos (by omega), if_neg (by omega)]
      exact ⟨_, rfl⟩
    · rw [h1]; exact ⟨_, rfl⟩

theorem bind_res {p : Prog σ β} {f : β → γ} {s s' : σ} {b : β} (h : p s = (.ok b, s')) :
    (p >>= fun b => (pure (f b) : Prog σ γ)) s = (.ok (f b), s') := by
  rw [Prog.bind_ok h]; rfl

/-- One call. -/
theorem step_cases {hash : Bytes → BitVec 64} {limit : Nat} (hlim : limit < 1073741824) {h : Hash α} (w : Wf hash limit h)
    (op : Op α) :
    ((step hash limit op h).1 ≠ .ub ∧ Allows h.toMap op (seen (step hash limit op h).1) (step hash limit op h).2.toMap ∧
      Wf hash limit (step hash limit op h).2 ∧
      ((∃ m, (step hash limit op h).1 = .die m) → (step hash limit op h).2 = h)) ∨
    ((∃ m, step hash limit op h = (.die m, h)) ∧ limit < 3 * h.keysLength) := by
  have hl := w.load
  have hf := w.fits
  have hc := w.count
  have hp := w.good.pos
  have hen := toMap_enumerates w.toInv
  have hlen : (keysOf h.entries.flatten).length = h.keysLength := by rw [hc]; simp only [keysOf, List.length_map]
  cases op with
  | set k v =>
    cases k with
    | none => exact .inl ⟨by simp [step, set, Prog.bind_apply], ⟨rfl, rfl⟩, w, fun _ => rfl⟩
    | some k =>
      rcases set_cases (limit := limit) w.toInv (by omega) k v with ⟨h', e1, e2, e3, e4⟩ | ⟨e1, e2, e3⟩ | ⟨_, _, e3⟩
      · have es : step hash limit (.set (some k) v) h = (.ok .unit, h') := by
          simp only [step]; rw [Prog.bind_ok e1]; rfl
        have hadd : h'.keysLength ≤ h.keysLength + 1 := by rw [e3]; split <;> omega
        have hm : h'.toMap = put h.toMap k (some v) := by
          rcases e4 with ⟨_, _, _, e4⟩ | ⟨_, _, e4⟩
          · exact toMap_put (fun e => { e with weak := false }) (fun _ => rfl) e4
          · exact toMap_put id (fun _ => rfl) (by simpa using e4)
        have hw : Wf hash limit h' := by
          rcases e4 with ⟨ho, e4, e4', _⟩ | ⟨ho, e4, _⟩ <;> unfold overloaded alen at ho
          · exact ⟨e2, by rw [e4]; omega, e4'⟩
          · exact ⟨e2, by rw [e4]; omega, by omega⟩
        rw [es]
        exact .inl ⟨by simp, ⟨rfl, hm⟩, hw, by rintro ⟨m, hm⟩; cases hm⟩
      · refine .inr ⟨⟨msgNewArrayMem, ?_⟩, by unfold overloaded alen at e2; omega⟩
        simp only [step]; exact Prog.bind_die e1
      · omega
  | get k =>
    cases k with
    | none => exact .inl ⟨by simp [step, get, getEntry, Prog.bind_apply], ⟨rfl, rfl⟩, w, fun _ => rfl⟩
    | some k =>
      have e : step hash limit (.get (some k)) h = (.ok (.value ((findEntry k h.entries.flatten).bind (·.value))), h) := by
        simp only [step, get]; apply bind_res
        simp only [Prog.get_bind_apply]; rw [getEntry_ok w.toInv]; rfl
      rw [e]
      exact .inl ⟨by simp, ⟨by simp [seen, toMap, bind_value], rfl⟩, w, fun _ => rfl⟩
  | exist k =>
    cases k with
    | none => exact .inl ⟨by simp [step, exist, getEntry, Prog.bind_apply], ⟨rfl, rfl⟩, w, fun _ => rfl⟩
    | some k =>
      have e : step hash limit (.exist (some k)) h = (.ok (.num (if (findEntry k h.entries.flatten).isSome then 1 else 0)), h) := by
        simp only [step, exist]; apply bind_res
        simp only [Prog.get_bind_apply]; rw [getEntry_ok w.toInv]; rfl
      rw [e]
      exact .inl ⟨by simp, ⟨by simp [seen, toMap], rfl⟩, w, fun _ => rfl⟩
  | isweak k =>
    cases k with
    | none => exact .inl ⟨by simp [step, isweak, getEntry, Prog.bind_apply], ⟨rfl, rfl⟩, w, fun _ => rfl⟩
    | some k =>
      obtain ⟨n, hn, e⟩ : ∃ n, (n = 0 ∨ n = 1) ∧ step hash limit (.isweak (some k)) h = (.ok (.num n), h) := by
        cases hfe : findEntry k h.entries.flatten with
        | none =>
          refine ⟨0, .inl rfl, ?_⟩
          simp only [step, isweak]; apply bind_res
          simp only [Prog.get_bind_apply]; rw [getEntry_ok w.toInv, hfe]; rfl
        | some e =>
          refine ⟨if e.weak then 1 else 0, by split <;> simp, ?_⟩
          simp only [step, isweak]; apply bind_res
          simp only [Prog.get_bind_apply]; rw [getEntry_ok w.toInv, hfe]; rfl
      rw [e]
      refine .inl ⟨by simp, ⟨?_, rfl⟩, w, fun _ => rfl⟩
      rcases hn with rfl | rfl <;> simp [seen]
  | delete k =>
    cases k with
    | none => exact .inl ⟨by simp [step, delete, Prog.bind_apply], ⟨rfl, rfl⟩, w, fun _ => rfl⟩
    | some k =>
      obtain ⟨h', e1, e2, e3, e4, e5⟩ := delete_ok w.toInv (by omega) k
      have es : step hash limit (.delete (some k)) h = (.ok (.value ((findEntry k h.entries.flatten).bind (·.value))), h') := by
        simp only [step]; exact bind_res e1
      have hw : Wf hash limit h' := ⟨e2, by rw [e4]; omega, by omega⟩
      rw [es]
      refine .inl ⟨by simp, ⟨by simp [seen, toMap, bind_value], ?_⟩, hw,
        by rintro ⟨m, hm⟩; cases hm⟩
      funext k'
      simp only [toMap, put, e5]
      split <;> rfl
  | weaken k =>
    cases k with
    | none => exact .inl ⟨by simp [step, weaken, updateEntry, getEntry, Prog.bind_apply], ⟨rfl, rfl⟩, w, fun _ => rfl⟩
    | some k =>
      obtain ⟨h', e1, e2, e3, e4, _, e5⟩ := updateEntry_ok w.toInv k (fun e => { e with weak := e.value.isSome }) (fun _ => rfl)
      have es : step hash limit (.weaken (some k)) h = (.ok .unit, h') := by
        simp only [step, weaken]; rw [Prog.bind_ok e1]; rfl
      have hw : Wf hash limit h' := ⟨e2, by rw [e3, e4]; omega, by omega⟩
      rw [es]
      refine .inl ⟨by simp, ⟨rfl, ?_⟩, hw, by rintro ⟨m, hm⟩; cases hm⟩
      apply toMap_same
      intro k'
      rw [e5]
      split
      · cases findEntry k' h.entries.flatten <;> rfl
      · rfl
  | unweaken k =>
    cases k with
    | none => exact .inl ⟨by simp [step, unweaken, updateEntry, getEntry, Prog.bind_apply], ⟨rfl, rfl⟩, w, fun _ => rfl⟩
    | some k =>
      obtain ⟨h', e1, e2, e3, e4, _, e5⟩ := updateEntry_ok w.toInv k (fun e => { e with weak := false }) (fun _ => rfl)
      have es : step hash limit (.unweaken (some k)) h = (.ok .unit, h') := by
        simp only [step, unweaken]; rw [Prog.bind_ok e1]; rfl
      have hw : Wf hash limit h' := ⟨e2, by rw [e3, e4]; omega, by omega⟩
      rw [es]
      refine .inl ⟨by simp, ⟨rfl, ?_⟩, hw, by rintro ⟨m, hm⟩; cases hm⟩
      apply toMap_same
      intro k'
      rw [e5]
      split
      · cases findEntry k' h.entries.flatten <;> rfl
      · rfl
  | keysLength =>
    refine .inl ⟨by simp [step], ⟨⟨_, hen, ?_⟩, rfl⟩, w, fun _ => rfl⟩
    rw [hlen]; rfl
  | hasKeys =>
    refine .inl ⟨by simp [step, hasKeys, Prog.bind_apply], ⟨?_, rfl⟩, w, fun _ => rfl⟩
    have e : (step hash limit .hasKeys h).1 = .ok (.num (if h.keysLength > 0 then 1 else 0)) := rfl
    rw [e]
    by_cases h0 : h.keysLength > 0
    · rw [if_pos h0]
      left
      refine ⟨?_, rfl⟩
      cases hks : keysOf h.entries.flatten with
      | nil => rw [hks] at hlen; simp at hlen; omega
      | cons k ks => exact ⟨k, (hen.2 k).1 (by rw [hks]; simp)⟩
    · rw [if_neg h0]
      right
      refine ⟨fun k => ?_, rfl⟩
      apply Classical.byContradiction
      intro hne
      have := (hen.2 k).2 hne
      have := List.length_pos_of_mem this
      omega
  | keys =>
    rcases collect_cases limit (none : Option Bytes) (fun e => some e.key) w.toInv (by omega) with ⟨_, e⟩ | ⟨hb, e⟩
    · have es : step hash limit .keys h = (.ok (.keys (h.entries.flatten.map (fun e => some e.key))), h) := by
        simp only [step]; apply bind_res; simp only [keys, Prog.get_bind_apply, Prog.lift_apply]; rw [e]
      rw [es]
      refine .inl ⟨by simp, ⟨⟨_, hen, ?_⟩, rfl⟩, w, fun _ => rfl⟩
      simp only [seen, keysOf, List.map_map]; rfl
    · refine .inr ⟨⟨msgNewArrayMem, ?_⟩, by omega⟩
      simp only [step]; apply Prog.bind_die; simp only [keys, Prog.get_bind_apply, Prog.lift_apply]; rw [e]
  | values =>
    rcases collect_cases limit (none : Option α) (·.value) w.toInv (by omega) with ⟨_, e⟩ | ⟨hb, e⟩
    · have es : step hash limit .values h = (.ok (.values (h.entries.flatten.map (·.value))), h) := by
        simp only [step]; apply bind_res; simp only [values, Prog.get_bind_apply, Prog.lift_apply]; rw [e]
      rw [es]
      refine .inl ⟨by simp, ⟨⟨_, hen, ?_⟩, rfl⟩, w, fun _ => rfl⟩
      rw [enum_map w.toInv]; rfl
    · refine .inr ⟨⟨msgNewArrayMem, ?_⟩, by omega⟩
      simp only [step]; apply Prog.bind_die; simp only [values, Prog.get_bind_apply, Prog.lift_apply]; rw [e]
  | toArray =>
    rcases toArray_cases hlim w with ⟨_, e⟩ | ⟨hb, m, e⟩
    · have es : step hash limit .toArray h =
          (.ok (.items (h.entries.flatten.flatMap (fun e => [Item.key (some e.key), Item.value e.value]))), h) := by
        simp only [step, Prog.get_bind_apply]; rw [e]; rfl
      rw [es]
      refine .inl ⟨by simp, ⟨⟨_, hen, ?_⟩, rfl⟩, w, fun _ => rfl⟩
      rw [enum_items w.toInv]; rfl
    · refine .inr ⟨⟨m, ?_⟩, by omega⟩
      simp only [step, Prog.get_bind_apply]; rw [e]; rfl

/-- Every history on a well-formed hash. -/
theorem run_follows {hash : Bytes → BitVec 64} {limit : Nat} (hlim : limit < 1073741824) {h : Hash α} (w : Wf hash limit h)
    (ops : List (Op α)) : Follows limit h.toMap ops (run hash limit h ops) := by
  induction ops generalizing h with
  | nil => trivial
  | cons op ops ih =>
    simp only [run, Follows]
    rcases step_cases hlim w op with ⟨h1, h2, h3, _⟩ | ⟨⟨m, e⟩, hb⟩
    · exact ⟨h1, _, .inl h2, ih h3⟩
    · rw [e]
      refine ⟨by simp, h.toMap, .inr ⟨rfl, rfl, _, toMap_enumerates w.toInv, ?_⟩, ih w⟩
      have := w.count
      rw [keysOf, List.length_map]
      omega

/-- The empty hash. -/
theorem wf_empty (hash : Bytes → BitVec 64) {limit : Nat} (h1 : 1 ≤ limit) :
    Wf (α := α) hash limit ⟨0, [[]]⟩ :=
  ⟨⟨good_replicate hash (n := 1) (by omega) (by omega), rfl⟩, by simp, by simpa using h1⟩

theorem empty_ok {limit : Nat} (h1 : 1 ≤ limit) : empty (α := α) limit = .ok ⟨0, [[]]⟩ := by
  unfold empty newArray
  simp [h1]

theorem toMap_empty : toMap (α := α) ⟨0, [[]]⟩ = Spec.Map.empty := rfl

/-! ## C07 -/

/-- **C07** (`new` without pairs, any history): the hash is observationally a map from byte strings to objects. -/
theorem c07_history (hash : Bytes → BitVec 64) (limit : Nat) (h1 : 1 ≤ limit) (h2 : limit < 1073741824)
    (asString : α → Option Bytes) (ops : List (Op α)) :
    ∃ h, new hash limit asString none = .ok h ∧ Follows limit Spec.Map.empty ops (run hash limit h ops) := by
  refine ⟨⟨0, [[]]⟩, by simp [new, empty_ok h1], ?_⟩
  rw [← toMap_empty]
  exact run_follows h2 (wf_empty hash h1) ops

/-- Loop of `new`. -/
theorem setPairs_cases {hash : Bytes → BitVec 64} {limit : Nat} (hlim : limit < 1073741824) (asString : α → Option Bytes)
    (kvs : List (Option α)) {h : Hash α} (w : Wf hash limit h) (hb : 3 * (h.keysLength + kvs.length) ≤ limit)
    (heven : kvs.length % 2 = 0) :
    (∃ h' m', setPairs hash limit asString kvs h = (.ok (), h') ∧ ofPairs asString h.toMap kvs = some m' ∧
      h'.toMap = m' ∧ Wf hash limit h') ∨
    (∃ h' msg, setPairs hash limit asString kvs h = (.die msg, h') ∧ ofPairs asString h.toMap kvs = none) := by
  have hc := w.count
  fun_induction setPairs hash limit asString kvs generalizing h with
  | case1 => exact .inl ⟨h, h.toMap, rfl, rfl, rfl, w⟩
  | case2 => simp at heven
  | case3 k v rest hk =>
    refine .inr ⟨h, msgKeyString, rfl, ?_⟩
    simp [ofPairs, hk]
  | case4 k v rest key hk ih =>
    simp only [List.length_cons] at hb heven
    rcases step_cases hlim w (.set (some key) v) with ⟨s1, s2, s3, _⟩ | ⟨_, hb'⟩
    · obtain ⟨s2, s2'⟩ := s2
      have hk3 : 3 * h.keysLength + 3 ≤ limit := by omega
      rcases set_cases (limit := limit) w.toInv (by omega) key v with ⟨h', e1, e2, e3, e4⟩ | ⟨e1, _⟩ | ⟨e1, _⟩
      · have es : step hash limit (.set (some key) v) h = (.ok .unit, h') := by
          simp only [step]; rw [Prog.bind_ok e1]; rfl
        rw [es] at s2' s3
        simp only at s2' s3
        have hadd : h'.keysLength ≤ h.keysLength + 1 := by rw [e3]; split <;> omega
        have hr := ih s3 (by omega) (by omega) s3.count
        rw [Prog.bind_ok e1]
        simp only [ofPairs, hk]
        rw [← s2']
        exact hr
      · have es : step hash limit (.set (some key) v) h = (.die msgNewArrayMem, h) := by
          simp only [step]; exact Prog.bind_die e1
        rw [es] at s2; cases s2
      · have es : step hash limit (.set (some key) v) h = (.ub, h) := by
          simp [step, Prog.bind_apply, e1]
        rw [es] at s2; cases s2
    · omega

theorem ofPairs_odd (asString : α → Option Bytes) (m : Map Bytes (Option α)) (kvs : List (Option α))
    (h : kvs.length % 2 ≠ 0) : ofPairs asString m kvs = none := by
  fun_induction ofPairs asString m kvs with
  | case1 => simp at h
  | case2 => rfl
  | case3 => rfl
  | case4 m k v rest key hk ih => exact ih (by simp only [List.length_cons] at h; omega)

/-- **C07** (`new` with key-value pairs, any history): `new` throws exactly when the pairs do not describe a map, and
otherwise the hash is that map. -/
theorem c07_new_pairs_history (hash : Bytes → BitVec 64) (limit : Nat) (h1 : 1 ≤ limit) (h2 : limit < 1073741824)
    (asString : α → Option Bytes) (kvs : List (Option α)) (hmem : 3 * kvs.length ≤ limit) (ops : List (Op α)) :
    match ofPairs asString Spec.Map.empty kvs with
    | none => ∃ msg, new hash limit asString (some kvs) = .die msg
    | some m => ∃ h, new hash limit asString (some kvs) = .ok h ∧ Follows limit m ops (run hash limit h ops) := by
  unfold new
  rw [empty_ok h1]
  simp only [Out.ok_bind]
  by_cases ho : kvs.length % 2 = 0
  · rw [if_neg (by omega)]
    rcases setPairs_cases h2 asString kvs (wf_empty hash h1) (by simp only; omega) ho with ⟨h', m', e1, e2, e3, e4⟩ | ⟨h', msg, e1, e2⟩
    · rw [toMap_empty] at e2
      rw [e2, e1]
      refine ⟨h', rfl, ?_⟩
      rw [← e3]
      exact run_follows h2 e4 ops
    · rw [toMap_empty] at e2
      rw [e2, e1]
      exact ⟨msg, rfl⟩
  · rw [if_pos (by omega), ofPairs_odd _ _ _ ho]
    exact ⟨_, rfl⟩

/-- The states a program can reach with `new` and method calls. -/
def runState (hash : Bytes → BitVec 64) (limit : Nat) (h : Hash α) : List (Op α) → Hash α
  | [] => h
  | op :: ops => runState hash limit (step hash limit op h).2 ops

def Reachable (hash : Bytes → BitVec 64) (limit : Nat) (h : Hash α) : Prop :=
  ∃ ops, h = runState hash limit ⟨0, [[]]⟩ ops

theorem wf_runState {hash : Bytes → BitVec 64} {limit : Nat} (hlim : limit < 1073741824) {h : Hash α} (w : Wf hash limit h)
    (ops : List (Op α)) : Wf hash limit (runState hash limit h ops) := by
  induction ops generalizing h with
  | nil => exact w
  | cons op ops ih =>
    simp only [runState]
    rcases step_cases hlim w op with ⟨_, _, h3, _⟩ | ⟨⟨m, e⟩, _⟩
    · exact ih h3
    · rw [e]; exact ih w

theorem Reachable.wf {hash : Bytes → BitVec 64} {limit : Nat} (h1 : 1 ≤ limit) (hlim : limit < 1073741824) {h : Hash α}
    (r : Reachable hash limit h) : Wf hash limit h := by
  obtain ⟨ops, rfl⟩ := r
  exact wf_runState hlim (wf_empty hash h1) ops

/-- **C07**: a call that throws (undefined key, memory exhausted, also in the middle of a rehash) leaves the hash as it was. -/
theorem c07_throw_changes_nothing (hash : Bytes → BitVec 64) (limit : Nat) (h1 : 1 ≤ limit) (h2 : limit < 1073741824)
    (h : Hash α) (r : Reachable hash limit h) (op : Op α) (h' : Hash α) (msg : String)
    (e : step hash limit op h = (.die msg, h')) : h' = h := by
  rcases step_cases h2 (r.wf h1 h2) op with ⟨_, _, _, hd⟩ | ⟨⟨m, e'⟩, _⟩
  · rw [e] at hd; exact hd ⟨msg, rfl⟩
  · rw [e] at e'; cases e'; rfl

/-- Example data: strings are their own objects. -/
def kA : Bytes := [97]
def kB : Bytes := [98]
/-- A hash function that puts every key in the same bucket. -/
def badHash : Bytes → BitVec 64 := fun _ => 5#64

example : run badHash 100 (⟨0, [[]]⟩ : Hash Nat)
    [.set (some kA) (some 1), .set (some kB) (some 2), .set (some kA) (some 3), .keysLength, .get (some kA), .set none none,
      .delete (some kB), .exist (some kB), .keys, .toArray] =
    [.ok .unit, .ok .unit, .ok .unit, .ok (.num 2), .ok (.value (some 3)), .die msgKey, .ok (.value (some 2)), .ok (.num 0),
      .ok (.keys [some kA]), .ok (.items [.key (some kA), .value (some 3)])] := by decide +kernel

/-- A throw in a reachable state: memory for two buckets is missing. -/
example : ∃ h', step badHash 1 (.set (some kB) (some 2)) (runState badHash 1 (⟨0, [[]]⟩ : Hash Nat) [.set (some kA) (some 1)]) =
    (.die msgNewArrayMem, h') := ⟨_, rfl⟩

/-! ## C08 -/

/-- **C08**: in every reachable state the enumerations list the same keys in the same order, each present key once:
`values` and `to_array` show the values `get` returns, and `keys_length` counts them. -/
theorem c08_enumeration (hash : Bytes → BitVec 64) (limit : Nat) (h1 : 1 ≤ limit) (h2 : limit < 1073741824)
    (h : Hash α) (r : Reachable hash limit h) :
    ∃ ks : List Bytes, ks.Nodup ∧
      (∀ k, k ∈ ks ↔ (exist hash (some k) h).1 = .ok 1) ∧
      h.keysLength = ks.length ∧
      (hasKeys h).1 = .ok (if ks = [] then 0 else 1) ∧
      ∃ vs : List (Option α), vs.length = ks.length ∧
        (∀ i (hi : i < ks.length) (hv : i < vs.length), (get hash (some ks[i]) h).1 = .ok vs[i]) ∧
        (2 * ks.length ≤ limit →
          (keys limit h).1 = .ok (ks.map some) ∧ (values limit h).1 = .ok vs ∧
          toArray hash limit h = .ok ((ks.zip vs).flatMap (fun p => [.key (some p.1), .value p.2]))) := by
  have w := r.wf h1 h2
  have hl := w.load
  have hf := w.fits
  have hc := w.count
  have hk : (keysOf h.entries.flatten).length = h.keysLength := by rw [hc]; simp only [keysOf, List.length_map]
  refine ⟨keysOf h.entries.flatten, w.good.nodup, ?_, hk.symm, ?_, h.entries.flatten.map (·.value), ?_, ?_, ?_⟩
  · intro k
    have e : (exist hash (some k) h).1 = .ok (if (findEntry k h.entries.flatten).isSome then 1 else 0) := by
      simp only [exist, Prog.get_bind_apply]; rw [getEntry_ok w.toInv]; rfl
    rw [e]
    have := findEntry_none (k := k) (l := h.entries.flatten)
    cases hfe : findEntry k h.entries.flatten with
    | none => simp [hfe] at this; simp [this]
    | some x =>
      simp [hfe] at this
      simp [this]
  · have e : (hasKeys h).1 = .ok (if h.keysLength > 0 then 1 else 0) := rfl
    rw [e]
    by_cases h0 : h.keysLength > 0
    · rw [if_pos h0, if_neg (by intro hn; rw [hn] at hk; simp at hk; omega)]
    · rw [if_neg h0, if_pos (List.eq_nil_of_length_eq_zero (by omega))]
  · simp only [keysOf, List.length_map]
  · intro i hi hv
    simp only [keysOf, List.length_map] at hi
    simp only [keysOf, List.getElem_map, get, Prog.get_bind_apply]
    rw [getEntry_ok w.toInv, findEntry_of_mem w.good.nodup (List.getElem_mem hi)]
    rfl
  · intro hlim
    rcases collect_cases limit (none : Option Bytes) (fun e => some e.key) w.toInv (by omega) with ⟨_, e⟩ | ⟨hb, _⟩
    · rcases collect_cases limit (none : Option α) (·.value) w.toInv (by omega) with ⟨_, e'⟩ | ⟨hb, _⟩
      · refine ⟨?_, ?_, ?_⟩
        · simp only [keys, Prog.get_bind_apply, Prog.lift_apply]; rw [e]
          simp only [keysOf, List.map_map]; rfl
        · simp only [values, Prog.get_bind_apply, Prog.lift_apply]; rw [e']
        · rw [toArray_ok w.toInv (by omega) (by omega)]
          rw [keysOf, List.zip_map', List.flatMap_map]
      · omega
    · omega

example : Reachable badHash 100 (runState badHash 100 (⟨0, [[]]⟩ : Hash Nat) [.set (some kA) (some 1), .set (some kB) none]) :=
  ⟨_, rfl⟩

/-! ## C09 -/

/-- Is the entry of `k` present with a weak value? -/
def weakAt (h : Hash α) (k : Bytes) : Option Bool := (findEntry k h.entries.flatten).map (·.weak)

theorem isweak_ok {hash : Bytes → BitVec 64} {h : Hash α} (i : Inv hash h) (k : Bytes) :
    isweak hash (some k) h = (.ok (if weakAt h k = some true then 1 else 0), h) := by
  simp only [isweak, Prog.get_bind_apply]
  rw [getEntry_ok i]
  simp only [Prog.lift_ok_bind, Prog.pure_apply]
  cases hfe : findEntry k h.entries.flatten <;> simp [weakAt, hfe]

/-- The call may change the weak flag of `k` by its own meaning. -/
def Touches (k : Bytes) : Op α → Prop
  | .set (some k') _ | .delete (some k') | .unweaken (some k') => k' = k
  | _ => False

/-- The call does not start a rehash. -/
def NoRehash (h : Hash α) : Op α → Prop
  | .set _ _ => 4 * h.keysLength ≤ 3 * h.entries.length
  | _ => True

theorem step_weak {hash : Bytes → BitVec 64} {limit : Nat} (hlim : limit < 1073741824) {h : Hash α} (w : Wf hash limit h)
    (op : Op α) (k : Bytes) (ht : ¬ Touches k op) (hr : NoRehash h op) (hw : weakAt h k = some true) :
    weakAt (step hash limit op h).2 k = some true ∨ ∃ e, findEntry k h.entries.flatten = some e ∧ e.value = none := by
  have hl := w.load
  have hf := w.fits
  cases op with
  | set k' v =>
    cases k' with
    | none => exact .inl hw
    | some k' =>
      left
      rcases set_cases (limit := limit) w.toInv (by omega) k' v with ⟨h', e1, e2, e3, e4⟩ | ⟨e1, e2, e3⟩ | ⟨e1, e2, e3⟩
      · have es : step hash limit (.set (some k') v) h = (.ok .unit, h') := by
          simp only [step]; rw [Prog.bind_ok e1]; rfl
        rw [es]
        rcases e4 with ⟨ho, _⟩ | ⟨_, _, e4⟩
        · unfold overloaded alen at ho; simp only [NoRehash] at hr; omega
        · simp only [weakAt, e4]
          rw [if_neg (by intro hk; exact ht hk.symm)]
          exact hw
      · unfold overloaded alen at e2; simp only [NoRehash] at hr; omega
      · unfold overloaded alen at e2; simp only [NoRehash] at hr; omega
  | get k' => cases k' with
    | none => exact .inl hw
    | some k' =>
      have e : (step hash limit (.get (some k')) h).2 = h := by
        simp only [step, get, Prog.bind_apply]; rw [show (Prog.get h : Out (Hash α) × Hash α) = (.ok h, h) from rfl]
        simp only [Prog.lift_apply]; rw [getEntry_ok w.toInv]; rfl
      rw [e]; exact .inl hw
  | exist k' => cases k' with
    | none => exact .inl hw
    | some k' =>
      have e : (step hash limit (.exist (some k')) h).2 = h := by
        simp only [step, exist, Prog.bind_apply]; rw [show (Prog.get h : Out (Hash α) × Hash α) = (.ok h, h) from rfl]
        simp only [Prog.lift_apply]; rw [getEntry_ok w.toInv]; rfl
      rw [e]; exact .inl hw
  | isweak k' => cases k' with
    | none => exact .inl hw
    | some k' =>
      have e : (step hash limit (.isweak (some k')) h).2 = h := by
        simp only [step]; rw [Prog.bind_ok (isweak_ok w.toInv k')]; rfl
      rw [e]; exact .inl hw
  | delete k' => cases k' with
    | none => exact .inl hw
    | some k' =>
      obtain ⟨h', e1, e2, e3, e4, e5⟩ := delete_ok w.toInv (by omega) k'
      have es : step hash limit (.delete (some k')) h = (.ok (.value ((findEntry k' h.entries.flatten).bind (·.value))), h') := by
        simp only [step]; exact bind_res e1
      rw [es]
      left
      simp only [weakAt, e5]
      rw [if_neg (by intro hk; exact ht hk.symm)]
      exact hw
  | weaken k' => cases k' with
    | none => exact .inl hw
    | some k' =>
      obtain ⟨h', e1, e2, e3, e4, _, e5⟩ := updateEntry_ok w.toInv k' (fun e => { e with weak := e.value.isSome }) (fun _ => rfl)
      have es : step hash limit (.weaken (some k')) h = (.ok .unit, h') := by
        simp only [step, weaken]; rw [Prog.bind_ok e1]; rfl
      rw [es]
      simp only [weakAt, e5] at hw ⊢
      split
      · rename_i hk
        subst hk
        cases hfe : findEntry k h.entries.flatten with
        | none => rw [hfe] at hw; simp at hw
        | some e =>
          cases hv : e.value with
          | none => exact .inr ⟨e, rfl, hv⟩
          | some v => exact .inl (by simp [hv])
      · exact .inl hw
  | unweaken k' => cases k' with
    | none => exact .inl hw
    | some k' =>
      obtain ⟨h', e1, e2, e3, e4, _, e5⟩ := updateEntry_ok w.toInv k' (fun e => { e with weak := false }) (fun _ => rfl)
      have es : step hash limit (.unweaken (some k')) h = (.ok .unit, h') := by
        simp only [step, unweaken]; rw [Prog.bind_ok e1]; rfl
      rw [es]
      left
      simp only [weakAt, e5] at hw ⊢
      rw [if_neg (by intro hk; exact ht hk.symm)]
      exact hw
  | keysLength => exact .inl hw
  | hasKeys => exact .inl hw
  | keys =>
    have e : (step hash limit .keys h).2 = h := by
      simp only [step, keys, Prog.bind_apply, Prog.get_apply, Prog.lift_apply]
      cases collect limit none (fun e => some e.key) h <;> rfl
    rw [e]; exact .inl hw
  | values =>
    have e : (step hash limit .values h).2 = h := by
      simp only [step, values, Prog.bind_apply, Prog.get_apply, Prog.lift_apply]
      cases collect limit none (fun e => e.value) h <;> rfl
    rw [e]; exact .inl hw
  | toArray =>
    have e : (step hash limit .toArray h).2 = h := by
      simp only [step, Prog.bind_apply, Prog.get_apply, Prog.lift_apply]
      cases toArray hash limit h <;> rfl
    rw [e]; exact .inl hw

/-- No call of the history touches the weak flag of `k` by its own meaning, and none starts a rehash. -/
def Quiet (hash : Bytes → BitVec 64) (limit : Nat) (k : Bytes) (h : Hash α) : List (Op α) → Prop
  | [] => True
  | op :: ops => ¬ Touches k op ∧ NoRehash h op ∧ Quiet hash limit k (step hash limit op h).2 ops

/-- A weak entry with a defined value. -/
def WeakDefined (h : Hash α) (k : Bytes) : Prop := ∃ e, findEntry k h.entries.flatten = some e ∧ e.weak = true ∧ e.value.isSome

theorem weakDefined_iff {h : Hash α} {k : Bytes} :
    WeakDefined h k ↔ weakAt h k = some true ∧ ∃ v, h.toMap k = some (some v) := by
  simp only [WeakDefined, weakAt, toMap]
  cases findEntry k h.entries.flatten with
  | none => simp
  | some e => simp [Option.isSome_iff_exists]

theorem allows_keeps {m m' : Map Bytes (Option α)} {op : Op α} {r : Option (Res α)} (a : Allows m op r m') {k : Bytes}
    (ht : ¬ Touches k op) : m' k = m k := by
  cases op with
  | set k' v => cases k' with
    | none => rw [a.2]
    | some k' => rw [a.2]; simp only [put]; rw [if_neg (by intro h; exact ht h.symm)]
  | delete k' => cases k' with
    | none => rw [a.2]
    | some k' => rw [a.2]; simp only [put]; rw [if_neg (by intro h; exact ht h.symm)]
  | get k' | exist k' | weaken k' | unweaken k' | isweak k' => cases k' <;> rw [a.2]
  | keysLength | hasKeys | keys | values | toArray => rw [a.2]

/-- **C09**, full statement: after `weaken($key)` on a defined value, `isweak($key)` stays true through every later history
that does not set, delete or unweaken that key.  Proved for histories in which no `set` finds the table overloaded (no
rehash).  Missing: histories with a rehash, for which the statement is false of the code, see
`c09_rehash_drops_weak_violated`. -/
theorem c09_weak_stays_partial (hash : Bytes → BitVec 64) (limit : Nat) (h1 : 1 ≤ limit) (h2 : limit < 1073741824)
    (h : Hash α) (r : Reachable hash limit h) (k : Bytes) (v : α) (hv : (get hash (some k) h).1 = .ok (some v))
    (ops : List (Op α)) (hq : Quiet hash limit k (step hash limit (.weaken (some k)) h).2 ops) :
    (isweak hash (some k) (runState hash limit (step hash limit (.weaken (some k)) h).2 ops)).1 = .ok 1 := by
  have w := r.wf h1 h2
  obtain ⟨h', e1, e2, e3, e4, e6, e5⟩ := updateEntry_ok w.toInv k (fun e => { e with weak := e.value.isSome }) (fun _ => rfl)
  have es : step hash limit (.weaken (some k)) h = (.ok .unit, h') := by
    simp only [step, weaken]; rw [Prog.bind_ok e1]; rfl
  have hwd : WeakDefined h' k := by
    have hg : (get hash (some k) h).1 = .ok ((findEntry k h.entries.flatten).bind (·.value)) := by
      simp only [get, Prog.get_bind_apply]; rw [getEntry_ok w.toInv]; rfl
    rw [hg] at hv
    cases hfe : findEntry k h.entries.flatten with
    | none => rw [hfe] at hv; cases hv
    | some e =>
      rw [hfe] at hv
      simp only [Option.bind_some, Out.ok.injEq] at hv
      exact ⟨_, by rw [e5 k, if_pos rfl, hfe]; rfl, by simp [hv], by simp [hv]⟩
  have w' : Wf hash limit h' := ⟨e2, by rw [e3, e4]; exact w.load, by rw [e4]; exact w.fits⟩
  rw [es] at hq ⊢
  simp only at hq ⊢
  clear es e1 e2 e3 e4 e5 e6 hv r w
  induction ops generalizing h' with
  | nil =>
    simp only [runState]
    rw [isweak_ok w'.toInv]
    rw [if_pos (weakDefined_iff.1 hwd).1]
  | cons op ops ih =>
    obtain ⟨q1, q2, q3⟩ := hq
    simp only [runState]
    have hwk := weakDefined_iff.1 hwd
    have hval : ∃ v, (step hash limit op h').2.toMap k = some (some v) := by
      rcases step_cases h2 w' op with ⟨_, a, _, _⟩ | ⟨⟨m, e⟩, _⟩
      · rw [allows_keeps a q1]; exact hwk.2
      · rw [e]; exact hwk.2
    have hw' : Wf hash limit (step hash limit op h').2 := wf_runState h2 w' [op]
    refine ih _ q3 (weakDefined_iff.2 ⟨?_, hval⟩) hw'
    rcases step_weak h2 w' op k q1 q2 hwk.1 with h | ⟨e, h3, h4⟩
    · exact h
    · obtain ⟨v, hv⟩ := hwk.2
      simp [toMap, h3, h4] at hv

/-- **C09** is false of the code: a rehash re-inserts the entries without their weak flags (Hash.spvm 697-712), so a `set`
of *another* key makes a weak entry strong. -/
theorem c09_rehash_drops_weak_violated :
    ∃ h : Hash Nat, Reachable badHash 100 h ∧ (isweak badHash (some kA) h).1 = .ok 1 ∧
      (isweak badHash (some kA) (step badHash 100 (.set (some kB) (some 2)) h).2).1 = .ok 0 :=
  ⟨_, ⟨[.set (some kA) (some 1), .weaken (some kA)], rfl⟩, by decide +kernel, by decide +kernel⟩

/-- The extent of the violation: in every reachable state in which the keys exceed three quarters of the buckets, any
successful `set` makes *all* entries strong. -/
theorem c09_rehash_drops_all_weak (hash : Bytes → BitVec 64) (limit : Nat) (h1 : 1 ≤ limit) (h2 : limit < 1073741824)
    (h : Hash α) (r : Reachable hash limit h) (ho : 4 * h.keysLength > 3 * h.entries.length) (k k' : Bytes) (v : Option α)
    (hok : ∃ r, (step hash limit (.set (some k) v) h).1 = .ok r) :
    (isweak hash (some k') (step hash limit (.set (some k) v) h).2).1 = .ok 0 := by
  have w := r.wf h1 h2
  have hl := w.load
  have hf := w.fits
  have hw' : Wf hash limit (step hash limit (.set (some k) v) h).2 := wf_runState h2 w [.set (some k) v]
  rw [isweak_ok hw'.toInv, if_neg]
  rcases set_cases (limit := limit) w.toInv (by omega) k v with ⟨h', e1, e2, e3, e4⟩ | ⟨e1, e2, e3⟩ | ⟨e1, e2, e3⟩
  · have es : step hash limit (.set (some k) v) h = (.ok .unit, h') := by
      simp only [step]; rw [Prog.bind_ok e1]; rfl
    rw [es]
    rcases e4 with ⟨_, _, _, e4⟩ | ⟨hn, _, e4⟩
    · simp only [weakAt, e4]
      split
      · simp
      · cases findEntry k' h.entries.flatten <;> simp
    · unfold overloaded alen at hn; omega
  · have es : step hash limit (.set (some k) v) h = (.die msgNewArrayMem, h) := by
      simp only [step]; exact Prog.bind_die e1
    rw [es] at hok; obtain ⟨_, hok⟩ := hok; cases hok
  · have es : step hash limit (.set (some k) v) h = (.ub, h) := by simp [step, Prog.bind_apply, e1]
    rw [es] at hok; obtain ⟨_, hok⟩ := hok; cases hok

/-- The hypotheses of `c09_weak_stays_partial` are met by a non-trivial history: a third key is added without a rehash. -/
example : Quiet badHash 100 kA
    (step badHash 100 (.weaken (some kA)) (runState badHash 100 (⟨0, [[]]⟩ : Hash Nat)
      [.set (some kA) (some 1), .set (some kB) (some 2), .delete (some kB)])).2
    [.set (some kB) (some 3), .get (some kA), .delete (some kB), .weaken (some kA)] := by
  refine ⟨by unfold Touches; decide, by unfold NoRehash; decide +kernel, by unfold Touches; decide, trivial,
    by unfold Touches; decide, trivial, by unfold Touches; decide, trivial, trivial⟩

/-- **C09**: `set` and `unweaken` make the entry strong. -/
theorem c09_set_is_strong (hash : Bytes → BitVec 64) (limit : Nat) (h1 : 1 ≤ limit) (h2 : limit < 1073741824)
    (h : Hash α) (r : Reachable hash limit h) (k : Bytes) (op : Op α) (hop : (∃ v, op = .set (some k) v) ∨ op = .unweaken (some k))
    (hok : ∃ r, (step hash limit op h).1 = .ok r) :
    (isweak hash (some k) (step hash limit op h).2).1 = .ok 0 := by
  have w := r.wf h1 h2
  have hl := w.load
  have hf := w.fits
  have hw' : Wf hash limit (step hash limit op h).2 := wf_runState h2 w [op]
  rw [isweak_ok hw'.toInv, if_neg]
  rcases hop with ⟨v, rfl⟩ | rfl
  · rcases set_cases (limit := limit) w.toInv (by omega) k v with ⟨h', e1, e2, e3, e4⟩ | ⟨e1, e2, e3⟩ | ⟨e1, e2, e3⟩
    · have es : step hash limit (.set (some k) v) h = (.ok .unit, h') := by
        simp only [step]; rw [Prog.bind_ok e1]; rfl
      rw [es]
      rcases e4 with ⟨_, _, _, e4⟩ | ⟨_, _, e4⟩ <;> simp [weakAt, e4]
    · have es : step hash limit (.set (some k) v) h = (.die msgNewArrayMem, h) := by
        simp only [step]; exact Prog.bind_die e1
      rw [es] at hok; obtain ⟨_, hok⟩ := hok; cases hok
    · have es : step hash limit (.set (some k) v) h = (.ub, h) := by simp [step, Prog.bind_apply, e1]
      rw [es] at hok; obtain ⟨_, hok⟩ := hok; cases hok
  · obtain ⟨h', e1, e2, e3, e4, _, e5⟩ := updateEntry_ok w.toInv k (fun e => { e with weak := false }) (fun _ => rfl)
    have es : step hash limit (.unweaken (some k)) h = (.ok .unit, h') := by
      simp only [step, unweaken]; rw [Prog.bind_ok e1]; rfl
    rw [es]
    simp only [weakAt, e5]
    cases findEntry k h.entries.flatten <;> simp

end Hash
end SPVM
