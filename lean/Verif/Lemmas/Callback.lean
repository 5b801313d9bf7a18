import Verif.Model.Callback
import Verif.Lemmas.ObjList
/-!
# Lemmas for Fn->grep, Fn->map, Fn->map_expand
-/
namespace SPVM.FnCallback
open Spec.Callback
variable {σ α β : Type}

theorem push_fits {limit : Nat} {accept : α → Bool} (hlim : limit ≤ 1073741824) {l : ObjList α} {xs rest}
    (h : ObjList.Rep limit accept l xs rest) {x : Option α} (hx : Fits accept x) (hroom : 2 * (xs.length + 1) ≤ limit) :
    ∃ l' rest', ObjList.push limit accept x l = (.ok (), l') ∧ ObjList.Rep limit accept l' (xs ++ [x]) rest' := by
  have hlen := h.len
  rcases ObjList.extend_cases hlim h (l.length + 1) with ⟨l1, k, e1, r1, _, hm, _⟩ | ⟨_, _, hb, _⟩ | ⟨_, hb, _⟩
  · obtain ⟨l', rest', e, r, _, _⟩ := ObjList.push_ok hlim h (by omega) e1 r1 hm hx
    exact ⟨l', rest', e, r⟩
  · omega
  · omega

theorem push_bad {limit : Nat} {accept : α → Bool} (hlim : limit ≤ 1073741824) {l : ObjList α} {xs rest}
    (h : ObjList.Rep limit accept l xs rest) {x : Option α} (hx : ¬ Fits accept x) (hroom : 2 * (xs.length + 1) ≤ limit) :
    ∃ l', ObjList.push limit accept x l = (.die VM.msgElemType, l') := by
  have hlen := h.len
  obtain ⟨v, rfl, hv⟩ : ∃ v, x = some v ∧ accept v = false := by
    cases x with
    | none => exact absurd (fun v hv => by simp at hv) hx
    | some v => exact ⟨v, rfl, by
        cases hv : accept v with
        | false => rfl
        | true => exact absurd (fun w hw => by cases hw; exact hv) hx⟩
  rcases ObjList.extend_cases hlim h (l.length + 1) with ⟨l1, k, e1, r1, _, hm, _⟩ | ⟨_, _, hb, _⟩ | ⟨_, hb, _⟩
  · unfold ObjList.push
    simp only [Prog.get_bind_apply]
    rw [add32_ok (by unfold I32; omega)]
    simp only [Prog.lift_ok_bind]
    rw [Prog.bind_ok e1]
    simp only [Prog.get_bind_apply, Prog.set_bind_apply]
    have ha1 := r1.alen
    have hc1 := r1.cap
    have hlen1' := r1.len
    cases hre : rest ++ List.replicate k none with
    | nil => rw [hre] at ha1; simp at ha1; omega
    | cons y t =>
      rw [hre] at r1
      have r1' := r1.setLength (ys := xs ++ [y]) (rest' := t) (by simp) (l.length + 1) (by simp; omega)
      have ha := r1'.alen
      simp at ha
      refine ⟨{ l1 with length := l.length + 1 }, ?_⟩
      · unfold ObjList.set
        simp only [Prog.get_bind_apply, Prog.ite_apply]
        rw [if_neg (by omega), if_neg (by omega), ObjList.realIndex_ok hlim r1' l.length (by omega) (by simp; omega)]
        simp only [Prog.lift_ok_bind]
        have hlt : (l1.offset.toNat + l.length.toNat) % l1.array.length < l1.array.length := Nat.mod_lt _ (by omega)
        unfold VM.setElementChecked
        rw [if_neg (by simp only [SPVM.alen]; omega)]
        simp only [hv]
        rfl
  · omega
  · omega

/-- `push` of several elements that fit. -/
theorem pushes_fit {limit : Nat} {accept : α → Bool} (hlim : limit ≤ 1073741824) (ys : List (Option α)) (k n : Nat)
    (hk : k + n = ys.length) (hys : ∀ y ∈ ys, Fits accept y) (s : σ) {l : ObjList α} {xs rest}
    (h : ObjList.Rep limit accept l xs rest) (hroom : 2 * (xs.length + n) ≤ limit) :
    ∃ l' rest', (Prog.loopUp k n fun k => do
        let y ← Prog.lift (aGet ys (k : Nat))
        onList (ObjList.push limit accept y)) (s, l) = (.ok (), (s, l')) ∧
      ObjList.Rep limit accept l' (xs ++ ys.drop k) rest' := by
  induction n generalizing k l xs rest with
  | zero => exact ⟨l, rest, rfl, by rw [List.drop_eq_nil_of_le (by omega)]; simpa using h⟩
  | succ n ih =>
    obtain ⟨l1, r1, e1, h1⟩ := push_fits hlim h (x := ys[k]) (hys _ (List.getElem_mem _)) (by omega)
    obtain ⟨l2, r2, e2, h2⟩ := ih (k + 1) (by omega) h1 (by simp; omega)
    refine ⟨l2, r2, ?_, ?_⟩
    · unfold Prog.loopUp
      rw [Prog.bind_ok (a := ()) (s' := (s, l1))]
      · exact e2
      · rw [aGet_ok (by omega) (by omega)]
        simp only [Prog.lift_ok_bind, Int.toNat_natCast, onList, e1]
    · rw [List.append_assoc] at h2
      rw [List.drop_eq_getElem_cons (by omega)]
      exact h2

/-- `push` of several elements, one of which does not fit. -/
theorem pushes_bad {limit : Nat} {accept : α → Bool} (hlim : limit ≤ 1073741824) (ys : List (Option α)) (k n : Nat)
    (hk : k + n = ys.length) (hys : ∃ y ∈ ys.drop k, ¬ Fits accept y) (s : σ) {l : ObjList α} {xs rest}
    (h : ObjList.Rep limit accept l xs rest) (hroom : 2 * (xs.length + n) ≤ limit) :
    ∃ l', (Prog.loopUp k n fun k => do
        let y ← Prog.lift (aGet ys (k : Nat))
        onList (ObjList.push limit accept y)) (s, l) = (.die VM.msgElemType, (s, l')) := by
  induction n generalizing k l xs rest with
  | zero =>
    rw [List.drop_eq_nil_of_le (by omega)] at hys
    simp at hys
  | succ n ih =>
    rw [List.drop_eq_getElem_cons (by omega)] at hys
    by_cases hf : Fits accept ys[k]
    · obtain ⟨l1, r1, e1, h1⟩ := push_fits hlim h hf (by omega)
      obtain ⟨y, hm, hb⟩ := hys
      have hm' : y ∈ ys.drop (k + 1) := by
        rcases List.mem_cons.mp hm with rfl | hm
        · exact absurd hf hb
        · exact hm
      obtain ⟨l2, e2⟩ := ih (k + 1) (by omega) ⟨y, hm', hb⟩ h1 (by simp; omega)
      refine ⟨l2, ?_⟩
      unfold Prog.loopUp
      rw [Prog.bind_ok (a := ()) (s' := (s, l1))]
      · exact e2
      · rw [aGet_ok (by omega) (by omega)]
        simp only [Prog.lift_ok_bind, Int.toNat_natCast, onList, e1]
    · obtain ⟨l1, e1⟩ := push_bad hlim h hf (by omega)
      refine ⟨l1, ?_⟩
      unfold Prog.loopUp
      rw [Prog.bind_die (m := VM.msgElemType) (s' := (s, l1))]
      rw [aGet_ok (by omega) (by omega)]
      simp only [Prog.lift_ok_bind, Int.toNat_natCast, onList, e1]

/-- A call that throws is the call after some answered ones. -/
theorem calls_throw {array : σ → List (Option α)} {callback : Callback σ α β} {n i : Nat} {s log m s'}
    (h : Calls array callback n i s log (some m) s') :
    ∃ k s₁ x, k < n ∧ Calls array callback k i s log none s₁ ∧ (array s₁)[k]? = some x ∧ callback x s₁ = (.die m, s') := by
  generalize he : some m = e at h
  induction h with
  | done i s hi => cases he
  | answer hi hx hc _ ih =>
    obtain ⟨k, s₁, x, hk, h, h1, h2⟩ := ih he
    have hik : ∀ {j s log s₁}, Calls array callback k j s log none s₁ → j ≤ k := by
      intro j s log s₁ h
      cases h with
      | done _ _ hj => omega
      | answer hj => omega
    have := hik h
    exact ⟨k, s₁, x, hk, .answer (by omega) hx hc h, h1, h2⟩
  | throw hi hx hc =>
    cases he
    exact ⟨_, _, _, hi, .done _ _ rfl, hx, hc⟩

/-- What a body does for an answer: it appends `pieces`. -/
def Appends (limit : Nat) (accept : α → Bool) (callback : Callback σ α β) (body : Option α → Prog (σ × ObjList α) Unit)
    (good : Option α → β → Prop) (pieces : Option α → β → List (Option α)) : Prop :=
  ∀ x s b s₁, callback x s = (.ok b, s₁) → good x b → ∀ l xs rest, ObjList.Rep limit accept l xs rest →
    2 * (xs.length + (pieces x b).length) ≤ limit →
    ∃ l' rest', body x (s, l) = (.ok (), (s₁, l')) ∧ ObjList.Rep limit accept l' (xs ++ pieces x b) rest'

theorem calls_le {array : σ → List (Option α)} {callback : Callback σ α β} {k j : Nat} {s log s₁}
    (h : Calls array callback k j s log none s₁) : j ≤ k := by
  cases h with
  | done _ _ hj => omega
  | answer hj => omega

theorem run_part {limit : Nat} {accept : α → Bool} {array : σ → List (Option α)}
    {callback : Callback σ α β} {body good} {pieces : Option α → β → List (Option α)}
    (hb : Appends limit accept callback body good pieces) {k i : Nat} {s log s'}
    (h : Calls array callback k i s log none s') (hg : ∀ p ∈ log, good p.1 p.2) (m : Nat) {l : ObjList α} {xs rest}
    (r : ObjList.Rep limit accept l xs rest) (hroom : 2 * (xs.length + (log.flatMap fun p => pieces p.1 p.2).length) ≤ limit) :
    ∃ l' rest', (Prog.loopUp i (k - i + m) fun i => do
        let s ← Prog.get
        let x ← Prog.lift (aGet (array s.1) (i : Nat))
        body x) (s, l) = (Prog.loopUp k m fun i => do
        let s ← Prog.get
        let x ← Prog.lift (aGet (array s.1) (i : Nat))
        body x) (s', l') ∧ ObjList.Rep limit accept l' (xs ++ log.flatMap fun p => pieces p.1 p.2) rest' := by
  generalize he : (none : Option String) = e at h
  induction h generalizing l xs rest with
  | done i s hi =>
    subst hi
    exact ⟨l, rest, by rw [Nat.sub_self, Nat.zero_add], by simpa using r⟩
  | throw => cases he
  | @answer i s x b s₁ log e s' hi hx hc hrest ih =>
    subst he
    simp only [List.flatMap_cons, List.length_append] at hroom
    obtain ⟨l1, r1, e1, h1⟩ := hb x s b s₁ hc (hg (x, b) (List.mem_cons_self ..)) l xs rest r (by omega)
    obtain ⟨l2, r2, e2, h2⟩ := ih (fun p hp => hg p (List.mem_cons_of_mem _ hp)) h1 (by rw [List.length_append]; omega) rfl
    have hlt : i < (array s).length := (List.getElem?_eq_some_iff.mp hx).1
    have hxe : (array s)[i] = x := (List.getElem?_eq_some_iff.mp hx).2
    refine ⟨l2, r2, ?_, by simpa [List.append_assoc] using h2⟩
    rw [show k - i + m = (k - (i + 1) + m) + 1 by omega]
    rw [← e2, Prog.loopUp]
    rw [Prog.bind_ok (a := ()) (s' := (s₁, l1))]
    rw [Prog.get_bind_apply, aGet_ok (by omega) (by simpa using hlt)]
    simp only [Prog.lift_ok_bind, Int.toNat_natCast, hxe, e1]

theorem loop_all {limit : Nat} {accept : α → Bool} {array : σ → List (Option α)} {n : Nat}
    {callback : Callback σ α β} {body good} {pieces : Option α → β → List (Option α)}
    (hb : Appends limit accept callback body good pieces) {s log s'}
    (h : Calls array callback n 0 s log none s') (hg : ∀ p ∈ log, good p.1 p.2) {l : ObjList α} {rest}
    (r : ObjList.Rep limit accept l [] rest) (hroom : 2 * (log.flatMap fun p => pieces p.1 p.2).length ≤ limit) :
    ∃ l' rest', forEach array n body (s, l) = (.ok (), (s', l')) ∧
      ObjList.Rep limit accept l' (log.flatMap fun p => pieces p.1 p.2) rest' := by
  obtain ⟨l', rest', e, r'⟩ := run_part hb h hg 0 r (by simpa using hroom)
  exact ⟨l', rest', e, by simpa using r'⟩

theorem loop_stop {limit : Nat} {accept : α → Bool} {array : σ → List (Option α)} {n k : Nat}
    {callback : Callback σ α β} {body good} {pieces : Option α → β → List (Option α)}
    (hb : Appends limit accept callback body good pieces) {s log s₁ s' x m}
    (h : Calls array callback k 0 s log none s₁) (hk : k < n) (hx : (array s₁)[k]? = some x)
    (hg : ∀ p ∈ log, good p.1 p.2) {l : ObjList α} {rest} (r : ObjList.Rep limit accept l [] rest)
    (hroom : 2 * (log.flatMap fun p => pieces p.1 p.2).length ≤ limit)
    (hd : ∀ l rest, ObjList.Rep limit accept l (log.flatMap fun p => pieces p.1 p.2) rest →
      ∃ l', body x (s₁, l) = (.die m, (s', l'))) :
    ∃ l', forEach array n body (s, l) = (.die m, (s', l')) := by
  obtain ⟨l1, rest', e, r'⟩ := run_part hb h hg (n - k) r (by simpa using hroom)
  obtain ⟨l2, e2⟩ := hd l1 rest' (by simpa using r')
  refine ⟨l2, ?_⟩
  unfold forEach
  rw [show n = k - 0 + (n - k) by omega, e, show n - k = (n - k - 1) + 1 by omega, Prog.loopUp]
  have hlt : k < (array s₁).length := (List.getElem?_eq_some_iff.mp hx).1
  have hxe : (array s₁)[k] = x := (List.getElem?_eq_some_iff.mp hx).2
  rw [Prog.bind_die (m := m) (s' := (s', l2))]
  rw [Prog.get_bind_apply, aGet_ok (by omega) (by simpa using hlt)]
  simp only [Prog.lift_ok_bind, Int.toNat_natCast, hxe, e2]

theorem new_empty {limit : Nat} (accept : α → Bool) (hlim : limit ≤ 1073741824) (h4 : 4 ≤ limit) :
    ∃ l rest, (do
      let proto ← newProto limit 0
      ObjList.new limit accept (some proto) : Out (ObjList α)) = .ok l ∧ ObjList.Rep limit accept l [] rest := by
  obtain ⟨l, e⟩ := ObjList.new_succeeds (limit := limit) (accept := accept) hlim (a := some []) (c := -1)
    (by simp) (by simp; omega)
  obtain ⟨k, r, _⟩ := ObjList.new_ok hlim (by simp) e
  refine ⟨l, _, ?_, r⟩
  rw [newProto, if_neg (by omega), if_pos (by simp)]
  exact e

theorem build_all {limit : Nat} {accept : α → Bool} (hlim : limit ≤ 1073741824) (h4 : 4 ≤ limit)
    {loop : Callback σ α β → (σ → List (Option α)) → Nat → Prog (σ × ObjList α) Unit} {array callback s s' ys}
    (h : ∀ l rest, ObjList.Rep limit accept l [] rest → ∃ l' rest', loop callback array (array s).length (s, l) =
      (.ok (), (s', l')) ∧ ObjList.Rep limit accept l' ys rest') :
    build limit accept loop (some array) (some callback) s = (.ok ys, s') := by
  obtain ⟨l, rest, e, r⟩ := new_empty accept hlim h4
  obtain ⟨l', rest', e', r'⟩ := h l rest r
  unfold build
  simp only [e]
  rw [Prog.bind_ok e']
  simp only [onList, ObjList.toArray_ok hlim r']

theorem build_stop {limit : Nat} {accept : α → Bool} (hlim : limit ≤ 1073741824) (h4 : 4 ≤ limit)
    {loop : Callback σ α β → (σ → List (Option α)) → Nat → Prog (σ × ObjList α) Unit} {array callback s s' m}
    (h : ∀ l rest, ObjList.Rep limit accept l [] rest → ∃ l', loop callback array (array s).length (s, l) =
      (.die m, (s', l'))) :
    build limit accept loop (some array) (some callback) s = (.die m, s') := by
  obtain ⟨l, rest, e, r⟩ := new_empty accept hlim h4
  obtain ⟨l', e'⟩ := h l rest r
  unfold build
  simp only [e]
  rw [Prog.bind_die e']

end SPVM.FnCallback
