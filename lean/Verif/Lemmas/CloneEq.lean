import Verif.Model.CloneEq
import Verif.Lemmas.Callback

/-!
# Lemmas for C85
-/

namespace SPVM.CloneEq

open Spec.Callback Spec.CloneEq

variable {σ α : Type}

theorem store_fits {accept : α → Bool} {i : Nat} {y : Option α} {s : σ} {done rest : List (Option α)} {z : Option α}
    (hi : done.length = i) (hy : Fits accept y) :
    storeNew accept i y (s, done ++ z :: rest) = (.ok (), (s, (done ++ [y]) ++ rest)) := by
  unfold storeNew
  rw [setElementChecked_ok (by omega) (by simp; omega) hy]
  simp only [Int.toNat_natCast]
  subst hi
  simp

theorem store_bad {accept : α → Bool} {i : Nat} {y : Option α} {s : σ} {new : List (Option α)} (hi : i < new.length)
    (hy : ¬ Fits accept y) : storeNew accept i y (s, new) = (.die VM.msgElemType, (s, new)) := by
  obtain ⟨v, rfl, hv⟩ : ∃ v, y = some v ∧ accept v = false := by
    cases y with
    | none => exact absurd (fun v hv => by simp at hv) hy
    | some v => exact ⟨v, rfl, by
        cases hv : accept v with
        | false => rfl
        | true => exact absurd (fun w hw => by cases hw; exact hv) hy⟩
  unfold storeNew VM.setElementChecked
  rw [if_neg (by simp only [SPVM.alen]; omega)]
  simp [hv]

/-- One turn of the loop. -/
theorem turn {accept : α → Bool} {array : σ → List (Option α)} {cloner : Callback σ α (Option α)} {offset : Int} {i n : Nat}
    {s : σ} {new : List (Option α)} {x : Option α} (h0 : 0 ≤ offset) (hb : I32 (offset + i))
    (hx : (array s)[offset.toNat + i]? = some x) :
    cloneLoop accept array cloner offset i (n + 1) (s, new) =
      ((do
        let y ← call (cloner x)
        storeNew accept i y
        cloneLoop accept array cloner offset (i + 1) n : Prog (σ × List (Option α)) Unit) (s, new)) := by
  obtain ⟨hl, hx⟩ := List.getElem?_eq_some_iff.mp hx
  unfold cloneLoop
  conv => lhs; unfold Prog.loopUp
  simp only [Prog.bind_apply, Prog.get_apply, Prog.lift_apply, add32_ok hb]
  rw [aGet_ok (by omega) (by omega)]
  have e : (array s)[(offset + (i : Int)).toNat]'(by omega) = x := by
    rw [← hx]
    congr 1
    omega
  simp only [e]
  rcases h1 : call (cloner x) (s, new) with ⟨r, s1⟩
  cases r <;> rfl

/-- All calls are answered, and the answers fit. -/
theorem clone_all {accept : α → Bool} {array : σ → List (Option α)} {cloner : Callback σ α (Option α)} {offset : Int} {m : Nat}
    (h0 : 0 ≤ offset) (hm : I32 (offset + m)) {j : Nat} {s log e s'} (h : Calls array cloner (offset.toNat + m) j s log e s') :
    ∀ i, j = offset.toNat + i → i ≤ m → (∀ p ∈ log, Fits accept p.2) → ∀ (done rest : List (Option α)), done.length = i →
      rest.length = m - i →
      (e = none → cloneLoop accept array cloner offset i (m - i) (s, done ++ rest) = (.ok (), (s', done ++ log.map (·.2)))) ∧
      (∀ msg, e = some msg → ∃ r, cloneLoop accept array cloner offset i (m - i) (s, done ++ rest) = (.die msg, (s', r))) := by
  unfold I32 at hm
  induction h with
  | done j s hj =>
    intro i hi hle hf done rest hd hr
    have : m - i = 0 := by omega
    have hr0 : rest = [] := List.length_eq_zero_iff.mp (by omega)
    subst hr0
    rw [this]
    exact ⟨fun _ => by simp [cloneLoop, Prog.loopUp], fun _ h => by cases h⟩
  | @answer j s x b s₁ log e s' hj hx hc _ ih =>
    intro i hi hle hf done rest hd hr
    cases rest with
    | nil => simp at hr; omega
    | cons z rest =>
      have hn : m - i = (m - (i + 1)) + 1 := by omega
      subst hi
      rw [hn, turn h0 (by unfold I32; omega) hx]
      have hcall : call (α := α) (cloner x) (s, done ++ z :: rest) = (.ok b, (s₁, done ++ z :: rest)) := by
        unfold call; simp only [hc]
      rw [Prog.bind_ok hcall, Prog.bind_ok (store_fits hd (hf (x, b) List.mem_cons_self))]
      obtain ⟨h1, h2⟩ := ih (i + 1) (by omega) (by omega) (fun p hp => hf p (List.mem_cons_of_mem _ hp)) (done ++ [b]) rest
        (by simp; omega) (by simp at hr; omega)
      refine ⟨fun he => ?_, h2⟩
      rw [h1 he]
      simp
  | @throw j s x m' s' hj hx hc =>
    intro i hi hle hf done rest hd hr
    refine ⟨fun h => (by cases h), fun msg h => ?_⟩
    cases h
    have hn : m - i = (m - (i + 1)) + 1 := by omega
    subst hi
    refine ⟨done ++ rest, ?_⟩
    rw [hn, turn h0 (by unfold I32; omega) hx, Prog.bind_die]
    unfold call
    simp only [hc]

/-- An answer that does not fit. -/
theorem clone_bad {accept : α → Bool} {array : σ → List (Option α)} {cloner : Callback σ α (Option α)} {offset : Int} {m : Nat}
    (h0 : 0 ≤ offset) (hm : I32 (offset + m)) {k : Nat} (hk : k < m) {j : Nat} {s log e s'}
    (h : Calls array cloner (offset.toNat + k) j s log e s') (x : Option α) (y : Option α) (s'' : σ)
    (hx : (array s')[offset.toNat + k]? = some x) (hc : cloner x s' = (.ok y, s'')) (hy : ¬ Fits accept y) :
    e = none → ∀ i, j = offset.toNat + i → i ≤ k → (∀ p ∈ log, Fits accept p.2) → ∀ (done rest : List (Option α)), done.length = i →
      rest.length = m - i → ∃ r, cloneLoop accept array cloner offset i (m - i) (s, done ++ rest) = (.die VM.msgElemType, (s'', r)) := by
  unfold I32 at hm
  induction h with
  | done j s hj =>
    intro _ i hi hle hf done rest hd hr
    have : i = k := by omega
    subst this
    subst hi
    have hn : m - i = (m - (i + 1)) + 1 := by omega
    refine ⟨done ++ rest, ?_⟩
    rw [hn, turn h0 (by unfold I32; omega) hx]
    have hcall : call (α := α) (cloner x) (s, done ++ rest) = (.ok y, (s'', done ++ rest)) := by
      unfold call; simp only [hc]
    rw [Prog.bind_ok hcall, Prog.bind_die (store_bad (by simp; omega) hy)]
  | @answer j s x1 b s₁ log e s' hj hx1 hc1 _ ih =>
    intro he i hi hle hf done rest hd hr
    cases rest with
    | nil => simp at hr; omega
    | cons z rest =>
      have hn : m - i = (m - (i + 1)) + 1 := by omega
      subst hi
      rw [hn, turn h0 (by unfold I32; omega) hx1]
      have hcall : call (α := α) (cloner x1) (s, done ++ z :: rest) = (.ok b, (s₁, done ++ z :: rest)) := by
        unfold call; simp only [hc1]
      rw [Prog.bind_ok hcall, Prog.bind_ok (store_fits hd (hf (x1, b) List.mem_cons_self))]
      exact ih hx hc he (i + 1) (by omega) (by omega) (fun p hp => hf p (List.mem_cons_of_mem _ hp)) (done ++ [b]) rest
        (by simp; omega) (by simp at hr; omega)
  | throw hj hx hc => intro h; nomatch h

/-- The range is accepted: 0 or more elements from the offset on, within the array. -/
theorem prepare_ok {limit n : Nat} (hn : n ≤ 2147483647) {offset length : Int} (h0 : 0 ≤ offset) (m : Nat) (hl : offset + m ≤ n)
    (hm : length = m ∨ length < 0 ∧ offset + m = n) (hlim : m ≤ limit) :
    prepare (α := α) limit n offset length = .ok ((m : Int), List.replicate m none) := by
  have he : ArrayOps.effLength n offset length = .ok (m : Int) := by
    unfold ArrayOps.effLength
    rcases hm with rfl | ⟨h1, h2⟩
    · rw [if_neg (by omega)]
    · rw [if_pos h1, sub32_ok (by unfold I32; omega)]
      congr 1
      omega
  unfold prepare
  rw [if_neg (by omega), he]
  simp only [Out.ok_bind]
  rw [add32_ok (by unfold I32; omega)]
  simp only [Out.ok_bind]
  rw [if_neg (by omega)]
  unfold newProto
  rw [if_neg (by omega), if_pos (by simpa using hlim)]
  rfl

/-- A turn of the comparison. -/
theorem equals_turn {a b : σ → List (Option α)} {chk : Checker σ α} {n i : Nat} {s : σ} {x y : Option α}
    (hx : (a s)[i]? = some x) (hy : (b s)[i]? = some y) :
    equalsLoop a b chk (n + 1) i s =
      ((do
        let r ← chk x y
        if r = 0 then pure 0 else equalsLoop a b chk n (i + 1) : Prog σ Int) s) := by
  obtain ⟨h1, hx⟩ := List.getElem?_eq_some_iff.mp hx
  obtain ⟨h2, hy⟩ := List.getElem?_eq_some_iff.mp hy
  conv => lhs; unfold equalsLoop
  simp only [Prog.bind_apply, Prog.get_apply, Prog.lift_apply]
  rw [aGet_ok (by omega) (by omega), aGet_ok (by omega) (by omega)]
  simp only [Int.toNat_natCast, hx, hy]

theorem equals_loop {a b : σ → List (Option α)} {chk : Checker σ α} {n i : Nat} {s : σ} {out : Out Int} {s' : σ}
    (h : Checks a b chk n i s out s') : ∀ m, i + m = n → equalsLoop a b chk m i s = (out, s') := by
  induction h with
  | all i s hi =>
    intro m hm
    have : m = 0 := by omega
    subst this
    rfl
  | same hi hx hy hc hr _ ih =>
    intro m hm
    obtain ⟨m, rfl⟩ : ∃ k, m = k + 1 := ⟨m - 1, by omega⟩
    rw [equals_turn hx hy, Prog.bind_ok hc, if_neg hr]
    exact ih m (by omega)
  | differ hi hx hy hc =>
    intro m hm
    obtain ⟨m, rfl⟩ : ∃ k, m = k + 1 := ⟨m - 1, by omega⟩
    rw [equals_turn hx hy, Prog.bind_ok hc, if_pos rfl]
    rfl
  | throw hi hx hy hc =>
    intro m hm
    obtain ⟨m, rfl⟩ : ∃ k, m = k + 1 := ⟨m - 1, by omega⟩
    rw [equals_turn hx hy, Prog.bind_die hc]

/-! ## Points -/

theorem checkArg_ok {msg : String} {isa : Obj → Bool} {k : Nat} {h : Objs} {o : Obj} (ho : h[k]? = some o) (hi : isa o = true) :
    checkArg msg isa (some k) h = (.ok (), h) := by
  unfold checkArg
  simp [ho, hi]

theorem checkArg_undef (msg : String) (isa : Obj → Bool) (h : Objs) : checkArg msg isa none h = (.ok (), h) := rfl

theorem clone_ok {k : Nat} {h : Objs} {o : Obj} (ho : h[k]? = some o) (hp : o.isPoint = true) :
    clone k h = (.ok (some h.length), h ++ [o]) := by
  cases o with
  | other c => cases hp
  | point x y =>
    simp [clone, Prog.bind_apply, deref, ho, newPoint, alloc, initPoint, update]
  | point3d x y z =>
    simp [clone, Prog.bind_apply, deref, ho, newPoint3D, alloc, initPoint, setZ, update]

theorem cloner_ok {k : Nat} {h : Objs} {o : Obj} (ho : h[k]? = some o) (hp : o.isPoint = true) :
    defaultCloner (some k) h = (.ok (some h.length), h ++ [o]) := by
  unfold defaultCloner
  rw [Prog.bind_ok (checkArg_ok ho hp)]
  exact clone_ok ho hp

theorem cloner_undef (h : Objs) : defaultCloner none h = (.ok none, h) := rfl

/-- What the default checker answers for two points of the same class. -/
theorem checker_same {k j : Nat} {h : Objs} {o p : Obj} (ho : h[k]? = some o) (hp : h[j]? = some p) (h1 : o.isPoint = true)
    (h2 : p.isPoint = true) (hc : o.isPoint3D = p.isPoint3D) :
    defaultChecker (some k) (some j) h = (.ok (if o = p then 1 else 0), h) := by
  unfold defaultChecker
  rw [Prog.bind_ok (checkArg_ok ho h1), Prog.bind_ok (checkArg_ok hp h2)]
  cases o with
  | other c => cases h1
  | point x y =>
    cases p with
    | other c => cases h2
    | point3d _ _ _ => cases hc
    | point x' y' =>
      simp [callEq, Prog.bind_apply, deref, ho, hp, checkArg, Obj.isPoint, pointEq, fieldX, fieldY]
  | point3d x y z =>
    cases p with
    | other c => cases h2
    | point _ _ => cases hc
    | point3d x' y' z' =>
      simp [callEq, Prog.bind_apply, deref, ho, hp, checkArg, Obj.isPoint3D, point3dEq, fieldX, fieldY, fieldZ]

end SPVM.CloneEq
