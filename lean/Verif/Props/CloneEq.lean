import Verif.Lemmas.CloneEq
import Verif.Props.Callback

/-!
# C85: copies and comparisons of object arrays

`Array->copy_object` and `Array->equals_object` with every cloner and every equality checker, and with the default ones on points.
-/

namespace SPVM.CloneEq

open Spec.Callback Spec.CloneEq

variable {σ α : Type}

/-! ## copy_object -/

/-- **C85**: with a cloner that answers every call, `copy_object` gives the elements of the range, in order and one call each, to the
cloner, and returns the answers.  The range is `length` elements from `offset` on, or all from `offset` on if the length is
negative. -/
theorem copy_all (limit : Nat) (accept : α → Bool) (array : σ → List (Option α)) (cloner : Callback σ α (Option α)) (s s' : σ)
    (offset length : Int) (m : Nat) (log : List (Option α × Option α)) (hn : (array s).length ≤ 2147483647) (h0 : 0 ≤ offset)
    (hl : offset + m ≤ (array s).length) (hm : length = m ∨ length < 0 ∧ offset + m = (array s).length) (hlim : m ≤ limit)
    (h : Calls array cloner (offset.toNat + m) offset.toNat s log none s') (hf : ∀ p ∈ log, Fits accept p.2) :
    copyObject limit accept (some array) (some cloner) offset length s = (.ok (log.map (·.2)), s') := by
  have := (clone_all h0 (by unfold I32; omega) h 0 rfl (by omega) hf [] (List.replicate m none) rfl (by simp)).1 rfl
  simp only [List.nil_append, Nat.sub_zero] at this
  unfold copyObject
  simp only [alen, prepare_ok hn h0 m hl hm hlim, Int.toNat_natCast, this]

/-- **C85**: an exception of the cloner ends `copy_object`, after that call. -/
theorem copy_throws (limit : Nat) (accept : α → Bool) (array : σ → List (Option α)) (cloner : Callback σ α (Option α)) (s s' : σ)
    (offset length : Int) (m : Nat) (log : List (Option α × Option α)) (msg : String) (hn : (array s).length ≤ 2147483647)
    (h0 : 0 ≤ offset) (hl : offset + m ≤ (array s).length) (hm : length = m ∨ length < 0 ∧ offset + m = (array s).length)
    (hlim : m ≤ limit) (h : Calls array cloner (offset.toNat + m) offset.toNat s log (some msg) s')
    (hf : ∀ p ∈ log, Fits accept p.2) :
    copyObject limit accept (some array) (some cloner) offset length s = (.die msg, s') := by
  obtain ⟨r, this⟩ :=
    (clone_all h0 (by unfold I32; omega) h 0 rfl (by omega) hf [] (List.replicate m none) rfl (by simp)).2 msg rfl
  simp only [List.nil_append, Nat.sub_zero] at this
  unfold copyObject
  simp only [alen, prepare_ok hn h0 m hl hm hlim, Int.toNat_natCast, this]

/-- **C85**: an answer that cannot be stored in an array of the type of the given one ends `copy_object` with an exception, after
that call. -/
theorem copy_type (limit : Nat) (accept : α → Bool) (array : σ → List (Option α)) (cloner : Callback σ α (Option α)) (s s' s'' : σ)
    (offset length : Int) (m k : Nat) (log : List (Option α × Option α)) (x y : Option α) (hn : (array s).length ≤ 2147483647)
    (h0 : 0 ≤ offset) (hl : offset + m ≤ (array s).length) (hm : length = m ∨ length < 0 ∧ offset + m = (array s).length)
    (hlim : m ≤ limit) (hk : k < m) (h : Calls array cloner (offset.toNat + k) offset.toNat s log none s')
    (hf : ∀ p ∈ log, Fits accept p.2) (hx : (array s')[offset.toNat + k]? = some x) (hc : cloner x s' = (.ok y, s''))
    (hy : ¬ Fits accept y) :
    copyObject limit accept (some array) (some cloner) offset length s = (.die VM.msgElemType, s'') := by
  obtain ⟨r, this⟩ := clone_bad h0 (by unfold I32; omega) hk h x y s'' hx hc hy rfl 0 rfl (by omega) hf []
    (List.replicate m none) rfl (by simp)
  simp only [List.nil_append, Nat.sub_zero] at this
  unfold copyObject
  simp only [alen, prepare_ok hn h0 m hl hm hlim, Int.toNat_natCast, this]

/-- **C85**: without a cloner (`copy_object_address`) the copy has the same references as the range. -/
theorem copy_address (limit : Nat) (accept : α → Bool) (array : σ → List (Option α)) (s : σ) (offset length : Int) (m : Nat)
    (hn : (array s).length ≤ 2147483647) (h0 : 0 ≤ offset) (hl : offset + m ≤ (array s).length)
    (hm : length = m ∨ length < 0 ∧ offset + m = (array s).length) (hlim : m ≤ limit) (hf : ∀ x ∈ array s, Fits accept x) :
    copyObject limit accept (some array) none offset length s = (.ok (((array s).drop offset.toNat).take m), s) := by
  unfold copyObject
  simp only [alen, prepare_ok hn h0 m hl hm hlim]
  rw [memcpyObj_ok (by omega) h0 (by omega) (by simp) hl (by unfold I32; omega) (by unfold I32; omega)
    (fun v hv => hf _ hv v rfl)]
  simp [blit]

/-- **C85**: a range that is not within the array, and an undefined array, throw without a call. -/
theorem copy_bad_range (limit : Nat) (accept : α → Bool) (array : σ → List (Option α)) (cloner : Option (Callback σ α (Option α)))
    (s : σ) (offset length : Int) (hn : (array s).length ≤ 2147483647) (hi : I32 offset) (hb : I32 (offset + length))
    (h : offset < 0 ∨ 0 ≤ length ∧ offset + length > (array s).length ∨ length < 0 ∧ offset > (array s).length) :
    (∃ m, copyObject limit accept (some array) cloner offset length s = (.die m, s)) ∧
    copyObject limit accept none cloner offset length s = (.die ArrayOps.msgArrayUndef, s) := by
  refine ⟨?_, rfl⟩
  unfold I32 at hi hb
  have : ∃ m, prepare (α := α) limit ((array s).length : Int) offset length = .die m := by
    unfold prepare
    by_cases h0 : offset < 0
    · exact ⟨_, by rw [if_pos (by omega)]⟩
    · rw [if_neg (by omega)]
      unfold ArrayOps.effLength
      rcases h with h | ⟨h1, h2⟩ | ⟨h1, h2⟩
      · omega
      · rw [if_neg (by omega)]
        simp only [Out.ok_bind]
        rw [add32_ok (by unfold I32; omega)]
        simp only [Out.ok_bind]
        exact ⟨_, by rw [if_pos (by omega)]⟩
      · rw [if_pos h1, sub32_ok (by unfold I32; omega)]
        simp only [Out.ok_bind]
        rw [add32_ok (by unfold I32; omega)]
        simp only [Out.ok_bind]
        rw [if_neg (by omega)]
        unfold newProto
        exact ⟨_, by rw [if_pos (by omega)]; rfl⟩
  obtain ⟨m, hm⟩ := this
  refine ⟨m, ?_⟩
  unfold copyObject
  simp only [alen, hm]

/-! ## equals_object -/

/-- **C85**: `equals_object` on two arrays of the same length gives the pairs in order to the checker until it answers 0 or throws; the
result is 1 if it never did. -/
theorem equals_calls [DecidableEq α] (a b : σ → List (Option α)) (chk : Checker σ α) (s s' : σ) (out : Out Int)
    (hl : (a s).length = (b s).length) (h : Checks a b chk (a s).length 0 s out s') :
    equalsObject (some a) (some b) (some chk) s = (out, s') := by
  unfold equalsObject
  simp only [alen, hl, if_true]
  rw [← hl]
  exact equals_loop h _ (by omega)

/-- **C85**: arrays of different lengths are different, an undefined array is equal to an undefined one only; the checker is not
called. -/
theorem equals_no_calls [DecidableEq α] (a b : σ → List (Option α)) (chk : Option (Checker σ α)) (s : σ) :
    ((a s).length ≠ (b s).length → equalsObject (some a) (some b) chk s = (.ok 0, s)) ∧
    equalsObject (some a) none chk s = (.ok 0, s) ∧ equalsObject none (some b) chk s = (.ok 0, s) ∧
    equalsObject (none : Option (σ → List (Option α))) none chk s = (.ok 1, s) := by
  refine ⟨fun h => ?_, rfl, rfl, rfl⟩
  unfold equalsObject
  have : ¬ alen (a s) = alen (b s) := by unfold alen; omega
  simp only [if_neg this]

theorem checks_pure (a b : σ → List (Option α)) (f : Option α → Option α → Int) (s : σ) (hl : (a s).length = (b s).length) :
    ∀ m i, i + m = (a s).length → ∃ r, Checks a b (fun x y => pure (f x y)) (a s).length i s (.ok r) s ∧ (r = 0 ∨ r = 1) ∧
      (r = 1 ↔ ∀ j x y, i ≤ j → (a s)[j]? = some x → (b s)[j]? = some y → f x y ≠ 0) := by
  intro m
  induction m with
  | zero =>
    intro i hi
    refine ⟨1, .all _ _ (by omega), .inr rfl, ⟨fun _ j x y hj hx _ => ?_, fun _ => rfl⟩⟩
    obtain ⟨h1, _⟩ := List.getElem?_eq_some_iff.mp hx
    omega
  | succ m ih =>
    intro i hi
    have hx : (a s)[i]? = some ((a s)[i]'(by omega)) := List.getElem?_eq_getElem (by omega)
    have hy : (b s)[i]? = some ((b s)[i]'(by omega)) := List.getElem?_eq_getElem (by omega)
    by_cases h0 : f ((a s)[i]'(by omega)) ((b s)[i]'(by omega)) = 0
    · refine ⟨0, .differ (by omega) hx hy (by simp [h0]), .inl rfl, ⟨fun h => by omega, fun h => ?_⟩⟩
      exact absurd h0 (h i _ _ (Nat.le_refl _) hx hy)
    · obtain ⟨r, h1, h2, h3⟩ := ih (i + 1) (by omega)
      refine ⟨r, .same (by omega) hx hy rfl h0 h1, h2, h3.trans ⟨fun h j x y hj hjx hjy => ?_, fun h j x y hj => h j x y (by omega)⟩⟩
      by_cases hji : j = i
      · subst hji
        rw [hx] at hjx
        rw [hy] at hjy
        cases hjx
        cases hjy
        exact h0
      · exact h j x y (by omega) hjx hjy

/-- **C85**: for a checker that only computes an answer, `equals_object` is 1 if the answer is not 0 for every pair, and 0 otherwise.
Without a checker (`equals_object_address`) it compares the references. -/
theorem equals_pure [DecidableEq α] (a b : σ → List (Option α)) (f : Option α → Option α → Int) (s : σ)
    (hl : (a s).length = (b s).length) :
    (∃ r, equalsObject (some a) (some b) (some fun x y => pure (f x y)) s = (.ok r, s) ∧ (r = 0 ∨ r = 1) ∧
      (r = 1 ↔ ∀ (j : Nat) x y, (a s)[j]? = some x → (b s)[j]? = some y → f x y ≠ 0)) ∧
    equalsObject (some a) (some b) none s = (.ok (if a s = b s then 1 else 0), s) := by
  constructor
  · obtain ⟨r, h1, h2, h3⟩ := checks_pure a b f s hl (a s).length 0 (by omega)
    exact ⟨r, equals_calls a b _ s s _ hl h1, h2, h3.trans ⟨fun h j x y => h j x y (Nat.zero_le _), fun h j x y _ => h j x y⟩⟩
  · obtain ⟨r, h1, h2, h3⟩ := checks_pure a b (fun x y => if x = y then 1 else 0) s hl (a s).length 0 (by omega)
    unfold equalsObject
    simp only [alen, hl, if_true]
    rw [← hl, equals_loop h1 _ (by omega)]
    congr 2
    by_cases he : a s = b s
    · rw [if_pos he]
      apply h3.mpr
      intro j x y _ hx hy
      rw [he, hy] at hx
      cases hx
      simp
    · rw [if_neg he]
      rcases h2 with h2 | h2
      · exact h2
      · exfalso
        apply he
        apply List.ext_getElem hl
        intro i g1 g2
        have := h3.mp h2 i _ _ (Nat.zero_le _) (List.getElem?_eq_getElem g1) (List.getElem?_eq_getElem g2)
        apply Classical.byContradiction
        intro hne
        rw [if_neg hne] at this
        exact this rfl

/-! ## Points -/

/-- **C85**: a clone of a point is a new object of the same class with the same coordinates; nothing else changes. -/
theorem clone_point (h : Objs) (k : Nat) (o : Obj) (ho : h[k]? = some o) (hp : o.isPoint = true) :
    defaultCloner (some k) h = (.ok (some h.length), h ++ [o]) ∧ defaultCloner none h = (.ok none, h) :=
  ⟨cloner_ok ho hp, cloner_undef h⟩

/-- **C85** (partial: between a `Point` and a `Point3D` the answer depends on the order, see `eq_not_symmetric_violated`): for objects of
the same class, and `undef`, the default equality checker answers 1 exactly for the same coordinates. -/
theorem eq_points_partial (h : Objs) (x y : Option Nat)
    (hx : ∀ k, x = some k → ∃ o, h[k]? = some o ∧ o.isPoint = true) (hy : ∀ k, y = some k → ∃ o, h[k]? = some o ∧ o.isPoint = true)
    (hc : ∀ k j o p, x = some k → y = some j → h[k]? = some o → h[j]? = some p → o.isPoint3D = p.isPoint3D) :
    ∃ r, defaultChecker x y h = (.ok r, h) ∧ (r = 0 ∨ r = 1) ∧ (r = 1 ↔ SameValue h x y) := by
  cases x with
  | none =>
    cases y with
    | none => exact ⟨1, rfl, .inr rfl, by simp [SameValue]⟩
    | some j =>
      obtain ⟨p, hp, h2⟩ := hy j rfl
      refine ⟨0, ?_, .inl rfl, by simp [SameValue]⟩
      unfold defaultChecker
      rw [Prog.bind_ok (checkArg_undef _ _ _), Prog.bind_ok (checkArg_ok hp h2)]
      rfl
  | some k =>
    obtain ⟨o, ho, h1⟩ := hx k rfl
    cases y with
    | none =>
      refine ⟨0, ?_, .inl rfl, by simp [SameValue]⟩
      unfold defaultChecker
      rw [Prog.bind_ok (checkArg_ok ho h1), Prog.bind_ok (checkArg_undef _ _ _)]
      rfl
    | some j =>
      obtain ⟨p, hp, h2⟩ := hy j rfl
      refine ⟨_, checker_same ho hp h1 h2 (hc k j o p rfl rfl ho hp), ?_, ?_⟩
      · split
        · exact .inr rfl
        · exact .inl rfl
      · constructor
        · intro h3
          have : o = p := by
            apply Classical.byContradiction
            intro hne
            rw [if_neg hne] at h3
            omega
          subst this
          exact ⟨o, ho, hp⟩
        · rintro ⟨q, h3, h4⟩
          rw [ho] at h3
          rw [hp] at h4
          cases h3
          cases h4
          simp

/-- **C85**: equality of points of the same class is an equivalence. -/
theorem same_value_equivalence (h : Objs) (x y z : Option Nat) :
    ((∀ k, x = some k → k < h.length) → SameValue h x x) ∧ (SameValue h x y → SameValue h y x) ∧
    (SameValue h x y → SameValue h y z → SameValue h x z) := by
  refine ⟨fun hk => ?_, fun hxy => ?_, fun hxy hyz => ?_⟩
  · cases x with
    | none => trivial
    | some k => exact ⟨_, List.getElem?_eq_getElem (hk k rfl), List.getElem?_eq_getElem (hk k rfl)⟩
  · cases x <;> cases y <;> try exact hxy
    obtain ⟨o, h1, h2⟩ := hxy
    exact ⟨o, h2, h1⟩
  · cases x <;> cases y <;> cases z <;> first | trivial | (exact hxy.elim) | (exact hyz.elim) | skip
    obtain ⟨o, h1, h2⟩ := hxy
    obtain ⟨p, h3, h4⟩ := hyz
    rw [h2] at h3
    cases h3
    exact ⟨o, h1, h4⟩

/-- **C85 does not hold** across the two classes: a `Point` is equal to a `Point3D` with the same `x` and `y`, but asking in the other
order throws. -/
theorem eq_not_symmetric_violated :
    defaultChecker (some 0) (some 1) [.point 1 2, .point3d 1 2 3] = (.ok 1, [.point 1 2, .point3d 1 2 3]) ∧
    defaultChecker (some 1) (some 0) [.point 1 2, .point3d 1 2 3] =
      (.die (msgArg 2 "eq" "Point3D"), [.point 1 2, .point3d 1 2 3]) := by
  constructor <;> rfl

/-- What the calls of the default cloner do. -/
theorem cloner_calls (src : List (Option Nat)) (n : Nat) (hn : n ≤ src.length) : ∀ m i (h : Objs), i + m = n →
    Points h (src.drop i) →
    ∃ log news, Calls (fun _ => src) defaultCloner n i h log none (h ++ news) ∧ log.map (·.1) = (src.drop i).take m ∧
      (∀ p ∈ log, SameValue (h ++ news) p.1 p.2) ∧ (∀ p ∈ log, ∀ j, p.2 = some j → h.length ≤ j) ∧
      (log.map (·.2)).Pairwise (fun y z => ∀ j k, y = some j → z = some k → j < k) := by
  intro m
  induction m with
  | zero => intro i h hi _; exact ⟨[], [], by simpa using .done _ _ (by omega), by simp, by simp, by simp, by simp⟩
  | succ m ih =>
    intro i h hi hp
    have hd : src.drop i = src[i]'(by omega) :: src.drop (i + 1) := List.drop_eq_getElem_cons (by omega)
    have hx : src[i]? = some (src[i]'(by omega)) := List.getElem?_eq_getElem (by omega)
    rw [hd] at hp ⊢
    generalize hxe : src[i]'(by omega) = x at *
    cases x with
    | none =>
      obtain ⟨log, news, h1, h2, h3, h4, h5⟩ := ih (i + 1) h (by omega) (fun k hk => hp k (List.mem_cons_of_mem _ hk))
      refine ⟨(none, none) :: log, news, .answer (by omega) hx (cloner_undef h) h1, by simp [h2], ?_, ?_, ?_⟩
      · intro p hpm
        rcases List.mem_cons.mp hpm with rfl | hpm
        · trivial
        · exact h3 p hpm
      · intro p hpm j hj
        rcases List.mem_cons.mp hpm with rfl | hpm
        · cases hj
        · exact h4 p hpm j hj
      · simp only [List.map_cons, List.pairwise_cons]
        exact ⟨fun y _ j k hj => (by cases hj), h5⟩
    | some k =>
      obtain ⟨o, ho, hop⟩ := hp k List.mem_cons_self
      have hk : k < h.length := (List.getElem?_eq_some_iff.mp ho).1
      have hp1 : Points (h ++ [o]) (src.drop (i + 1)) := by
        intro j hj
        obtain ⟨p, hp1, hp2⟩ := hp j (List.mem_cons_of_mem _ hj)
        have hjl : j < h.length := (List.getElem?_eq_some_iff.mp hp1).1
        exact ⟨p, by rw [List.getElem?_append_left hjl]; exact hp1, hp2⟩
      obtain ⟨log, news, h1, h2, h3, h4, h5⟩ := ih (i + 1) (h ++ [o]) (by omega) hp1
      rw [List.append_assoc] at h1 h3
      refine ⟨(some k, some h.length) :: log, [o] ++ news, .answer (by omega) hx (cloner_ok ho hop) h1, by simp [h2], ?_, ?_, ?_⟩
      · intro p hpm
        rcases List.mem_cons.mp hpm with rfl | hpm
        · refine ⟨o, ?_, ?_⟩
          · rw [List.getElem?_append_left hk]; exact ho
          · simp
        · exact h3 p hpm
      · intro p hpm j hj
        rcases List.mem_cons.mp hpm with rfl | hpm
        · cases hj; exact Nat.le_refl _
        · have := h4 p hpm j hj
          simp at this
          omega
      · simp only [List.map_cons, List.pairwise_cons]
        refine ⟨fun y hy j k hj hk => ?_, h5⟩
        cases hj
        obtain ⟨p, hpm, rfl⟩ := List.mem_map.mp hy
        have := h4 p hpm k hk
        simp at this
        omega

/-- **C85**: a copy of an array of points with the default cloner has, at every position, a new object with the value of the original (or
`undef` for `undef`); no two positions of the copy share an object, and the objects there were before are as they were. -/
theorem copy_points (limit : Nat) (src : List (Option Nat)) (h : Objs) (hn : src.length ≤ 2147483647) (hlim : src.length ≤ limit)
    (hp : Points h src) :
    ∃ ys news, copyObject limit (fun _ => true) (some fun _ => src) (some defaultCloner) 0 (-1) h = (.ok ys, h ++ news) ∧
      ys.length = src.length ∧
      (∀ (i : Nat) x y, src[i]? = some x → ys[i]? = some y → SameValue (h ++ news) x y ∧ ∀ j, y = some j → h.length ≤ j) ∧
      ys.Pairwise (fun y z => ∀ j k, y = some j → z = some k → j ≠ k) := by
  obtain ⟨log, news, h1, h2, h3, h4, h5⟩ := cloner_calls src src.length (Nat.le_refl _) src.length 0 h (by omega) hp
  have hc := copy_all limit (fun _ => true) (fun _ : Objs => src) defaultCloner h (h ++ news) 0 (-1) src.length log hn (by omega) (by simp)
    (.inr ⟨by omega, by simp⟩) hlim (by simpa using h1) (fun p _ v _ => rfl)
  simp only [List.drop_zero, List.take_length] at h2
  refine ⟨_, news, hc, ?_, ?_, h5.imp fun hlt j k hj hk => Nat.ne_of_lt (hlt j k hj hk)⟩
  · rw [← h2]; simp
  · intro i x y hx hy
    rw [← h2, List.getElem?_map] at hx
    rw [List.getElem?_map] at hy
    cases hl : log[i]? with
    | none => rw [hl] at hx; cases hx
    | some p =>
      rw [hl] at hx hy
      cases hx
      cases hy
      exact ⟨h3 p (List.mem_of_getElem? hl), h4 p (List.mem_of_getElem? hl)⟩

/-- **C85**: such a copy is equal to the original for `equals_object` with the default checker. -/
theorem copy_equals_points (limit : Nat) (src : List (Option Nat)) (h : Objs) (hn : src.length ≤ 2147483647)
    (hlim : src.length ≤ limit) (hp : Points h src) :
    ∃ ys h', copyObject limit (fun _ => true) (some fun _ => src) (some defaultCloner) 0 (-1) h = (.ok ys, h') ∧
      equalsObject (some fun _ => src) (some fun _ => ys) (some defaultChecker) h' = (.ok 1, h') := by
  obtain ⟨ys, news, e, hl, hv, _⟩ := copy_points limit src h hn hlim hp
  refine ⟨ys, h ++ news, e, equals_calls _ _ _ _ _ _ hl.symm ?_⟩
  have main : ∀ m i, i + m = src.length → Checks (fun _ => src) (fun _ => ys) defaultChecker src.length i (h ++ news) (.ok 1) (h ++ news) := by
    intro m
    induction m with
    | zero => intro i hi; exact .all _ _ (by omega)
    | succ m ih =>
      intro i hi
      have hx : src[i]? = some (src[i]'(by omega)) := List.getElem?_eq_getElem (by omega)
      have hy : ys[i]? = some (ys[i]'(by omega)) := List.getElem?_eq_getElem (by omega)
      obtain ⟨hs, _⟩ := hv i _ _ hx hy
      have hpx : ∀ k, src[i]'(by omega) = some k → ∃ o, (h ++ news)[k]? = some o ∧ o.isPoint = true := by
        intro k hk
        obtain ⟨o, h1, h2⟩ := hp k (by rw [← hk]; exact List.getElem_mem _)
        exact ⟨o, by rw [List.getElem?_append_left (List.getElem?_eq_some_iff.mp h1).1]; exact h1, h2⟩
      have hpair : ∀ k j, src[i]'(by omega) = some k → ys[i]'(by omega) = some j → (h ++ news)[k]? = (h ++ news)[j]? := by
        intro k j hk hj
        rw [hk, hj] at hs
        obtain ⟨o, h1, h2⟩ := hs
        rw [h1, h2]
      obtain ⟨r, h1, h2, h3⟩ := eq_points_partial (h ++ news) (src[i]'(by omega)) (ys[i]'(by omega)) hpx
        (fun j hj => by
          cases hk : src[i]'(by omega) with
          | none => rw [hk, hj] at hs; exact hs.elim
          | some k =>
            obtain ⟨o, h1, h2⟩ := hpx k hk
            exact ⟨o, by rw [← hpair k j hk hj]; exact h1, h2⟩)
        (fun k j o p hk hj ho hp => by
          rw [hpair k j hk hj, hp] at ho
          cases ho
          rfl)
      have hr := h3.mpr hs
      exact .same (by omega) hx hy h1 (by omega) (ih (i + 1) (by omega))
  exact main src.length 0 (by omega)

/-- **C85**: clearing a point of the copy does not change the points of the original, and the other way round. -/
theorem clear_one (h : Objs) (k j : Nat) (hkj : k ≠ j) (o : Obj) (ho : h[k]? = some o) (hp : o.isPoint = true) :
    ∃ h', clear k h = (.ok (), h') ∧ h'[j]? = h[j]? := by
  have hk := (List.getElem?_eq_some_iff.mp ho).1
  cases o with
  | other c => cases hp
  | point x y =>
    refine ⟨h.set k (.point 0 0), ?_, List.getElem?_set_ne hkj⟩
    simp [clear, Prog.bind_apply, deref, ho, initPoint, update]
  | point3d x y z =>
    refine ⟨(h.set k (.point3d 0 0 z)).set k (.point3d 0 0 0), ?_, ?_⟩
    · have hg : h[k] = .point3d x y z := (List.getElem?_eq_some_iff.mp ho).2
      simp [clear, Prog.bind_apply, deref, hg, initPoint, setZ, update, hk]
    · rw [List.getElem?_set_ne hkj, List.getElem?_set_ne hkj]

/-! ## The hypotheses can be met -/

example : Points [.point 1 2, .point3d 1 2 3] [some 1, none, some 0, some 1] := by
  intro k hk
  simp at hk
  rcases hk with rfl | rfl | rfl <;> exact ⟨_, rfl, rfl⟩

example : copyObject 10 (fun _ => true) (some fun _ => [some 1, none, some 0, some 1]) (some defaultCloner) 1 2
    [.point 1 2, .point3d 1 2 3] = (.ok [none, some 2], [.point 1 2, .point3d 1 2 3, .point 1 2]) := by rfl

/-- A cloner that throws at the second call, and one whose second answer does not fit. -/
example :
    copyObject 10 (fun v => v != 9) (some fun _ => [some 5, some 6, some 7])
      (some fun x (s : Nat) => if s = 1 then (.die "no", s) else (.ok x, s + 1)) 0 (-1) 0 = (.die "no", 1) ∧
    copyObject 10 (fun v => v != 9) (some fun _ => [some 5, some 6, some 7])
      (some fun x (s : Nat) => if s = 1 then (.ok (some 9), s + 1) else (.ok x, s + 1)) 0 (-1) 0 = (.die VM.msgElemType, 2) := by
  constructor <;> rfl

end SPVM.CloneEq
