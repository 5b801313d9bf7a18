import Verif.Lemmas.Callback
/-!
# C79: grep, map and map_expand call the callback once for every element, in order, and return what it selects

The callback may change anything a program can change, also the elements of the array, and may throw.
-/
namespace SPVM.FnCallback
open Spec.Callback
variable {σ α β : Type}

/-- **C79** (the calls are determined): for every callback that has a defined outcome, and every array, there is exactly one
sequence of calls. -/
theorem calls_exist (array : σ → List (Option α)) (callback : Callback σ α β) (hk : KeepsLength array callback)
    (hu : ∀ x s, (callback x s).1 ≠ .ub) (s : σ) :
    ∃ log e s', Calls array callback (array s).length 0 s log e s' := by
  have main : ∀ m i s, i + m = (array s).length → ∃ log e s', Calls array callback (array s).length i s log e s' := by
    intro m
    induction m with
    | zero => intro i s h; exact ⟨[], none, s, .done _ _ (by omega)⟩
    | succ m ih =>
      intro i s h
      have hx : (array s)[i]? = some ((array s)[i]'(by omega)) := List.getElem?_eq_getElem (by omega)
      have hl := hk ((array s)[i]'(by omega)) s
      cases hc : callback ((array s)[i]'(by omega)) s with
      | mk o s₁ =>
        rw [hc] at hl
        cases o with
        | ub => exact absurd (by rw [hc]) (hu ((array s)[i]'(by omega)) s)
        | die m => exact ⟨[], some m, s₁, .throw (by omega) hx hc⟩
        | ok b =>
          obtain ⟨log, e, s', h'⟩ := ih (i + 1) s₁ (by simp only at hl; omega)
          simp only at hl
          rw [hl] at h'
          exact ⟨_, e, s', .answer (by omega) hx hc h'⟩
  exact main (array s).length 0 s (by omega)

theorem calls_unique {array : σ → List (Option α)} {callback : Callback σ α β} {n i : Nat} {s : σ} {log log' e e' s' s''}
    (h : Calls array callback n i s log e s') (h' : Calls array callback n i s log' e' s'') :
    log = log' ∧ e = e' ∧ s' = s'' := by
  induction h generalizing log' e' s'' with
  | done i s hi =>
    cases h' with
    | done => exact ⟨rfl, rfl, rfl⟩
    | answer hj => omega
    | throw hj => omega
  | answer hi hx hc _ ih =>
    cases h' with
    | done _ _ hj => omega
    | answer hj hx' hc' hr =>
      rw [hx] at hx'
      cases hx'
      rw [hc] at hc'
      cases hc'
      obtain ⟨rfl, rfl, rfl⟩ := ih hr
      exact ⟨rfl, rfl, rfl⟩
    | throw hj hx' hc' =>
      rw [hx] at hx'
      cases hx'
      rw [hc] at hc'
      cases hc'
  | throw hi hx hc =>
    cases h' with
    | done _ _ hj => omega
    | answer hj hx' hc' hr =>
      rw [hx] at hx'
      cases hx'
      rw [hc] at hc'
      cases hc'
    | throw hj hx' hc' =>
      rw [hx] at hx'
      cases hx'
      rw [hc] at hc'
      cases hc'
      exact ⟨rfl, rfl, rfl⟩

/-! ## grep -/

theorem grep_appends (limit : Nat) (accept : α → Bool) (hlim : limit ≤ 1073741824) (callback : Callback σ α Int) :
    Appends limit accept callback (fun x => do
      let ok ← call (callback x)
      if ok ≠ 0 then onList (ObjList.push limit accept x) else pure ())
      (fun x b => b ≠ 0 → Fits accept x) (fun x b => if b ≠ 0 then [x] else []) := by
  intro x s b s₁ hc hg l xs rest r hroom
  have e1 : call (α := α) (callback x) (s, l) = (.ok b, (s₁, l)) := by simp only [call, hc]
  by_cases hb : b ≠ 0
  · simp only [if_pos hb, List.length_singleton] at hroom ⊢
    obtain ⟨l', rest', e, r'⟩ := push_fits hlim r (hg hb) hroom
    refine ⟨l', rest', ?_, r'⟩
    rw [Prog.bind_ok e1, if_pos hb]
    simp only [onList, e]
  · refine ⟨l, rest, ?_, by simpa [if_neg hb] using r⟩
    dsimp only
    rw [Prog.bind_ok e1, if_neg hb]
    rfl

theorem flatMap_select (log : List (Option α × Int)) :
    (log.flatMap fun p => if p.2 ≠ 0 then [p.1] else []) = (log.filter fun p => p.2 ≠ 0).map (·.1) := by
  induction log with
  | nil => rfl
  | cons p log ih =>
    rw [List.flatMap_cons, ih]
    by_cases h : p.2 = 0 <;> simp [h]

/-- **C79** (`Fn->grep`): if every call is answered, the result has exactly the elements, as they were when the callback got
them, for which the answer was not 0, in their order; the effects are those of the calls.  The selected elements have
to be storable in an array of this type, as all elements of a well-typed array are, and memory is needed for twice the
result. -/
theorem grep_correct (limit : Nat) (accept : α → Bool) (hlim : limit ≤ 1073741824) (h4 : 4 ≤ limit)
    (array : σ → List (Option α)) (callback : Callback σ α Int) (s s' : σ) (log : List (Option α × Int))
    (h : Calls array callback (array s).length 0 s log none s') (hf : ∀ p ∈ log, p.2 ≠ 0 → Fits accept p.1)
    (hroom : 2 * (log.filter fun p => p.2 ≠ 0).length ≤ limit) :
    grep limit accept (some array) (some callback) s = (.ok ((log.filter fun p => p.2 ≠ 0).map (·.1)), s') := by
  refine build_all hlim h4 fun l rest r => ?_
  have := loop_all (grep_appends limit accept hlim callback) h hf r
    (by rw [flatMap_select, List.length_map]; exact hroom)
  rw [flatMap_select] at this
  exact this

/-- **C79** (`Fn->grep`, exceptions): the exception of the callback is passed on and no more calls are made. -/
theorem grep_throws (limit : Nat) (accept : α → Bool) (hlim : limit ≤ 1073741824) (h4 : 4 ≤ limit)
    (array : σ → List (Option α)) (callback : Callback σ α Int) (s s' : σ) (log : List (Option α × Int)) (m : String)
    (h : Calls array callback (array s).length 0 s log (some m) s') (hf : ∀ p ∈ log, p.2 ≠ 0 → Fits accept p.1)
    (hroom : 2 * (log.filter fun p => p.2 ≠ 0).length ≤ limit) :
    grep limit accept (some array) (some callback) s = (.die m, s') := by
  obtain ⟨k, s₁, x, hk, hc, hx, hd⟩ := calls_throw h
  refine build_stop hlim h4 fun l rest r => ?_
  refine loop_stop (grep_appends limit accept hlim callback) hc hk hx hf r
    (by rw [flatMap_select, List.length_map]; exact hroom) fun l rest _ => ⟨l, ?_⟩
  rw [Prog.bind_die (m := m) (s' := (s', l))]
  simp only [call, hd]

/-! ## map -/

theorem map_appends (limit : Nat) (accept : α → Bool) (hlim : limit ≤ 1073741824) (callback : Callback σ α (Option α)) :
    Appends limit accept callback (fun x => do
      let y ← call (callback x)
      onList (ObjList.push limit accept y))
      (fun _ y => Fits accept y) (fun _ y => [y]) := by
  intro x s b s₁ hc hg l xs rest r hroom
  have e1 : call (α := α) (callback x) (s, l) = (.ok b, (s₁, l)) := by simp only [call, hc]
  obtain ⟨l', rest', e, r'⟩ := push_fits hlim r hg hroom
  refine ⟨l', rest', ?_, r'⟩
  dsimp only
  rw [Prog.bind_ok e1]
  simp only [onList, e]

theorem flatMap_single (log : List (γ × δ)) : (log.flatMap fun p => [p.2]) = log.map (·.2) := by
  induction log with
  | nil => rfl
  | cons p log ih => rw [List.flatMap_cons, ih]; rfl

/-- **C79** (`Fn->map`): if every call is answered with something that can be stored in an array of the type of the given
array, the result has the answers in their order; the effects are those of the calls. -/
theorem map_correct (limit : Nat) (accept : α → Bool) (hlim : limit ≤ 1073741824) (h4 : 4 ≤ limit)
    (array : σ → List (Option α)) (callback : Callback σ α (Option α)) (s s' : σ) (log : List (Option α × Option α))
    (h : Calls array callback (array s).length 0 s log none s') (hf : ∀ p ∈ log, Fits accept p.2)
    (hroom : 2 * log.length ≤ limit) :
    map limit accept (some array) (some callback) s = (.ok (log.map (·.2)), s') := by
  refine build_all hlim h4 fun l rest r => ?_
  have := loop_all (map_appends limit accept hlim callback) h hf r (by rw [flatMap_single, List.length_map]; exact hroom)
  rw [flatMap_single] at this
  exact this

/-- **C79** (`Fn->map`, exceptions): the exception of the callback is passed on and no more calls are made. -/
theorem map_throws (limit : Nat) (accept : α → Bool) (hlim : limit ≤ 1073741824) (h4 : 4 ≤ limit)
    (array : σ → List (Option α)) (callback : Callback σ α (Option α)) (s s' : σ) (log : List (Option α × Option α))
    (m : String) (h : Calls array callback (array s).length 0 s log (some m) s') (hf : ∀ p ∈ log, Fits accept p.2)
    (hroom : 2 * log.length ≤ limit) :
    map limit accept (some array) (some callback) s = (.die m, s') := by
  obtain ⟨k, s₁, x, hk, hc, hx, hd⟩ := calls_throw h
  refine build_stop hlim h4 fun l rest r => ?_
  refine loop_stop (map_appends limit accept hlim callback) hc hk hx hf r
    (by rw [flatMap_single, List.length_map]; exact hroom) fun l rest _ => ⟨l, ?_⟩
  rw [Prog.bind_die (m := m) (s' := (s', l))]
  simp only [call, hd]

/-- **C79** (`Fn->map`, types): the first answer that cannot be stored in an array of the type of the given array ends the
function with an exception, after that call. -/
theorem map_type (limit : Nat) (accept : α → Bool) (hlim : limit ≤ 1073741824) (h4 : 4 ≤ limit)
    (array : σ → List (Option α)) (callback : Callback σ α (Option α)) (s s₁ s' : σ) (log : List (Option α × Option α))
    (k : Nat) (x y : Option α) (h : Calls array callback k 0 s log none s₁) (hf : ∀ p ∈ log, Fits accept p.2)
    (hk : k < (array s).length) (hx : (array s₁)[k]? = some x) (hy : callback x s₁ = (.ok y, s')) (hbad : ¬ Fits accept y)
    (hroom : 2 * (log.length + 1) ≤ limit) :
    map limit accept (some array) (some callback) s = (.die VM.msgElemType, s') := by
  refine build_stop hlim h4 fun l rest r => ?_
  refine loop_stop (map_appends limit accept hlim callback) h hk hx hf r
    (by rw [flatMap_single, List.length_map]; omega) fun l rest r' => ?_
  rw [flatMap_single] at r'
  obtain ⟨l', e⟩ := push_bad hlim r' hbad (by rw [List.length_map]; exact hroom)
  refine ⟨l', ?_⟩
  rw [Prog.bind_ok (a := y) (s' := (s', l))]
  · simp only [onList, e]
  · simp only [call, hy]

/-! ## map_expand -/

theorem mapExpand_appends (limit : Nat) (accept : α → Bool) (hlim : limit ≤ 1073741824)
    (callback : Callback σ α (Option (List (Option α)))) :
    Appends limit accept callback (fun x => do
      let ys ← call (callback x)
      match ys with
      | none => Prog.die msgArrayUndef
      | some ys => Prog.loopUp 0 ys.length fun k => do
        let y ← Prog.lift (aGet ys (k : Nat))
        onList (ObjList.push limit accept y))
      (fun _ b => ∃ ys, b = some ys ∧ ∀ y ∈ ys, Fits accept y) (fun _ b => b.getD []) := by
  intro x s b s₁ hc hg l xs rest r hroom
  have e1 : call (α := α) (callback x) (s, l) = (.ok b, (s₁, l)) := by simp only [call, hc]
  obtain ⟨ys, rfl, hys⟩ := hg
  obtain ⟨l', rest', e, r'⟩ := pushes_fit hlim ys 0 ys.length (by omega) hys s₁ r hroom
  refine ⟨l', rest', ?_, by simpa using r'⟩
  dsimp only
  rw [Prog.bind_ok e1]
  exact e

/-- **C79** (`Fn->map_expand`): if every call is answered with an array whose elements can be stored in an array of the type
of the given array, the result has the elements of the answers, one answer after the other; the effects are those of the
calls. -/
theorem map_expand_correct (limit : Nat) (accept : α → Bool) (hlim : limit ≤ 1073741824) (h4 : 4 ≤ limit)
    (array : σ → List (Option α)) (callback : Callback σ α (Option (List (Option α)))) (s s' : σ)
    (log : List (Option α × Option (List (Option α)))) (h : Calls array callback (array s).length 0 s log none s')
    (hf : ∀ p ∈ log, ∃ ys, p.2 = some ys ∧ ∀ y ∈ ys, Fits accept y)
    (hroom : 2 * (log.flatMap fun p => p.2.getD []).length ≤ limit) :
    mapExpand limit accept (some array) (some callback) s = (.ok (log.flatMap fun p => p.2.getD []), s') := by
  refine build_all hlim h4 fun l rest r => ?_
  exact loop_all (mapExpand_appends limit accept hlim callback) h hf r hroom

/-- **C79** (`Fn->map_expand`, exceptions): the exception of the callback is passed on and no more calls are made. -/
theorem map_expand_throws (limit : Nat) (accept : α → Bool) (hlim : limit ≤ 1073741824) (h4 : 4 ≤ limit)
    (array : σ → List (Option α)) (callback : Callback σ α (Option (List (Option α)))) (s s' : σ)
    (log : List (Option α × Option (List (Option α)))) (m : String)
    (h : Calls array callback (array s).length 0 s log (some m) s')
    (hf : ∀ p ∈ log, ∃ ys, p.2 = some ys ∧ ∀ y ∈ ys, Fits accept y)
    (hroom : 2 * (log.flatMap fun p => p.2.getD []).length ≤ limit) :
    mapExpand limit accept (some array) (some callback) s = (.die m, s') := by
  obtain ⟨k, s₁, x, hk, hc, hx, hd⟩ := calls_throw h
  refine build_stop hlim h4 fun l rest r => ?_
  refine loop_stop (mapExpand_appends limit accept hlim callback) hc hk hx hf r hroom fun l rest _ => ⟨l, ?_⟩
  rw [Prog.bind_die (m := m) (s' := (s', l))]
  simp only [call, hd]

/-- **C79** (`Fn->map_expand`, types): the first answer that is undefined or has an element that cannot be stored in an array
of the type of the given array ends the function with an exception, after that call. -/
theorem map_expand_type (limit : Nat) (accept : α → Bool) (hlim : limit ≤ 1073741824) (h4 : 4 ≤ limit)
    (array : σ → List (Option α)) (callback : Callback σ α (Option (List (Option α)))) (s s₁ s' : σ)
    (log : List (Option α × Option (List (Option α)))) (k : Nat) (x : Option α) (b : Option (List (Option α)))
    (h : Calls array callback k 0 s log none s₁) (hf : ∀ p ∈ log, ∃ ys, p.2 = some ys ∧ ∀ y ∈ ys, Fits accept y)
    (hk : k < (array s).length) (hx : (array s₁)[k]? = some x) (hb : callback x s₁ = (.ok b, s'))
    (hbad : ¬ ∃ ys, b = some ys ∧ ∀ y ∈ ys, Fits accept y)
    (hroom : 2 * ((log.flatMap fun p => p.2.getD []).length + (b.getD []).length) ≤ limit) :
    mapExpand limit accept (some array) (some callback) s =
      (.die (if b = none then msgArrayUndef else VM.msgElemType), s') := by
  refine build_stop hlim h4 fun l rest r => ?_
  refine loop_stop (mapExpand_appends limit accept hlim callback) h hk hx hf r (by omega) fun l rest r' => ?_
  have e1 : call (α := α) (callback x) (s₁, l) = (.ok b, (s', l)) := by simp only [call, hb]
  cases b with
  | none => exact ⟨l, by rw [Prog.bind_ok e1]; rfl⟩
  | some ys =>
    have hbad' : ∃ y ∈ ys.drop 0, ¬ Fits accept y := by
      rw [List.drop_zero]
      exact Classical.byContradiction fun hn => hbad ⟨ys, rfl, fun y hy =>
        Classical.byContradiction fun hy' => hn ⟨y, hy, hy'⟩⟩
    obtain ⟨l', e⟩ := pushes_bad hlim ys 0 ys.length (by omega) hbad' s' r' hroom
    exact ⟨l', by rw [Prog.bind_ok e1]; exact e⟩

/-! ## Undefined arguments and callbacks without effects -/

/-- **C79** (undefined arguments): an undefined array or callback throws, and the callback is not called. -/
theorem undefined_arguments (limit : Nat) (accept : α → Bool) (s : σ) :
    (∀ c, grep limit accept none c s = (.die ArrayOps.msgArrayUndef, s)) ∧
    (∀ c, map limit accept none c s = (.die ArrayOps.msgArrayUndef, s)) ∧
    (∀ c, mapExpand limit accept none c s = (.die ArrayOps.msgArrayUndef, s)) ∧
    (∀ a, grep limit accept (some a) none s = (.die msgCallback, s)) ∧
    (∀ a, map limit accept (some a) none s = (.die msgCallback, s)) ∧
    (∀ a, mapExpand limit accept (some a) none s = (.die msgCallback, s)) :=
  ⟨fun _ => rfl, fun _ => rfl, fun _ => rfl, fun _ => rfl, fun _ => rfl, fun _ => rfl⟩

theorem calls_pure (array : σ → List (Option α)) (f : Option α → β) (s : σ) :
    Calls array (fun x => pure (f x)) (array s).length 0 s ((array s).map fun x => (x, f x)) none s := by
  have main : ∀ m i, i + m = (array s).length →
      Calls array (fun x => pure (f x)) (array s).length i s (((array s).drop i).map fun x => (x, f x)) none s := by
    intro m
    induction m with
    | zero =>
      intro i h
      rw [List.drop_eq_nil_of_le (by omega)]
      exact .done _ _ (by omega)
    | succ m ih =>
      intro i h
      rw [List.drop_eq_getElem_cons (by omega)]
      exact .answer (by omega) (List.getElem?_eq_getElem (by omega)) rfl (ih (i + 1) (by omega))
  simpa using main (array s).length 0 (by omega)

/-- **C79** (callbacks without effects): on every well-typed array, `grep` selects and `map` transforms element by element,
and the state is not changed. -/
theorem pure_callbacks (limit : Nat) (accept : α → Bool) (hlim : limit ≤ 1073741824) (h4 : 4 ≤ limit)
    (array : σ → List (Option α)) (s : σ) (hroom : 2 * (array s).length ≤ limit) :
    (∀ p : Option α → Int, (∀ x ∈ array s, Fits accept x) →
      grep limit accept (some array) (some fun x => pure (p x)) s = (.ok ((array s).filter fun x => p x ≠ 0), s)) ∧
    (∀ f : Option α → Option α, (∀ x ∈ array s, Fits accept (f x)) →
      map limit accept (some array) (some fun x => pure (f x)) s = (.ok ((array s).map f), s)) := by
  constructor
  · intro p hf
    rw [grep_correct limit accept hlim h4 array _ s s _ (calls_pure array p s)]
    · simp [List.filter_map, Function.comp_def]
    · intro q hq
      obtain ⟨x, hx, rfl⟩ := List.mem_map.mp hq
      exact fun _ => hf x hx
    · have := List.length_filter_le (fun q : Option α × Int => decide (q.2 ≠ 0)) ((array s).map fun x => (x, p x))
      rw [List.length_map] at this
      omega
  · intro f hf
    rw [map_correct limit accept hlim h4 array _ s s _ (calls_pure array f s)]
    · simp [Function.comp_def]
    · intro q hq
      obtain ⟨x, hx, rfl⟩ := List.mem_map.mp hq
      exact hf x hx
    · rw [List.length_map]
      exact hroom

/-! ## Non-vacuity

The state is the array itself.  The callback writes 9 into the last element, answers with the element, and throws when it
gets 5. -/

def sample : Callback (List (Option Int)) Int (Option Int) := fun x s =>
  if x = some 5 then (.die "five", s) else (.ok x, s.set (s.length - 1) (some 9))

example : KeepsLength (fun s => s) sample ∧ ∀ x s, (sample x s).1 ≠ .ub := by
  constructor <;> intro x s <;> unfold sample <;> split <;> simp

example : Calls (fun s => s) sample 3 0 [some 1, none, some 3] [(some 1, some 1), (none, none), (some 9, some 9)] none
    [some 1, none, some 9] :=
  .answer (by decide) rfl rfl (.answer (by decide) rfl rfl (.answer (by decide) rfl rfl (.done _ _ rfl)))

example : Calls (fun s => s) sample 3 0 [some 1, some 5, some 3] [(some 1, some 1)] (some "five") [some 1, some 5, some 9] :=
  .answer (by decide) rfl rfl (.throw (by decide) rfl rfl)

example : map 100 (fun v => decide (v < 100)) (some fun s => s) (some sample) [some 1, none, some 3] =
    (.ok [some 1, none, some 9], [some 1, none, some 9]) := by decide +kernel
example : map 100 (fun v => decide (v < 100)) (some fun s => s) (some sample) [some 1, some 5, some 3] =
    (.die "five", [some 1, some 5, some 9]) := by decide +kernel
example : map 100 (fun v => decide (v < 2)) (some fun s => s) (some sample) [some 1, some 3] =
    (.die VM.msgElemType, [some 1, some 9]) := by decide +kernel
example : grep 100 (fun _ => true) (some fun s => s) (some fun x => pure (if x = none then 0 else 1)) [some 1, none, some 3] =
    (.ok [some 1, some 3], [some 1, none, some 3]) := by decide +kernel
example : mapExpand 100 (fun _ => true) (some fun s => s) (some fun x => pure (some [x, x])) [some (1 : Int), none] =
    (.ok [some 1, some 1, none, none], [some 1, none]) := by decide +kernel
example : mapExpand 100 (fun _ => true) (some fun s => s) (some fun _ => pure none) [some (1 : Int)] =
    (.die msgArrayUndef, [some 1]) := by decide +kernel

end SPVM.FnCallback
