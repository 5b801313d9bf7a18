import Verif.Lemmas.ImmutableOps

/-!
# C83: immutable lists never change
-/

namespace SPVM.Immutable

variable {α : Type}

/-! ## One operation -/

/-- `Immutable::DoubleList->to_array` is left out. -/
def Safe (K : Kind) (op : Op α) : Prop := K = .double → ∀ l, op ≠ .toArray l

theorem inv_start (K : Kind) (limit : Nat) : Inv K limit (start : St α) :=
  ⟨by simp [start], by simp [start], by simp [start], by simp [start]⟩

theorem resolve_ok {K : Kind} {limit : Nat} {s : St α} (hi : Inv K limit s) {x : Src α} {v : Val α} (h : resolve K s x = some v) :
    TypeOk K v ∧ ∀ y, v = .str (some y) → y < s.strs.length := by
  cases x with
  | num w =>
    by_cases hK : K = .string
    · simp [resolve, hK] at h
    · simp [resolve, hK] at h
      subst h
      exact ⟨hK, fun y e => nomatch e⟩
  | str n =>
    by_cases hK : K = .string
    · simp only [resolve, hK, if_true] at h
      cases hr : s.userStrs[n]? with
      | none => simp [hr] at h
      | some r =>
        simp [hr] at h
        subst h
        refine ⟨hK, fun y e => ?_⟩
        cases e
        exact hi.strs r (List.mem_iff_getElem?.mpr ⟨n, hr⟩)
    · simp [resolve, hK] at h
  | undef =>
    by_cases hK : K = .string
    · simp [resolve, hK] at h
      subst h
      exact ⟨hK, fun y e => nomatch e⟩
    · simp [resolve, hK] at h

theorem resolveAll_ok {K : Kind} {limit : Nat} {s : St α} (hi : Inv K limit s) : ∀ {xs : List (Src α)} {vs : List (Val α)},
    resolveAll K s xs = some vs → (∀ v ∈ vs, TypeOk K v) ∧ ∀ y, Val.str (some y) ∈ vs → y < s.strs.length := by
  intro xs
  induction xs with
  | nil => intro vs h; simp [resolveAll] at h; subst h; simp
  | cons x xs ih =>
    intro vs h
    simp only [resolveAll] at h
    cases hr : resolve K s x with
    | none => simp [hr] at h
    | some v =>
      cases ha : resolveAll K s xs with
      | none => simp [hr, ha] at h
      | some ws =>
        simp [hr, ha] at h
        subst h
        obtain ⟨h1, h2⟩ := resolve_ok hi hr
        obtain ⟨h3, h4⟩ := ih ha
        refine ⟨fun w hw => ?_, fun y hy => ?_⟩
        · rcases List.mem_cons.mp hw with e | e
          · exact e ▸ h1
          · exact h3 w e
        · rcases List.mem_cons.mp hy with e | e
          · exact h2 y e.symm
          · exact h4 y e

theorem aGet_mem {xs : List β} {i : Int} {v : β} (h : aGet xs i = .ok v) : v ∈ xs := by
  unfold aGet at h
  split at h
  · cases h
  · split at h
    · rename_i x hx
      cases h
      exact List.mem_iff_getElem?.mpr ⟨_, hx⟩
    · cases h

/-- An array the program has. -/
theorem user_arr {K : Kind} {limit : Nat} {s : St α} (hi : Inv K limit s) {u a : Nat} (h : s.userArrs[u]? = some a) :
    (∃ xs, s.heap[a]? = some xs ∧ ArrOk K limit s xs) ∧ ∀ f ∈ s.lists, f.2 ≠ a := by
  have hm : a ∈ s.userArrs := List.mem_iff_getElem?.mpr ⟨u, h⟩
  have hlt := hi.arrs a hm
  refine ⟨⟨s.heap[a], List.getElem?_eq_getElem hlt, hi.heap _ (List.getElem_mem hlt)⟩, fun f hf e => ?_⟩
  exact (hi.lists f hf).1 (e ▸ hm)

/-- A list the program has. -/
theorem user_list {K : Kind} {limit : Nat} {s : St α} (hi : Inv K limit s) {l : Nat} {f : Int × Nat} (h : s.lists[l]? = some f) :
    f.2 ∉ s.userArrs ∧ ∃ xs, s.heap[f.2]? = some xs ∧ f.1 = xs.length ∧ ArrOk K limit s xs := by
  obtain ⟨h1, xs, h2, h3, _⟩ := hi.lists f (List.mem_iff_getElem?.mpr ⟨l, h⟩)
  exact ⟨h1, xs, h2, h3, hi.heap xs (List.mem_iff_getElem?.mpr ⟨_, h2⟩)⟩

theorem keep_inv {K : Kind} {limit : Nat} {s : St α} (hi : Inv K limit s) {v : Val α}
    (hv : ∀ x, v = .str (some x) → x < s.strs.length) :
    (keep v s).1 = .ok (.value (view s v)) ∧ Inv K limit (keep v s).2 ∧ Ext s (keep v s).2 := by
  match v, hv with
  | .num _, _ => exact ⟨rfl, hi, .refl s⟩
  | .str none, _ => exact ⟨rfl, hi, .refl s⟩
  | .str (some x), hv => exact ⟨rfl, giveStr hi (hv x rfl) (fun h => nomatch h)⟩

/-- The new array of a list belongs to nobody else. -/
theorem fresh {K : Kind} {limit : Nat} {s : St α} (hi : Inv K limit s) :
    s.heap.length ∉ s.userArrs ∧ ∀ f ∈ s.lists, f.2 ≠ s.heap.length :=
  ⟨fun h => absurd (hi.arrs _ h) (by omega), fun f hf e => absurd (hi.lt hf) (by omega)⟩

/-- Read-only strings that were added. -/
theorem pushStrs {K : Kind} {limit : Nat} : ∀ (bs : List (List UInt8)) {s : St α}, Inv K limit s →
    Inv K limit { s with strs := s.strs ++ bs.map (·, true) } ∧ Ext s { s with strs := s.strs ++ bs.map (·, true) } := by
  intro bs
  induction bs with
  | nil => intro s hi; simpa using ⟨hi, Ext.refl s⟩
  | cons b bs ih =>
    intro s hi
    obtain ⟨h1, h2⟩ := pushStr hi (b, true)
    obtain ⟨h3, h4⟩ := ih h1
    simp only [List.append_assoc, List.singleton_append] at h3 h4
    exact ⟨h3, h2.trans h4⟩

/-- What `new` with an array does, if it is defined. -/
theorem new_inv {K : Kind} {zero : α} {limit : Nat} (hlim : limit ≤ 2147483647) {s : St α} (hi : Inv K limit s) {u : Nat}
    {xs : List (Val α)} (hu : s.heap[u]? = some xs) (hok : ArrOk K limit s xs) :
    ((new K zero limit (some u) s).1 = .ub ∧ K = .string ∧ Val.str none ∈ xs) ∨
    ∃ s', new K zero limit (some u) s = (.ok ((xs.length : Int), s.heap.length), s') ∧ Inv K limit s' ∧ Ext s s' ∧
      s'.lists = s.lists ∧ Own s' ((xs.length : Int), s.heap.length) ∧
      (∃ ss ys, s' = { s with strs := s.strs ++ ss, heap := s.heap ++ [ys] }) ∧
      (s'.heap[s.heap.length]?).map (fun ys => ys.map (view s')) = some (xs.map (view s)) := by
  by_cases hK : K = .string
  · subst hK
    by_cases hn : Val.str none ∈ xs
    · exact .inl ⟨new_str_ub hu hok hn, rfl, hn⟩
    · right
      have hdef : ∀ v ∈ xs, ∃ x, v = .str (some x) ∧ x < s.strs.length := by
        intro v hv
        match v, hv with
        | .num _, hv => exact absurd rfl (hok.types _ hv)
        | .str none, hv => exact absurd hv hn
        | .str (some x), hv => exact ⟨x, rfl, hok.elems x hv⟩
      obtain ⟨bs, hl, hb⟩ := bytes_exist xs hdef
      obtain ⟨i1, e1⟩ := pushStrs bs hi
      have harr : ArrOk .string limit { s with strs := s.strs ++ bs.map (·, true) }
          ((List.range' s.strs.length bs.length).map (fun x => (.str (some x) : Val α))) := by
        refine ⟨fun x hx => ?_, fun v hv => ?_, by simpa [hl] using hok.len⟩
        · simp at hx
          simp
          omega
        · simp at hv
          obtain ⟨_, _, rfl⟩ := hv
          rfl
      obtain ⟨i2, e2⟩ := pushArr i1 harr
      have hget : ∀ j (hj : j < bs.length), (s.strs ++ bs.map (·, true))[s.strs.length + j]? = some (bs[j], true) := by
        intro j hj
        rw [List.getElem?_append_right (by omega)]
        simp [hj]
      refine ⟨_, new_str hu hok.len hl hb, i2, e1.trans e2, rfl, ?_, ⟨_, _, rfl⟩, ?_⟩
      · refine ⟨(fresh hi).1, (List.range' s.strs.length bs.length).map (fun x => (.str (some x) : Val α)), by simp, by simp [hl],
          fun x hx => ?_⟩
        simp at hx
        refine ⟨⟨bs[x - s.strs.length]'(by omega), ?_⟩, fun hm => ?_⟩
        · have := hget (x - s.strs.length) (by omega)
          rw [show s.strs.length + (x - s.strs.length) = x by omega] at this
          exact this
        · have := hi.strs _ hm
          simp at this
          omega
      · simp only [List.getElem?_append_right (Nat.le_refl _), Nat.sub_self, List.getElem?_cons_zero, Option.map_some, List.map_map]
        congr 1
        apply List.ext_getElem
        · simp [hl]
        · intro j h1 h2
          simp at h1 h2
          obtain ⟨x, ro, hx, hxb⟩ := hb j h1
          rw [List.getElem?_eq_getElem h2] at hx
          simp only [Option.some.injEq] at hx
          simp only [List.getElem_map, List.getElem_range', Function.comp, hx, view, hxb, Option.map_some]
          rw [Nat.one_mul, hget j h1]
          rfl
  · right
    obtain ⟨i1, e1⟩ := pushArr hi hok
    refine ⟨_, new_num hlim hK hu hok.len, i1, e1, rfl, ⟨(fresh hi).1, xs, by simp, rfl, fun x hx => ?_⟩,
      ⟨[], xs, by simp⟩, ?_⟩
    · exact absurd (hok.types _ hx) hK
    · simp
      intro v _
      exact view_frozen (fun x _ => rfl)

theorem own_zero {K : Kind} {zero : α} {limit : Nat} {s : St α} (hi : Inv K limit s) (n : Nat) :
    Own { s with heap := s.heap ++ [List.replicate n (zeroOf zero K)] } ((n : Int), s.heap.length) := by
  refine ⟨(fresh hi).1, List.replicate n (zeroOf zero K), by simp, by simp, fun x hx => ?_⟩
  have := List.eq_of_mem_replicate hx
  cases K <;> cases this

/-- Every operation keeps the invariant and the lists. -/
theorem step_inv {K : Kind} {zero : α} {limit : Nat} (hlim : limit ≤ 2147483647) {s : St α} (hi : Inv K limit s) (op : Op α)
    (hs : Safe K op) (hub : (step K zero limit op s).1 ≠ .ub) :
    Inv K limit (step K zero limit op s).2 ∧ Ext s (step K zero limit op s).2 := by
  cases op with
  | newString b =>
    obtain ⟨i1, e1⟩ := pushStr hi (b, false)
    have hnf : ¬ Frozen { s with strs := s.strs ++ [(b, false)] } s.strs.length := by
      rintro ⟨⟨c, hc⟩, _⟩
      simp at hc
    obtain ⟨i2, e2⟩ := giveStr i1 (x := s.strs.length) (m := true) (by simp) (fun _ => hnf)
    exact ⟨i2, e1.trans e2⟩
  | writeString h i c =>
    simp only [step]
    split
    · rename_i x hx
      have hm : (x, true) ∈ s.userStrs := List.mem_iff_getElem?.mpr ⟨h, hx⟩
      cases hb : s.strs[x]? with
      | none => exact ⟨hi, .refl s⟩
      | some br =>
        obtain ⟨b, ro⟩ := br
        dsimp only
        cases hset : aSet b i c with
        | ok b' => exact changeStr hi (fun hf => absurd hm hf.2)
        | die m => exact ⟨hi, .refl s⟩
        | ub => exact ⟨hi, .refl s⟩
    · exact ⟨hi, .refl s⟩
  | castMutable h =>
    simp only [step] at hub ⊢
    cases hx : s.userStrs[h]? with
    | none => exact ⟨hi, .refl s⟩
    | some r =>
      obtain ⟨x, m⟩ := r
      dsimp only
      cases hb : s.strs[x]? with
      | none => exact ⟨hi, .refl s⟩
      | some br =>
        obtain ⟨b, ro⟩ := br
        cases ro with
        | true => exact ⟨hi, .refl s⟩
        | false =>
          refine giveStr hi (lt_of_get hb) (fun _ hf => ?_)
          obtain ⟨⟨c, hc⟩, _⟩ := hf
          rw [hb] at hc
          cases hc
  | makeReadOnly h =>
    simp only [step]
    cases hx : s.userStrs[h]? with
    | none => exact ⟨hi, .refl s⟩
    | some r =>
      obtain ⟨x, m⟩ := r
      simp only [Prog.bind_apply, makeRO]
      cases hb : s.strs[x]? with
      | none => exact ⟨hi, .refl s⟩
      | some br =>
        obtain ⟨b, ro⟩ := br
        refine changeStr hi (fun hf => ?_)
        obtain ⟨⟨c, hc⟩, _⟩ := hf
        rw [hb] at hc
        cases hc
        exact hb
  | newArray xs =>
    simp only [step]
    cases hr : resolveAll K s xs with
    | none => exact ⟨hi, .refl s⟩
    | some vs =>
      dsimp only
      by_cases hl : vs.length ≤ limit
      · rw [if_pos hl]
        obtain ⟨h1, h2⟩ := resolveAll_ok hi hr
        obtain ⟨i1, e1⟩ := pushArr hi ⟨h2, h1, hl⟩
        obtain ⟨i2, e2⟩ := giveArr i1 (a := s.heap.length) (by simp) (fresh hi).2
        exact ⟨i2, e1.trans e2⟩
      · rw [if_neg hl]
        exact ⟨hi, .refl s⟩
  | write u i v =>
    simp only [step]
    cases ha : s.userArrs[u]? with
    | none => exact ⟨hi, .refl s⟩
    | some a =>
      cases hr : resolve K s v with
      | none => exact ⟨hi, .refl s⟩
      | some w =>
        obtain ⟨⟨xs, hx, hok⟩, hne⟩ := user_arr hi ha
        simp only [Prog.bind_apply, arr_ok hx, Prog.lift]
        cases hset : aSet xs i w with
        | die m => exact ⟨hi, .refl s⟩
        | ub => exact ⟨hi, .refl s⟩
        | ok ys =>
          have hy : ys = xs.set i.toNat w := by
            unfold aSet at hset
            split at hset
            · cases hset
            · split at hset
              · cases hset; rfl
              · cases hset
          subst hy
          obtain ⟨h1, h2⟩ := resolve_ok hi hr
          refine changeArr hi hne ⟨fun x hx => ?_, fun y hy => ?_, by simpa using hok.len⟩
          · rcases List.mem_or_eq_of_mem_set hx with h | h
            · exact hok.elems x h
            · exact h2 x h.symm
          · rcases List.mem_or_eq_of_mem_set hy with h | h
            · exact hok.types y h
            · exact h ▸ h1
  | read u i =>
    simp only [step]
    cases ha : s.userArrs[u]? with
    | none => exact ⟨hi, .refl s⟩
    | some a =>
      obtain ⟨⟨xs, hx, hok⟩, hne⟩ := user_arr hi ha
      simp only [Prog.bind_apply, arr_ok hx, Prog.lift]
      cases hget : aGet xs i with
      | die m => exact ⟨hi, .refl s⟩
      | ub => exact ⟨hi, .refl s⟩
      | ok v => exact (keep_inv hi (fun x e => hok.elems x (e ▸ aGet_mem hget))).2
  | new u =>
    cases u with
    | none =>
      simp only [step, Prog.bind_apply, new]
      rw [newLen_ok K zero (n := 0) (by omega) (by simp)]
      obtain ⟨i1, e1⟩ := pushArr hi (zero_ok K zero limit s 0 (by omega))
      obtain ⟨i2, e2⟩ := giveList i1 (own_zero (zero := zero) hi 0)
      exact ⟨i2, e1.trans e2⟩
    | some u =>
      simp only [step] at hub ⊢
      cases ha : s.userArrs[u]? with
      | none => exact ⟨hi, .refl s⟩
      | some a =>
        rw [ha] at hub
        obtain ⟨⟨xs, hx, hok⟩, hne⟩ := user_arr hi ha
        rcases new_inv (zero := zero) hlim hi hx hok with ⟨hu, _⟩ | ⟨s', e, i1, e1, _, ho, _, _⟩
        · refine absurd ?_ hub
          simp only [Prog.bind_apply]
          generalize new K zero limit (some a) s = r at hu ⊢
          obtain ⟨o, s'⟩ := r
          dsimp only at hu
          subst hu
          rfl
        · simp only [Prog.bind_apply, e]
          obtain ⟨i2, e2⟩ := giveList i1 ho
          exact ⟨i2, e1.trans e2⟩
  | newLen n =>
    simp only [step, Prog.bind_apply]
    by_cases h : 0 ≤ n ∧ n.toNat ≤ limit
    · rw [newLen_ok K zero h.1 h.2]
      obtain ⟨i1, e1⟩ := pushArr hi (zero_ok K zero limit s n.toNat h.2)
      have ho := own_zero (zero := zero) hi n.toNat
      rw [show ((n.toNat : Nat) : Int) = n by omega] at ho
      obtain ⟨i2, e2⟩ := giveList i1 ho
      exact ⟨i2, e1.trans e2⟩
    · obtain ⟨m, e⟩ := newLen_die K zero h s
      rw [e]
      exact ⟨hi, .refl s⟩
  | length l =>
    simp only [step]
    cases hl : s.lists[l]? <;> exact ⟨hi, .refl s⟩
  | get l i =>
    simp only [step]
    cases hl : s.lists[l]? with
    | none => exact ⟨hi, .refl s⟩
    | some f =>
      obtain ⟨_, xs, hx, hn, hok⟩ := user_list hi hl
      simp only [Prog.bind_apply, get]
      by_cases h0 : i ≥ 0
      · rw [if_pos h0]
        by_cases h1 : i < f.1
        · rw [if_pos h1]
          simp only [Prog.bind_apply, arr_ok hx, Prog.lift]
          cases hget : aGet xs i with
          | die m => exact ⟨hi, .refl s⟩
          | ub => exact ⟨hi, .refl s⟩
          | ok v => exact (keep_inv hi (fun x e => hok.elems x (e ▸ aGet_mem hget))).2
        · rw [if_neg h1]
          exact ⟨hi, .refl s⟩
      · rw [if_neg h0]
        exact ⟨hi, .refl s⟩
  | toArray l =>
    have hK : K ≠ .double := fun h => hs h l rfl
    simp only [step]
    cases hl : s.lists[l]? with
    | none => exact ⟨hi, .refl s⟩
    | some f =>
      obtain ⟨_, xs, hx, hn, hok⟩ := user_list hi hl
      simp only [Prog.bind_apply, toArray_ok hlim hx hn hok.len, hK, if_false]
      obtain ⟨i1, e1⟩ := pushArr hi hok
      obtain ⟨i2, e2⟩ := giveArr i1 (a := s.heap.length) (by simp) (fresh hi).2
      exact ⟨i2, e1.trans e2⟩

theorem run_inv {K : Kind} {zero : α} {limit : Nat} (hlim : limit ≤ 2147483647) : ∀ (ops : List (Op α)) {s s' : St α},
    Inv K limit s → (∀ op ∈ ops, Safe K op) → run K zero limit ops s = some s' → Inv K limit s' ∧ Ext s s' := by
  intro ops
  induction ops with
  | nil => intro s s' hi _ h; simp [run] at h; subst h; exact ⟨hi, .refl s⟩
  | cons op ops ih =>
    intro s s' hi hs h
    simp only [run] at h
    have key := step_inv (zero := zero) hlim hi op (hs op List.mem_cons_self)
    generalize hr : step K zero limit op s = r at h key
    obtain ⟨o, s1⟩ := r
    cases o with
    | ub => simp at h
    | ok v =>
      obtain ⟨i1, e1⟩ := key (by simp)
      obtain ⟨i2, e2⟩ := ih i1 (fun op h => hs op (List.mem_cons_of_mem _ h)) h
      exact ⟨i2, e1.trans e2⟩
    | die m =>
      obtain ⟨i1, e1⟩ := key (by simp)
      obtain ⟨i2, e2⟩ := ih i1 (fun op h => hs op (List.mem_cons_of_mem _ h)) h
      exact ⟨i2, e1.trans e2⟩

/-! ## C83 -/

/-- **C83**: whatever a program does - writing to the array a list was made from, to its strings, to the arrays and strings it
got from the list, casting, making more lists - the elements of a list never change. -/
theorem never_changes_partial (K : Kind) (zero : α) (limit : Nat) (hlim : limit ≤ 2147483647) (before after : List (Op α))
    (hb : ∀ op ∈ before, Safe K op) (ha : ∀ op ∈ after, Safe K op) (s s' : St α) (hs : run K zero limit before start = some s)
    (hs' : run K zero limit after s = some s') (l : Nat) (c : List (View α)) (hc : contents s l = some c) :
    contents s' l = some c := by
  obtain ⟨i, _⟩ := run_inv hlim before (inv_start K limit) hb hs
  obtain ⟨_, e⟩ := run_inv hlim after i ha hs'
  cases hl : s.lists[l]? with
  | none => simp [contents, hl] at hc
  | some f => rw [e.contents i hl, hc]

/-- The states a program reaches. -/
def Reach (K : Kind) (zero : α) (limit : Nat) (s : St α) : Prop :=
  ∃ ops, (∀ op ∈ ops, Safe K op) ∧ run K zero limit ops start = some s

theorem Reach.inv {K : Kind} {zero : α} {limit : Nat} (hlim : limit ≤ 2147483647) {s : St α} (h : Reach K zero limit s) :
    Inv K limit s := by
  obtain ⟨ops, h1, h2⟩ := h
  exact (run_inv hlim ops (inv_start K limit) h1 h2).1

theorem elements_some {s : St α} {u : Nat} {c : List (View α)} (h : elements s u = some c) :
    ∃ a xs, s.userArrs[u]? = some a ∧ s.heap[a]? = some xs ∧ c = xs.map (view s) := by
  unfold elements at h
  cases ha : s.userArrs[u]? with
  | none => simp [ha] at h
  | some a =>
    cases hx : s.heap[a]? with
    | none => simp [ha, hx] at h
    | some xs =>
      simp [ha, hx] at h
      exact ⟨a, xs, rfl, hx, h.symm⟩

theorem contents_some {s : St α} {l : Nat} {c : List (View α)} (h : contents s l = some c) :
    ∃ f xs, s.lists[l]? = some f ∧ s.heap[f.2]? = some xs ∧ c = xs.map (view s) := by
  unfold contents at h
  cases ha : s.lists[l]? with
  | none => simp [ha] at h
  | some f =>
    cases hx : s.heap[f.2]? with
    | none => simp [ha, hx] at h
    | some xs =>
      simp [ha, hx] at h
      exact ⟨f, xs, rfl, hx, h.symm⟩

theorem view_str_none {s : St α} {v : Val α} (hx : ∀ x, v = .str (some x) → x < s.strs.length) :
    view s v = .str none ↔ v = .str none := by
  match v with
  | .num _ => simp [view]
  | .str none => simp [view]
  | .str (some x) =>
    have := hx x rfl
    simp [view, this]

/-- **C83**: `new` gives a list with the elements the array has at the time of the call, and leaves every array as it is.  A
`string[]` must not contain undef (see `undef_string_violated`). -/
theorem new_copies_partial (K : Kind) (zero : α) (limit : Nat) (hlim : limit ≤ 2147483647) (s : St α) (hr : Reach K zero limit s)
    (u : Nat) (c : List (View α)) (hc : elements s u = some c) (hdef : View.str none ∉ c) :
    ∃ s', step K zero limit (.new (some u)) s = (.ok .unit, s') ∧ s'.lists.length = s.lists.length + 1 ∧
      contents s' s.lists.length = some c ∧ ∀ v d, elements s v = some d → elements s' v = some d := by
  have hi := hr.inv hlim
  obtain ⟨a, xs, ha, hx, rfl⟩ := elements_some hc
  obtain ⟨⟨xs', hx', hok⟩, hne⟩ := user_arr hi ha
  rw [hx] at hx'
  cases hx'
  rcases new_inv (zero := zero) hlim hi hx hok with ⟨_, _, hn⟩ | ⟨s', e, i1, e1, hl, ho, ⟨ss, ys, rfl⟩, hv⟩
  · exact absurd (List.mem_map.mpr ⟨_, hn, rfl⟩) hdef
  · refine ⟨{ s with strs := s.strs ++ ss, heap := s.heap ++ [ys], lists := s.lists ++ [((xs.length : Int), s.heap.length)] },
      ?_, ?_, ?_, ?_⟩
    · simp only [step, ha, Prog.bind_apply, e]
      rfl
    · simp
    · simp at hv
      simp [contents]
      rw [← hv]
      apply List.map_congr_left
      intro w _
      exact view_frozen (fun x _ => rfl)
    · intro v d hd
      obtain ⟨b, zs, hb, hz, rfl⟩ := elements_some hd
      have hok' := hi.heap zs (List.mem_iff_getElem?.mpr ⟨_, hz⟩)
      simp only [elements, hb, List.getElem?_append_left (lt_of_get hz), hz, Option.map_some]
      congr 1
      apply List.map_congr_left
      intro w hw
      refine view_frozen (fun x e => ?_)
      exact List.getElem?_append_left (hok'.elems x (e ▸ hw))

/-- **C83**: `new` with undef gives an empty list. -/
theorem new_empty (K : Kind) (zero : α) (limit : Nat) (s : St α) :
    ∃ s', step K zero limit (.new none) s = (.ok .unit, s') ∧ s'.lists.length = s.lists.length + 1 ∧
      contents s' s.lists.length = some [] := by
  refine ⟨{ s with heap := s.heap ++ [[]], lists := s.lists ++ [(0, s.heap.length)] }, ?_, ?_, ?_⟩
  · simp only [step, Prog.bind_apply, new]
    rw [newLen_ok K zero (n := 0) (by omega) (by simp)]
    rfl
  · simp
  · simp [contents]

/-- What a new element of a class is. -/
def zeroView (K : Kind) (zero : α) : View α := if K = .string then .str none else .num zero

/-- **C83**: `new_len` gives a list of that many zeros (or undef), and throws for a negative length or if there is no memory. -/
theorem new_len (K : Kind) (zero : α) (limit : Nat) (s : St α) (n : Int) :
    (0 ≤ n → n.toNat ≤ limit → ∃ s', step K zero limit (.newLen n) s = (.ok .unit, s') ∧
      s'.lists.length = s.lists.length + 1 ∧ contents s' s.lists.length = some (List.replicate n.toNat (zeroView K zero))) ∧
    (n < 0 → step K zero limit (.newLen n) s = (.die msgLen, s)) ∧
    (n.toNat > limit → step K zero limit (.newLen n) s = (.die msgNewArrayMem, s)) := by
  refine ⟨fun h0 h1 => ⟨{ s with heap := s.heap ++ [List.replicate n.toNat (zeroOf zero K)], lists := s.lists ++ [(n, s.heap.length)] },
    ?_, ?_, ?_⟩, fun h => ?_, fun h => ?_⟩
  · simp only [step, Prog.bind_apply]
    rw [newLen_ok K zero h0 h1]
    rfl
  · simp
  · cases K <;> simp [contents, view, zeroOf, zeroView]
  · simp only [step, Prog.bind_apply, newLen]
    rw [if_neg (by omega)]
    rfl
  · simp only [step, Prog.bind_apply, newLen]
    rw [if_pos (by omega)]
    simp only [Prog.bind_apply, newArray]
    rw [if_pos (by omega), if_neg (by omega)]
    rfl

/-- **C83**: `length` is the number of elements, `get` yields the element at the index and throws outside the list. -/
theorem reads_contents (K : Kind) (zero : α) (limit : Nat) (hlim : limit ≤ 2147483647) (s : St α) (hr : Reach K zero limit s)
    (l : Nat) (c : List (View α)) (hc : contents s l = some c) :
    step K zero limit (.length l) s = (.ok (.int c.length), s) ∧
    (∀ i (h : i < c.length), (step K zero limit (.get l (i : Int)) s).1 = .ok (.value c[i])) ∧
    (∀ i : Int, i < 0 → step K zero limit (.get l i) s = (.die msgNeg, s)) ∧
    (∀ i : Int, i ≥ (c.length : Int) → step K zero limit (.get l i) s = (.die msgBig, s)) := by
  have hi := hr.inv hlim
  obtain ⟨f, xs, hf, hx, rfl⟩ := contents_some hc
  obtain ⟨_, xs', hx', hn, hok⟩ := user_list hi hf
  rw [hx] at hx'
  cases hx'
  refine ⟨?_, fun i h => ?_, fun i h => ?_, fun i h => ?_⟩
  · simp [step, hf, hn]
  · simp at h
    simp only [step, hf, Prog.bind_apply, get]
    rw [if_pos (by omega), if_pos (by omega)]
    simp only [Prog.bind_apply, arr_ok hx, Prog.lift]
    rw [aGet_ok (by omega) (by simpa using h)]
    have := (keep_inv hi (v := xs[i]) (fun x e => hok.elems x (e ▸ List.getElem_mem h))).1
    simpa using this
  · simp only [step, hf, Prog.bind_apply, get]
    rw [if_neg (by omega)]
    rfl
  · simp at h
    simp only [step, hf, Prog.bind_apply, get]
    rw [if_pos (by omega), if_neg (by omega)]
    rfl

/-- **C83**: `to_array` gives an array with the elements of the list.  (By `never_changes_partial` writing to it does not change
the list.) -/
theorem to_array_copies_partial (K : Kind) (hK : K ≠ .double) (zero : α) (limit : Nat) (hlim : limit ≤ 2147483647) (s : St α)
    (hr : Reach K zero limit s) (l : Nat) (c : List (View α)) (hc : contents s l = some c) :
    ∃ s', step K zero limit (.toArray l) s = (.ok .unit, s') ∧ s'.userArrs.length = s.userArrs.length + 1 ∧
      elements s' s.userArrs.length = some c ∧ s'.strs = s.strs ∧ ∀ v d, elements s v = some d → elements s' v = some d := by
  have hi := hr.inv hlim
  obtain ⟨f, xs, hf, hx, rfl⟩ := contents_some hc
  obtain ⟨_, xs', hx', hn, hok⟩ := user_list hi hf
  rw [hx] at hx'
  cases hx'
  refine ⟨{ s with heap := s.heap ++ [xs], userArrs := s.userArrs ++ [s.heap.length] }, ?_, ?_, ?_, ?_, ?_⟩
  · simp only [step, hf, Prog.bind_apply, toArray_ok hlim hx hn hok.len, hK, if_false]
    rfl
  · simp
  · simp only [elements, List.getElem?_append_right (Nat.le_refl _), Nat.sub_self, List.getElem?_cons_zero, Option.map_some]
    congr 1
  · rfl
  · intro v d hd
    obtain ⟨b, zs, hb, hz, rfl⟩ := elements_some hd
    simp only [elements, List.getElem?_append_left (lt_of_get hb), hb, List.getElem?_append_left (lt_of_get hz), hz, Option.map_some]
    congr 1

theorem aGet_def (xs : List β) (i : Int) : aGet xs i ≠ .ub := by
  unfold aGet alen
  split
  · simp
  · rw [List.getElem?_eq_getElem (by omega)]
    simp

theorem aSet_def (xs : List β) (i : Int) (v : β) : aSet xs i v ≠ .ub := by
  unfold aSet alen
  split
  · simp
  · rw [if_pos (by omega)]
    simp

/-- **C83**: the only operation with undefined behaviour is `Immutable::StringList->new` with an undef in the array. -/
theorem defined_partial (K : Kind) (zero : α) (limit : Nat) (hlim : limit ≤ 2147483647) (s : St α) (hr : Reach K zero limit s)
    (op : Op α) :
    (step K zero limit op s).1 = .ub ↔
      K = .string ∧ ∃ u c, op = .new (some u) ∧ elements s u = some c ∧ View.str none ∈ c := by
  have hi := hr.inv hlim
  constructor
  · intro hub
    cases op with
    | newString b => simp [step, Prog.bind_apply, allocStr, addStr] at hub
    | writeString h i c =>
      simp only [step] at hub
      split at hub
      · rename_i x hx
        have := hi.strs _ (List.mem_iff_getElem?.mpr ⟨h, hx⟩)
        rw [List.getElem?_eq_getElem this] at hub
        dsimp only at hub
        split at hub
        · cases hub
        · cases hub
        · rename_i e; exact absurd e (aSet_def _ _ _)
      · cases hub
    | castMutable h =>
      simp only [step] at hub
      cases hx : s.userStrs[h]? with
      | none => rw [hx] at hub; cases hub
      | some r =>
        obtain ⟨x, m⟩ := r
        have := hi.strs _ (List.mem_iff_getElem?.mpr ⟨h, hx⟩)
        rw [hx] at hub
        dsimp only at hub
        rw [List.getElem?_eq_getElem this] at hub
        generalize s.strs[x] = br at hub
        obtain ⟨b, ro⟩ := br
        cases ro <;> cases hub
    | makeReadOnly h =>
      simp only [step] at hub
      cases hx : s.userStrs[h]? with
      | none => rw [hx] at hub; cases hub
      | some r =>
        obtain ⟨x, m⟩ := r
        have := hi.strs _ (List.mem_iff_getElem?.mpr ⟨h, hx⟩)
        rw [hx] at hub
        simp only [Prog.bind_apply, makeRO] at hub
        rw [List.getElem?_eq_getElem this] at hub
        cases hub
    | newArray xs =>
      simp only [step] at hub
      split at hub
      · split at hub <;> cases hub
      · cases hub
    | write u i v =>
      simp only [step] at hub
      split at hub
      · rename_i a w ha hw
        obtain ⟨⟨xs, hx, _⟩, _⟩ := user_arr hi ha
        simp only [Prog.bind_apply, arr_ok hx, Prog.lift] at hub
        cases e : aSet xs i w with
        | ok _ => rw [e] at hub; cases hub
        | die _ => rw [e] at hub; cases hub
        | ub => exact absurd e (aSet_def _ _ _)
      · cases hub
    | read u i =>
      simp only [step] at hub
      split at hub
      · rename_i a ha
        obtain ⟨⟨xs, hx, hok⟩, _⟩ := user_arr hi ha
        simp only [Prog.bind_apply, arr_ok hx, Prog.lift] at hub
        cases e : aGet xs i with
        | ok v =>
          rw [e] at hub
          have := (keep_inv hi (v := v) (fun x e' => hok.elems x (e' ▸ aGet_mem e))).1
          dsimp only at hub
          rw [this] at hub
          cases hub
        | die _ => rw [e] at hub; cases hub
        | ub => exact absurd e (aGet_def _ _)
      · cases hub
    | new u =>
      cases u with
      | none =>
        obtain ⟨s', e, _⟩ := new_empty K zero limit s
        rw [e] at hub
        cases hub
      | some u =>
        simp only [step] at hub
        cases ha : s.userArrs[u]? with
        | none => rw [ha] at hub; cases hub
        | some a =>
          obtain ⟨⟨xs, hx, hok⟩, _⟩ := user_arr hi ha
          rcases new_inv (zero := zero) hlim hi hx hok with ⟨_, hK, hn⟩ | ⟨s', e, _⟩
          · exact ⟨hK, u, xs.map (view s), rfl, by simp [elements, ha, hx], List.mem_map.mpr ⟨_, hn, rfl⟩⟩
          · rw [ha] at hub
            simp only [Prog.bind_apply, e] at hub
            cases hub
    | newLen n =>
      simp only [step, Prog.bind_apply] at hub
      by_cases h : 0 ≤ n ∧ n.toNat ≤ limit
      · rw [newLen_ok K zero h.1 h.2] at hub
        cases hub
      · obtain ⟨m, e⟩ := newLen_die K zero h s
        rw [e] at hub
        cases hub
    | length l =>
      simp only [step] at hub
      split at hub <;> cases hub
    | get l i =>
      simp only [step] at hub
      split at hub
      · rename_i f hf
        obtain ⟨_, xs, hx, hn, hok⟩ := user_list hi hf
        simp only [Prog.bind_apply, get] at hub
        by_cases h0 : i ≥ 0
        · rw [if_pos h0] at hub
          by_cases h1 : i < f.1
          · rw [if_pos h1] at hub
            simp only [Prog.bind_apply, arr_ok hx, Prog.lift] at hub
            cases e : aGet xs i with
            | ok v =>
              rw [e] at hub
              have := (keep_inv hi (v := v) (fun x e' => hok.elems x (e' ▸ aGet_mem e))).1
              dsimp only at hub
              rw [this] at hub
              cases hub
            | die _ => rw [e] at hub; cases hub
            | ub => exact absurd e (aGet_def _ _)
          · rw [if_neg h1] at hub; cases hub
        · rw [if_neg h0] at hub; cases hub
      · cases hub
    | toArray l =>
      simp only [step] at hub
      split at hub
      · rename_i f hf
        obtain ⟨_, xs, hx, hn, hok⟩ := user_list hi hf
        simp only [Prog.bind_apply, toArray_ok hlim hx hn hok.len] at hub
        cases hub
      · cases hub
  · rintro ⟨rfl, u, c, rfl, hc, hm⟩
    obtain ⟨a, xs, ha, hx, rfl⟩ := elements_some hc
    have hok := hi.heap xs (List.mem_iff_getElem?.mpr ⟨_, hx⟩)
    obtain ⟨v, hv, hn⟩ := List.mem_map.mp hm
    rw [view_str_none (fun x e => hok.elems x (e ▸ hv))] at hn
    subst hn
    have hu : (new .string zero limit (some a) s).1 = .ub := new_str_ub hx hok hv
    simp only [step, ha, Prog.bind_apply]
    generalize new .string zero limit (some a) s = r at hu ⊢
    obtain ⟨o, s'⟩ := r
    dsimp only at hu
    subst hu
    rfl

/-! ## Violations -/

/-- **C83 does not hold** for `Immutable::DoubleList->to_array`: it returns the array of the list.  After
`my $array = $list->to_array; $array->[0] = 9;` the list of 1, 2 has the elements 9, 2. -/
theorem double_to_array_violated :
    ∃ s s', run Kind.double (0 : Nat) 100 [.newArray [.num 1, .num 2], .new (some 0)] start = some s ∧
      contents s 0 = some [.num 1, .num 2] ∧
      run Kind.double 0 100 [.toArray 0, .write 1 0 (.num 9)] s = some s' ∧ contents s' 0 = some [.num 9, .num 2] :=
  ⟨_, _, rfl, rfl, rfl, rfl⟩

/-- **C83 does not hold** for an undef string: `Immutable::StringList->new(["a", undef])` is undefined behaviour. -/
theorem undef_string_violated :
    ∃ s, run Kind.string (0 : Nat) 100 [.newString [97], .newArray [.str 0, .undef]] start = some s ∧
      (step Kind.string 0 100 (.new (some 0)) s).1 = .ub :=
  ⟨_, rfl, rfl⟩

/-! ## The hypotheses can be met -/

/-- A list of strings: the program writes to the string it made the list from, to the source array, and to the array it got. -/
example :
    ((run Kind.string (0 : Nat) 100 [.newString [97], .newString [98], .newArray [.str 0, .str 1], .new (some 0)] start).bind fun s =>
      (run Kind.string 0 100 [.writeString 0 0 120, .write 0 1 (.str 0), .toArray 0, .write 1 0 .undef, .get 0 1, .castMutable 2,
        .writeString 2 0 121] s).map fun s' => [contents s 0, contents s' 0, elements s' 0, elements s' 1]) =
    some [some [.str (some [97]), .str (some [98])], some [.str (some [97]), .str (some [98])],
      some [.str (some [120]), .str (some [120])], some [.str none, .str (some [98])]] := by decide +kernel

example : ∀ op ∈ ([.toArray 0, .get 0 1] : List (Op Nat)), Safe Kind.string op := fun _ _ h => (nomatch h)

/-- A list of numbers. -/
example : ∃ s, Reach Kind.int (0 : Nat) 100 s ∧ elements s 0 = some [.num 4, .num 5] ∧ contents s 0 = some [.num 4, .num 5] ∧
    (step Kind.int 0 100 (.get 0 1) s).1 = .ok (.value (.num 5)) ∧ (step Kind.int 0 100 (.get 0 2) s).1 = .die msgBig :=
  ⟨_, ⟨[.newArray [.num 4, .num 5], .new (some 0)], fun _ _ h => (nomatch h), rfl⟩, rfl, rfl, rfl, rfl⟩

end SPVM.Immutable
