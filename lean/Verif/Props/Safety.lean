import Verif.Lemmas.SafetyRo
/-!
# C63: type safety, C64: read-only strings
-/
set_option linter.unusedSimpArgs false
set_option linter.unusedVariables false
namespace SPVM
namespace Safety
open Types Spec.Types Spec.Safety

theorem run_safe {P : Program} (hP : WfProg P) (he : Ends P.w P.n) {st : St} (hs : TypeSafe P st) (l : List Instr)
    (ha : ∀ i ∈ l, accepts P i = true ∧ WfInstr P.w i) (hc : Along P (Careful P) st l) : ∃ st', execAll P st l = .ok st' ∧ TypeSafe P st' := by
  induction l generalizing st with
  | nil => exact ⟨st, rfl, hs⟩
  | cons i l ih =>
    have h1 := ha i (List.mem_cons_self ..)
    have h2 := step_safe hP he hs h1.1 h1.2 hc.1
    have ha' : ∀ i ∈ l, accepts P i = true ∧ WfInstr P.w i := fun k hk => ha k (List.mem_cons_of_mem _ hk)
    have hc2 := hc.2
    unfold execAll
    cases hr : exec P st i with
    | ok st' => rw [hr] at h2 hc2; exact ih h2 ha' hc2
    | die m => rw [hr] at hc2; exact ih hs ha' hc2
    | ub => rw [hr] at h2; exact h2.elim

/-- **C63.** Accepted programs are type safe: whatever operations an accepted program executes, in whatever order, no operation has undefined behaviour, and
every variable, field and array element holds `undef` or an object of its type.  Excluded are the operations that neither the compiler nor the run time checks
(`Careful`, see `array_store_violated`, `multi_store_violated`, `mutable_cast_violated`, `make_read_only_undef_violated`, C24 and C35), programs with sub classes of `Int` etc. (`box_violated`), and
for interface types it is only proved that there is some instance (`interface_violated`). -/
theorem type_safe_partial {P : Program} (hP : WfProg P) (he : Ends P.w P.n) (l : List Instr)
    (ha : ∀ i ∈ l, accepts P i = true ∧ WfInstr P.w i) (hc : Along P (Careful P) St.init l) :
    ∃ st, execAll P St.init l = .ok st ∧ TypeSafe P st :=
  run_safe hP he (init_safe P) l ha hc

/-- **C63.** `isa T` is true for what is in a variable of the type `T`, if `T` is not an interface type. -/
theorem variable_isa_partial {P : Program} (hP : WfProg P) (he : Ends P.w P.n) (l : List Instr)
    (ha : ∀ i ∈ l, accepts P i = true ∧ WfInstr P.w i) (hc : Along P (Careful P) St.init l) {st : St} (hr : execAll P St.init l = .ok st) (x : Nat)
    (hi : ¬ HasCat P.w (P.vty x).bt .iface) : isa P st.heap (P.vty x) (st.vars x) = .ok true := by
  obtain ⟨st', h1, h2⟩ := type_safe_partial hP he l ha hc
  rw [hr] at h1; cases h1
  cases hv : st.vars x with
  | none => rfl
  | some j =>
    obtain ⟨ob, e, hf⟩ := h2.vars x j hv
    have hx := hP.vars x
    obtain ⟨b, hb⟩ := assign_ends hP.world he (d := { bt := (P.vty x).bt, dim := (P.vty x).dim }) (wf_drop hx.1) ⟨rfl, hx.2.2⟩ { bt := ob.bt, dim := ob.dim }
    simp only [isa, e, hb]
    cases b with
    | true => rfl
    | false => exact absurd (hf.2 hi) ((c35_assignable_iff hP.world (wf_drop hx.1) (h2.objs j ob e).1).2 ⟨_, hb⟩)

/-- **C64.** A read-only string never changes: once a string is read-only and no `mutable string` variable or field refers to it, whatever an accepted program
executes, the string keeps its characters and stays read-only, and no `mutable string` variable or field ever refers to it.  Excluded are calls of methods with
a `mutable string` parameter through an interface or a super class that declares it as `string` (`read_only_argument_violated`), and strings that are made
read-only while a `mutable string` variable refers to them (`read_only_alias_violated`), and what C63 excludes. -/
theorem read_only_forever_partial {P : Program} (hP : WfProg P) (he : Ends P.w P.n) (l l' : List Instr)
    (ha : ∀ i ∈ l ++ l', accepts P i = true ∧ WfInstr P.w i) {st : St} (hc : Along P (Careful P) St.init l) (hr : execAll P St.init l = .ok st)
    (hc' : Along P (Careful P) st l') (hm : ∀ i ∈ l', SameMut i) {j : Nat} {s : List Nat} (hf : Frozen P st j s) :
    ∃ st', execAll P st l' = .ok st' ∧ Frozen P st' j s := by
  obtain ⟨st₀, h1, hs⟩ := type_safe_partial hP he l (fun i hi => ha i (List.mem_append_left _ hi)) hc
  rw [hr] at h1; cases h1
  have ha' : ∀ i ∈ l', accepts P i = true ∧ WfInstr P.w i := fun i hi => ha i (List.mem_append_right _ hi)
  clear ha hr hc
  induction l' generalizing st with
  | nil => exact ⟨st, rfl, hf⟩
  | cons i l' ih =>
    have h1 := ha' i (List.mem_cons_self ..)
    have h2 := step_safe hP he hs h1.1 h1.2 hc'.1
    have ha'' : ∀ i ∈ l', accepts P i = true ∧ WfInstr P.w i := fun k hk => ha' k (List.mem_cons_of_mem _ hk)
    have hm' : ∀ i ∈ l', SameMut i := fun k hk => hm k (List.mem_cons_of_mem _ hk)
    have hc2 := hc'.2
    unfold execAll
    cases hr : exec P st i with
    | ok st' =>
      rw [hr] at h2 hc2
      exact ih hc2 hm' (step_frozen hP hs h1.1 h1.2 (hm i (List.mem_cons_self ..)) hf hr) h2 ha''
    | die m => rw [hr] at hc2; exact ih hc2 hm' hf hs ha''
    | ub => rw [hr] at h2; exact h2.elim

/-- **C64.** What a string literal yields is a new read-only string with the characters of the literal to which no `mutable string` variable refers. -/
theorem literal_frozen {P : Program} (hP : WfProg P) {st : St} (hs : TypeSafe P st) {x : Nat} {s : List Nat} (ha : accepts P (.set x (.lit s)) = true) :
    ∃ st', exec P st (.set x (.lit s)) = .ok st' ∧ st'.vars x = some st.heap.length ∧ Frozen P st' st.heap.length s := by
  have hw := hP.world
  refine ⟨_, rfl, by simp [St.put], ?_, fun y hy => ?_, fun i ob f hi hb k hk => ?_⟩
  · simp [St.put]
  · simp only [St.put]
    split
    · rename_i hyx
      subst hyx
      simp only [accepts, rhsType, yes_true] at ha
      have h9 := wf_string hw
      have := mut_src hw hy (by rw [hw.undef]; simp) ((c35_assignable_iff hw (hP.vars y).1 h9).1.1 ⟨_, ha⟩)
      cases this.2.2
    · intro h
      obtain ⟨ob, e, _⟩ := hs.vars y _ h
      have := (List.getElem?_eq_some_iff.1 e).1
      omega
  · simp only [St.put] at hi
    intro h
    by_cases hl : i < st.heap.length
    · rw [List.getElem?_append_left hl] at hi
      have ho := (hs.objs i ob hi).2
      rw [hb] at ho
      obtain ⟨ob', e, _⟩ := ho.2.2 k _ h
      have := (List.getElem?_eq_some_iff.1 e).1
      omega
    · rw [List.getElem?_append_right (by omega)] at hi
      cases hk : i - st.heap.length with
      | zero => rw [hk] at hi; cases hi; cases hb
      | succ k => rw [hk] at hi; cases hi

/-- **C64.** `make_read_only` of a string to which no `mutable string` variable or field refers makes it read-only forever. -/
theorem make_read_only_frozen {P : Program} {st : St} {y j : Nat} {ro : Bool} {s : List Nat} (hy : st.vars y = some j)
    (hj : st.heap[j]? = some { bt := 9, dim := 0, ro := ro, body := .data s }) (hv : ∀ x, MutStr (P.vty x) → st.vars x ≠ some j)
    (hf : ∀ (i : Nat) (ob : Obj) f, st.heap[i]? = some ob → ob.body = .inst f → ∀ k, MutStr (P.fty k) → f k ≠ some j) :
    ∃ st', exec P st (.makeReadOnly y) = .ok st' ∧ Frozen P st' j s := by
  have hlt := (List.getElem?_eq_some_iff.1 hj).1
  refine ⟨{ st with heap := st.heap.set j { bt := 9, dim := 0, ro := true, body := .data s } }, by simp only [exec, hy, hj], ?_, hv, fun i ob f hi hb k hk => ?_⟩
  · exact List.getElem?_set_self hlt
  · by_cases hij : j = i
    · subst hij
      rw [List.getElem?_set_self hlt] at hi
      cases hi; cases hb
    · rw [List.getElem?_set_ne hij] at hi
      exact hf i ob f hi hb k hk

/-- **C64.** A concatenation, a copy of a string and `new_string_len` yield a new string that is not read-only, with the characters of the operands; all other
objects and variables stay as they are. -/
theorem new_string_mutable {P : Program} {st : St} {x y z : Nat} {i j : Nat} {ri rj : Bool} {s t : List Nat} (hy : st.vars y = some i) (hz : st.vars z = some j)
    (hi : st.heap[i]? = some { bt := 9, dim := 0, ro := ri, body := .data s }) (hj : st.heap[j]? = some { bt := 9, dim := 0, ro := rj, body := .data t }) (n : Nat) :
    ∀ r u, (r, u) ∈ [(Rhs.concat y z, s ++ t), (.copy y, s), (.newString n, List.replicate n 0)] →
      ∃ st', exec P st (.set x r) = .ok st' ∧ st'.vars x = some st.heap.length ∧ (∀ v, v ≠ x → st'.vars v = st.vars v) ∧
        st'.heap = st.heap ++ [{ bt := 9, dim := 0, ro := false, body := .data u }] := by
  intro r u h
  have he : eval P st r = .ok (some st.heap.length, st.heap ++ [{ bt := 9, dim := 0, ro := false, body := .data u }]) := by
    simp only [List.mem_cons, Prod.mk.injEq, List.not_mem_nil, or_false] at h
    rcases h with ⟨rfl, rfl⟩ | ⟨rfl, rfl⟩ | ⟨rfl, rfl⟩
    · simp [eval, charsOf, hy, hz, hi, hj, bind, Out.bind]
    · simp [eval, hy, hi]
    · simp only [eval]; rw [if_neg (by omega)]; simp
  refine ⟨st.put x (some st.heap.length) (st.heap ++ [{ bt := 9, dim := 0, ro := false, body := .data u }]), by simp only [exec, he, bind, Out.bind],
    by simp [St.put], fun v hv => by simp [St.put, hv], by simp [St.put]⟩

/-- The read-only flags of the objects. -/
theorem ro_set {h : List Obj} {i : Nat} {ob ob' : Obj} (hi : h[i]? = some ob) (hr : ob.ro = true → ob'.ro = true) {j : Nat} {o : Obj} (hj : h[j]? = some o)
    (ho : o.ro = true) : ∃ o', (h.set i ob')[j]? = some o' ∧ o'.ro = true := by
  by_cases hij : i = j
  · subst hij
    rw [hi] at hj; cases hj
    exact ⟨ob', List.getElem?_set_self (List.getElem?_eq_some_iff.1 hi).1, hr ho⟩
  · exact ⟨o, by rw [List.getElem?_set_ne hij]; exact hj, ho⟩

theorem ro_data {h h' : List Obj} {v : Option Nat} {i : Int} {c : Nat} (he : setData h v i c = .ok h') {j : Nat} {o : Obj} (hj : h[j]? = some o)
    (ho : o.ro = true) : ∃ o', h'[j]? = some o' ∧ o'.ro = true := by
  unfold setData at he
  split at he
  · cases he
  · split at he
    · split at he
      · split at he
        · cases he; refine ro_set (by assumption) ?_ hj ho; exact fun h => h
        · cases he
      · cases he
    · cases he

theorem ro_step {P : Program} {st st' : St} {i : Instr} (he : exec P st i = .ok st') {j : Nat} {o : Obj} (hj : st.heap[j]? = some o) (ho : o.ro = true) :
    ∃ o', st'.heap[j]? = some o' ∧ o'.ro = true := by
  have hlt := (List.getElem?_eq_some_iff.1 hj).1
  cases i with
  | set x r =>
    obtain ⟨p, h1, h2⟩ := bind_ok he
    cases h2
    obtain ⟨e, hp, _⟩ := eval_new h1
    simp only [St.put, hp]
    exact ⟨o, by rw [List.getElem?_append_left hlt]; exact hj, ho⟩
  | setField y k z =>
    simp only [exec] at he
    split at he
    · cases he
    · split at he
      · split at he
        · split at he
          · cases he; refine ro_set (by assumption) ?_ hj ho; exact fun h => h
          · cases he
        · cases he
      · cases he
  | setElem y i z =>
    simp only [exec] at he
    split at he
    · cases he
    · rename_i j' hj'
      split at he
      · rename_i ob hob
        split at he
        · rename_i xs hb
          split at he
          · have key : ∀ {c : Out Bool}, (do let b ← c; if b = true then Out.ok { st with heap := st.heap.set j' { ob with body := .refs (xs.set i.toNat (st.vars z)) } } else .die "The element type is not assignable.") = Out.ok st' →
                ∃ o', st'.heap[j]? = some o' ∧ o'.ro = true := by
              intro c he
              obtain ⟨b, _, he⟩ := bind_ok he
              split at he
              · cases he; refine ro_set hob ?_ hj ho; exact fun h => h
              · cases he
            split at he
            · exact key he
            · exact key he
          · cases he
        · cases he
      · cases he
  | setChar y i c =>
    obtain ⟨h, h1, h2⟩ := bind_ok he
    cases h2
    exact ro_data h1 hj ho
  | setNum y i c =>
    obtain ⟨h, h1, h2⟩ := bind_ok he
    cases h2
    exact ro_data h1 hj ho
  | makeReadOnly y =>
    simp only [exec] at he
    split at he
    · cases he
    · split at he
      · cases he; exact ro_set (by assumption) (fun _ => rfl) hj ho
      · cases he
  | memcpy y i xs =>
    simp only [exec] at he
    split at he
    · cases he
    · split at he
      · split at he
        · split at he
          · cases he
          · split at he
            · cases he; refine ro_set (by assumption) ?_ hj ho; exact fun h => h
            · split at he
              · cases he; exact ⟨o, hj, ho⟩
              · split at he
                · cases he
                · cases he
        · cases he
      · cases he
  | pass dm sm k y p =>
    have he' : st' = st.put p (st.vars y) st.heap := by
      simp only [exec] at he
      split at he
      · simp only [Out.ok_bind, if_true] at he; cases he; rfl
      · obtain ⟨b, _, he⟩ := bind_ok he
        split at he
        · cases he; rfl
        · cases he
    subst he'
    exact ⟨o, hj, ho⟩
  | ret dm sm y x => cases he; exact ⟨o, hj, ho⟩

/-- **C64.** A read-only string stays read-only, in every execution. -/
theorem is_read_only_stays {P : Program} (l : List Instr) {st st' : St} (hr : execAll P st l = .ok st') {j : Nat} {o : Obj} (hj : st.heap[j]? = some o)
    (ho : o.ro = true) : ∃ o', st'.heap[j]? = some o' ∧ o'.ro = true := by
  induction l generalizing st o with
  | nil => cases hr; exact ⟨o, hj, ho⟩
  | cons i l ih =>
    unfold execAll at hr
    cases he : exec P st i with
    | ok s =>
      rw [he] at hr
      obtain ⟨o', h1, h2⟩ := ro_step he hj ho
      exact ih hr h1 h2
    | die m => rw [he] at hr; exact ih hr hj ho
    | ub => rw [he] at hr; cases hr

/-! ## Examples and counterexamples -/

/-- The test that `Ends` holds. -/
def endsB (w : World) (n : Nat) : Bool :=
  decide (w.length < n) && (List.range w.length).all fun i => (List.range w.length).all fun j =>
    match hasInterface w n i j with
    | .ok _ => true
    | _ => false

theorem cat_out {w : World} {i : Nat} (h : ¬ i < w.length) : cat w i = .unknown := by
  simp [cat, List.getElem?_eq_none (Nat.le_of_not_lt h)]

theorem endsB_true {w : World} {n : Nat} (h : endsB w n = true) : Ends w n := by
  simp only [endsB, Bool.and_eq_true, decide_eq_true_eq, List.all_eq_true, List.mem_range] at h
  refine ⟨h.1, fun i j => ?_⟩
  obtain ⟨m, rfl⟩ : ∃ m, n = m + 1 := ⟨n - 1, by omega⟩
  by_cases hj : j < w.length
  · by_cases hi : i < w.length
    · have := h.2 i hi j hj
      split at this
      · exact ⟨_, by assumption⟩
      · cases this
    · unfold hasInterface
      split
      · exact ⟨_, rfl⟩
      · unfold hasInterfaceCommonWith
        rw [if_pos (by rw [cat_out hi]; simp)]
        exact ⟨_, rfl⟩
  · unfold hasInterface
    rw [if_pos (by rw [cat_out hj]; simp)]
    exact ⟨_, rfl⟩

/-- A program from lists of types; further variables and fields are of the type `object`. -/
def mkProg (w : World) (n : Nat) (vs fs : List Ty) (owner : Nat) (garbage : Bool) : Program :=
  { w := w, n := n, vty := fun x => (vs[x]?).getD { bt := 10 }, fty := fun k => (fs[k]?).getD { bt := 10 }, owner := fun _ => owner, garbage := garbage }

/-- The test that `WfProg` holds. -/
def wfProgB (w : World) (vs fs : List Ty) : Bool :=
  (vs.all fun t => wfTyB w t && isObject w t) && (fs.all fun t => wfTyB w t && isObject w t) && wfTyB w { bt := 10 } &&
  (List.range w.length).all fun c => match parent w c with
    | none => true
    | some p => decide (p < 11 ∨ 16 < p)

theorem wfProgB_true {w : World} (hw : Wf w) {n owner : Nat} {vs fs : List Ty} {g : Bool} (h : wfProgB w vs fs = true) : WfProg (mkProg w n vs fs owner g) := by
  simp only [wfProgB, Bool.and_eq_true, List.all_eq_true, List.mem_range] at h
  obtain ⟨⟨⟨h1, h2⟩, h3⟩, h4⟩ := h
  have w10 := wfTyB_true h3
  have o10 : IsObj w { bt := 10 } := ⟨rfl, .inr (.inr (.inr (.inr ((hw.anyObject 10).2 rfl))))⟩
  have look : ∀ (l : List Ty), (∀ t ∈ l, wfTyB w t = true ∧ isObject w t = true) → ∀ x : Nat, WfTy w ((l[x]?).getD { bt := 10 }) ∧ IsObj w ((l[x]?).getD { bt := 10 }) := by
    intro l hl x
    cases hx : l[x]? with
    | none => exact ⟨w10, o10⟩
    | some t =>
      obtain ⟨a, b⟩ := hl t (List.mem_of_getElem? hx)
      exact ⟨wfTyB_true a, (isObject_iff hw (wfTyB_true a)).1 b⟩
  refine ⟨hw, look vs h1, look fs h2, fun p c k1 k2 ha => ?_⟩
  have : ∃ q, Parent w p q := by
    induction ha with
    | parent h => exact ⟨_, h⟩
    | up h _ ih => exact ih k1 k2
  obtain ⟨q, hq⟩ := this
  have hlt : q < w.length := by
    obtain ⟨bc, _, e, _⟩ := hq
    exact (List.getElem?_eq_some_iff.1 e).1
  have := h4 q hlt
  rw [(parent_iff hw).2 hq] at this
  simp only [decide_eq_true_eq] at this
  omega

/-- The object a variable refers to has a property. -/
def objB (st : St) (y : Nat) (f : Obj → Bool) : Bool :=
  match st.vars y with
  | none => true
  | some j =>
    match st.heap[j]? with
    | some ob => f ob
    | none => true

theorem objB_true {st : St} {y : Nat} {f : Obj → Bool} (h : objB st y f = true) {j : Nat} {ob : Obj} (hv : st.vars y = some j) (hj : st.heap[j]? = some ob) :
    f ob = true := by
  simpa [objB, hv, hj] using h

/-- The test that `Careful` holds. -/
def carefulB (P : Program) (st : St) : Instr → Bool
  | .set _ (.cast t y) =>
    (!(t.bt == 9 && t.dim == 0 && t.isMut && (P.vty y).bt == 10) || objB st y fun ob => ob.bt == 9 && ob.dim == 0) &&
    (!(t.bt == 9 && t.dim == 0 && (P.vty y).bt == 3 && (P.vty y).dim == 1) || (st.vars y).isSome)
  | .setElem y _ _ => ((P.vty y).dim == 1 && (cat P.w (P.vty y).bt == .iface || cat P.w (P.vty y).bt == .anyObject)) || objB st y fun ob => ob.bt == (P.vty y).bt && ob.dim == (P.vty y).dim
  | .makeReadOnly y => (st.vars y).isSome
  | .memcpy _ i _ => decide (0 ≤ i)
  | _ => true

theorem carefulB_true {P : Program} {st : St} {i : Instr} (h : carefulB P st i = true) : Careful P st i := by
  cases i with
  | set x r =>
    cases r with
    | cast t y =>
      simp only [carefulB, Bool.and_eq_true, Bool.or_eq_true, Bool.not_eq_true', Bool.and_eq_false_imp] at h
      refine ⟨fun a1 a2 a3 a4 j ob hv hj => ?_, fun a1 a2 a3 a4 hn => ?_⟩
      · rcases h.1 with k | k
        · simp [a1, a2, a3, a4] at k
        · simpa using objB_true k hv hj
      · rcases h.2 with k | k
        · simp [a1, a2, a3, a4] at k
        · simp [hn] at k
    | _ => trivial
  | setElem y k z =>
    simp only [carefulB, Bool.or_eq_true] at h
    intro hc j ob hv hj
    rcases h with k | k
    · simp only [Bool.and_eq_true, Bool.or_eq_true, beq_iff_eq] at k
      exact absurd ⟨k.1, by rw [hasCat_iff (by simp), hasCat_iff (by simp)]; exact k.2⟩ hc
    · simpa using objB_true k hv hj
  | makeReadOnly y => intro hn; simp [carefulB, hn] at h
  | memcpy y k xs => exact (of_decide_eq_true (p := 0 ≤ k) h : 0 ≤ k)
  | _ => trivial

/-- The test that `Along` holds. -/
def alongB (P : Program) : St → List Instr → Bool
  | _, [] => true
  | st, i :: l => carefulB P st i &&
    match exec P st i with
    | .ok st' => alongB P st' l
    | .die _ => alongB P st l
    | .ub => true

theorem alongB_true {P : Program} {st : St} {l : List Instr} (h : alongB P st l = true) : Along P (Careful P) st l := by
  induction l generalizing st with
  | nil => trivial
  | cons i l ih =>
    simp only [alongB, Bool.and_eq_true] at h
    refine ⟨carefulB_true h.1, ?_⟩
    have h2 := h.2
    cases hr : exec P st i with
    | ok st' => rw [hr] at h2; exact ih h2
    | die m => rw [hr] at h2; exact ih h2
    | ub => trivial

/-- The test that the types of an operation exist. -/
def wfInstrB (w : World) : Instr → Bool
  | .set _ (.cast t _) => wfTyB w t
  | .set _ (.newArray t _) => wfTyB w t
  | .ret dm sm _ _ => wfTyB w dm.ret && wfTyB w sm.ret
  | .pass dm _ _ _ _ => dm.args.all (wfTyB w)
  | _ => true

theorem wfInstrB_true {w : World} {i : Instr} (h : wfInstrB w i = true) : WfInstr w i := by
  cases i with
  | set x r =>
    cases r with
    | cast t y => exact wfTyB_true h
    | newArray t y => exact wfTyB_true h
    | _ => trivial
  | ret dm sm y x =>
    simp only [wfInstrB, Bool.and_eq_true] at h
    exact ⟨wfTyB_true h.1, wfTyB_true h.2⟩
  | pass dm sm k y p => exact fun t ht => wfTyB_true (List.all_eq_true.1 h t ht)
  | _ => trivial

/-- The test that the compiler accepts the operations. -/
def okB (P : Program) (l : List Instr) : Bool := l.all fun i => accepts P i && wfInstrB P.w i

theorem okB_true {P : Program} {l : List Instr} (h : okB P l = true) : ∀ i ∈ l, accepts P i = true ∧ WfInstr P.w i := by
  intro i hi
  have := List.all_eq_true.1 h i hi
  rw [Bool.and_eq_true] at this
  exact ⟨this.1, wfInstrB_true this.2⟩

/-- Variables `$p : P`, `$cs : C[]`, `$ps : P[]`, `$c : C`, `$o : object`, `$s : string`, `$m : mutable string`, `$i : I`; `class C` has a field of the
type `object`. -/
def exProg (garbage : Bool) : Program :=
  mkProg exWorld 30 [{ bt := 18 }, { bt := 19, dim := 1 }, { bt := 18, dim := 1 }, { bt := 19 }, { bt := 10 }, { bt := 9 }, { bt := 9, isMut := true }, { bt := 17 }]
    [{ bt := 10 }] 19 garbage

theorem exProg_wf (g : Bool) : WfProg (exProg g) := wfProgB_true exWorld_wf (by decide +kernel)
theorem exProg_ends (g : Bool) : Ends (exProg g).w (exProg g).n := endsB_true (w := exWorld) (n := 30) (by decide +kernel)

/-- `$cs = new C[1]; $c = new C; $cs->[0] = $c; $ps = $cs; $p = $ps->[0]; $c = (C)$p; $c->{f} = $o; $o = $c->{f}; $s = "a"; $o = $s; $s = (string)$o` -/
def exTrace : List Instr :=
  [.set 1 (.newArray { bt := 19, dim := 1 } 1), .set 3 (.newObject 19), .setElem 1 0 3, .set 2 (.var 1), .set 0 (.elem 2 0), .set 3 (.cast { bt := 19 } 0),
   .setField 3 0 4, .set 4 (.field 3 0), .set 5 (.lit [97]), .set 4 (.var 5), .set 5 (.cast { bt := 9 } 4)]

/-- The hypotheses of `type_safe_partial` are met; afterwards `$c` is an object of the class `C` and `$s` the string. -/
example : (∀ i ∈ exTrace, accepts (exProg false) i = true ∧ WfInstr (exProg false).w i) ∧ Along (exProg false) (Careful (exProg false)) St.init exTrace :=
  ⟨okB_true (by decide +kernel), alongB_true (by decide +kernel)⟩

/-- The characters and the read-only flag of the object a variable refers to. -/
def charsIn (o : Out St) (j : Nat) : Option (List Nat × Bool) :=
  match o with
  | .ok st =>
    match st.heap[j]? with
    | some ob =>
      match ob.body with
      | .data xs => some (xs, ob.ro)
      | _ => none
    | none => none
  | _ => none

/-- The type of the object a variable refers to. -/
def typeIn (o : Out St) (x : Nat) : Option (Nat × Nat) :=
  match o with
  | .ok st => (st.vars x).bind fun j => (st.heap[j]?).map fun ob => (ob.bt, ob.dim)
  | _ => none

example : typeIn (execAll (exProg false) St.init exTrace) 3 = some (19, 0) ∧ charsIn (execAll (exProg false) St.init exTrace) 2 = some ([97], true) := by
  decide +kernel

/-- A concatenation of two read-only strings: the result is not read-only. -/
example : charsIn (execAll (exProg false) St.init [.set 5 (.lit [97]), .set 4 (.lit [98, 99]), .set 5 (.concat 5 5), .set 6 (.copy 5), .set 6 (.newString 2)]) 2 =
    some ([97, 97], false) := by decide +kernel

/-- **C63** fails for arrays of classes: an array of a sub class can be in a variable for an array of the super class, and stores are not checked, so a `P` gets into
a `C[]` and then into a variable of the type `C`; the access to a field of `C` is out of the object. -/
theorem array_store_violated : ∃ l, (∀ i ∈ l, accepts (exProg false) i = true ∧ WfInstr (exProg false).w i) ∧
    typeIn (execAll (exProg false) St.init l) 3 = some (18, 0) ∧ (exProg false).vty 3 = { bt := 19 } ∧
    ∃ i, accepts (exProg false) i = true ∧ execAll (exProg false) St.init (l ++ [i]) = .ub := by
  refine ⟨[.set 1 (.newArray { bt := 19, dim := 1 } 1), .set 2 (.var 1), .set 0 (.newObject 18), .setElem 2 0 0, .set 3 (.elem 1 0)],
    okB_true (by decide +kernel), by decide +kernel, rfl, .set 4 (.field 3 0), by decide +kernel, by rfl⟩

/-- **C63**, **C64**: `make_read_only undef`, which does nothing according to the documentation, has undefined behaviour. -/
theorem make_read_only_undef_violated : accepts (exProg false) (.makeReadOnly 5) = true ∧ execAll (exProg false) St.init [.set 5 .undef, .makeReadOnly 5] = .ub :=
  ⟨by decide +kernel, by rfl⟩

/-- Variables `$p : P`, `$ps : P[]`, `$pss : P[][]`, `$cs : C[]`, `$css : C[][]`, `$c : C`. -/
def exProg2 (garbage : Bool) : Program :=
  mkProg exWorld 30 [{ bt := 18 }, { bt := 18, dim := 1 }, { bt := 18, dim := 2 }, { bt := 19, dim := 1 }, { bt := 19, dim := 2 }, { bt := 19 }] [{ bt := 10 }] 19 garbage

/-- **C63** for arrays of arrays depends on a variable of the compiler that is not initialized: the same program throws an exception or puts a `P[]` into a `C[]`
variable. -/
theorem multi_store_violated : ∃ l, (∀ g, ∀ i ∈ l, accepts (exProg2 g) i = true ∧ WfInstr (exProg2 g).w i) ∧
    typeIn (execAll (exProg2 true) St.init l) 3 = none ∧ typeIn (execAll (exProg2 false) St.init l) 3 = some (18, 1) ∧ (exProg2 false).vty 3 = { bt := 19, dim := 1 } := by
  refine ⟨[.set 4 (.newArray { bt := 19, dim := 2 } 1), .set 2 (.var 4), .set 1 (.newArray { bt := 18, dim := 1 } 1), .setElem 2 0 1, .set 3 (.elem 4 0)],
    fun g => ?_, by decide +kernel, by decide +kernel, rfl⟩
  cases g
  · exact okB_true (by decide +kernel)
  · exact okB_true (by decide +kernel)

/-- **C63** fails for `(mutable string)`: the cast of an `object` does not test the type; setting a character then writes into an object of another type. -/
theorem mutable_cast_violated : ∃ l, (∀ i ∈ l, accepts (exProg false) i = true ∧ WfInstr (exProg false).w i) ∧
    typeIn (execAll (exProg false) St.init l) 6 = some (18, 0) ∧ (exProg false).vty 6 = { bt := 9, isMut := true } ∧
    ∃ i, accepts (exProg false) i = true ∧ execAll (exProg false) St.init (l ++ [i]) = .ub := by
  refine ⟨[.set 0 (.newObject 18), .set 4 (.var 0), .set 6 (.cast { bt := 9, isMut := true } 4)], okB_true (by decide +kernel), by decide +kernel, rfl,
    .setChar 6 0 98, by decide +kernel, by rfl⟩

/-- **C63** fails for interfaces: a variable of the type `I` holds an object of the class `C`, which does not implement `I`. -/
theorem interface_violated : ∃ l, (∀ i ∈ l, accepts (exProg false) i = true ∧ WfInstr (exProg false).w i) ∧
    typeIn (execAll (exProg false) St.init l) 7 = some (19, 0) ∧ (exProg false).vty 7 = { bt := 17 } ∧ ¬ Assignable exWorld false { bt := 17 } { bt := 19 } := by
  refine ⟨[.set 3 (.newObject 19), .set 0 (.var 3), .set 7 (.var 0)], okB_true (by decide +kernel), by decide +kernel, rfl, c35_interface_transitivity_violated.2.2.2.2.2⟩

/-- `class S extends Int` (17). -/
def boxWorld : World := builtins ++ [⟨[83], .cls, some [13], []⟩]

/-- **C63** fails for sub classes of `Int`: only arrays of them are accepted, and the element of an `Int[]` is then an object that is not an `Int`. -/
theorem box_violated : ∃ P : Program, Wf P.w ∧ ∃ l, (∀ i ∈ l, accepts P i = true ∧ WfInstr P.w i) ∧
    typeIn (execAll P St.init l) 0 = some (17, 0) ∧ P.vty 0 = { bt := 13 } ∧ assignPlain P.w P.n { bt := 13 } { bt := 17 } = .ok false := by
  refine ⟨mkProg boxWorld 30 [{ bt := 13 }, { bt := 13, dim := 1 }, { bt := 17, dim := 1 }, { bt := 17 }] [] 0 false, wfB_true (n := 30) (w := boxWorld) (by decide +kernel),
    [.set 3 (.newObject 17), .set 2 (.newArray { bt := 17, dim := 1 } 1), .setElem 2 0 3, .set 1 (.var 2), .set 0 (.elem 1 0)], okB_true (by decide +kernel),
    by decide +kernel, rfl, by decide +kernel⟩

/-- `interface I { required method m : void ($s : string); }` (17) and `class K { method m : void ($s : mutable string) {} }` (18). -/
def roI : Method := ⟨[109], false, true, [{ bt := 17 }, { bt := 9 }], 2, tVoid⟩
def roK : Method := ⟨[109], false, false, [{ bt := 18 }, { bt := 9, isMut := true }], 2, tVoid⟩
def roWorld : World := builtins ++ [⟨[73], .iface, none, [roI]⟩, ⟨[75], .cls, none, [roK]⟩]

/-- Variables `$s : string`, `$m : mutable string`, `$o : object`. -/
def roProg : Program := mkProg roWorld 30 [{ bt := 9 }, { bt := 9, isMut := true }, { bt := 10 }] [] 0 false

theorem roProg_wf : WfProg roProg := wfProgB_true (wfB_true (n := 30) (w := roWorld) (by decide +kernel)) (by decide +kernel)
theorem roProg_ends : Ends roProg.w roProg.n := endsB_true (w := roWorld) (n := 30) (by decide +kernel)

/-- `$s = "ab"; $o = $s; $m = (mutable string)$s; $m = copy_string; $m->[0] = 'x'; $s = $m; memcpy to $o` -/
def roTrace : List Instr :=
  [.set 2 (.var 0), .set 1 (.cast { bt := 9, isMut := true } 0), .set 0 (.copy 0), .set 1 (.cast { bt := 9, isMut := true } 0), .setChar 1 0 120, .set 0 (.var 1),
   .memcpy 2 0 [121], .pass roK roK 1 1 1]

/-- The hypotheses of `read_only_forever_partial` are met by a literal. -/
example : (∀ i ∈ [.set 0 (.lit [97, 98])] ++ roTrace, accepts roProg i = true ∧ WfInstr roProg.w i) ∧
    Along roProg (Careful roProg) St.init [.set 0 (.lit [97, 98])] ∧
    ∃ st, execAll roProg St.init [.set 0 (.lit [97, 98])] = .ok st ∧ Along roProg (Careful roProg) st roTrace ∧ (∀ i ∈ roTrace, SameMut i) ∧ Frozen roProg st 0 [97, 98] := by
  obtain ⟨st, h1, _, h2⟩ := literal_frozen (s := [97, 98]) roProg_wf (init_safe roProg) (x := 0) (by decide +kernel)
  refine ⟨okB_true (by decide +kernel), alongB_true (by decide +kernel), St.init.put 0 (some 0) [{ bt := 9, ro := true, body := .data [97, 98] }], rfl,
    alongB_true (by decide +kernel), ?_, ?_⟩
  · intro i hi
    simp only [roTrace, List.mem_cons, List.not_mem_nil, or_false] at hi
    rcases hi with rfl | rfl | rfl | rfl | rfl | rfl | rfl | rfl
    all_goals first | trivial | (intro dt t hd ht hm; rw [hd] at ht; cases ht; exact hm)
  · cases h1; exact h2

example : charsIn (execAll roProg St.init ([.set 0 (.lit [97, 98])] ++ roTrace)) 0 = some ([97, 98], true) ∧
    charsIn (execAll roProg St.init ([.set 0 (.lit [97, 98])] ++ roTrace)) 1 = some ([120, 98], false) := by decide +kernel

/-- **C64** fails for arguments: `K` implements `I` although its method takes a `mutable string`, the run time test of the argument ignores `mutable`, so a call through `I` changes a
string literal. -/
theorem read_only_argument_violated : assignPlain roWorld 30 { bt := 17 } { bt := 18 } = .ok true ∧
    ∃ l, (∀ i ∈ l, accepts roProg i = true ∧ WfInstr roProg.w i) ∧ Along roProg (Careful roProg) St.init l ∧
      charsIn (execAll roProg St.init [.set 0 (.lit [97])]) 0 = some ([97], true) ∧ charsIn (execAll roProg St.init ([.set 0 (.lit [97])] ++ l)) 0 = some ([98], true) := by
  refine ⟨by decide +kernel, [.pass roI roK 1 0 1, .setChar 1 0 98], okB_true (by decide +kernel), alongB_true (by decide +kernel), by decide +kernel, by decide +kernel⟩

/-- **C64** fails for a string that is made read-only while a `mutable string` variable refers to it: the string is read-only, and changes. -/
theorem read_only_alias_violated : ∃ l, (∀ i ∈ l, accepts roProg i = true ∧ WfInstr roProg.w i) ∧ Along roProg (Careful roProg) St.init l ∧
    charsIn (execAll roProg St.init l) 0 = some ([0], true) ∧ charsIn (execAll roProg St.init (l ++ [.setChar 1 0 98])) 0 = some ([98], true) := by
  refine ⟨[.set 0 (.newString 1), .set 1 (.cast { bt := 9, isMut := true } 0), .makeReadOnly 0], okB_true (by decide +kernel), alongB_true (by decide +kernel),
    by decide +kernel, by decide +kernel⟩

end Safety
end SPVM
