import Verif.Lemmas.ReflectLoop

/-!
# C86: the runtime description of a program is the program
-/

namespace SPVM.Reflect

/-! ### A program used in the examples: a class with a parent that was loaded after it -/

/-- Names: `A`, `B`, `x`, `$v`, `ADD`. -/
def nA : Bytes := [65]
def nB : Bytes := [66]
def nx : Bytes := [120]
def nv : Bytes := [36, 118]
def nADD : Bytes := [65, 68, 68]

def mk (name : Bytes) (index cur : Nat) (args : List Arg) : Method :=
  { name, index, cur, ret := ⟨0, 0, 0⟩, isClass := false, isInit := false, isNative := false, isPrecompile := true,
    isDestroy := name == destroyName, isRequired := false, isEnum := false, widths := [1], args, required := args.length,
    opcodes := [7] }

/-- `class A extends B { has x : A; our $v : B; method x : A ($v : A) }`, without a destructor of its own. -/
def declA : Decl :=
  { name := nA, id := 0, parent := some 1, file := some [70], version := some [49], fieldsSize := 8,
    classVars := [⟨nv, 0, ⟨1, 0, 0⟩, 0⟩], fields := [⟨nx, 0, 0, ⟨0, 0, 0⟩, 0⟩],
    methods := [mk nx 0 0 [⟨nv, ⟨0, 0, 0⟩, 0, 0, false⟩]], lits := [[1, 0, 2]], destroy := some (1, 0) }

/-- `class B { method DESTROY : void () }`. -/
def declB : Decl := { name := nB, id := 1, methods := [mk destroyName 0 1 []], destroy := some (1, 0) }

/-- `class B { method ADD : void (); method DESTROY : void () }`. -/
def declB2 : Decl := { declB with methods := [mk nADD 0 1 [], mk destroyName 1 1 []], destroy := some (1, 1) }

/-- The same as `declA` with the destructor of `declB2`. -/
def declA2 : Decl := { declA with destroy := some (1, 1) }

theorem listOk_two {a b : Decl} (ha : a.id = 0) (hb : b.id = 1) (hn : a.name ≠ b.name) (da : DeclOk 2 a) (db : DeclOk 2 b) :
    ListOk [a, b] where
  ids := by
    intro i d h
    match i, h with
    | 0, h => have : a = d := by simpa using h
              subst this; exact ha
    | 1, h => have : b = d := by simpa using h
              subst this; exact hb
    | k + 2, h => simp at h
  names := by
    intro i j d e h1 h2 hne
    match i, j, h1, h2 with
    | 0, 0, _, _ => rfl
    | 1, 1, _, _ => rfl
    | 0, 1, h1, h2 =>
      have e1 : a = d := by simpa using h1
      have e2 : b = e := by simpa using h2
      subst e1; subst e2; exact absurd hne hn
    | 1, 0, h1, h2 =>
      have e1 : b = d := by simpa using h1
      have e2 : a = e := by simpa using h2
      subst e1; subst e2; exact absurd hne.symm hn
    | k + 2, _, h1, _ => simp at h1
    | 0, k + 2, _, h2 => simp at h2
    | 1, k + 2, _, h2 => simp at h2
  decls := by
    intro d h
    rcases List.mem_cons.1 h with h | h
    · subst h; exact da
    · have : d = b := by simpa using h
      subst this; exact db

theorem declA_ok : DeclOk 2 declA where
  name := by unfold NoNul; decide
  file := by intro v h; cases h; unfold NoNul; decide
  classDir := by intro v h; cases h
  relFile := by intro v h; cases h
  version := by intro v h; cases h; unfold NoNul; decide
  parent := by intro q h; cases h; decide
  anons := by intro q h; cases h
  classVars := by unfold NoNul; decide
  fields := by unfold NoNul; decide
  methods := by unfold NoNul; decide
  init := by intro j h; cases h

theorem declA2_ok : DeclOk 2 declA2 where
  name := by unfold NoNul; decide
  file := by intro v h; cases h; unfold NoNul; decide
  classDir := by intro v h; cases h
  relFile := by intro v h; cases h
  version := by intro v h; cases h; unfold NoNul; decide
  parent := by intro q h; cases h; decide
  anons := by intro q h; cases h
  classVars := by unfold NoNul; decide
  fields := by unfold NoNul; decide
  methods := by unfold NoNul; decide
  init := by intro j h; cases h

theorem declB_ok : DeclOk 2 declB where
  name := by unfold NoNul; decide
  file := by intro v h; cases h
  classDir := by intro v h; cases h
  relFile := by intro v h; cases h
  version := by intro v h; cases h
  parent := by intro q h; cases h
  anons := by intro q h; cases h
  classVars := by unfold NoNul; decide
  fields := by unfold NoNul; decide
  methods := by unfold NoNul; decide
  init := by intro j h; cases h

theorem declB2_ok : DeclOk 2 declB2 where
  name := by unfold NoNul; decide
  file := by intro v h; cases h
  classDir := by intro v h; cases h
  relFile := by intro v h; cases h
  version := by intro v h; cases h
  parent := by intro q h; cases h
  anons := by intro q h; cases h
  classVars := by unfold NoNul; decide
  fields := by unfold NoNul; decide
  methods := by unfold NoNul; decide
  init := by intro j h; cases h

theorem listOk_AB : ListOk [declA, declB] := listOk_two rfl rfl (by decide) declA_ok declB_ok
theorem listOk_AB2 : ListOk [declA2, declB2] := listOk_two rfl rfl (by decide) declA2_ok declB2_ok

/-! ### Description -/

/-- **C86.** After any number of compilations the runtime describes the whole program: every class is found by its id and by its
name, and every answer about it, its class variables, fields, methods, arguments, anonymous classes and constant strings is
what was declared; other names are not found. -/
theorem described {ds : List Decl} {rt : Rt} (h : Compiled ds rt) : DescribesAll rt ds := by
  have hi := inv_of_compiled h
  refine ⟨hi.len, ?_, ?_⟩
  · intro i d hd
    obtain ⟨b, hb, hn, hdesc, _⟩ := hi.desc i d hd
    exact ⟨b, basicTypeById_some hb, by simp [Api.basicTypeByName, hn, hb], hdesc⟩
  · intro name hname
    simp [Api.basicTypeByName, hi.other name hname]

/-- Building the runtime never dereferences a null pointer: the next compilation of any well-formed extension of the program
succeeds. -/
theorem build_succeeds {ds new : List Decl} {rt : Rt} (h : Compiled ds rt) (hl : ListOk (ds ++ new)) :
    ∃ rt', buildRuntime (ds ++ new) rt = .ok rt' ∧ Compiled (ds ++ new) rt' := by
  obtain ⟨rt', h1, _, _⟩ := inv_build (inv_of_compiled h) hl
  exact ⟨rt', h1, .compile h hl h1⟩

/-- A compilation does not change what is known about the classes compiled before. -/
theorem old_types_kept {ds new : List Decl} {rt rt' : Rt} (h : Compiled ds rt) (hl : ListOk (ds ++ new))
    (hb : buildRuntime (ds ++ new) rt = .ok rt') {i : Nat} (hi : i < ds.length) :
    Api.basicTypeById rt' i = Api.basicTypeById rt i := by
  have hinv := inv_of_compiled h
  obtain ⟨rt'', h1, h2, h3⟩ := inv_build hinv hl
  rw [hb] at h1
  cases h1
  have hlt : i < rt.types.length := by rw [hinv.len]; exact hi
  have hb1 : rt.types[i]? = some rt.types[i] := List.getElem?_eq_getElem hlt
  rw [basicTypeById_some hb1, basicTypeById_some (by rw [h3 i hlt, hb1])]

/-- Ids that are not ids of the program are answered with nothing. -/
theorem unknown_id {ds : List Decl} {rt : Rt} (h : Compiled ds rt) {k : Int} (hk : k < 0 ∨ k ≥ ds.length) :
    Api.basicTypeById rt k = none := by
  have := (inv_of_compiled h).len
  unfold Api.basicTypeById
  by_cases h0 : k < 0
  · rw [if_pos h0]
  · rw [if_neg h0, if_pos (by omega)]

/-- A field is found by its name exactly when the class has a field of that name, and it is the first one. -/
theorem field_by_name {ds : List Decl} {rt : Rt} (h : Compiled ds rt) {i : Nat} {d : Decl} (hd : ds[i]? = some d)
    (name : Bytes) : ∃ b, Api.basicTypeById rt i = some b ∧
      Api.byName rt RField.name name b.fields = .ok (((d.fields.map Field.name).idxOf? name).bind (fun k => b.fields[k]?)) := by
  obtain ⟨b, hb, _, hdesc, _⟩ := (inv_of_compiled h).desc i d hd
  refine ⟨b, basicTypeById_some hb, byName_ok (by simp [hdesc.fieldsLength]) ?_⟩
  intro k x v hx hv
  rw [List.getElem?_map] at hv
  cases hf : d.fields[k]? with
  | none => rw [hf] at hv; cases hv
  | some f =>
    rw [hf] at hv
    cases hv
    obtain ⟨r, hr, his⟩ := hdesc.field k f hf
    rw [byIndex_some hx] at hr
    cases hr
    exact his.1

/-- A class variable is found by its name exactly when the class has a class variable of that name, and it is the first one. -/
theorem class_var_by_name {ds : List Decl} {rt : Rt} (h : Compiled ds rt) {i : Nat} {d : Decl} (hd : ds[i]? = some d)
    (name : Bytes) : ∃ b, Api.basicTypeById rt i = some b ∧
      Api.byName rt RClassVar.name name b.classVars =
        .ok (((d.classVars.map ClassVar.name).idxOf? name).bind (fun k => b.classVars[k]?)) := by
  obtain ⟨b, hb, _, hdesc, _⟩ := (inv_of_compiled h).desc i d hd
  refine ⟨b, basicTypeById_some hb, byName_ok (by simp [hdesc.classVarsLength]) ?_⟩
  intro k x v hx hv
  rw [List.getElem?_map] at hv
  cases hf : d.classVars[k]? with
  | none => rw [hf] at hv; cases hv
  | some f =>
    rw [hf] at hv
    cases hv
    obtain ⟨r, hr, his⟩ := hdesc.classVar k f hf
    rw [byIndex_some hx] at hr
    cases hr
    exact his.1

/-! ### Destructors -/

/-- A class that has no destructor, own or inherited, runs none. -/
theorem no_destructor {ds : List Decl} {rt : Rt} (h : Compiled ds rt) {i : Nat} {d : Decl} (hd : ds[i]? = some d)
    (hnone : d.destroy = none) : ∃ b, Api.basicTypeById rt i = some b ∧ Api.destructor b = .ok none := by
  obtain ⟨b, hb, _, _, hdes⟩ := (inv_of_compiled h).desc i d hd
  refine ⟨b, basicTypeById_some hb, ?_⟩
  simp only [DestroyIs, hnone] at hdes
  simp [Api.destructor, hdes]

/-- **C86.** The destructor run for an object is the one declared in its class or, for want of one, in the nearest class above
it.  Proved when that class is the class itself or was met before it; missing: a parent that was met after the class, see
`inherited_destructor_lost`. -/
theorem destructor_found_partial {ds : List Decl} {rt : Rt} (h : Compiled ds rt) {i o j : Nat} {d e : Decl}
    (hd : ds[i]? = some d) (hdes : d.destroy = some (o, j)) (he : ds[o]? = some e) (hj : j < e.methods.length) (ho : o ≤ i) :
    ∃ b, Api.basicTypeById rt i = some b ∧ Api.destructor b = .ok (some (o, j)) := by
  have hi := inv_of_compiled h
  obtain ⟨b, hb, _, _, hx⟩ := hi.desc i d hd
  refine ⟨b, basicTypeById_some hb, ?_⟩
  obtain ⟨ms, hms⟩ := methodsAt_some hi he (by omega)
  simp only [DestroyIs, hdes, if_pos ho, hms, addr] at hx
  simp [Api.destructor, hx]

/-- A destructor inherited from a class that was met after its subclass is never run: its address is computed from an array that
does not exist yet.  It is silently dropped when it is the first method of its class, and a wild pointer otherwise. -/
theorem inherited_destructor_lost {ds : List Decl} {rt : Rt} (h : Compiled ds rt) {i o j : Nat} {d : Decl}
    (hd : ds[i]? = some d) (hdes : d.destroy = some (o, j)) (ho : i < o) :
    ∃ b, Api.basicTypeById rt i = some b ∧ Api.destructor b = if j = 0 then .ok none else .ub := by
  obtain ⟨b, hb, _, _, hx⟩ := (inv_of_compiled h).desc i d hd
  refine ⟨b, basicTypeById_some hb, ?_⟩
  simp only [DestroyIs, hdes, if_neg (Nat.not_le.2 ho), addr] at hx
  unfold Api.destructor
  rw [hx]
  by_cases hj : j = 0
  · rw [if_pos hj, if_pos hj]
  · rw [if_neg hj, if_neg hj]

/-- The destructor of a class with a method `DESTROY` is that method. -/
theorem own_destructor {ds : List Decl} {rt : Rt} (h : Compiled ds rt) {i : Nat} {d : Decl} {m : Method}
    (hd : ds[i]? = some d) (hr : DestroyResolved ds i d) (hm : d.methods.find? (fun m => m.name = destroyName) = some m)
    (hcur : m.cur = i) (hidx : m.index < d.methods.length) :
    ∃ b, Api.basicTypeById rt i = some b ∧ Api.destructor b = .ok (some (i, m.index)) := by
  obtain ⟨n, hn⟩ := hr
  refine destructor_found_partial h hd (o := i) ?_ hd hidx (Nat.le_refl i)
  rw [hn]
  simp only [searchMethod, hd, hm, hcur]

/-- The destructor that a class without one inherits from its parent, when the parent was met first. -/
theorem inherited_destructor_partial {ds : List Decl} {rt : Rt} (h : Compiled ds rt) {i q : Nat} {d e : Decl} {m : Method}
    (hd : ds[i]? = some d) (hr : DestroyResolved ds i d) (hnone : d.methods.find? (fun m => m.name = destroyName) = none)
    (hp : d.parent = some q) (he : ds[q]? = some e) (hm : e.methods.find? (fun m => m.name = destroyName) = some m)
    (hcur : m.cur = q) (hidx : m.index < e.methods.length) (hq : q < i) :
    ∃ b, Api.basicTypeById rt i = some b ∧ Api.destructor b = .ok (some (q, m.index)) := by
  obtain ⟨n, hn⟩ := hr
  refine destructor_found_partial h hd (o := q) ?_ he hidx (Nat.le_of_lt hq)
  rw [hn]
  simp only [searchMethod, hd, hnone, hp, he, hm, hcur]

/-- The name of a class is met before the name of its parent in `class NAME extends PARENT`: a class whose parent is not known
yet always has the smaller id. -/
theorem fresh_parent_after {names : List Bytes} {cls par : Bytes} (hp : par ∉ names) (hne : cls ≠ par) :
    (declareClass names cls par).2.1 < (declareClass names cls par).2.2 := by
  have key : ∀ (l : List Bytes) (n : Bytes), n ∉ l → l.idxOf? n = none := by
    intro l n hn
    simpa [List.idxOf?_eq_none_iff] using hn
  unfold declareClass addBasicType
  cases hc : names.idxOf? cls with
  | none =>
    simp only
    rw [key (names ++ [cls]) par (by simp [hp, Ne.symm hne])]
    simp
  | some i =>
    simp only
    rw [key names par hp]
    simp only
    have hlt : i < names.length := by
      rcases Nat.lt_or_ge i names.length with h | h
      · exact h
      · exfalso
        simp only [List.idxOf?, List.findIdx?_eq_some_iff_getElem] at hc
        obtain ⟨h', _⟩ := hc
        omega
    exact hlt

/-- Class names keep their ids, and every id is the position of its name. -/
theorem add_basic_type {names : List Bytes} {n : Bytes} :
    (addBasicType names n).1[(addBasicType names n).2]? = some n ∧
      (∀ (k : Nat) (v : Bytes), names[k]? = some v → (addBasicType names n).1[k]? = some v) ∧
      (names.Nodup → (addBasicType names n).1.Nodup) := by
  unfold addBasicType
  cases hc : names.idxOf? n with
  | none =>
    have hn : n ∉ names := by simpa [List.idxOf?_eq_none_iff] using hc
    refine ⟨by simp, ?_, ?_⟩
    · intro k v hk
      show (names ++ [n])[k]? = some v
      rw [List.getElem?_append_left (getElem?_lt hk)]; exact hk
    · intro hnd
      show (names ++ [n]).Nodup
      rw [List.nodup_append]
      refine ⟨hnd, by simp, ?_⟩
      intro a ha b hb e
      have : b = n := by simpa using hb
      subst this; subst e
      exact hn ha
  | some i =>
    refine ⟨?_, fun k v hk => hk, fun hnd => hnd⟩
    simp only [List.idxOf?, List.findIdx?_eq_some_iff_getElem] at hc
    obtain ⟨h', hv, _⟩ := hc
    show names[i]? = some n
    rw [List.getElem?_eq_getElem h']
    have : names[i] = n := by simpa using hv
    rw [this]

/-! ### The flags of a method -/

/-- `is_precompile` answers what was declared. -/
theorem is_precompile (m : RMethod) : Api.isPrecompile m = if m.isPrecompile then 1 else 0 := rfl

/-- Setting the fallback flag stores it and changes nothing else. -/
theorem set_fallback (m : RMethod) (x : Int) :
    Api.setIsPrecompileFallback m x = { m with isPrecompileFallback := x } := rfl

/-- The member `is_precompile_fallback` of the API does not answer the flag that was set: the table holds the function of
`is_precompile`. -/
theorem fallback_flag_unreadable (m : RMethod) (x : Int) :
    Api.isPrecompileFallback (Api.setIsPrecompileFallback m x) = if m.isPrecompile then 1 else 0 := rfl

/-! ### Examples and violations -/

/-- The runtime of `[declA, declB]`. -/
theorem compiled_AB : ∃ rt, Compiled [declA, declB] rt := by
  obtain ⟨rt, _, h⟩ := build_succeeds (new := [declA, declB]) Compiled.start listOk_AB
  exact ⟨rt, h⟩

theorem compiled_AB2 : ∃ rt, Compiled [declA2, declB2] rt := by
  obtain ⟨rt, _, h⟩ := build_succeeds (new := [declA2, declB2]) Compiled.start listOk_AB2
  exact ⟨rt, h⟩

/-- `A` inherits `DESTROY` from `B`, and `B` was met after `A`: objects of `A` die without it. -/
theorem inherited_destructor_violated :
    ∃ rt, Compiled [declA, declB] rt ∧ DestroyResolved [declA, declB] 0 declA ∧ declA.parent = some 1 ∧
      declA.destroy = some (1, 0) ∧ ∃ b, Api.basicTypeById rt 0 = some b ∧ Api.destructor b = .ok none := by
  obtain ⟨rt, h⟩ := compiled_AB
  refine ⟨rt, h, ⟨0, by decide +kernel⟩, rfl, rfl, ?_⟩
  exact inherited_destructor_lost h (i := 0) rfl rfl (by decide)

/-- The same with another method before `DESTROY`: a wild pointer is called. -/
theorem inherited_destructor_ub_violated :
    ∃ rt, Compiled [declA2, declB2] rt ∧ DestroyResolved [declA2, declB2] 0 declA2 ∧
      ∃ b, Api.basicTypeById rt 0 = some b ∧ Api.destructor b = .ub := by
  obtain ⟨rt, h⟩ := compiled_AB2
  refine ⟨rt, h, ⟨0, by decide +kernel⟩, ?_⟩
  exact inherited_destructor_lost h (i := 0) (o := 1) (j := 1) rfl rfl (by decide)

/-- The fallback flag that was set is not the one read. -/
theorem fallback_flag_violated : ∃ (m : RMethod) (x : Int), Api.isPrecompileFallback (Api.setIsPrecompileFallback m x) ≠ x :=
  ⟨{ name := (0, 0), index := 0, cur := none, ret := ⟨none, 0, 0⟩, isClass := false, isInit := false, isNative := false,
     isPrecompile := true, isDestroy := false, isRequired := false, isEnum := false, widths := [], args := [], required := 0,
     opcodes := [] }, 0, by decide⟩

/-- `class Q { method DESTROY }` met first, `class R extends Q` after it. -/
def declQ : Decl := { name := nA, id := 0, methods := [mk destroyName 0 0 []], destroy := some (0, 0) }
def declR : Decl := { name := nB, id := 1, parent := some 0, destroy := some (0, 0) }

/-- The hypotheses of `inherited_destructor_partial` are met by `R`. -/
example : ∃ rt b, Compiled [declQ, declR] rt ∧ Api.basicTypeById rt 1 = some b ∧ Api.destructor b = .ok (some (0, 0)) := by
  have ok : ∀ d ∈ [declQ, declR], DeclOk 2 d := by
    intro d hd
    rcases List.mem_cons.1 hd with h | h
    · subst h
      exact ⟨(by unfold NoNul; decide), (by intro v h; cases h), (by intro v h; cases h), (by intro v h; cases h),
        (by intro v h; cases h), (by intro v h; cases h), (by intro v h; cases h), (by intro v h; cases h), (by intro v h; cases h),
        (by unfold NoNul; decide), (by intro v h; cases h)⟩
    · have h : d = declR := by simpa using h
      subst h
      exact ⟨(by unfold NoNul; decide), (by intro v h; cases h), (by intro v h; cases h), (by intro v h; cases h),
        (by intro v h; cases h), (by intro v h; cases h; decide), (by intro v h; cases h), (by intro v h; cases h),
        (by intro v h; cases h), (by intro v h; cases h), (by intro v h; cases h)⟩
  obtain ⟨rt, _, h⟩ := build_succeeds (new := [declQ, declR]) Compiled.start
    (listOk_two rfl rfl (by decide) (ok _ (by simp)) (ok _ (by simp)))
  obtain ⟨b, h1, h2⟩ := inherited_destructor_partial h (i := 1) (d := declR) rfl ⟨0, by decide +kernel⟩ (by decide +kernel) rfl
    (q := 0) (e := declQ) rfl (m := mk destroyName 0 0 []) (by decide +kernel) rfl (by decide) (by decide)
  exact ⟨rt, b, h, h1, h2⟩

/-- A class whose parent is new gets the smaller id. -/
example : declareClass [nx] nA nB = ([nx, nA, nB], 1, 2) := by decide

/-- The hypotheses of `own_destructor` are met by `B`. -/
example : ∃ rt b, Compiled [declA, declB] rt ∧ Api.basicTypeById rt 1 = some b ∧ Api.destructor b = .ok (some (1, 0)) := by
  obtain ⟨rt, h⟩ := compiled_AB
  obtain ⟨b, h1, h2⟩ := own_destructor h (i := 1) (d := declB) rfl ⟨0, by decide +kernel⟩
    (m := mk destroyName 0 1 []) (by decide +kernel) rfl (by decide)
  exact ⟨rt, b, h, h1, h2⟩

/-- The string literal of `A` that holds a NUL byte is read back whole, and its field is found. -/
example : ∃ rt b, Compiled [declA, declB] rt ∧ Api.basicTypeById rt 0 = some b ∧
    (∃ j, declA.pool.find [1, 0, 2] = some j ∧ Api.constantString b j = some [1, 0, 2]) ∧
    ∃ f, Api.byName rt RField.name nx b.fields = .ok (some f) := by
  obtain ⟨rt, h⟩ := compiled_AB
  obtain ⟨b, h1, _, h3⟩ := (described h).2.1 0 declA rfl
  obtain ⟨b', h1', h4⟩ := field_by_name h (i := 0) (d := declA) rfl nx
  rw [h1] at h1'
  cases h1'
  obtain ⟨r, hr, _⟩ := h3.field 0 _ rfl
  refine ⟨rt, b, h, h1, h3.strings _ (by decide), r, ?_⟩
  rw [h4]
  have : (declA.fields.map Field.name).idxOf? nx = some 0 := by decide
  rw [this]
  have hr' : b.fields[0]? = some r := by
    unfold Api.byIndex at hr
    have hlen : b.fields.length = 1 := h3.fieldsLength
    simpa [hlen] using hr
  show Out.ok (b.fields[0]?) = _
  rw [hr']

end SPVM.Reflect
