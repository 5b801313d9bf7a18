import Verif.Lemmas.DeclOk
/-!
# Property C71: the declarations in a class give the members they describe
-/
namespace SPVM
namespace Decl

/-- No enumeration has an item of the largest int value. -/
def NoMax (ds : List Decl) : Prop :=
  ∀ items, Decl.enum items ∈ ds → ∀ vals, EnumValues (items.map Item.given) vals → 2147483647 ∉ vals

theorem noMax_iff (ds : List Decl) : NoMax ds ↔ ¬ MaxIn ds := by
  constructor
  · rintro h ⟨items, h1, h2⟩
    exact h items h1 _ (enumValues_from _) h2
  · intro h items hi vals hv hm
    rw [enumValues_unique _ _ _ hv (enumValues_from _)] at hm
    exact h ⟨items, hi, hm⟩

theorem vars_names (ds : List Decl) : ((ds.map declOp).flatMap opVars).map (·.1) = ds.flatMap Decl.classVarNames := by
  rw [List.flatMap_map, List.map_flatMap]
  exact congrArg (fun f => ds.flatMap f) (funext declVars_names)

theorem fields_names (ds : List Decl) : ((ds.map declOp).flatMap opFields).map (·.1) = ds.flatMap Decl.fieldNames := by
  rw [List.flatMap_map, List.map_flatMap]
  exact congrArg (fun f => ds.flatMap f) (funext declFields_names)

theorem methods_names (ds : List Decl) : ((ds.map declOp).flatMap opMethods).map (·.name) = ds.flatMap Decl.methodNames := by
  rw [List.flatMap_map, List.map_flatMap]
  exact congrArg (fun f => ds.flatMap f) (funext declMethods_names)

theorem filter_version (ds : List Decl) :
    ((ds.map declOp).filter isVersion).length = (ds.filter (fun d => match d with | .version _ => true | _ => false)).length := by
  rw [List.filter_map, List.length_map]
  congr 2
  funext d
  cases d <;> rfl

theorem no_errs_iff (cat : Cat) (ds : List Decl) :
    ds.flatMap declErrs ++ (buildClass cat (ds.map declOp)).errs = [] ↔ ClassOk cat ds := by
  rw [List.append_eq_nil_iff, (build_iff cat (ds.map declOp)).1, vars_names, fields_names, List.map_append, methods_names,
    filter_version, List.flatMap_eq_nil_iff]
  have each : ∀ d ∈ ds, DeclChecks cat (ds.flatMap Decl.classVarNames) d ↔ d.Ok cat ∧ NamesOk d := fun d hd =>
    decl_checks cat _ d (fun n hn => List.mem_flatMap.mpr ⟨d, hd, hn⟩)
  have lenF : ((ds.map declOp).flatMap opFields).length = (ds.flatMap Decl.fieldNames).length := by
    rw [← fields_names, List.length_map]
  have nilV : (ds.map declOp).flatMap opVars = [] ↔ ∀ d ∈ ds, d.classVarNames = [] := by
    rw [← List.map_eq_nil_iff (f := (·.1)), vars_names, List.flatMap_eq_nil_iff]
  rw [lenF, nilV]
  constructor
  · rintro ⟨h0, h1, h2, h3, h4, h5, h6, h7⟩
    have hd : ∀ d ∈ ds, d.Ok cat ∧ NamesOk d := by
      intro d hd
      refine (each d hd).mp ⟨h0 d hd, h1 _ (List.mem_map.mpr ⟨d, hd, rfl⟩), fun hc => (h7 hc).1 d hd, ?_⟩
      intro m hm
      exact h5 m (List.mem_append.mpr (.inl (List.mem_flatMap.mpr ⟨_, List.mem_map.mpr ⟨d, hd, rfl⟩, hm⟩)))
    have hn := List.nodup_append.mp h6
    refine ⟨fun d h => (hd d h).1, h2, hn.1, h4, h3, ?_, ?_, fun d h => (hd d h).2.2, fun hc => (h7 hc).2⟩
    · intro h
      exact hn.2.2 _ h initName (by simp [initMethod, newMethod]) rfl
    · intro n h
      obtain ⟨d, h1, h2⟩ := List.mem_flatMap.mp h
      exact ((hd d h1).2.1 n h2).1
  · intro h
    have hd : ∀ d ∈ ds, DeclChecks cat (ds.flatMap Decl.classVarNames) d := by
      intro d hd
      refine (each d hd).mpr ⟨h.each d hd, ?_, h.destroy d hd⟩
      intro n hn
      have hm : n ∈ ds.flatMap Decl.methodNames := List.mem_flatMap.mpr ⟨d, hd, hn⟩
      exact ⟨h.noColons n hm, fun e => h.notInit (e ▸ hm)⟩
    refine ⟨fun d h => (hd d h).1, ?_, h.oneVersion, h.fields, h.classVars, ?_, ?_, fun hc => ⟨fun d h => (hd d h).2.2.1 hc, h.mulnum hc⟩⟩
    · intro o ho
      obtain ⟨d, hd', rfl⟩ := List.mem_map.mp ho
      exact (hd d hd').2.1
    · intro m hm
      rcases List.mem_append.mp hm with hm | hm
      · obtain ⟨o, ho, hm⟩ := List.mem_flatMap.mp hm
        obtain ⟨d, hd', rfl⟩ := List.mem_map.mp ho
        exact (hd d hd').2.2.2 m hm
      · simp at hm
        subst hm
        exact ⟨by simp [methodErrs, initMethod, newMethod], fun _ => rfl, rfl⟩
    · rw [List.nodup_append]
      refine ⟨h.methods, by simp, ?_⟩
      intro a ha b hb e
      simp [initMethod, newMethod] at hb
      subst hb
      subst e
      exact h.notInit ha

/-- **Which classes compile.**  With a compiler whose counter is 0, a class without a syntax error and without an enumeration item
of the largest int value compiles exactly when it keeps the rules. -/
theorem class_ok_iff (src : Source) (hcut : src.cut = none) (hmax : NoMax src.decls) :
    (∃ c, compile 0 src = .ok (0, some c)) ↔ ClassOk src.cat src.decls := by
  rcases parse_eq src.decls with ⟨h1, _⟩ | ⟨_, h2⟩
  · exact absurd h1 ((noMax_iff _).mp hmax)
  · rw [← no_errs_iff]
    simp only [compile, h2, hcut]
    constructor
    · rintro ⟨c, h⟩
      simp only [Out.ok.injEq, Prod.mk.injEq, true_and] at h
      split at h
      · assumption
      · cases h
    · intro h
      rw [if_pos h]
      exact ⟨_, rfl⟩

/-- What a class is when it has compiled. -/
theorem compiled (src : Source) (n : Int) (c : Cls) (h : compile 0 src = .ok (n, some c)) :
    c = buildClass src.cat (src.decls.map declOp) ∧ c.errs = [] ∧ ClassOk src.cat src.decls ∧ n = 0 := by
  rcases parse_eq src.decls with ⟨_, h1⟩ | ⟨_, h2⟩
  · simp [compile, h1] at h
  · simp only [compile, h2] at h
    split at h
    · split at h <;> simp at h
    · simp only [Out.ok.injEq, Prod.mk.injEq] at h
      obtain ⟨rfl, h⟩ := h
      split at h
      · rename_i he
        simp only [Option.some.injEq] at h
        subst h
        exact ⟨rfl, (List.append_eq_nil_iff.mp he).2, (no_errs_iff _ _).mp he, rfl⟩
      · cases h

/-- A method of a declaration is the one found by its name. -/
theorem compiled_find (src : Source) (n : Int) (c : Cls) (h : compile 0 src = .ok (n, some c)) (d : Decl) (hd : d ∈ src.decls)
    (m : Method) (hm : m ∈ declMethods d) : c.methods.find? (fun x => x.name == m.name) = some m := by
  obtain ⟨rfl, he, _⟩ := compiled src n c h
  have b := build_iff src.cat (src.decls.map declOp)
  have hm' := (b.2 he).1
  rw [hm']
  apply find_of_nodup
  · exact List.mem_append.mpr (.inl (List.mem_flatMap.mpr ⟨_, List.mem_map.mpr ⟨d, hd, rfl⟩, hm⟩))
  · exact (b.1.mp he).2.2.2.2.2.1

/-- A list of declarations with something of everything. -/
def exampleDecls : List Decl :=
  [.version (.str [49, 46, 48, 48, 50]), .classVar ['$', 'X'] .byte [.rw], .field ['y'] .short [.rw],
   .enum [⟨['A'], none⟩, ⟨['B'], some (.int 5)⟩, ⟨['C'], none⟩],
   .method ⟨['m'], true, false, false, true, none, [(['$', 'a'], .int)], 7⟩, .init]

def exampleSource : Source := ⟨.cls, exampleDecls, none⟩

/-- The class of the example. -/
def exampleClass : Cls := buildClass .cls (exampleDecls.map declOp)

theorem example_compiles : compile 0 exampleSource = .ok (0, some exampleClass) := by decide +kernel

theorem example_noMax : NoMax exampleDecls := by
  rw [noMax_iff]
  rintro ⟨items, h1, h2⟩
  simp [exampleDecls] at h1
  subst h1
  revert h2
  decide +kernel

example : ClassOk .cls exampleDecls := (class_ok_iff exampleSource rfl example_noMax).mp ⟨_, example_compiles⟩

/-- **Enumerations.**  Calling an item gives 0 for the first and one more than the previous item for the others, unless a value is
given; nothing else changes. -/
theorem enum_value (src : Source) (n : Int) (c : Cls) (h : compile 0 src = .ok (n, some c)) (items : List Item)
    (hd : Decl.enum items ∈ src.decls) (vals : List Int) (hv : EnumValues (items.map Item.given) vals) (k : Nat) (i : Item) (v : Int)
    (hi : items[k]? = some i) (hk : vals[k]? = some v) (st : St) : c.call true i.name [] st = .gen (some (.num v)) st := by
  have ok := (compiled src n c h).2.2.1
  have hint : i.Int := ok.each _ hd i (List.mem_of_getElem? hi)
  rw [enumValues_unique _ _ _ hv (enumValues_from _)] at hk
  have hm : itemMethod i v ∈ declMethods (.enum items) := enumMethods_get items 0 k i v hint hi hk
  have hf := compiled_find src n c h _ hd _ hm
  have e : (itemMethod i v).name = i.name := rfl
  rw [e] at hf
  unfold Cls.call
  rw [hf]
  rfl

example : EnumValues [none, some 5, none] [0, 5, 6] := enumValues_from _
example (st : St) : exampleClass.call true ['C'] [] st = .gen (some (.num 6)) st :=
  enum_value exampleSource 0 exampleClass example_compiles
    [⟨['A'], none⟩, ⟨['B'], some (.int 5)⟩, ⟨['C'], none⟩] (by simp [exampleSource, exampleDecls]) [0, 5, 6]
    (enumValues_from [none, some 5, none]) 2 ⟨['C'], none⟩ 6 rfl rfl st

/-- **Readers of class variables** return the value of the variable and change nothing. -/
theorem classVar_getter (src : Source) (n : Int) (c : Cls) (h : compile 0 src = .ok (n, some c)) (x : Name) (t : Ty) (acc : List Acc)
    (hd : Decl.classVar x t acc ∈ src.decls) (hr : Readable acc) (st : St) :
    c.call true (x.drop 1) [] st = .gen (some (st.vars x)) st := by
  have hm : newMethod (x.drop 1) true false false (some (accType t)) [] (.gen (.ret (.var x))) ∈ declMethods (.classVar x t acc) := by
    simp [declMethods, declOp, opMethods, classVarMethods, (getter_iff acc).mpr hr]
  have hf := compiled_find src n c h _ hd _ hm
  simp only [newMethod] at hf
  unfold Cls.call
  rw [hf]
  rfl

theorem castTo_stored (t : Ty) (v : V) : Stored t v (castTo t v) := by
  cases t <;> cases v <;> simp only [Stored, castTo] <;> try rfl
  · rename_i v
    exact ⟨_, rfl, by omega, by omega, -((v + 128) / 256), by omega⟩
  · rename_i v
    exact ⟨_, rfl, by omega, by omega, -((v + 32768) / 65536), by omega⟩

theorem stored_unique (t : Ty) (v a b : V) (ha : Stored t v a) (hb : Stored t v b) : a = b := by
  unfold Stored at ha hb
  split at ha
  · obtain ⟨x, rfl, h1, h2, k, h3⟩ := ha
    obtain ⟨y, rfl, h4, h5, l, h6⟩ := hb
    congr 1
    omega
  · obtain ⟨x, rfl, h1, h2, k, h3⟩ := ha
    obtain ⟨y, rfl, h4, h5, l, h6⟩ := hb
    congr 1
    omega
  · subst ha
    split at hb
    · rename_i h _; exact absurd rfl (fun e => h _ e rfl)
    · rename_i h; exact absurd rfl (fun e => h _ e rfl)
    · exact hb.symm

/-- **Writers of class variables** store the value, narrowed to the type of the variable, and change nothing else, unless the
variable is `$value`. -/
theorem classVar_setter_partial (src : Source) (n : Int) (c : Cls) (h : compile 0 src = .ok (n, some c)) (x : Name) (t : Ty)
    (acc : List Acc) (hd : Decl.classVar x t acc ∈ src.decls) (hw : Writable acc) (hx : x ≠ valueName) (v : V) (st : St) :
    ∃ w st', c.call true (['S', 'E', 'T', '_'] ++ x.drop 1) [v] st = .gen none st' ∧ Stored t v w ∧ st'.vars x = w ∧
      (∀ y, y ≠ x → st'.vars y = st.vars y) ∧ st'.fields = st.fields := by
  have hm : newMethod (['S', 'E', 'T', '_'] ++ x.drop 1) true false false none [(valueName, accType t)]
      (.gen (.setVar x (.cast t (.var valueName)))) ∈ declMethods (.classVar x t acc) := by
    simp [declMethods, declOp, opMethods, classVarMethods, (setter_iff acc).mpr hw]
  have hf := compiled_find src n c h _ hd _ hm
  simp only [newMethod] at hf
  refine ⟨castTo t v, { st with vars := update st.vars x (castTo t v) }, ?_, castTo_stored t v, by simp [update], ?_, rfl⟩
  · unfold Cls.call
    rw [hf]
    simp [Stmt.run, lookup, Exp.eval, Ne.symm hx]
  · intro y hy
    simp [update, hy]

example (st : St) : ∃ w st', exampleClass.call true ['S', 'E', 'T', '_', 'X'] [.num 300] st = .gen none st' ∧
    Stored .byte (.num 300) w ∧ st'.vars ['$', 'X'] = w ∧ (∀ y, y ≠ ['$', 'X'] → st'.vars y = st.vars y) ∧ st'.fields = st.fields :=
  classVar_setter_partial exampleSource 0 exampleClass example_compiles ['$', 'X'] .byte [.rw]
    (by simp [exampleSource, exampleDecls]) (by decide) (by decide) (.num 300) st

example : Stored .byte (.num 300) (.num 44) := ⟨44, rfl, by omega, by omega, -1, by omega⟩

/-- The code does not keep the property for the class variable `$value`: its writer compiles and changes nothing, since the
argument of the writer is named `$value` too. -/
theorem value_setter_violated :
    ∃ src c, compile 0 src = .ok (0, some c) ∧ Decl.classVar valueName .int [.rw] ∈ src.decls ∧
      ∀ v st, c.call true ['S', 'E', 'T', '_', 'v', 'a', 'l', 'u', 'e'] [v] st = .gen none st := by
  have h : compile 0 ⟨.cls, [.classVar valueName .int [.rw]], none⟩ =
      .ok (0, some (buildClass .cls [.classVar valueName .int [.rw]])) := by decide +kernel
  refine ⟨_, _, h, List.mem_cons_self, ?_⟩
  intro v st
  have hm : newMethod (['S', 'E', 'T', '_'] ++ valueName.drop 1) true false false none [(valueName, accType .int)]
      (.gen (.setVar valueName (.cast .int (.var valueName)))) ∈ declMethods (.classVar valueName .int [.rw]) := by
    decide +kernel
  have hf := compiled_find _ _ _ h _ List.mem_cons_self _ hm
  simp only [newMethod] at hf
  unfold Cls.call
  rw [show ['S', 'E', 'T', '_', 'v', 'a', 'l', 'u', 'e'] = ['S', 'E', 'T', '_'] ++ valueName.drop 1 from rfl, hf]
  simp [Stmt.run, lookup]

/-- **Readers of fields** return the value of the field and change nothing. -/
theorem field_getter (src : Source) (n : Int) (c : Cls) (h : compile 0 src = .ok (n, some c)) (x : Name) (t : Ty) (acc : List Acc)
    (hd : Decl.field x t acc ∈ src.decls) (hr : Readable acc) (st : St) :
    c.call false x [] st = .gen (some (st.fields x)) st := by
  have hm : newMethod x false false false (some (accType t)) [] (.gen (.ret (.field x))) ∈ declMethods (.field x t acc) := by
    simp [declMethods, declOp, opMethods, fieldMethods, (getter_iff acc).mpr hr]
  have hf := compiled_find src n c h _ hd _ hm
  simp only [newMethod] at hf
  unfold Cls.call
  rw [hf]
  rfl

/-- **Writers of fields** store the value, narrowed to the type of the field, and change nothing else. -/
theorem field_setter (src : Source) (n : Int) (c : Cls) (h : compile 0 src = .ok (n, some c)) (x : Name) (t : Ty)
    (acc : List Acc) (hd : Decl.field x t acc ∈ src.decls) (hw : Writable acc) (v : V) (st : St) :
    ∃ w st', c.call false (['s', 'e', 't', '_'] ++ x) [v] st = .gen none st' ∧ Stored t v w ∧ st'.fields x = w ∧
      (∀ y, y ≠ x → st'.fields y = st.fields y) ∧ st'.vars = st.vars := by
  have hm : newMethod (['s', 'e', 't', '_'] ++ x) false false false none [('$' :: x, accType t)]
      (.gen (.setField x (.cast t (.var ('$' :: x))))) ∈ declMethods (.field x t acc) := by
    simp [declMethods, declOp, opMethods, fieldMethods, (setter_iff acc).mpr hw]
  have hf := compiled_find src n c h _ hd _ hm
  simp only [newMethod] at hf
  refine ⟨castTo t v, { st with fields := update st.fields x (castTo t v) }, ?_, castTo_stored t v, by simp [update], ?_, rfl⟩
  · unfold Cls.call
    rw [hf]
    simp [Stmt.run, lookup, Exp.eval]
  · intro y hy
    simp [update, hy]

example (st : St) : exampleClass.call false ['y'] [] st = .gen (some (st.fields ['y'])) st :=
  field_getter exampleSource 0 exampleClass example_compiles ['y'] .short [.rw] (by simp [exampleSource, exampleDecls]) (by decide) st

theorem accType_spec (t : Ty) : AccessorType t (accType t) := by
  refine ⟨fun h => ?_, fun h1 h2 => ?_⟩
  · rcases h with rfl | rfl <;> rfl
  · cases t <;> first | rfl | exact absurd rfl h1 | exact absurd rfl h2

/-- **Types of accessors**: a reader takes no value and returns one of the type of the variable or field, a writer takes one of this type and returns
none; for `byte` and `short` the type is `int`. -/
theorem accessor_types (src : Source) (n : Int) (c : Cls) (h : compile 0 src = .ok (n, some c)) (x : Name) (t : Ty) (acc : List Acc) :
    (Decl.classVar x t acc ∈ src.decls → Readable acc → ∃ m u, c.methods.find? (fun m => m.name == x.drop 1) = some m ∧ m.isClass = true ∧ m.ret = some u ∧
      AccessorType t u ∧ m.args = []) ∧
    (Decl.classVar x t acc ∈ src.decls → Writable acc → ∃ m a u, c.methods.find? (fun m => m.name == ['S', 'E', 'T', '_'] ++ x.drop 1) = some m ∧ m.isClass = true ∧
      m.ret = none ∧ m.args = [(a, u)] ∧ AccessorType t u) ∧
    (Decl.field x t acc ∈ src.decls → Readable acc → ∃ m u s, c.methods.find? (fun m => m.name == x) = some m ∧ m.isClass = false ∧ m.ret = some u ∧
      AccessorType t u ∧ m.args = [s]) ∧
    (Decl.field x t acc ∈ src.decls → Writable acc → ∃ m s a u, c.methods.find? (fun m => m.name == ['s', 'e', 't', '_'] ++ x) = some m ∧ m.isClass = false ∧
      m.ret = none ∧ m.args = [s, (a, u)] ∧ AccessorType t u) := by
  refine ⟨fun hd hr => ?_, fun hd hw => ?_, fun hd hr => ?_, fun hd hw => ?_⟩
  · have hm : newMethod (x.drop 1) true false false (some (accType t)) [] (.gen (.ret (.var x))) ∈ declMethods (.classVar x t acc) := by
      simp [declMethods, declOp, opMethods, classVarMethods, (getter_iff acc).mpr hr]
    exact ⟨_, _, compiled_find src n c h _ hd _ hm, rfl, rfl, accType_spec t, rfl⟩
  · have hm : newMethod (['S', 'E', 'T', '_'] ++ x.drop 1) true false false none [(valueName, accType t)]
        (.gen (.setVar x (.cast t (.var valueName)))) ∈ declMethods (.classVar x t acc) := by
      simp [declMethods, declOp, opMethods, classVarMethods, (setter_iff acc).mpr hw]
    exact ⟨_, _, _, compiled_find src n c h _ hd _ hm, rfl, rfl, rfl, accType_spec t⟩
  · have hm : newMethod x false false false (some (accType t)) [] (.gen (.ret (.field x))) ∈ declMethods (.field x t acc) := by
      simp [declMethods, declOp, opMethods, fieldMethods, (getter_iff acc).mpr hr]
    exact ⟨_, _, _, compiled_find src n c h _ hd _ hm, rfl, rfl, accType_spec t, rfl⟩
  · have hm : newMethod (['s', 'e', 't', '_'] ++ x) false false false none [('$' :: x, accType t)]
        (.gen (.setField x (.cast t (.var ('$' :: x))))) ∈ declMethods (.field x t acc) := by
      simp [declMethods, declOp, opMethods, fieldMethods, (setter_iff acc).mpr hw]
    exact ⟨_, _, _, _, compiled_find src n c h _ hd _ hm, rfl, rfl, rfl, accType_spec t⟩

/-- The reader of the `short` field of the example returns `int`. -/
example : ∃ m u s, exampleClass.methods.find? (fun m => m.name == ['y']) = some m ∧ m.isClass = false ∧ m.ret = some u ∧ AccessorType .short u ∧ m.args = [s] :=
  (accessor_types exampleSource 0 exampleClass example_compiles ['y'] .short [.rw]).2.2.1 (by simp [exampleSource, exampleDecls]) (by decide)

/-- A field named `self` cannot have a writer: the class does not compile, whatever else is in it. -/
theorem self_setter_violated (src : Source) (t : Ty) (acc : List Acc) (hd : Decl.field selfName t acc ∈ src.decls)
    (hw : Writable acc) (n : Int) (c : Cls) : compile 0 src ≠ .ok (n, some c) := by
  intro h
  have ok := (compiled src n c h).2.2.1
  exact (ok.each _ hd).2.2.2.2 hw rfl

/-- **Methods** written in the class are called by their name, with as many arguments as they have. -/
theorem user_method (src : Source) (n : Int) (c : Cls) (h : compile 0 src = .ok (n, some c)) (m : UserMethod)
    (hd : Decl.method m ∈ src.decls) (hb : m.hasBlock = true) (args : List V) (ha : args.length = m.args.length) (st : St) :
    c.call m.isClass m.name args st = .user m.code := by
  have hf := compiled_find src n c h _ hd m.build (by simp [declMethods, declOp, opMethods])
  unfold Cls.call
  rw [show m.build.name = m.name from rfl] at hf
  rw [hf]
  cases hc : m.isClass <;> simp [UserMethod.build, newMethod, hb, hc, ha]

example (st : St) : exampleClass.call true ['m'] [.num 1] st = .user 7 :=
  user_method exampleSource 0 exampleClass example_compiles
    ⟨['m'], true, false, false, true, none, [(['$', 'a'], .int)], 7⟩ (by simp [exampleSource, exampleDecls]) rfl _ rfl st

/-- **Nothing else** can be called: a name that no declaration gives. -/
theorem no_other_method (src : Source) (n : Int) (c : Cls) (h : compile 0 src = .ok (n, some c)) (name : Name)
    (hn : name ∉ src.decls.flatMap Decl.methodNames) (hi : name ≠ initName) (isClass : Bool) (args : List V) (st : St) :
    c.call isClass name args st = .error := by
  obtain ⟨rfl, he, _⟩ := compiled src n c h
  have hm' := ((build_iff src.cat (src.decls.map declOp)).2 he).1
  have : (buildClass src.cat (src.decls.map declOp)).methods.find? (fun m => m.name == name) = none := by
    rw [hm', List.find?_eq_none]
    intro m hm
    simp
    rintro rfl
    rcases List.mem_append.mp hm with hm | hm
    · exact hn (by rw [← methods_names]; exact List.mem_map.mpr ⟨m, hm, rfl⟩)
    · simp at hm
      subst hm
      exact hi rfl
  unfold Cls.call
  rw [this]

/-- **The version** of a class is the string of its version statement, and there is none without one. -/
theorem class_version (src : Source) (n : Int) (c : Cls) (h : compile 0 src = .ok (n, some c)) :
    (∀ s, Decl.version (.str s) ∈ src.decls → c.version = some s) ∧ ((∀ l, Decl.version l ∉ src.decls) → c.version = none) := by
  obtain ⟨rfl, he, _⟩ := compiled src n c h
  have b := (build_iff src.cat (src.decls.map declOp)).2 he
  refine ⟨fun s hs => b.2.2.2.1 s (List.mem_map.mpr ⟨_, hs, rfl⟩), fun hn => b.2.2.2.2 ?_⟩
  rw [List.filter_eq_nil_iff]
  intro o ho
  obtain ⟨d, hd, rfl⟩ := List.mem_map.mp ho
  cases d with
  | version l => exact absurd hd (hn l)
  | _ => simp [declOp, isVersion]

example : exampleClass.version = some [49, 46, 48, 48, 50] :=
  (class_version exampleSource 0 exampleClass example_compiles).1 _ (by simp [exampleSource, exampleDecls])

/-! ## One compilation after the other -/

/-- **No compilation changes the values of the next one**, when none of them ends inside an enumeration. -/
theorem history_partial (srcs : List Source) (hcut : ∀ s ∈ srcs, s.cut = none) (n : Int) (cs : List (Option Cls))
    (h : compileAll 0 srcs = .ok (n, cs)) :
    n = 0 ∧ cs.length = srcs.length ∧ ∀ (k : Nat) s, srcs[k]? = some s → ∃ c, cs[k]? = some c ∧ compile 0 s = .ok (0, c) := by
  induction srcs generalizing cs with
  | nil =>
    simp [compileAll] at h
    obtain ⟨rfl, rfl⟩ := h
    exact ⟨rfl, rfl, by intro k s hs; cases hs⟩
  | cons s ss ih =>
    have hs := hcut s List.mem_cons_self
    have h0 : ∀ next c, compile 0 s = .ok (next, c) → next = 0 := by
      intro next c hc
      rcases parse_eq s.decls with ⟨_, h1⟩ | ⟨_, h2⟩
      · simp [compile, h1] at hc
      · simp only [compile, h2, hs, Out.ok.injEq, Prod.mk.injEq] at hc
        exact hc.1.symm
    simp only [compileAll] at h
    cases hc : compile 0 s with
    | ub => simp [hc] at h
    | die x => simp [hc] at h
    | ok r =>
      obtain ⟨next, c⟩ := r
      obtain rfl := h0 _ _ hc
      simp only [hc] at h
      cases hr : compileAll 0 ss with
      | ub => simp [hr] at h
      | die x => simp [hr] at h
      | ok r =>
        obtain ⟨last, cs'⟩ := r
        simp only [hr, Out.ok.injEq, Prod.mk.injEq] at h
        obtain ⟨rfl, rfl⟩ := h
        obtain ⟨h1, h2, h3⟩ := ih (fun x hx => hcut x (List.mem_cons_of_mem _ hx)) cs' hr
        refine ⟨h1, by simp [h2], ?_⟩
        intro k s' hk
        cases k with
        | zero => simp at hk; subst hk; exact ⟨c, rfl, hc⟩
        | succ k => exact h3 k s' hk

example : compileAll 0 [exampleSource, exampleSource] = .ok (0, [some exampleClass, some exampleClass]) := by decide +kernel

/-- The code does not keep the property after a syntax error in an enumeration: the values of the next class start where the
broken enumeration ended.  Here `enum { A, B <syntax error>` and then `enum { C }`: `C` is 2 instead of 0. -/
theorem enum_after_syntax_error_violated :
    ∃ bad good c, bad.cut ≠ none ∧ good.decls = [Decl.enum [⟨['C'], none⟩]] ∧ compileAll 0 [bad, good] = .ok (0, [none, some c]) ∧
      ∀ st, c.call true ['C'] [] st = .gen (some (.num 2)) st := by
  refine ⟨⟨.cls, [], some [⟨['A'], none⟩, ⟨['B'], none⟩]⟩, ⟨.cls, [.enum [⟨['C'], none⟩]], none⟩,
    buildClass .cls [.enum [itemMethod ⟨['C'], none⟩ 2]], by simp, rfl, by decide +kernel, ?_⟩
  intro st
  have : (buildClass .cls [.enum [itemMethod ⟨['C'], none⟩ 2]]).methods.find? (fun m => m.name == ['C']) =
      some (itemMethod ⟨['C'], none⟩ 2) := by decide +kernel
  unfold Cls.call
  rw [this]
  rfl

/-- The code does not keep the property for an item of the largest int value, though the literal is within int: the counter
overflows (undefined behaviour), even when no item follows. -/
theorem enum_max_violated : compile 0 ⟨.cls, [.enum [⟨['A'], some (.int 2147483647)⟩]], none⟩ = .ub := by decide +kernel

/-- And for every class: the compilation is undefined exactly when there is such an item. -/
theorem enum_max_iff (src : Source) (hcut : src.cut = none) : compile 0 src = .ub ↔ ¬ NoMax src.decls := by
  rw [noMax_iff]
  rcases parse_eq src.decls with ⟨h1, h2⟩ | ⟨h1, h2⟩
  · simp [compile, h2, h1]
  · simp [compile, h2, h1, hcut]

end Decl
end SPVM
