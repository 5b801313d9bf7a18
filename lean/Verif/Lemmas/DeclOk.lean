import Verif.Lemmas.DeclClass
/-!
# Lemmas on declarations: classes without errors
-/
namespace SPVM
namespace Decl

theorem getter_iff (acc : List Acc) : hasGetter acc = true ↔ Readable acc := by
  induction acc with
  | nil => simp [hasGetter, Readable]
  | cons a as ih =>
    simp only [hasGetter, List.any_cons, Bool.or_eq_true] at ih ⊢
    simp only [Readable, List.mem_cons] at ih ⊢
    rw [ih]
    cases a <;> simp

theorem setter_iff (acc : List Acc) : hasSetter acc = true ↔ Writable acc := by
  induction acc with
  | nil => simp [hasSetter, Writable]
  | cons a as ih =>
    simp only [hasSetter, List.any_cons, Bool.or_eq_true] at ih ⊢
    simp only [Writable, List.mem_cons] at ih ⊢
    rw [ih]
    cases a <;> simp

theorem acc_cases (acc : List Acc) (h : acc ≠ []) : Readable acc ∨ Writable acc := by
  cases acc with
  | nil => exact absurd rfl h
  | cons a as => cases a <;> simp [Readable, Writable]

theorem accErrs_nil (acc : List Acc) : accErrs acc = [] ↔ acc.length ≤ 1 := by
  simp [accErrs]; omega

/-- The methods of a declaration. -/
def declMethods (d : Decl) : List Method := opMethods (declOp d)

theorem declMethods_names (d : Decl) : (declMethods d).map (·.name) = d.methodNames := by
  cases d with
  | version l => rfl
  | init => rfl
  | method m => rfl
  | enum items => exact enumMethods_names items 0
  | classVar n t acc =>
    simp only [declMethods, declOp, opMethods, classVarMethods, Decl.methodNames, getter_iff, setter_iff]
    split <;> split <;> rfl
  | field n t acc =>
    simp only [declMethods, declOp, opMethods, fieldMethods, Decl.methodNames, getter_iff, setter_iff]
    split <;> split <;> rfl

theorem declVars_names (d : Decl) : (opVars (declOp d)).map (·.1) = d.classVarNames := by cases d <;> rfl
theorem declFields_names (d : Decl) : (opFields (declOp d)).map (·.1) = d.fieldNames := by cases d <;> rfl

/-- The errors of a method with a block, no destructor. -/
theorem errs_gen (m : Method) (s : Stmt) (hb : m.body = .gen s) (hn : m.native = false)
    (hd : m.ret.isSome = true ∨ m.isClass = true ∨ m.args.length ≠ 1) :
    m.errs = [] ↔ ¬ HasColons m.name ∧ m.name ≠ initName ∧ m.name ≠ destroyName := by
  unfold Method.errs
  rw [← hasColons_iff]
  simp only [List.append_eq_nil_iff, hb, hn]
  constructor
  · rintro ⟨⟨⟨h1, h2⟩, _⟩, h4⟩
    refine ⟨fun h => by simp [h] at h1, fun h => by simp [h] at h2, fun h => ?_⟩
    simp [h] at h4
    rcases hd with hd | hd | hd
    · rw [h4.1] at hd; cases hd
    · rw [h4.2.1] at hd; cases hd
    · exact hd h4.2.2
  · rintro ⟨h1, h2, h3⟩
    simp [h1, h2, h3]

theorem itemErrs_iff (i : Item) : itemErrs i = [] ↔ i.Int ∧ ¬ HasColons i.name ∧ i.name ≠ initName ∧ i.name ≠ destroyName := by
  unfold itemErrs
  rw [List.append_eq_nil_iff, errs_gen (itemMethod i 0) _ rfl rfl (.inl rfl)]
  apply and_congr
  · unfold Item.Int
    rcases i.value with _ | (v | s | _) <;> simp
  · exact Iff.rfl

/-- A generated method, as far as the checks of the class go. -/
theorem methodErrs_gen (cat : Cat) (m : Method) (s : Stmt) (hb : m.body = .gen s) (hr : m.required = false) : methodErrs cat m = [] := by
  simp [methodErrs, hb, hr]

/-- All that is checked for one declaration. -/
def DeclChecks (cat : Cat) (vars : List Name) (d : Decl) : Prop :=
  declErrs d = [] ∧ opErrs cat (declOp d) = [] ∧ (cat = .mulnum → d.classVarNames = []) ∧
  ∀ m ∈ declMethods d, methodErrs cat m = [] ∧ (cat = .mulnum → m.isClass = true) ∧ checkBody vars m = []

def NamesOk (d : Decl) : Prop :=
  (∀ n ∈ d.methodNames, ¬ HasColons n ∧ n ≠ initName) ∧ (destroyName ∈ d.methodNames → ∃ m, d = .method m)

/-- What is checked of the two accessors of a class variable. -/
theorem classVar_checks (cat : Cat) (vars : List Name) (n : Name) (t : Ty) (acc : List Acc) (hv : n ∈ vars) :
    DeclChecks cat vars (.classVar n t acc) ↔ (Decl.classVar n t acc).Ok cat ∧ NamesOk (.classVar n t acc) := by
  have body : ∀ m ∈ classVarMethods n t acc, methodErrs cat m = [] ∧ m.isClass = true ∧ checkBody vars m = [] ∧
      (m.errs = [] ↔ ¬ HasColons m.name ∧ m.name ≠ initName ∧ m.name ≠ destroyName) := by
    intro m hm
    simp only [classVarMethods, List.mem_append] at hm
    rcases hm with hm | hm
    · split at hm
      · simp at hm
        subst hm
        refine ⟨methodErrs_gen cat _ _ rfl rfl, rfl, ?_, errs_gen _ _ rfl rfl (.inl rfl)⟩
        simp [checkBody, newMethod, redeclared, Stmt.vars, Exp.vars, hv]
      · cases hm
    · split at hm
      · simp at hm
        subst hm
        refine ⟨methodErrs_gen cat _ _ rfl rfl, rfl, ?_, errs_gen _ _ rfl rfl (.inr (.inl rfl))⟩
        simp [checkBody, newMethod, redeclared, Stmt.vars, Exp.vars, hv]
      · cases hm
  have names : (classVarMethods n t acc).flatMap Method.errs = [] ↔
      ∀ x ∈ (Decl.classVar n t acc).methodNames, ¬ HasColons x ∧ x ≠ initName ∧ x ≠ destroyName := by
    rw [← declMethods_names, List.flatMap_eq_nil_iff]
    simp only [List.mem_map]
    constructor
    · rintro h x ⟨m, hm, rfl⟩
      exact (body m hm).2.2.2.mp (h m hm)
    · intro h m hm
      exact (body m hm).2.2.2.mpr (h _ ⟨m, hm, rfl⟩)
  unfold DeclChecks NamesOk
  simp only [declErrs, opErrs, declOp, List.append_eq_nil_iff, accErrs_nil, Decl.classVarNames, Decl.Ok, names]
  constructor
  · rintro ⟨⟨h1, h2⟩, ⟨h3, h4⟩, h5, _⟩
    refine ⟨⟨?_, h2, ?_⟩, ⟨fun x hx => ⟨(h4 x hx).1, (h4 x hx).2.1⟩, fun h => absurd rfl (h4 _ h).2.2⟩⟩
    · rw [← hasColons_iff]; intro h; simp [h] at h1
    · cases cat with
      | cls => rfl
      | interface => simp at h3
      | mulnum => exact absurd (h5 rfl) (by simp)
  · rintro ⟨⟨h1, h2, rfl⟩, h3, h4⟩
    refine ⟨⟨?_, h2⟩, ⟨by simp, ?_⟩, (by intro h; cases h), fun m hm => ⟨(body m hm).1, (fun h => by cases h), (body m hm).2.2.1⟩⟩
    · rw [← hasColons_iff] at h1; simp [h1]
    · intro x hx
      refine ⟨(h3 x hx).1, (h3 x hx).2, ?_⟩
      rintro rfl
      obtain ⟨m, h⟩ := h4 hx
      cases h

theorem field_checks (cat : Cat) (vars : List Name) (n : Name) (t : Ty) (acc : List Acc) :
    DeclChecks cat vars (.field n t acc) ↔ (Decl.field n t acc).Ok cat ∧ NamesOk (.field n t acc) := by
  have body : ∀ m ∈ fieldMethods n t acc, methodErrs cat m = [] ∧ m.isClass = false ∧
      (checkBody vars m = [] ↔ (m.args.length = 1 ∨ n ≠ selfName)) ∧
      (m.errs = [] ↔ ¬ HasColons m.name ∧ m.name ≠ initName ∧ m.name ≠ destroyName) := by
    intro m hm
    simp only [fieldMethods, List.mem_append] at hm
    rcases hm with hm | hm
    · split at hm
      · simp at hm
        subst hm
        refine ⟨methodErrs_gen cat _ _ rfl rfl, rfl, ?_, errs_gen _ _ rfl rfl (.inl rfl)⟩
        simp [checkBody, newMethod, redeclared, Stmt.vars, Exp.vars]
      · cases hm
    · split at hm
      · simp at hm
        subst hm
        refine ⟨methodErrs_gen cat _ _ rfl rfl, rfl, ?_, errs_gen _ _ rfl rfl (.inr (.inr (by simp [newMethod])))⟩
        simp only [checkBody, newMethod, List.append_eq_nil_iff, redeclared_nil']
        simp [Stmt.vars, Exp.vars, selfVar]
        exact ⟨fun h e => h e.symm, fun h e => h e.symm⟩
      · cases hm
  have names : (fieldMethods n t acc).flatMap Method.errs = [] ↔
      ∀ x ∈ (Decl.field n t acc).methodNames, ¬ HasColons x ∧ x ≠ initName ∧ x ≠ destroyName := by
    rw [← declMethods_names, List.flatMap_eq_nil_iff]
    simp only [List.mem_map]
    constructor
    · rintro h x ⟨m, hm, rfl⟩
      exact (body m hm).2.2.2.mp (h m hm)
    · intro h m hm
      exact (body m hm).2.2.2.mpr (h _ ⟨m, hm, rfl⟩)
  have setter : (∀ m ∈ fieldMethods n t acc, checkBody vars m = []) ↔ (Writable acc → n ≠ selfName) := by
    constructor
    · intro h hw
      have hm : newMethod (['s', 'e', 't', '_'] ++ n) false false false none [('$' :: n, accType t)]
          (.gen (.setField n (.cast t (.var ('$' :: n))))) ∈ fieldMethods n t acc := by
        simp [fieldMethods, (setter_iff acc).mpr hw]
      rcases (body _ hm).2.2.1.mp (h _ hm) with h' | h'
      · simp [newMethod] at h'
      · exact h'
    · intro h m hm
      refine (body m hm).2.2.1.mpr ?_
      by_cases hw : Writable acc
      · exact .inr (h hw)
      · left
        simp only [fieldMethods, setter_iff, hw, if_false, List.append_nil] at hm
        split at hm
        · simp at hm; subst hm; rfl
        · cases hm
  have inst : (cat = .mulnum → ∀ m ∈ fieldMethods n t acc, m.isClass = true) ↔ (acc ≠ [] → cat ≠ .mulnum) := by
    constructor
    · intro h ha hc
      have : ∃ m, m ∈ fieldMethods n t acc := by
        rcases acc_cases acc ha with hr | hw
        · exact ⟨newMethod n false false false (some (accType t)) [] (.gen (.ret (.field n))), by
            simp [fieldMethods, (getter_iff acc).mpr hr]⟩
        · exact ⟨newMethod (['s', 'e', 't', '_'] ++ n) false false false none [('$' :: n, accType t)]
            (.gen (.setField n (.cast t (.var ('$' :: n))))), by simp [fieldMethods, (setter_iff acc).mpr hw]⟩
      obtain ⟨m, hm⟩ := this
      have h1 := h hc m hm
      rw [(body m hm).2.1] at h1
      cases h1
    · intro h hc m hm
      cases acc with
      | nil => simp [fieldMethods, hasGetter, hasSetter] at hm
      | cons a as => exact absurd hc (h (by simp))
  unfold DeclChecks NamesOk
  simp only [declErrs, opErrs, declOp, List.append_eq_nil_iff, accErrs_nil, Decl.classVarNames, Decl.Ok, names]
  constructor
  · rintro ⟨⟨h1, h2⟩, ⟨h3, h4⟩, _, h6⟩
    have hi : cat ≠ .interface := by intro h; simp [h] at h3
    refine ⟨⟨?_, h2, hi, ?_, ?_⟩, ⟨fun x hx => ⟨(h4 x hx).1, (h4 x hx).2.1⟩, fun h => absurd rfl (h4 _ h).2.2⟩⟩
    · rw [← hasColons_iff]; intro h; simp [h] at h1
    · intro ha
      have := inst.mp (fun hc m hm => (h6 m hm).2.1 hc) ha
      cases cat with
      | cls => rfl
      | interface => exact absurd rfl hi
      | mulnum => exact absurd rfl this
    · exact setter.mp (fun m hm => (h6 m hm).2.2)
  · rintro ⟨⟨h1, h2, h3, h4, h5⟩, h6, h7⟩
    refine ⟨⟨?_, h2⟩, ⟨by simp [h3], ?_⟩, (fun _ => trivial), fun m hm => ⟨(body m hm).1, fun hc => ?_, setter.mpr h5 m hm⟩⟩
    · rw [← hasColons_iff] at h1; simp [h1]
    · intro x hx
      refine ⟨(h6 x hx).1, (h6 x hx).2, ?_⟩
      rintro rfl
      obtain ⟨m, h⟩ := h7 hx
      cases h
    · exact inst.mpr (fun ha hc => by rw [h4 ha] at hc; cases hc) hc m hm

theorem method_checks (cat : Cat) (vars : List Name) (m : UserMethod) :
    DeclChecks cat vars (.method m) ↔ (Decl.method m).Ok cat ∧ NamesOk (.method m) := by
  obtain ⟨name, isClass, native, required, hasBlock, ret, args, code⟩ := m
  unfold DeclChecks NamesOk
  simp only [declErrs, opErrs, declOp, Decl.classVarNames, declMethods, opMethods, List.mem_singleton, forall_eq, Decl.methodNames,
    Decl.Ok, Method.errs, methodErrs, checkBody, UserMethod.build, newMethod, List.append_eq_nil_iff, ← hasColons_iff]
  by_cases hi : name = initName
  · subst hi
    cases hasBlock <;> simp
  by_cases hd : name = destroyName
  · subst hd
    cases isClass <;> cases native <;> cases required <;> cases hasBlock <;> cases cat <;>
      simp [mustHaveBlock, redeclared_nil', hi, selfVar, selfName, and_comm, and_left_comm, and_assoc]
  · cases isClass <;> cases native <;> cases required <;> cases hasBlock <;> cases cat <;>
      simp [mustHaveBlock, redeclared_nil', hi, hd, selfVar, selfName, and_comm, and_left_comm, and_assoc]

theorem enum_checks (cat : Cat) (vars : List Name) (items : List Item) :
    DeclChecks cat vars (.enum items) ↔ (Decl.enum items).Ok cat ∧ NamesOk (.enum items) := by
  unfold DeclChecks NamesOk
  simp only [declErrs, opErrs, declOp, Decl.classVarNames, Decl.methodNames, Decl.Ok, List.flatMap_eq_nil_iff, itemErrs_iff]
  constructor
  · rintro ⟨h, -, -, -⟩
    refine ⟨fun i hi => (h i hi).1, ?_, ?_⟩
    · intro n hn
      obtain ⟨i, hi, rfl⟩ := List.mem_map.mp hn
      exact ⟨(h i hi).2.1, (h i hi).2.2.1⟩
    · intro hn
      obtain ⟨i, hi, e⟩ := List.mem_map.mp hn
      exact absurd e (h i hi).2.2.2
  · rintro ⟨h1, h2, h3⟩
    refine ⟨fun i hi => ⟨h1 i hi, (h2 _ (List.mem_map.mpr ⟨i, hi, rfl⟩)).1, (h2 _ (List.mem_map.mpr ⟨i, hi, rfl⟩)).2, ?_⟩,
      trivial, (fun _ => trivial), ?_⟩
    · intro e
      obtain ⟨m, h⟩ := h3 (List.mem_map.mpr ⟨i, hi, e⟩)
      cases h
    · intro m hm
      obtain ⟨i, hi, v, rfl⟩ := mem_enumMethods items 0 m hm
      exact ⟨methodErrs_gen cat _ _ rfl rfl, fun _ => rfl, rfl⟩

theorem decl_checks (cat : Cat) (vars : List Name) (d : Decl) (hv : ∀ n ∈ d.classVarNames, n ∈ vars) :
    DeclChecks cat vars d ↔ d.Ok cat ∧ NamesOk d := by
  cases d with
  | classVar n t acc => exact classVar_checks cat vars n t acc (hv n (by simp [Decl.classVarNames]))
  | field n t acc => exact field_checks cat vars n t acc
  | enum items => exact enum_checks cat vars items
  | method m => exact method_checks cat vars m
  | init => simp [DeclChecks, NamesOk, declErrs, opErrs, declOp, Decl.classVarNames, declMethods, opMethods, Decl.Ok, Decl.methodNames]
  | version l =>
    cases l with
    | str s =>
      simp [DeclChecks, NamesOk, declErrs, opErrs, declOp, Decl.classVarNames, declMethods, opMethods, Decl.Ok, Decl.methodNames,
        checkVersion_iff]
    | int v => simp [DeclChecks, NamesOk, declErrs, opErrs, declOp, Decl.classVarNames, declMethods, opMethods, Decl.Ok, Decl.methodNames]
    | other => simp [DeclChecks, NamesOk, declErrs, opErrs, declOp, Decl.classVarNames, declMethods, opMethods, Decl.Ok, Decl.methodNames]

end Decl
end SPVM
