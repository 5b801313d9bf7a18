import Verif.Lemmas.Decl
/-!
# Lemmas on declarations: the class
-/
namespace SPVM
namespace Decl

/-- The op of a declaration when the counter is 0. -/
def declOp : Decl → Op
  | .version l => .version l
  | .classVar n t acc => .classVar n t acc
  | .field n t acc => .field n t acc
  | .enum items => .enum (enumMethods 0 items)
  | .method m => .method m.build
  | .init => .init

/-- The errors of the parser. -/
def declErrs : Decl → List Err
  | .version _ => []
  | .classVar n _ acc => (if hasColons n then [.colons] else []) ++ accErrs acc
  | .field n _ acc => (if hasColons n then [.colons] else []) ++ accErrs acc
  | .enum items => items.flatMap itemErrs
  | .method m => m.build.errs
  | .init => []

/-- An enumeration that goes beyond the largest int. -/
def MaxIn (ds : List Decl) : Prop := ∃ items, Decl.enum items ∈ ds ∧ 2147483647 ∈ valsFrom 0 (items.map Item.given)

theorem parse_eq (ds : List Decl) :
    (MaxIn ds ∧ parseDecls 0 ds = .ub) ∨ (¬ MaxIn ds ∧ parseDecls 0 ds = .ok (ds.map declOp, ds.flatMap declErrs, 0)) := by
  induction ds with
  | nil => right; exact ⟨(by rintro ⟨i, h, _⟩; cases h), rfl⟩
  | cons d ds ih =>
    have go : ∀ o e, parseDecl 0 d = .ok (o, e, 0) → o = declOp d → e = declErrs d → (∀ items, d = .enum items →
        2147483647 ∉ valsFrom 0 (items.map Item.given)) →
        (MaxIn (d :: ds) ∧ parseDecls 0 (d :: ds) = .ub) ∨
        (¬ MaxIn (d :: ds) ∧ parseDecls 0 (d :: ds) = .ok ((d :: ds).map declOp, (d :: ds).flatMap declErrs, 0)) := by
      intro o e h ho he hi
      rcases ih with ⟨⟨items, h1, h2⟩, h3⟩ | ⟨h1, h2⟩
      · left
        exact ⟨⟨items, List.mem_cons_of_mem _ h1, h2⟩, by simp [parseDecls, h, h3]⟩
      · right
        refine ⟨?_, by simp [parseDecls, h, h2, ho, he]⟩
        rintro ⟨items, hm, hx⟩
        rcases List.mem_cons.mp hm with rfl | hm
        · exact hi items rfl hx
        · exact h1 ⟨items, hm, hx⟩
    cases d with
    | version l => exact go _ _ rfl rfl rfl (by intro i h; cases h)
    | classVar n t acc => exact go _ _ rfl rfl rfl (by intro i h; cases h)
    | field n t acc => exact go _ _ rfl rfl rfl (by intro i h; cases h)
    | method m => exact go _ _ rfl rfl rfl (by intro i h; cases h)
    | init => exact go _ _ rfl rfl rfl (by intro i h; cases h)
    | enum items =>
      rcases enumItems_eq items 0 with ⟨h1, h2⟩ | ⟨h1, last, h2⟩
      · left
        exact ⟨⟨items, List.mem_cons_self, h1⟩, by simp [parseDecls, parseDecl, h2]⟩
      · exact go (.enum (enumMethods 0 items)) (items.flatMap itemErrs) (by simp [parseDecl, h2]) rfl rfl
          (by intro i h; cases h; exact h1)

/-! ## The loop -/

def opMethods : Op → List Method
  | .version _ => []
  | .classVar n t acc => classVarMethods n t acc
  | .field n t acc => fieldMethods n t acc
  | .enum ms => ms
  | .method m => [m]
  | .init => []

def opVars : Op → List (Name × Ty)
  | .classVar n t _ => [(n, t)]
  | _ => []

def opFields : Op → List (Name × Ty)
  | .field n t _ => [(n, t)]
  | _ => []

def opErrs (cat : Cat) : Op → List Err
  | .version (.str s) => (checkVersion s).toList
  | .version _ => [.versionType]
  | .classVar n t acc => (if cat = .interface then [.interfaceVar] else []) ++ (classVarMethods n t acc).flatMap Method.errs
  | .field n t acc => (if cat = .interface then [.interfaceField] else []) ++ (fieldMethods n t acc).flatMap Method.errs
  | _ => []

def isVersion : Op → Bool
  | .version _ => true
  | _ => false

theorem step_errs (cat : Cat) (c : Cls) (o : Op) (h : c.errs ≠ []) : (step cat c o).1.errs ≠ [] := by
  cases o with
  | version l =>
    simp only [step]
    split
    · simp
    · split
      · split
        · simp
        · exact h
      · simp
  | classVar n t acc => simp [step, h]
  | field n t acc => simp [step, h]
  | enum ms => exact h
  | method m => exact h
  | init => exact h

theorem loop_errs (cat : Cat) (ops : List Op) (c : Cls) (h : c.errs ≠ []) : (loop cat ops c).errs ≠ [] := by
  induction ops generalizing c with
  | nil => exact h
  | cons o os ih =>
    simp only [loop]
    split
    · exact step_errs cat c o h
    · exact ih _ (step_errs cat c o h)

/-- A class without errors so far, with other members. -/
structure Grew (c c' : Cls) (ops : List Op) : Prop where
  errs : c'.errs = []
  classVars : c'.classVars = c.classVars ++ ops.flatMap opVars
  fields : c'.fields = c.fields ++ ops.flatMap opFields
  methods : c'.methods = c.methods ++ ops.flatMap opMethods
  version : ∀ s, Op.version (.str s) ∈ ops → c'.version = some s
  noVersion : ops.filter isVersion = [] → c'.version = c.version

theorem loop_iff (cat : Cat) (ops : List Op) (c : Cls) (hc : c.errs = []) :
    ((loop cat ops c).errs = [] ↔
      (∀ o ∈ ops, opErrs cat o = []) ∧ (ops.filter isVersion).length + (if c.version.isSome then 1 else 0) ≤ 1) ∧
    ((loop cat ops c).errs = [] → Grew c (loop cat ops c) ops) := by
  induction ops generalizing c with
  | nil =>
    refine ⟨?_, fun _ => ⟨hc, by simp [loop], by simp [loop], by simp [loop], by simp, fun _ => rfl⟩⟩
    simp [loop, hc]
    split <;> omega
  | cons o os ih =>
    -- a declaration that is no version and adds errors `e`
    have plain : ∀ (c' : Cls), (step cat c o) = (c', false) → isVersion o = false → c'.errs = c.errs ++ opErrs cat o →
        c'.version = c.version → c'.classVars = c.classVars ++ opVars o → c'.fields = c.fields ++ opFields o →
        c'.methods = c.methods ++ opMethods o →
        (((loop cat (o :: os) c).errs = [] ↔
          (∀ o' ∈ o :: os, opErrs cat o' = []) ∧ ((o :: os).filter isVersion).length + (if c.version.isSome then 1 else 0) ≤ 1) ∧
        ((loop cat (o :: os) c).errs = [] → Grew c (loop cat (o :: os) c) (o :: os))) := by
      intro c' hs hv he hver h1 h2 h3
      have el : loop cat (o :: os) c = loop cat os c' := by simp [loop, hs]
      rw [el]
      rw [hc, List.nil_append] at he
      by_cases h0 : opErrs cat o = []
      · have := ih c' (he.trans h0)
        rw [hver] at this
        simp only [List.filter_cons, hv]
        refine ⟨?_, ?_⟩
        · rw [this.1]; simp [h0]
        · intro hh
          have g := this.2 hh
          refine ⟨g.errs, by rw [g.classVars, h1]; simp, by rw [g.fields, h2]; simp, by rw [g.methods, h3]; simp, ?_, ?_⟩
          · intro s hs'
            rcases List.mem_cons.mp hs' with rfl | hs'
            · cases hv
            · exact g.version s hs'
          · intro hf
            rw [g.noVersion (by simpa [List.filter_cons, hv] using hf), hver]
      · have := loop_errs cat os c' (by rw [he]; exact h0)
        refine ⟨⟨fun h => absurd h this, fun h => absurd (h.1 o List.mem_cons_self) h0⟩, fun h => absurd h this⟩
    cases o with
    | classVar n t acc =>
      exact plain _ rfl rfl (by simp [opErrs]) rfl rfl (by simp [opFields]) rfl
    | field n t acc =>
      exact plain _ rfl rfl (by simp [opErrs]) rfl (by simp [opVars]) rfl rfl
    | enum ms => exact plain _ rfl rfl (by simp [opErrs]) rfl (by simp [opVars]) (by simp [opFields]) rfl
    | method m => exact plain _ rfl rfl (by simp [opErrs]) rfl (by simp [opVars]) (by simp [opFields]) rfl
    | init => exact plain _ rfl rfl (by simp [opErrs]) rfl (by simp [opVars]) (by simp [opFields]) (by simp [opMethods])
    | version l =>
      -- an error of the version
      have bad : ∀ e, step cat c (.version l) = ({ c with errs := c.errs ++ [e] }, true) →
          ¬ ((∀ o' ∈ Op.version l :: os, opErrs cat o' = []) ∧
            ((Op.version l :: os).filter isVersion).length + (if c.version.isSome then 1 else 0) ≤ 1) →
          (((loop cat (.version l :: os) c).errs = [] ↔
            (∀ o' ∈ Op.version l :: os, opErrs cat o' = []) ∧
              ((Op.version l :: os).filter isVersion).length + (if c.version.isSome then 1 else 0) ≤ 1) ∧
          ((loop cat (.version l :: os) c).errs = [] → Grew c (loop cat (.version l :: os) c) (.version l :: os))) := by
        intro e hs hn
        have : (loop cat (.version l :: os) c).errs ≠ [] := by simp [loop, hs]
        exact ⟨⟨fun h => absurd h this, fun h => absurd h hn⟩, fun h => absurd h this⟩
      by_cases hv : c.version.isSome = true
      · refine bad .versionTwice (by simp [step, hv]) ?_
        rintro ⟨_, h⟩
        simp [List.filter_cons, isVersion, hv] at h
      · cases l with
        | int v =>
          refine bad .versionType (by simp [step, hv]) ?_
          rintro ⟨h, _⟩
          exact absurd (h _ List.mem_cons_self) (by simp [opErrs])
        | other =>
          refine bad .versionType (by simp [step, hv]) ?_
          rintro ⟨h, _⟩
          exact absurd (h _ List.mem_cons_self) (by simp [opErrs])
        | str s =>
          cases hs : checkVersion s with
          | some e =>
            refine bad e (by simp [step, hv, hs]) ?_
            rintro ⟨h, _⟩
            exact absurd (h _ List.mem_cons_self) (by simp [opErrs, hs])
          | none =>
            have el : loop cat (.version (.str s) :: os) c = loop cat os { c with version := some s } := by
              simp [loop, step, hv, hs]
            rw [el]
            have := ih { c with version := some s } hc
            refine ⟨?_, ?_⟩
            · rw [this.1]
              simp [hv, List.filter_cons, isVersion, opErrs, hs]
            · intro hh
              have g := this.2 hh
              have hz : os.filter isVersion = [] := by
                have := (this.1.mp hh).2
                simp at this
                simpa using this
              refine ⟨g.errs, by rw [g.classVars]; simp [opVars], by rw [g.fields]; simp [opFields],
                by rw [g.methods]; simp [opMethods], ?_, ?_⟩
              · intro s' hs'
                rcases List.mem_cons.mp hs' with e | hs'
                · cases e
                  rw [g.noVersion hz]
                · have : Op.version (.str s') ∈ os.filter isVersion := List.mem_filter.mpr ⟨hs', rfl⟩
                  rw [hz] at this
                  cases this
              · intro hf
                simp [List.filter_cons, isVersion] at hf

/-! ## The class -/

/-- What `buildClass` gives when there is no error. -/
theorem build_iff (cat : Cat) (ops : List Op) :
    ((buildClass cat ops).errs = [] ↔
      (∀ o ∈ ops, opErrs cat o = []) ∧ (ops.filter isVersion).length ≤ 1 ∧
      (ops.flatMap opFields |>.map (·.1)).Nodup ∧ (ops.flatMap opVars |>.map (·.1)).Nodup ∧
      (∀ m ∈ ops.flatMap opMethods ++ [initMethod], methodErrs cat m = [] ∧ (cat = .mulnum → m.isClass = true) ∧
        checkBody (ops.flatMap opVars |>.map (·.1)) m = []) ∧
      ((ops.flatMap opMethods ++ [initMethod]).map (·.name)).Nodup ∧
      (cat = .mulnum → ops.flatMap opVars = [] ∧ 1 ≤ (ops.flatMap opFields).length ∧ (ops.flatMap opFields).length ≤ 255)) ∧
    ((buildClass cat ops).errs = [] → (buildClass cat ops).methods = ops.flatMap opMethods ++ [initMethod] ∧
      (buildClass cat ops).classVars = ops.flatMap opVars ∧ (buildClass cat ops).fields = ops.flatMap opFields ∧
      (∀ s, Op.version (.str s) ∈ ops → (buildClass cat ops).version = some s) ∧
      (ops.filter isVersion = [] → (buildClass cat ops).version = none)) := by
  have L := loop_iff cat ops ⟨none, [], [], [], []⟩ rfl
  have mul : ∀ c : Cls, mulnumErrs cat c = [] ↔ (cat = .mulnum → (∀ m ∈ c.methods, m.isClass = true) ∧ c.classVars = [] ∧
      1 ≤ c.fields.length ∧ c.fields.length ≤ 255) := by
    intro c
    unfold mulnumErrs
    by_cases hc : cat = .mulnum
    · simp only [hc, if_true, List.append_eq_nil_iff, List.flatMap_eq_nil_iff, true_implies]
      constructor
      · rintro ⟨⟨h1, h2⟩, h3⟩
        refine ⟨?_, ?_, ?_⟩
        · intro m hm
          have := h1 m hm
          revert this; cases m.isClass <;> simp
        · cases hv : c.classVars with
          | nil => rfl
          | cons a l => simp [hv] at h2
        · split at h3
          · cases h3
          · split at h3
            · cases h3
            · omega
      · rintro ⟨h1, h2, h3, h4⟩
        refine ⟨⟨?_, by simp [h2]⟩, ?_⟩
        · intro m hm; simp [h1 m hm]
        · rw [if_neg (by omega), if_neg (by omega)]
    · simp [hc]
  by_cases hl : (loop cat ops ⟨none, [], [], [], []⟩).errs = []
  · have g := L.2 hl
    have em : (buildClass cat ops).methods = ops.flatMap opMethods ++ [initMethod] := by
      simp [buildClass, g.methods]
    have ev : (buildClass cat ops).classVars = ops.flatMap opVars := by simp [buildClass, g.classVars]
    have ef : (buildClass cat ops).fields = ops.flatMap opFields := by simp [buildClass, g.fields]
    refine ⟨?_, fun _ => ⟨em, ev, ef, g.version, g.noVersion⟩⟩
    have l1 := L.1.mp hl
    simp only [buildClass, List.append_eq_nil_iff, redeclared_nil', mul, List.flatMap_eq_nil_iff, g.errs, g.methods, g.classVars,
      g.fields, List.nil_append]
    constructor
    · rintro ⟨⟨⟨⟨⟨h1, h2⟩, h3⟩, h4⟩, h5⟩, h6⟩
      exact ⟨l1.1, by simpa using l1.2, h1, h2, fun m hm => ⟨h3 m hm, fun hc => (h5 hc).1 m hm, h6 m hm⟩, h4, fun hc => (h5 hc).2⟩
    · rintro ⟨_, _, h1, h2, h3, h4, h5⟩
      exact ⟨⟨⟨⟨⟨h1, h2⟩, fun m hm => (h3 m hm).1⟩, h4⟩, fun hc => ⟨fun m hm => (h3 m hm).2.1 hc, h5 hc⟩⟩, fun m hm => (h3 m hm).2.2⟩
  · have hb : (buildClass cat ops).errs ≠ [] := by
      simp only [buildClass]
      intro h
      simp only [List.append_eq_nil_iff] at h
      exact hl h.1.1.1.1.1.1
    refine ⟨⟨fun h => absurd h hb, ?_⟩, fun h => absurd h hb⟩
    rintro ⟨h1, h2, _⟩
    exact absurd (L.1.mpr ⟨h1, by simpa using h2⟩) hl

end Decl
end SPVM
