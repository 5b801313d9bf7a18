import Verif.Lemmas.Load
/-! The beginning and the end of a compilation. -/
namespace SPVM
namespace Load
open VM (Bytes)
open Spec.Load (Occurs NameOk First HasSource Absent Mentions Setting Needed Loaded Defines WellFormed Refers Loadable Resolved Safe
  basicTypes defaultClasses defaultSources settingOf)

/-! ## Class files and their specification -/

theorem find_first (p : α → Bool) (P : α → Prop) (hP : ∀ x, p x = true ↔ P x) (l : List α) (x : α) :
    l.find? p = some x ↔ First P x l := by
  rw [List.find?_eq_some_iff_append]
  unfold First
  constructor
  · rintro ⟨h, a, b, hl, ha⟩
    exact ⟨a, b, hl, (hP x).1 h, fun y hy hp => by have := ha y hy; rw [(hP y).2 hp] at this; cases this⟩
  · rintro ⟨a, b, hl, h, ha⟩
    refine ⟨(hP x).2 h, a, b, hl, fun y hy => ?_⟩
    cases hp : p y with
    | false => rfl
    | true => exact absurd ((hP y).1 hp) (ha y hy)

theorem find_none (p : α → Bool) (P : α → Prop) (hP : ∀ x, p x = true ↔ P x) (l : List α) : l.find? p = none ↔ ∀ x ∈ l, ¬ P x := by
  rw [List.find?_eq_none]
  constructor
  · intro h x hx hp; exact h x hx ((hP x).2 hp)
  · intro h x hx hp; exact h x hx ((hP x).1 hp)

theorem getFile_first (fs : List File) (n : Bytes) (f : File) : getFile fs n = some f ↔ First (fun f : File => f.name = n) f fs :=
  find_first _ _ (by simp) fs f

theorem getFile_none (fs : List File) (n : Bytes) : getFile fs n = none ↔ ∀ f ∈ fs, f.name ≠ n :=
  find_none _ _ (by simp) fs

theorem First.cons_pos {P : α → Prop} {x y : α} {l : List α} (h : P y) : First P x (y :: l) ↔ x = y := by
  constructor
  · rintro ⟨a, b, hl, hx, ha⟩
    cases a with
    | nil => simp only [List.nil_append, List.cons.injEq] at hl; exact hl.1.symm
    | cons z a =>
      simp only [List.cons_append, List.cons.injEq] at hl
      exact absurd (hl.1 ▸ h) (ha z (by simp))
  · rintro rfl
    exact ⟨[], l, rfl, h, by simp⟩

theorem First.cons_neg {P : α → Prop} {x y : α} {l : List α} (h : ¬ P y) : First P x (y :: l) ↔ First P x l := by
  constructor
  · rintro ⟨a, b, hl, hx, ha⟩
    cases a with
    | nil => simp only [List.nil_append, List.cons.injEq] at hl; exact absurd hx (hl.1 ▸ h)
    | cons z a =>
      simp only [List.cons_append, List.cons.injEq] at hl
      exact ⟨a, b, hl.2, hx, fun y hy => ha y (by simp [hy])⟩
  · rintro ⟨a, b, rfl, hx, ha⟩
    refine ⟨y :: a, b, rfl, hx, ?_⟩
    intro z hz
    rcases List.mem_cons.1 hz with rfl | hz
    · exact h
    · exact ha z hz

theorem search_first (ds : Dirs) (n : Bytes) (s : Source) :
    search ds n = some s ↔ ∃ d, First (fun d => ∃ p ∈ d, p.1 = n) d ds ∧ First (fun p : Bytes × Source => p.1 = n) (n, s) d := by
  induction ds with
  | nil =>
    simp only [search, reduceCtorEq, false_iff]
    rintro ⟨d, ⟨a, b, h, _⟩, _⟩
    cases a <;> cases h
  | cons d ds ih =>
    rw [search]
    cases hf : d.find? (fun p => p.1 == n) with
    | none =>
      have hn : ¬ ∃ p ∈ d, p.1 = n := by
        rintro ⟨p, hp, h⟩
        exact (find_none (fun p : Bytes × Source => p.1 == n) (fun p => p.1 = n) (by simp) d).1 hf p hp h
      rw [ih]
      constructor
      · rintro ⟨x, h1, h2⟩; exact ⟨x, (First.cons_neg (P := fun d : List (Bytes × Source) => ∃ p ∈ d, p.1 = n) hn).2 h1, h2⟩
      · rintro ⟨x, h1, h2⟩; exact ⟨x, (First.cons_neg (P := fun d : List (Bytes × Source) => ∃ p ∈ d, p.1 = n) hn).1 h1, h2⟩
    | some p =>
      have hfirst := (find_first (fun p : Bytes × Source => p.1 == n) (fun p => p.1 = n) (by simp) d p).1 hf
      have hn : ∃ p ∈ d, p.1 = n := ⟨p, List.mem_of_find?_eq_some hf, by simpa using List.find?_some hf⟩
      have hpn : p.1 = n := by simpa using List.find?_some hf
      simp only [Option.some.injEq]
      constructor
      · rintro rfl
        subst hpn
        exact ⟨d, (First.cons_pos (P := fun d : List (Bytes × Source) => ∃ q ∈ d, q.1 = p.1) hn).2 rfl, hfirst⟩
      · rintro ⟨x, h1, h⟩
        cases (First.cons_pos (P := fun d : List (Bytes × Source) => ∃ p ∈ d, p.1 = n) hn).1 h1
        have := (find_first (fun p : Bytes × Source => p.1 == n) (fun p => p.1 = n) (by simp) d (n, s)).2 h
        rw [hf] at this
        cases this
        rfl

theorem search_none (ds : Dirs) (n : Bytes) : search ds n = none ↔ ∀ d ∈ ds, ∀ p ∈ d, p.1 ≠ n := by
  induction ds with
  | nil => simp [search]
  | cons d ds ih =>
    rw [search]
    cases hf : d.find? (fun p => p.1 == n) with
    | none =>
      have := (find_none (fun p : Bytes × Source => p.1 == n) (fun p => p.1 = n) (by simp) d).1 hf
      simp only [ih, List.mem_cons, forall_eq_or_imp]
      exact ⟨fun h => ⟨this, h⟩, fun h => h.2⟩
    | some p =>
      have hpn : p.1 = n := by simpa using List.find?_some hf
      simp only [reduceCtorEq, false_iff]
      intro h
      exact h d (by simp) p (List.mem_of_find?_eq_some hf) hpn

theorem hasSource_iff (fs : List File) (ds : Dirs) (n : Bytes) (s : Source) : HasSource fs ds n s ↔ ∃ b, view fs ds n = some (some s, b) := by
  unfold HasSource view
  cases hg : getFile fs n with
  | some f =>
    simp only [Option.some.injEq, Prod.mk.injEq, exists_and_left, exists_eq', and_true]
    constructor
    · rintro (⟨g, h1, h2⟩ | ⟨h1, _⟩)
      · rw [← getFile_first, hg] at h1
        cases h1
        exact h2
      · rw [← getFile_none, hg] at h1
        cases h1
    · intro h
      exact .inl ⟨f, (getFile_first _ _ _).1 hg, h⟩
  | none =>
    have hnf : ∀ f, ¬ First (fun f : File => f.name = n) f fs := fun f h => by
      rw [← getFile_first, hg] at h
      cases h
    simp only [hnf, false_and, exists_false, false_or]
    rw [← search_first]
    constructor
    · rintro ⟨_, h⟩
      exact ⟨true, by rw [h]; rfl⟩
    · rintro ⟨b, h⟩
      refine ⟨(getFile_none _ _).1 hg, ?_⟩
      cases hs : search ds n with
      | none => rw [hs] at h; cases h
      | some s' => rw [hs] at h; cases h; rfl

theorem absent_iff (fs : List File) (ds : Dirs) (n : Bytes) : Absent fs ds n ↔ view fs ds n = none := by
  unfold Absent view
  rw [← getFile_none, ← search_none]
  cases getFile fs n with
  | some f => simp
  | none => cases search ds n <;> simp

/-! ## Setting and deleting class files -/

/-- Is the name of the class file alive? -/
def liveOf (fs : List File) (n : Bytes) : Bool :=
  match getFile fs n with
  | some f => f.live
  | none => true

theorem getFile_name {fs : List File} {n : Bytes} {f : File} (h : getFile fs n = some f) : f.name = n := by
  simpa using List.find?_some h

theorem getFile_cons (f : File) (fs : List File) (n : Bytes) : getFile (f :: fs) n = if f.name = n then some f else getFile fs n := by
  unfold getFile
  rw [List.find?_cons]
  by_cases h : f.name = n
  · simp [h]
  · simp [h, beq_eq_false_iff_ne.2 h]

theorem getFile_setContent (fs : List File) (n : Bytes) (s : Source) (m : Bytes) :
    getFile (setContent fs n s) m = if m = n then (getFile fs n).map (fun f => { f with content := some s }) else getFile fs m := by
  induction fs with
  | nil => simp [setContent, getFile]
  | cons f fs ih =>
    rw [setContent]
    by_cases hf : f.name = n
    · rw [if_pos (by simp [hf]), getFile_cons, getFile_cons, getFile_cons]
      by_cases hm : m = n
      · simp [hf, hm]
      · have : ¬ n = m := fun h => hm h.symm
        simp [hf, hm, this]
    · rw [if_neg (by simp [hf]), getFile_cons, ih, getFile_cons, getFile_cons]
      by_cases hm : m = n
      · simp [hf, hm]
      · simp [hm]

theorem getFile_setFile (fs : List File) (n : Bytes) (s : Source) (m : Bytes) :
    getFile (setFile fs n s) m = if m = n then some { name := n, content := some s, live := liveOf fs n } else getFile fs m := by
  unfold setFile
  rw [getFile_setContent]
  unfold addFile liveOf
  cases hg : getFile fs n with
  | some f =>
    simp only [hg, Option.map_some, getFile_name hg]
  | none =>
    simp only
    rw [getFile_append, getFile_append, hg]
    by_cases hm : m = n
    · simp [hm, getFile]
    · have : ¬ n = m := fun h => hm h.symm
      rw [if_neg hm, if_neg hm]
      have : getFile [({ name := n, content := none } : File)] m = none := by simp [getFile, this]
      rw [this]
      simp

theorem view_setFile (fs : List File) (ds : Dirs) (n : Bytes) (s : Source) (m : Bytes) :
    view (setFile fs n s) ds m = if m = n then some (some s, liveOf fs n) else view fs ds m := by
  unfold view
  rw [getFile_setFile]
  by_cases hm : m = n
  · rw [if_pos hm, if_pos hm]
  · rw [if_neg hm, if_neg hm]

theorem liveOf_setFile (fs : List File) (n : Bytes) (s : Source) (m : Bytes) : liveOf (setFile fs n s) m = liveOf fs m := by
  unfold liveOf
  rw [getFile_setFile]
  by_cases hm : m = n
  · subst hm
    rw [if_pos rfl]
    rfl
  · rw [if_neg hm]

/-- The default class files. -/
def withDefaults (fs : List File) : List File := defaultFiles.foldl (fun fs p => setFile fs p.1 p.2) fs

theorem view_setFiles (l : List (Bytes × Source)) (ds : Dirs) (n : Bytes) : ∀ fs,
    (∀ p ∈ l, p.1 ≠ n) → view (l.foldl (fun fs p => setFile fs p.1 p.2) fs) ds n = view fs ds n := by
  induction l with
  | nil => intro fs _; rfl
  | cons p l ih =>
    intro fs h
    rw [List.foldl_cons, ih _ (fun p hp => h p (List.mem_cons_of_mem _ hp)), view_setFile, if_neg (fun e => h p (by simp) e.symm)]

theorem view_setFiles_mem (l : List (Bytes × Source)) (ds : Dirs) (n : Bytes) (s : Source) : ∀ fs,
    (n, s) ∈ l → (l.map (·.1)).Nodup → view (l.foldl (fun fs p => setFile fs p.1 p.2) fs) ds n = some (some s, liveOf fs n) := by
  induction l with
  | nil => intro fs h; cases h
  | cons p l ih =>
    intro fs h hn
    rw [List.map_cons, List.nodup_cons] at hn
    rw [List.foldl_cons]
    rcases List.mem_cons.1 h with h | h
    · subst h
      rw [view_setFiles l ds n _ (fun p hp e => hn.1 (List.mem_map.2 ⟨p, hp, e⟩)), view_setFile, if_pos rfl]
    · rw [ih _ h hn.2, liveOf_setFile]

theorem default_nodup : (defaultFiles.map (·.1)).Nodup := by decide +kernel

theorem default_sources : ∀ p, p ∈ defaultFiles ↔ p ∈ defaultSources := by
  have h1 : ∀ p ∈ defaultFiles, p ∈ defaultSources := by decide +kernel
  have h2 : ∀ p ∈ defaultSources, p ∈ defaultFiles := by decide +kernel
  exact fun p => ⟨h1 p, h2 p⟩

theorem default_classes : ∀ n, n ∈ defaultClasses ↔ ∃ s, (n, s) ∈ defaultSources := by
  intro n
  unfold defaultClasses defaultSources
  simp only [List.mem_map, Prod.mk.injEq]
  constructor
  · rintro ⟨p, hp, rfl⟩; exact ⟨_, p, hp, rfl, rfl⟩
  · rintro ⟨s, p, hp, rfl, _⟩; exact ⟨p, hp, rfl⟩

theorem default_names : defaultNames = defaultClasses := by decide +kernel
theorem core_names : coreNames = basicTypes := by decide +kernel

theorem view_defaults (fs : List File) (ds : Dirs) (n : Bytes) :
    (∀ s, (n, s) ∈ defaultSources → view (withDefaults fs) ds n = some (some s, liveOf fs n)) ∧
    (n ∉ defaultClasses → view (withDefaults fs) ds n = view fs ds n) := by
  constructor
  · intro s hs
    exact view_setFiles_mem _ _ _ _ _ ((default_sources _).2 hs) default_nodup
  · intro hn
    refine view_setFiles _ _ _ _ (fun p hp e => ?_)
    exact hn ((default_classes n).2 ⟨p.2, by rw [← e]; exact (default_sources _).1 hp⟩)

/-! ## The beginning -/

theorem foldl_start (l : List Bytes) : ∀ r, let r' := l.foldl start r
    r'.types = r.types ∧ r'.sym = r.sym ∧ r'.files = r.files ∧ r'.missing = r.missing ∧ r'.errs = r.errs ∧
    (∀ p, p ∈ r'.queue ↔ p ∈ r.queue ∨ (p.2 = false ∧ p.1 ∈ l)) ∧ (∀ t, t ∈ r'.refs ↔ t ∈ r.refs ∨ t ∈ l) := by
  induction l with
  | nil => intro r; simp
  | cons n l ih =>
    intro r
    obtain ⟨h1, h2, h3, h4, h5, h6, h7⟩ := ih (start r n)
    refine ⟨h1, h2, h3, h4, h5, ?_, ?_⟩
    · intro p
      obtain ⟨a, b⟩ := p
      rw [List.foldl_cons, h6]
      simp only [start, pushUse, List.mem_append, List.mem_cons, List.not_mem_nil, or_false, Prod.mk.injEq]
      constructor
      · rintro (((h | h) | h) | ⟨h, h'⟩)
        · exact .inl h
        · exact .inr ⟨h.2, .inl h.1⟩
        · exact .inr ⟨h.2, .inl h.1⟩
        · exact .inr ⟨h, .inr h'⟩
      · rintro (h | ⟨h, h' | h'⟩)
        · exact .inl (.inl (.inl h))
        · exact .inl (.inr ⟨h', h⟩)
        · exact .inr ⟨h, h'⟩
    · intro t
      rw [List.foldl_cons, h7]
      simp only [start, pushUse, List.mem_append, List.mem_cons, List.not_mem_nil, or_false, or_assoc]

theorem foldl_addType (l : List Bytes) : ∀ r, let r' := l.foldl (fun r n => addType r { name := n, src := none }) r
    Grow r r' (fun e => e.src = none ∧ e.name ∈ l) ∧ r'.queue = r.queue ∧ r'.refs = r.refs ∧ r'.errs = r.errs := by
  induction l with
  | nil =>
    intro r
    exact ⟨Grow.trans (Grow.refl r) (Grow.refl r) (by simp), rfl, rfl, rfl⟩
  | cons n l ih =>
    intro r
    obtain ⟨h1, h2, h3, h4⟩ := ih (addType r { name := n, src := none })
    refine ⟨Grow.trans (addType_grow r { name := n, src := none }) h1 ?_, ?_, ?_, ?_⟩
    · intro e
      obtain ⟨en, es⟩ := e
      simp only [List.mem_cons, Entry.mk.injEq]
      constructor
      · rintro ⟨h, h' | h'⟩
        · exact .inl ⟨h', h⟩
        · exact .inr ⟨h, h'⟩
      · rintro (⟨h, h'⟩ | ⟨h, h'⟩)
        · exact ⟨h', .inl h⟩
        · exact ⟨h, .inr h'⟩
    · rw [List.foldl_cons, h2, addType_queue]
    · rw [List.foldl_cons, h3, addType_refs]
    · rw [List.foldl_cons, h4, addType_errs]

/-- The beginning of a compilation. -/
structure Began (c : Comp) (fs : List File) (name : Option Bytes) (r : Run) : Prop where
  cons : Cons c.types c.sym → Cons r.types r.sym
  add : ∃ a, r.types = c.types ++ a ∧ ∀ e ∈ a, c.types = [] ∧ e.src = none ∧ e.name ∈ basicTypes
  sym : ∀ n, (r.sym n).isSome = true ↔ (c.sym n).isSome = true ∨ (c.types = [] ∧ n ∈ basicTypes)
  files : r.files = if c.types.length = 0 then withDefaults fs else fs
  missing : r.missing = []
  queue : ∀ p, p ∈ r.queue ↔ p.2 = false ∧ p.1 ∈ defaultClasses ++ name.toList
  refs : ∀ t, t ∈ r.refs ↔ t ∈ defaultClasses ++ name.toList
  errs : r.errs = false

theorem begin_spec (c : Comp) (fs : List File) (name : Option Bytes) : Began c fs name (begin' c fs name) := by
  have key : begin' c fs name = (defaultNames ++ name.toList).foldl start
    (if c.types.length = 0 then
      { coreNames.foldl (fun r n => addType r { name := n, src := none })
          { types := c.types, sym := c.sym, files := fs, queue := [], missing := [], refs := [], errs := false } with
        files := defaultFiles.foldl (fun fs p => setFile fs p.1 p.2) (coreNames.foldl (fun r n => addType r { name := n, src := none })
          { types := c.types, sym := c.sym, files := fs, queue := [], missing := [], refs := [], errs := false }).files }
      else { types := c.types, sym := c.sym, files := fs, queue := [], missing := [], refs := [], errs := false }) := by
    cases name with
    | none => simp [begin']
    | some n => simp [begin']
  rw [key]
  obtain ⟨h1, h2, h3, h4, h5, h6, h7⟩ := foldl_start (defaultNames ++ name.toList)
    (if c.types.length = 0 then
      { coreNames.foldl (fun r n => addType r { name := n, src := none })
          { types := c.types, sym := c.sym, files := fs, queue := [], missing := [], refs := [], errs := false } with
        files := defaultFiles.foldl (fun fs p => setFile fs p.1 p.2) (coreNames.foldl (fun r n => addType r { name := n, src := none })
          { types := c.types, sym := c.sym, files := fs, queue := [], missing := [], refs := [], errs := false }).files }
      else { types := c.types, sym := c.sym, files := fs, queue := [], missing := [], refs := [], errs := false })
  obtain ⟨g, q, f, e⟩ := foldl_addType coreNames { types := c.types, sym := c.sym, files := fs, queue := [], missing := [], refs := [], errs := false }
  by_cases hz : c.types.length = 0
  · rw [if_pos hz] at h1 h2 h3 h4 h5 h6 h7
    have hz' : c.types = [] := List.length_eq_zero_iff.1 hz
    rw [if_pos hz]
    refine ⟨?_, ?_, ?_, ?_, ?_, ?_, ?_, ?_⟩
    · rw [h1, h2]; exact g.cons
    · rw [h1]
      obtain ⟨a, ha, ha'⟩ := g.add
      exact ⟨a, ha, fun e he => ⟨hz', (ha' e he).1, by rw [← core_names]; exact (ha' e he).2⟩⟩
    · intro n
      rw [h2, ← core_names]
      refine (g.has n).trans ?_
      constructor
      · rintro (h | ⟨e, ⟨_, h⟩, rfl⟩)
        · exact .inl h
        · exact .inr ⟨hz', h⟩
      · rintro (h | ⟨_, h⟩)
        · exact .inl h
        · exact .inr ⟨{ name := n, src := none }, ⟨rfl, h⟩, rfl⟩
    · rw [h3, if_pos hz]
      unfold withDefaults
      simp only [g.files]
    · rw [h4]; exact g.missing
    · intro p
      rw [h6, ← default_names]
      simp [q]
    · intro t
      rw [h7, ← default_names]
      simp [f]
    · rw [h5]; exact e
  · rw [if_neg hz] at h1 h2 h3 h4 h5 h6 h7
    have hz' : ¬ c.types = [] := fun h => hz (by rw [h]; rfl)
    rw [if_neg hz]
    refine ⟨?_, ?_, ?_, ?_, h4, ?_, ?_, h5⟩
    · rw [h1, h2]; exact id
    · rw [h1]; exact ⟨[], by simp⟩
    · intro n
      rw [h2]
      simp [hz']
    · rw [h3, if_neg hz]
    · intro p
      rw [h6, ← default_names]
      simp
    · intro t
      rw [h7, ← default_names]
      simp

/-- The setting in terms of the specification. -/
theorem setting_eq (c : Comp) (fs : List File) (ds : Dirs) (name : Option Bytes) (hc : Cons c.types c.sym) :
    setting (begin' c fs name) ds (defaultClasses ++ name.toList) = settingOf c.types fs ds name := by
  have b := begin_spec c fs name
  have hv : ∀ n, (c.types = [] → n ∉ defaultClasses) → view (begin' c fs name).files ds n = view fs ds n := by
    intro n h
    rw [b.files]
    by_cases hz : c.types.length = 0
    · rw [if_pos hz]
      exact (view_defaults fs ds n).2 (h (List.length_eq_zero_iff.1 hz))
    · rw [if_neg hz]
  have hv' : ∀ n s, c.types = [] → (n, s) ∈ defaultSources → view (begin' c fs name).files ds n = some (some s, liveOf fs n) := by
    intro n s hz h
    rw [b.files, if_pos (by rw [hz]; rfl)]
    exact (view_defaults fs ds n).1 s h
  unfold setting settingOf
  congr 1
  · funext n
    apply propext
    rw [b.sym n, hc.isSome n]
  · funext n s
    apply propext
    rw [hasSource_iff]
    by_cases hd : c.types = [] ∧ n ∈ defaultClasses
    · obtain ⟨s', hs'⟩ := (default_classes n).1 hd.2
      rw [hv' n s' hd.1 hs']
      constructor
      · rintro ⟨x, hx⟩
        cases hx
        exact .inl ⟨hd.1, hs'⟩
      · rintro (⟨_, h⟩ | ⟨h, _⟩)
        · have := hv' n s hd.1 h
          rw [hv' n s' hd.1 hs'] at this
          cases this
          exact ⟨_, rfl⟩
        · exact absurd hd.2 (h hd.1)
    · have hd' : c.types = [] → n ∉ defaultClasses := fun h h' => hd ⟨h, h'⟩
      rw [hv n hd']
      constructor
      · intro h
        exact .inr ⟨hd', h⟩
      · rintro (⟨h, h'⟩ | ⟨_, h⟩)
        · exact absurd ((default_classes n).2 ⟨s, h'⟩) (hd' h)
        · exact h
  · funext n
    apply propext
    rw [absent_iff]
    by_cases hd : c.types = [] ∧ n ∈ defaultClasses
    · obtain ⟨s', hs'⟩ := (default_classes n).1 hd.2
      rw [hv' n s' hd.1 hs']
      simp [hd.1, hd.2]
    · have hd' : c.types = [] → n ∉ defaultClasses := fun h h' => hd ⟨h, h'⟩
      rw [hv n hd']
      constructor
      · exact fun h => ⟨hd', h⟩
      · exact fun h => h.2

/-- The loop starts in a good state. -/
theorem begin_inv (c : Comp) (fs : List File) (ds : Dirs) (name : Option Bytes) (hc : Cons c.types c.sym) :
    Inv (begin' c fs name) ds (settingOf c.types fs ds name) (begin' c fs name) (fun _ => False) := by
  have b := begin_spec c fs name
  refine { cons := b.cons hc, views := fun _ => rfl, queue := ?_, roots := ?_, closed := ?_, needed := ?_, names := ?_, found := ?_,
           wf := ?_, new := ⟨[], by simp, by simp⟩, has := ?_, missing := ?_, refs := ?_, errs := b.errs }
  · intro p hp
    have := (b.queue p).1 hp
    rw [this.1]
    exact .root this.2
  · intro n hn
    exact .inl ((b.queue (n, false)).2 ⟨rfl, hn⟩)
  · intro n q s m q' h; exact h.elim
  · intro p h; exact h.elim
  · intro p h; exact h.elim
  · intro n q h; exact h.elim
  · intro n q s h; exact h.elim
  · intro n q s e h; exact h.elim
  · intro n; rw [b.missing]; simp
  · intro t
    rw [b.refs]
    constructor
    · exact .inl
    · rintro (h | ⟨_, _, _, h, _⟩)
      · exact h
      · exact h.elim

end Load
end SPVM
