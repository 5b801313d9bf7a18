import Verif.Lemmas.LoadSim
/-! Histories of compilations. -/
namespace SPVM
namespace Load
open VM (Bytes)
open Spec.Load (Occurs NameOk First HasSource Absent Mentions Setting Needed Loaded Defines WellFormed Refers Loadable Resolved Safe
  basicTypes defaultClasses defaultSources settingOf Added)

/-! ## Class files -/

theorem getFile_delFile (fs : List File) (m n : Bytes) (h : (fs.map (·.name)).Nodup) :
    getFile (delFile fs m) n = if n = m then none else getFile fs n := by
  induction fs with
  | nil => simp [delFile, getFile]
  | cons f fs ih =>
    rw [List.map_cons, List.nodup_cons] at h
    rw [delFile]
    by_cases hf : f.name = m
    · rw [if_pos (by simp [hf])]
      by_cases hn : n = m
      · rw [if_pos hn]
        rw [getFile_none]
        intro g hg hgn
        exact h.1 (by rw [hf, ← hn, ← hgn]; exact List.mem_map_of_mem hg)
      · rw [if_neg hn, getFile_cons, if_neg (fun e => hn (e.symm.trans hf))]
    · rw [if_neg (by simp [hf]), getFile_cons, ih h.2, getFile_cons]
      by_cases hn : n = m
      · rw [if_pos hn, if_neg (fun e => hf (e.trans hn))]
        simp [hn]
      · rw [if_neg hn]
        simp [hn]

theorem delFile_sublist (fs : List File) (m : Bytes) : (delFile fs m).Sublist fs := by
  induction fs with
  | nil => exact List.Sublist.refl _
  | cons f fs ih =>
    rw [delFile]
    split
    · exact List.sublist_cons_self _ _
    · exact ih.cons₂ _

/-- Delete the class files of the names. -/
def delFiles (fs : List File) (l : List Entry) : List File := l.foldl (fun fs e => delFile fs e.name) fs

theorem delFiles_sublist (l : List Entry) : ∀ fs, (delFiles fs l).Sublist fs := by
  induction l with
  | nil => intro fs; exact List.Sublist.refl _
  | cons e l ih => intro fs; exact (ih _).trans (delFile_sublist fs e.name)

theorem view_delFiles (ds : Dirs) (n : Bytes) (l : List Entry) : ∀ fs, (fs.map (·.name)).Nodup →
    view (delFiles fs l) ds n = if n ∈ l.map (·.name) then (search ds n).map (fun s => (some s, true)) else view fs ds n := by
  induction l with
  | nil => intro fs _; simp [delFiles]
  | cons e l ih =>
    intro fs h
    have h' : ((delFile fs e.name).map (·.name)).Nodup := h.sublist ((delFile_sublist fs e.name).map _)
    show view (delFiles (delFile fs e.name) l) ds n = _
    rw [ih _ h', List.map_cons]
    have hv : view (delFile fs e.name) ds n = if n = e.name then (search ds n).map (fun s => (some s, true)) else view fs ds n := by
      unfold view
      rw [getFile_delFile fs _ _ h]
      by_cases hn : n = e.name
      · simp [hn]
      · rw [if_neg hn, if_neg hn]
    rw [hv]
    by_cases h1 : n ∈ l.map (·.name)
    · rw [if_pos h1, if_pos (List.mem_cons_of_mem _ h1)]
    · rw [if_neg h1]
      by_cases h2 : n = e.name
      · rw [if_pos h2, if_pos (by rw [h2]; exact List.mem_cons_self)]
      · rw [if_neg h2, if_neg (by simp only [List.mem_cons, not_or]; exact ⟨h2, h1⟩)]

theorem setContent_names (fs : List File) (n : Bytes) (s : Source) : (setContent fs n s).map (·.name) = fs.map (·.name) := by
  induction fs with
  | nil => rfl
  | cons f fs ih =>
    rw [setContent]
    split
    · rfl
    · rw [List.map_cons, ih, List.map_cons]

theorem setFile_nodup (fs : List File) (n : Bytes) (s : Source) (h : (fs.map (·.name)).Nodup) : ((setFile fs n s).map (·.name)).Nodup := by
  unfold setFile addFile
  rw [setContent_names]
  cases hg : getFile fs n with
  | some f => exact h
  | none =>
    simp only
    rw [List.map_append, List.nodup_append]
    refine ⟨h, by simp, ?_⟩
    intro a ha b hb hab
    simp only [List.map_cons, List.map_nil, List.mem_singleton] at hb
    obtain ⟨f, hf, rfl⟩ := List.mem_map.1 ha
    exact (getFile_none fs n).1 hg f hf (hab.trans hb)

theorem setContent_mem (fs : List File) (n : Bytes) (s : Source) (f : File) (h : f ∈ setContent fs n s) :
    f ∈ fs ∨ ∃ g ∈ fs, f = { g with content := some s } ∧ g.name = n := by
  induction fs with
  | nil => cases h
  | cons g fs ih =>
    rw [setContent] at h
    split at h
    · rename_i hg
      rcases List.mem_cons.1 h with h | h
      · exact .inr ⟨g, by simp, h, by simpa using hg⟩
      · exact .inl (List.mem_cons_of_mem _ h)
    · rcases List.mem_cons.1 h with h | h
      · exact .inl (by rw [h]; simp)
      · rcases ih h with h | ⟨x, hx, h⟩
        · exact .inl (List.mem_cons_of_mem _ h)
        · exact .inr ⟨x, List.mem_cons_of_mem _ hx, h⟩

/-- A class file as it should be: its name is alive, its source is safe. -/
def FileOk (f : File) : Prop := f.live = true ∧ ∀ s, f.content = some s → Safe f.name s

theorem setFile_ok (fs : List File) (n : Bytes) (s : Source) (h : ∀ f ∈ fs, FileOk f) (hs : Safe n s) : ∀ f ∈ setFile fs n s, FileOk f := by
  intro f hf
  have hadd : ∀ g ∈ addFile fs n, FileOk g := by
    intro g hg
    unfold addFile at hg
    cases hgf : getFile fs n with
    | some x => rw [hgf] at hg; exact h g hg
    | none =>
      rw [hgf] at hg
      rcases List.mem_append.1 hg with hg | hg
      · exact h g hg
      · rw [List.mem_singleton.1 hg]
        exact ⟨rfl, fun s h => by cases h⟩
  rcases setContent_mem _ _ _ _ hf with hf | ⟨g, hg, rfl, hn⟩
  · exact hadd f hf
  · refine ⟨(hadd g hg).1, fun s' h => ?_⟩
    cases h
    rw [hn]
    exact hs

theorem default_safe (n : Bytes) (s : Source) (h : (n, s) ∈ defaultSources) : Safe n s := by
  unfold defaultSources at h
  obtain ⟨p, _, hp⟩ := List.mem_map.1 h
  cases hp
  intro is nm p' refs
  constructor
  · intro hb _
    cases hb
    exact ⟨by simp, fun m hm hne => absurd (Option.some.inj hm).symm hne⟩
  · rintro (hb | hb) l cc hm
    · cases hb; cases hm
    · cases hb

theorem withDefaults_ok (fs : List File) (h : ∀ f ∈ fs, FileOk f) (hn : (fs.map (·.name)).Nodup) :
    (∀ f ∈ withDefaults fs, FileOk f) ∧ ((withDefaults fs).map (·.name)).Nodup := by
  have key : ∀ (l : List (Bytes × Source)), (∀ p ∈ l, Safe p.1 p.2) → ∀ fs : List File, (∀ f ∈ fs, FileOk f) → (fs.map (·.name)).Nodup →
      (∀ f ∈ l.foldl (fun fs p => setFile fs p.1 p.2) fs, FileOk f) ∧ ((l.foldl (fun fs p => setFile fs p.1 p.2) fs).map (·.name)).Nodup := by
    intro l
    induction l with
    | nil => intro _ fs h hn; exact ⟨h, hn⟩
    | cons p l ih =>
      intro hl fs h hn
      exact ih (fun q hq => hl q (List.mem_cons_of_mem _ hq)) _ (setFile_ok fs p.1 p.2 h (hl p (by simp))) (setFile_nodup fs _ _ hn)
  exact key _ (fun p hp => default_safe p.1 p.2 ((default_sources p).1 hp)) fs h hn

/-! ## Compilers -/

/-- A compiler with proper class files. -/
structure Good (c : Comp) : Prop where
  cons : Cons c.types c.sym
  files : ∀ f ∈ c.files, FileOk f
  nodup : (c.files.map (·.name)).Nodup

/-- The directories have safe sources. -/
def SafeDirs (ds : Dirs) : Prop := ∀ n s, search ds n = some s → Safe n s

theorem view_ok {fs : List File} {ds : Dirs} (h : ∀ f ∈ fs, FileOk f) (hd : SafeDirs ds) {n x b} (hv : view fs ds n = some (x, b)) :
    b = true ∧ ∀ s, x = some s → Safe n s := by
  unfold view at hv
  cases hg : getFile fs n with
  | some f =>
    rw [hg] at hv
    cases hv
    have := h f (List.mem_of_find?_eq_some hg)
    exact ⟨this.1, fun s hs => by rw [← getFile_name hg]; exact this.2 s hs⟩
  | none =>
    rw [hg] at hv
    cases hs : search ds n with
    | none => rw [hs] at hv; cases hv
    | some s =>
      rw [hs] at hv
      cases hv
      exact ⟨rfl, fun s' h' => by cases h'; exact hd n s hs⟩

theorem begin_files_ok (c : Comp) (name : Option Bytes) (hg : Good c) :
    (∀ f ∈ (begin' c c.files name).files, FileOk f) ∧ ((begin' c c.files name).files.map (·.name)).Nodup := by
  rw [(begin_spec c c.files name).files]
  split
  · exact withDefaults_ok c.files hg.files hg.nodup
  · exact ⟨hg.files, hg.nodup⟩

theorem load_ok (c : Comp) (ds : Dirs) (name : Option Bytes) (hg : Good c) (hd : SafeDirs ds) :
    ∃ r b, load ds (fuel ds (begin' c c.files name)) (begin' c c.files name) = .ok (r, b) := by
  have hf := (begin_files_ok c name hg).1
  exact load_ends (begin' c c.files name) ds (fun n x b h => (view_ok hf hd h).1) (fun n s b h => (view_ok hf hd h).2 s rfl) _ _
    ((begin_spec c c.files name).cons hg.cons) (fun _ => rfl) (fuel_enough _ _)

/-- The class files after the loop. -/
theorem load_files_ok (c : Comp) (ds : Dirs) (name : Option Bytes) (hg : Good c) (hd : SafeDirs ds) {k r b}
    (h : load ds k (begin' c c.files name) = .ok (r, b)) : (∀ f ∈ r.files, FileOk f) ∧ (r.files.map (·.name)).Nodup := by
  have hf := begin_files_ok c name hg
  have hw := load_went _ _ _ _ _ h
  refine ⟨?_, hw.nodup hf.2⟩
  obtain ⟨a, ha, ha'⟩ := hw.files
  intro f hfm
  rw [ha] at hfm
  rcases List.mem_append.1 hfm with h | h
  · exact hf.1 f h
  · obtain ⟨s, hs, hs'⟩ := ha' f h
    rw [hs]
    exact ⟨rfl, fun s' h' => by cases h'; exact hd _ _ hs'⟩

theorem rollback_files (c : Comp) (r : Run) : (rollback c r none).files = delFiles r.files (r.types.drop c.types.length) := by
  simp only [rollback, delFiles]
  exact (List.map_congr_left (fun f _ => by simp)).trans (List.map_id _)

/-- Two compilers that have the same classes and read the same for all others. -/
structure Same (ds : Dirs) (c c' : Comp) : Prop where
  types : c'.types = c.types
  sym : c'.sym = c.sym
  anons : c'.anons = c.anons
  runtime : c'.runtime = c.runtime
  views : ∀ n, c.sym n = none → (c.types = [] → n ∉ defaultClasses) → view c'.files ds n = view c.files ds n

theorem wf_foldl_start (g : List File) (l : List Bytes) : ∀ r, l.foldl start (r.withFiles g) = (l.foldl start r).withFiles g := by
  induction l with
  | nil => intro r; rfl
  | cons n l ih => intro r; exact ih (start r n)

theorem wf_foldl_addType (g : List File) (l : List Bytes) : ∀ r, l.foldl (fun r n => addType r { name := n, src := none }) (r.withFiles g) =
    (l.foldl (fun r n => addType r { name := n, src := none }) r).withFiles g := by
  induction l with
  | nil => intro r; rfl
  | cons n l ih => intro r; rw [List.foldl_cons, wf_addType, ih]; rfl

theorem wf_wf (a b : List File) (r : Run) : (r.withFiles a).withFiles b = r.withFiles b := rfl

/-- The state before the uses. -/
def fresh (c : Comp) (fs : List File) : Run :=
  if c.types.length = 0 then
    (coreNames.foldl (fun r n => addType r { name := n, src := none })
      { types := c.types, sym := c.sym, files := fs, queue := [], missing := [], refs := [], errs := false }).withFiles
      (withDefaults (coreNames.foldl (fun r n => addType r { name := n, src := none })
        { types := c.types, sym := c.sym, files := fs, queue := [], missing := [], refs := [], errs := false }).files)
  else { types := c.types, sym := c.sym, files := fs, queue := [], missing := [], refs := [], errs := false }

theorem begin_eq (c : Comp) (fs : List File) (name : Option Bytes) :
    begin' c fs name = (defaultNames ++ name.toList).foldl start (fresh c fs) := by
  cases name with
  | none => simp [begin', fresh, Run.withFiles, withDefaults]
  | some n => simp [begin', fresh, Run.withFiles, withDefaults]

theorem fresh_same (c c' : Comp) (ht : c'.types = c.types) (hs : c'.sym = c.sym) (fs fs' : List File) :
    ∃ g, fresh c' fs' = (fresh c fs).withFiles g := by
  unfold fresh
  rw [ht, hs]
  split
  · have h0 : coreNames.foldl (fun r n => addType r { name := n, src := none })
        { types := c.types, sym := c.sym, files := fs', queue := [], missing := [], refs := [], errs := false } =
        (coreNames.foldl (fun r n => addType r { name := n, src := none })
        { types := c.types, sym := c.sym, files := fs, queue := [], missing := [], refs := [], errs := false }).withFiles fs' :=
      wf_foldl_addType fs' coreNames { types := c.types, sym := c.sym, files := fs, queue := [], missing := [], refs := [], errs := false }
    rw [h0]
    rw [wf_wf]
    exact ⟨_, (wf_wf _ _ _).symm⟩
  · exact ⟨fs', rfl⟩

theorem begin_same (c c' : Comp) (ht : c'.types = c.types) (hs : c'.sym = c.sym) (fs fs' : List File) (name : Option Bytes) :
    begin' c' fs' name = (begin' c fs name).withFiles (begin' c' fs' name).files := by
  obtain ⟨g, hg⟩ := fresh_same c c' ht hs fs fs'
  rw [begin_eq, begin_eq, hg, wf_foldl_start]
  rfl

theorem finish_eq (chk : List Entry → List Entry → Bool) (ds : Dirs) (c : Comp) (r0 r : Run) (b : Bool) (anons : Nat) (owned : Option Bytes)
    (h : load ds (fuel ds r0) r0 = .ok (r, b)) :
    finish chk ds c r0 anons owned = if b || r.errs || !(r.refs.all (resolved r)) || !(chk c.types (r.types.drop c.types.length)) then
      .ok (rollback c r owned, false) else .ok (commit c r anons, true) := by
  unfold finish
  rw [h]
  rfl

theorem compile_same (chk : List Entry → List Entry → Bool) (ds : Dirs) (hd : SafeDirs ds) (c c' : Comp) (hg : Good c) (hg' : Good c')
    (hs : Same ds c c') (name : Option Bytes) :
    ∃ d d' ok, compile chk ds c name true = .ok (d, ok) ∧ compile chk ds c' name true = .ok (d', ok) ∧ Good d ∧ Good d' ∧ Same ds d d' := by
  obtain ⟨r, b, hl⟩ := load_ok c ds name hg hd
  obtain ⟨r', b', hl'⟩ := load_ok c' ds name hg' hd
  have hb := begin_spec c c.files name
  have hb' := begin_spec c' c'.files name
  have hbs := begin_same c c' hs.types hs.sym c.files c'.files name
  have hsim := load_sim ds _ _ (begin' c' c'.files name).files r b (hb.cons hg.cons) (by
    intro n hn
    have hcn : c.sym n = none := by
      cases hx : c.sym n with
      | none => rfl
      | some i =>
        have := (hb.sym n).2 (.inl (by rw [hx]; rfl))
        rw [hn] at this
        cases this
    rw [hb.files, hb'.files, hs.types]
    by_cases hz : c.types.length = 0
    · rw [if_pos hz, if_pos hz]
      by_cases hdn : n ∈ defaultClasses
      · obtain ⟨s, hsrc⟩ := (default_classes n).1 hdn
        have h1 := (view_defaults c.files ds n).1 s hsrc
        have h2 := (view_defaults c'.files ds n).1 s hsrc
        have h3 := (view_ok (withDefaults_ok c.files hg.files hg.nodup).1 hd h1).1
        have h4 := (view_ok (withDefaults_ok c'.files hg'.files hg'.nodup).1 hd h2).1
        rw [h1, h2, h3, h4]
      · rw [(view_defaults c.files ds n).2 hdn, (view_defaults c'.files ds n).2 hdn]
        exact hs.views n hcn (fun _ => hdn)
    · rw [if_neg hz, if_neg hz]
      exact hs.views n hcn (fun h => absurd (by rw [h]; rfl) hz)) hl
  obtain ⟨g1, hl1, hv1⟩ := hsim
  rw [← hbs] at hl1
  have hdet := load_det ds _ _ _ _ _ hl' hl1
  cases hdet
  have hf := load_files_ok c ds name hg hd hl
  have hf' := load_files_ok c' ds name hg' hd hl'
  have hw := load_went _ _ _ _ _ hl
  have hcr : Cons r.types r.sym := hw.cons (hb.cons hg.cons)
  have hext : ∃ a, r.types = c.types ++ a := by
    obtain ⟨a, ha⟩ := hw.add
    obtain ⟨a0, ha0, _⟩ := hb.add
    exact ⟨a0 ++ a, by rw [ha, ha0, List.append_assoc]⟩
  obtain ⟨a, ha⟩ := hext
  have e1 := finish_eq chk ds c (begin' c c.files name) r b c.anons none hl
  have e2 := finish_eq chk ds c' (begin' c' c'.files name) (r.withFiles g1) b c'.anons none hl'
  have hcompile : compile chk ds c name true = finish chk ds c (begin' c c.files name) c.anons none := rfl
  have hcompile' : compile chk ds c' name true = finish chk ds c' (begin' c' c'.files name) c'.anons none := rfl
  rw [hcompile, hcompile', e1, e2]
  have hres : resolved (r.withFiles g1) = resolved r := rfl
  have hcond : (b || (r.withFiles g1).errs || !((r.withFiles g1).refs.all (resolved (r.withFiles g1))) ||
      !(chk c'.types ((r.withFiles g1).types.drop c'.types.length))) =
      (b || r.errs || !(r.refs.all (resolved r)) || !(chk c.types (r.types.drop c.types.length))) := by
    rw [hs.types, hres]
    rfl
  rw [hcond]
  split
  · refine ⟨_, _, false, rfl, rfl, ?_, ?_, ?_⟩
    · have h := rollback_spec c r none hg.cons hcr ⟨a, ha⟩
      refine ⟨by rw [h.1, h.2.1]; exact hg.cons, ?_, ?_⟩
      · rw [rollback_files]
        exact fun f hm => hf.1 f ((delFiles_sublist _ _).subset hm)
      · rw [rollback_files]
        exact hf.2.sublist ((delFiles_sublist _ _).map _)
    · have h := rollback_spec c' (r.withFiles g1) none hg'.cons hcr ⟨a, by rw [hs.types]; exact ha⟩
      refine ⟨by rw [h.1, h.2.1]; exact hg'.cons, ?_, ?_⟩
      · rw [rollback_files]
        exact fun f hm => hf'.1 f ((delFiles_sublist _ _).subset hm)
      · rw [rollback_files]
        exact hf'.2.sublist ((delFiles_sublist _ _).map _)
    · have h := rollback_spec c r none hg.cons hcr ⟨a, ha⟩
      have h' := rollback_spec c' (r.withFiles g1) none hg'.cons hcr ⟨a, by rw [hs.types]; exact ha⟩
      refine ⟨by rw [h.1, h'.1, hs.types], by rw [h.2.1, h'.2.1, hs.sym], by rw [h.2.2.1, h'.2.2.1, hs.anons],
        by rw [h.2.2.2, h'.2.2.2, hs.runtime], ?_⟩
      intro n hn hfresh
      rw [h.2.1] at hn
      rw [rollback_files, rollback_files, view_delFiles _ _ _ _ hf.2, view_delFiles _ _ _ _ hf'.2, hs.types]
      show (if n ∈ (r.types.drop c.types.length).map (·.name) then _ else view g1 ds n) = _
      split
      · rfl
      · rename_i hnew
        refine hv1 n ?_
        rw [hcr.none]
        intro e he hen
        rw [ha] at he
        rcases List.mem_append.1 he with he | he
        · exact (hg.cons.none n).1 hn e he hen
        · exact hnew (List.mem_map.2 ⟨e, by rw [ha, List.drop_left]; exact he, hen⟩)
  · refine ⟨_, _, true, rfl, rfl, ⟨hcr, hf.1, hf.2⟩, ⟨hcr, hf'.1, hf'.2⟩, ⟨rfl, rfl, hs.anons, ?_, fun n hn _ => hv1 n hn⟩⟩
    show c'.runtime ++ r.types.drop c'.runtime.length = c.runtime ++ r.types.drop c.runtime.length
    rw [hs.runtime]

/-- Every class file is that of a class that is there, a default one, or the same as in the directories. -/
def Disk (ds : Dirs) (c : Comp) : Prop :=
  ∀ f ∈ c.files, (c.sym f.name).isSome = true ∨ (c.types = [] ∧ f.name ∈ defaultClasses) ∨
    ∃ s, f.content = some s ∧ search ds f.name = some s

theorem failed_same (chk : List Entry → List Entry → Bool) (ds : Dirs) (hd : SafeDirs ds) (c c' : Comp) (hg : Good c) (hk : Disk ds c)
    (name : Option Bytes) (h : compile chk ds c name true = .ok (c', false)) : Good c' ∧ Same ds c c' := by
  obtain ⟨r, b, hl, hcr, ⟨a, ha⟩, hcase, _⟩ := finish_cases chk ds c c.files name none c.anons hg.cons c' false h
  rcases hcase with ⟨_, rfl⟩ | ⟨hx, _⟩
  · have hf := load_files_ok c ds name hg hd hl
    have hr := rollback_spec c r none hg.cons hcr ⟨a, ha⟩
    have hb := begin_spec c c.files name
    have hw := load_went _ _ _ _ _ hl
    refine ⟨⟨by rw [hr.1, hr.2.1]; exact hg.cons, ?_, ?_⟩, hr.1, hr.2.1, hr.2.2.1, hr.2.2.2, ?_⟩
    · rw [rollback_files]
      exact fun f hm => hf.1 f ((delFiles_sublist _ _).subset hm)
    · rw [rollback_files]
      exact hf.2.sublist ((delFiles_sublist _ _).map _)
    · intro n hn hfresh
      rw [rollback_files, view_delFiles _ _ _ _ hf.2]
      split
      · unfold view
        cases hgf : getFile c.files n with
        | none => rfl
        | some f =>
          have hm := List.mem_of_find?_eq_some hgf
          have hname := getFile_name hgf
          rcases hk f hm with h | ⟨h1, h2⟩ | ⟨s, h1, h2⟩
          · rw [hname, hn] at h; cases h
          · exact absurd (by rw [← hname]; exact h2) (hfresh h1)
          · rw [hname] at h2
            rw [h2]
            simp only [h1, (hg.files f hm).1, Option.map_some]
      · rw [hw.views, hb.files]
        split
        · rename_i hz
          exact (view_defaults c.files ds n).2 (hfresh (List.length_eq_zero_iff.1 hz))
        · rfl
  · cases hx

theorem run_same (chk : List Entry → List Entry → Bool) (ds : Dirs) (hd : SafeDirs ds) (names : List (Option Bytes)) :
    ∀ c c', Good c → Good c' → Same ds c c' →
    ∃ d d' bs, run chk c (names.map (fun n => .compile ds n true)) = .ok (d, bs) ∧
      run chk c' (names.map (fun n => .compile ds n true)) = .ok (d', bs) ∧ d'.types = d.types ∧ d'.runtime = d.runtime ∧ d'.sym = d.sym := by
  induction names with
  | nil => intro c c' _ _ hs; exact ⟨c, c', [], rfl, rfl, hs.types, hs.runtime, hs.sym⟩
  | cons n names ih =>
    intro c c' hg hg' hs
    obtain ⟨d, d', ok, h1, h2, hg1, hg2, hs1⟩ := compile_same chk ds hd c c' hg hg' hs n
    obtain ⟨e, e', bs, h3, h4, h5⟩ := ih d d' hg1 hg2 hs1
    refine ⟨e, e', ok :: bs, ?_, ?_, h5⟩
    · simp only [List.map_cons, run, step, h1, Out.ok_bind, h3]
      rfl
    · simp only [List.map_cons, run, step, h2, Out.ok_bind, h4]
      rfl

/-! ## All histories -/

/-- What holds after every history. -/
structure Hist (c : Comp) : Prop where
  cons : Cons c.types c.sym
  runtime : c.runtime = c.types
  nodup : (c.files.map (·.name)).Nodup

theorem hist_new : Hist Comp.new :=
  ⟨fun n i => by simp [Comp.new], rfl, by simp [Comp.new]⟩

theorem map_name (fs : List File) (p : File → File) (h : ∀ f, (p f).name = f.name) : (fs.map p).map (·.name) = fs.map (·.name) := by
  rw [List.map_map]
  exact List.map_congr_left (fun f _ => h f)

theorem withDefaults_nodup (fs : List File) (hn : (fs.map (·.name)).Nodup) : ((withDefaults fs).map (·.name)).Nodup := by
  have key : ∀ (l : List (Bytes × Source)), ∀ fs : List File, (fs.map (·.name)).Nodup →
      ((l.foldl (fun fs p => setFile fs p.1 p.2) fs).map (·.name)).Nodup := by
    intro l
    induction l with
    | nil => intro fs hn; exact hn
    | cons p l ih => intro fs hn; exact ih _ (setFile_nodup fs _ _ hn)
  exact key _ fs hn

theorem finish_hist (chk : List Entry → List Entry → Bool) (ds : Dirs) (c : Comp) (fs : List File) (name owned : Option Bytes) (anons : Nat)
    (hh : Hist c) (hfs : (fs.map (·.name)).Nodup) (c' : Comp) (ok : Bool) (h : finish chk ds c (begin' c fs name) anons owned = .ok (c', ok)) :
    Hist c' ∧ (∃ new, c'.types = c.types ++ new) ∧
    (ok = false → c'.types = c.types ∧ c'.sym = c.sym ∧ c'.anons = c.anons ∧ c'.runtime = c.runtime) ∧ (ok = true → c'.anons = anons) := by
  obtain ⟨r, b, hl, hcr, ⟨a, ha⟩, hcase, _⟩ := finish_cases chk ds c fs name owned anons hh.cons c' ok h
  have hnd : (r.files.map (·.name)).Nodup := by
    refine (load_went _ _ _ _ _ hl).nodup ?_
    rw [(begin_spec c fs name).files]
    split
    · exact withDefaults_nodup fs hfs
    · exact hfs
  rcases hcase with ⟨rfl, rfl⟩ | ⟨rfl, rfl⟩
  · have hr := rollback_spec c r owned hh.cons hcr ⟨a, ha⟩
    refine ⟨⟨by rw [hr.1, hr.2.1]; exact hh.cons, by rw [hr.1, hr.2.2.2]; exact hh.runtime, ?_⟩, ⟨[], by rw [hr.1]; simp⟩, fun _ => hr,
      fun h => by cases h⟩
    simp only [rollback]
    rw [map_name]
    · exact hnd.sublist ((delFiles_sublist (r.types.drop c.types.length) r.files).map _)
    · intro f; split <;> rfl
  · refine ⟨⟨hcr, ?_, hnd⟩, ⟨a, ha⟩, (fun h => by cases h), fun _ => rfl⟩
    show c.runtime ++ r.types.drop c.runtime.length = r.types
    rw [hh.runtime, ha, List.drop_left]

theorem step_hist (chk : List Entry → List Entry → Bool) (c : Comp) (hh : Hist c) (o : Op) (c' : Comp) (ok : Bool)
    (h : step chk c o = .ok (c', ok)) :
    Hist c' ∧ (∃ new, c'.types = c.types ++ new) ∧
    (ok = false → c'.types = c.types ∧ c'.sym = c.sym ∧ c'.anons = c.anons ∧ c'.runtime = c.runtime) := by
  cases o with
  | compile ds n k =>
    have := finish_hist chk ds c c.files n _ _ hh hh.nodup c' ok h
    exact ⟨this.1, this.2.1, this.2.2.1⟩
  | anon ds s =>
    simp only [step, compileAnon] at h
    split at h
    · have := finish_hist chk ds c _ _ _ _ hh (setFile_nodup _ _ _ hh.nodup) c' ok h
      exact ⟨this.1, this.2.1, this.2.2.1⟩
    · cases h
  | setFile n s =>
    simp only [step, Out.ok.injEq, Prod.mk.injEq] at h
    obtain ⟨rfl, rfl⟩ := h
    exact ⟨⟨hh.cons, hh.runtime, setFile_nodup _ _ _ hh.nodup⟩, ⟨[], by simp⟩, fun h => by cases h⟩
  | delFile n =>
    simp only [step, Out.ok.injEq, Prod.mk.injEq] at h
    obtain ⟨rfl, rfl⟩ := h
    exact ⟨⟨hh.cons, hh.runtime, hh.nodup.sublist ((delFile_sublist _ _).map _)⟩, ⟨[], by simp⟩, fun h => by cases h⟩

theorem run_hist (chk : List Entry → List Entry → Bool) (os : List Op) : ∀ c, Hist c → ∀ c' bs, run chk c os = .ok (c', bs) →
    Hist c' ∧ ∃ new, c'.types = c.types ++ new := by
  induction os with
  | nil => intro c hh c' bs h; cases h; exact ⟨hh, [], by simp⟩
  | cons o os ih =>
    intro c hh c' bs h
    simp only [run] at h
    cases h1 : step chk c o with
    | die m => rw [h1] at h; cases h
    | ub => rw [h1] at h; cases h
    | ok cb =>
      obtain ⟨c1, b⟩ := cb
      rw [h1] at h
      simp only [Out.ok_bind] at h
      cases h2 : run chk c1 os with
      | die m => rw [h2] at h; cases h
      | ub => rw [h2] at h; cases h
      | ok cb2 =>
        obtain ⟨c2, bs2⟩ := cb2
        rw [h2] at h
        cases h
        obtain ⟨hh1, ⟨a, ha⟩, _⟩ := step_hist chk c hh o c1 b h1
        obtain ⟨hh2, b', hb'⟩ := ih c1 hh1 _ _ h2
        exact ⟨hh2, a ++ b', by rw [hb', ha, List.append_assoc]⟩

end Load
end SPVM
