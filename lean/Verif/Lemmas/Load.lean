import Verif.Lemmas.LoadRun
/-! The loop that loads class files. -/
namespace SPVM
namespace Load
open VM (Bytes)
open Spec.Load (Occurs NameOk Mentions Setting Needed Loaded Defines WellFormed Refers Loadable Resolved Safe)

/-! ## Class files -/

/-- What the compiler reads for a class: the content of its class file or the file in a directory, and whether its name is alive. -/
def view (fs : List File) (ds : Dirs) (n : Bytes) : Option (Option Source × Bool) :=
  match getFile fs n with
  | some f => some (f.content, f.live)
  | none => (search ds n).map (fun s => (some s, true))

theorem getFile_append (fs gs : List File) (n : Bytes) : getFile (fs ++ gs) n = (getFile fs n).or (getFile gs n) := by
  simp [getFile, List.find?_append]

theorem fetch_none (fs : List File) (ds : Dirs) (n : Bytes) : fetch fs ds n = none ↔ view fs ds n = none := by
  unfold fetch view
  cases getFile fs n with
  | some f => simp
  | none => cases search ds n <;> simp

theorem fetch_some (fs fs' : List File) (ds : Dirs) (n : Bytes) (f : File) (h : fetch fs ds n = some (f, fs')) :
    view fs ds n = some (f.content, f.live) ∧ (∀ m, view fs' ds m = view fs ds m) ∧ ∃ a, fs' = fs ++ a := by
  unfold fetch at h
  cases hg : getFile fs n with
  | some g =>
    rw [hg] at h
    cases h
    exact ⟨by unfold view; rw [hg], fun _ => rfl, [], by simp⟩
  | none =>
    rw [hg] at h
    cases hs : search ds n with
    | none => rw [hs] at h; cases h
    | some s =>
      rw [hs] at h
      cases h
      refine ⟨by unfold view; rw [hg, hs]; rfl, ?_, _, rfl⟩
      intro m
      unfold view
      rw [getFile_append]
      cases hm : getFile fs m with
      | some g => rfl
      | none =>
        simp only [Option.none_or]
        by_cases hmn : n = m
        · subst hmn
          simp [getFile, hs]
        · simp [getFile, hmn]

/-! ## Any outcome of the loop -/

/-- Types and class files are only added, errors stay, and every class reads as before. -/
structure Went (ds : Dirs) (r r' : Run) : Prop where
  cons : Cons r.types r.sym → Cons r'.types r'.sym
  add : ∃ a, r'.types = r.types ++ a
  errs : r.errs = true → r'.errs = true
  views : ∀ m, view r'.files ds m = view r.files ds m
  files : ∃ a, r'.files = r.files ++ a ∧ ∀ f ∈ a, ∃ s, f = { name := f.name, content := some s } ∧ search ds f.name = some s
  nodup : (r.files.map (·.name)).Nodup → (r'.files.map (·.name)).Nodup

theorem Went.refl (ds : Dirs) (r : Run) : Went ds r r := ⟨id, ⟨[], by simp⟩, id, fun _ => rfl, ⟨[], by simp⟩, id⟩

theorem Went.trans {ds : Dirs} {r r1 r2 : Run} (h1 : Went ds r r1) (h2 : Went ds r1 r2) : Went ds r r2 := by
  refine ⟨fun h => h2.cons (h1.cons h), ?_, fun h => h2.errs (h1.errs h), fun m => (h2.views m).trans (h1.views m), ?_, fun h => h2.nodup (h1.nodup h)⟩
  · obtain ⟨a, ha⟩ := h1.add
    obtain ⟨b, hb⟩ := h2.add
    exact ⟨a ++ b, by rw [hb, ha, List.append_assoc]⟩
  · obtain ⟨a, ha, ha'⟩ := h1.files
    obtain ⟨b, hb, hb'⟩ := h2.files
    refine ⟨a ++ b, by rw [hb, ha, List.append_assoc], ?_⟩
    intro f hf
    rcases List.mem_append.1 hf with h | h
    · exact ha' f h
    · exact hb' f h

theorem Went.same {ds : Dirs} {r r' : Run} (h1 : r'.types = r.types) (h2 : r'.sym = r.sym) (h3 : r'.files = r.files)
    (h4 : r.errs = true → r'.errs = true) : Went ds r r' :=
  ⟨by rw [h1, h2]; exact id, ⟨[], by simp [h1]⟩, h4, fun _ => by rw [h3], ⟨[], by simp [h3]⟩, by rw [h3]; exact id⟩

theorem Went.ofExt {ds : Dirs} {r r' : Run} (h : Ext r r') : Went ds r r' :=
  ⟨h.cons, h.add, h.errs, fun _ => by rw [h.files], ⟨[], by simp [h.files]⟩, by rw [h.files]; exact id⟩

theorem fetch_new (fs fs' : List File) (ds : Dirs) (n : Bytes) (f : File) (h : fetch fs ds n = some (f, fs')) :
    ∃ a, fs' = fs ++ a ∧ ∀ f ∈ a, ∃ s, f = { name := f.name, content := some s } ∧ search ds f.name = some s := by
  unfold fetch at h
  cases hg : getFile fs n with
  | some g => rw [hg] at h; cases h; exact ⟨[], by simp⟩
  | none =>
    rw [hg] at h
    cases hs : search ds n with
    | none => rw [hs] at h; cases h
    | some s =>
      rw [hs] at h
      cases h
      exact ⟨_, rfl, by simp [hs]⟩

theorem fetch_nodup (fs fs' : List File) (ds : Dirs) (n : Bytes) (f : File) (h : fetch fs ds n = some (f, fs'))
    (hn : (fs.map (·.name)).Nodup) : (fs'.map (·.name)).Nodup := by
  unfold fetch at h
  cases hg : getFile fs n with
  | some g => rw [hg] at h; cases h; exact hn
  | none =>
    rw [hg] at h
    cases hs : search ds n with
    | none => rw [hs] at h; cases h
    | some s =>
      rw [hs] at h
      cases h
      rw [List.map_append, List.nodup_append]
      refine ⟨hn, by simp, ?_⟩
      intro a ha b hb hab
      simp only [List.map_cons, List.map_nil, List.mem_singleton] at hb
      obtain ⟨g, hgm, rfl⟩ := List.mem_map.1 ha
      have := List.find?_eq_none.1 hg g hgm
      simp only [beq_iff_eq] at this
      exact this (hab.trans hb)

theorem load_went (ds : Dirs) : ∀ k r r' b, load ds k r = .ok (r', b) → Went ds r r' := by
  intro k
  induction k with
  | zero => intro r r' b h; cases h
  | succ k ih =>
    intro r r' b h
    cases hq : r.queue with
    | nil => rw [load, hq] at h; cases h; exact Went.refl ds r
    | cons p qs =>
      obtain ⟨n, q⟩ := p
      rw [load, hq] at h
      simp only at h
      split at h
      · cases h; exact Went.same rfl rfl rfl (fun _ => rfl)
      · split at h
        · exact Went.trans (r1 := { r with queue := qs }) (Went.same rfl rfl rfl id) (ih _ _ _ h)
        · cases hf : fetch r.files ds n with
          | none =>
            rw [hf] at h
            simp only at h
            split at h
            · exact Went.trans (r1 := { r with queue := qs, missing := n :: r.missing }) (Went.same rfl rfl rfl id) (ih _ _ _ h)
            · cases h; exact Went.same rfl rfl rfl (fun _ => rfl)
          | some fp =>
            obtain ⟨f, fs⟩ := fp
            rw [hf] at h
            simp only at h
            obtain ⟨_, hvs, _⟩ := fetch_some _ _ _ _ _ hf
            have w1 : ∀ e, (r.errs = true → e = true) → Went ds r { r with queue := qs, files := fs, errs := e } := fun e he =>
              ⟨id, ⟨[], by simp⟩, he, hvs, fetch_new _ _ _ _ _ hf, fetch_nodup _ _ _ _ _ hf⟩
            cases hc : f.content with
            | none => rw [hc] at h; cases h; exact w1 true (fun _ => rfl)
            | some s =>
              rw [hc] at h
              simp only at h
              split at h
              · cases h; exact w1 true (fun _ => rfl)
              · split at h
                · cases h; exact w1 r.errs id
                · split at h
                  · rename_i r1 hp
                    cases h
                    exact (w1 r.errs id).trans (Went.ofExt (parse_ext _ _ _ _ _ hp).1)
                  · rename_i r1 hp
                    exact ((w1 r.errs id).trans (Went.ofExt (parse_ext _ _ _ _ _ hp).1)).trans (ih _ _ _ h)
                  · cases h
                  · cases h

/-! ## The setting -/

/-- The setting of a compilation that starts with `r0`. -/
def setting (r0 : Run) (ds : Dirs) (roots : List Bytes) : Setting where
  old n := (r0.sym n).isSome = true
  src n s := ∃ b, view r0.files ds n = some (some s, b)
  absent n := view r0.files ds n = none
  roots := roots

theorem src_unique {r0 : Run} {ds : Dirs} {roots n s s'} (h : (setting r0 ds roots).src n s) (h' : (setting r0 ds roots).src n s') :
    s = s' := by
  obtain ⟨b, h⟩ := h
  obtain ⟨b', h'⟩ := h'
  rw [h] at h'
  cases h'
  rfl

theorem anonCls_iff (n : Bytes) : anonCls n = true ↔ Occurs (Spec.Load.bytes "::anon_class::") n := by
  rw [mark_class]; exact strstr_iff _ _

theorem wf_iff (n : Bytes) (s : Source) : WellFormed n s ↔ s.textOk = true ∧ Clean n s := by
  unfold WellFormed Clean
  have h2 : anonCls n = false ↔ ¬ Occurs (Spec.Load.bytes "::anon_class::") n := by
    rw [← anonCls_iff]; simp
  simp only [anonCls_iff, h2]

theorem safe_named {n : Bytes} {s : Source} (h : Safe n s) : Named n s := by
  intro is m p refs hb ha
  by_cases hm : m = n
  · exact .inl hm
  · right
    have := ((h is (some m) p refs).1 hb (by rw [← anonCls_iff, ha]; simp)).2 m rfl hm
    rw [mark_class, mark_method, ← strstr_false, ← strstr_false] at this
    simp [this.1, this.2]

/-- The state during the loop, with the classes that have been taken from the work list. -/
structure Inv (r0 : Run) (ds : Dirs) (S : Setting) (r : Run) (seen : Bytes × Bool → Prop) : Prop where
  cons : Cons r.types r.sym
  views : ∀ m, view r.files ds m = view r0.files ds m
  queue : ∀ p ∈ r.queue, Needed S p.1 p.2
  roots : ∀ n ∈ S.roots, (n, false) ∈ r.queue ∨ seen (n, false)
  closed : ∀ n q s m q', seen (n, q) → ¬ S.old n → S.src n s → Mentions s m q' → (m, q') ∈ r.queue ∨ seen (m, q')
  needed : ∀ p, seen p → Needed S p.1 p.2
  names : ∀ p, seen p → NameOk p.1
  found : ∀ n q, seen (n, q) → ¬ S.old n → (∃ s, S.src n s) ∨ (q = true ∧ S.absent n)
  wf : ∀ n q s, seen (n, q) → ¬ S.old n → S.src n s → WellFormed n s
  new : ∃ a, r.types = r0.types ++ a ∧ ∀ e ∈ a, ∃ m q s, seen (m, q) ∧ ¬ S.old m ∧ S.src m s ∧ Adds m s e
  has : ∀ n q s e, seen (n, q) → ¬ S.old n → S.src n s → Adds n s e → (r.sym e.name).isSome = true
  missing : ∀ n, n ∈ r.missing ↔ seen (n, true) ∧ ¬ S.old n ∧ S.absent n
  refs : ∀ t, t ∈ r.refs ↔ t ∈ S.roots ∨ ∃ n q s, seen (n, q) ∧ ¬ S.old n ∧ S.src n s ∧ ∃ is nm p refs, s.body = .cls is nm p refs ∧
    (t = n ∨ t ∈ refs ∨ (∃ q, Mentions s t q) ∨ (anonCls n = false ∧ ∃ l c, .anon l c ∈ is ∧ t = anonName n l c))
  errs : r.errs = false

theorem Inv.sym {r0 : Run} {ds S r seen} (h : Inv r0 ds S r seen) (hS : ∀ n, S.old n ↔ (r0.sym n).isSome = true)
    (hc : Cons r0.types r0.sym) (n : Bytes) :
    (r.sym n).isSome = true ↔ S.old n ∨ ∃ m q s e, seen (m, q) ∧ ¬ S.old m ∧ S.src m s ∧ Adds m s e ∧ e.name = n := by
  constructor
  · intro hn
    obtain ⟨e, he, hen⟩ := (h.cons.isSome n).1 hn
    obtain ⟨a, ha, hnew⟩ := h.new
    rw [ha] at he
    rcases List.mem_append.1 he with he | he
    · exact .inl ((hS n).2 ((hc.isSome n).2 ⟨e, he, hen⟩))
    · obtain ⟨m, q, s, h1, h2, h3, h4⟩ := hnew e he
      exact .inr ⟨m, q, s, e, h1, h2, h3, h4, hen⟩
  · rintro (ho | ⟨m, q, s, e, h1, h2, h3, h4, rfl⟩)
    · obtain ⟨e, he, hen⟩ := (hc.isSome n).1 ((hS n).1 ho)
      obtain ⟨a, ha, _⟩ := h.new
      exact (h.cons.isSome n).2 ⟨e, by rw [ha]; exact List.mem_append_left _ he, hen⟩
    · exact h.has m q s e h1 h2 h3 h4

/-- One more class has been seen. -/
def more (seen : Bytes × Bool → Prop) (p : Bytes × Bool) : Bytes × Bool → Prop := fun x => seen x ∨ x = p

/-- A class that needs no loading. -/
theorem Inv.skip {r0 : Run} {ds : Dirs} {roots : List Bytes} {r : Run} {seen n q qs} (h : Inv r0 ds (setting r0 ds roots) r seen)
    (hq : r.queue = (n, q) :: qs) (hname : NameOk n)
    (hold : (setting r0 ds roots).old n ∨ ∃ q', seen (n, q') ∧ ∃ s, (setting r0 ds roots).src n s) :
    Inv r0 ds (setting r0 ds roots) { r with queue := qs } (more seen (n, q)) := by
  have hpop : ∀ p, p ∈ r.queue → p ∈ qs ∨ p = (n, q) := by
    intro p hp; rw [hq] at hp; rcases List.mem_cons.1 hp with h | h
    · exact .inr h
    · exact .inl h
  refine { h with
    queue := fun p hp => h.queue p (by rw [hq]; exact List.mem_cons_of_mem _ hp)
    roots := ?_, closed := ?_, needed := ?_, names := ?_, found := ?_, wf := ?_, new := ?_, has := ?_, missing := ?_, refs := ?_ }
  · intro m hm
    rcases h.roots m hm with h | h
    · rcases hpop _ h with h | h
      · exact .inl h
      · exact .inr (.inr h)
    · exact .inr (.inl h)
  · intro m k s m' k' hs ho hsrc hment
    have key : (m', k') ∈ r.queue ∨ seen (m', k') := by
      rcases hs with hs | hs
      · exact h.closed m k s m' k' hs ho hsrc hment
      · cases hs
        rcases hold with h1 | ⟨q', h1, _⟩
        · exact absurd h1 ho
        · exact h.closed n q' s m' k' h1 ho hsrc hment
    rcases key with h | h
    · rcases hpop _ h with h | h
      · exact .inl h
      · exact .inr (.inr h)
    · exact .inr (.inl h)
  · rintro p (hs | rfl)
    · exact h.needed p hs
    · exact h.queue (n, q) (by rw [hq]; simp)
  · rintro p (hs | rfl)
    · exact h.names p hs
    · exact hname
  · rintro m k (hs | hs) ho
    · exact h.found m k hs ho
    · cases hs
      rcases hold with h1 | ⟨q', h1, s, hs⟩
      · exact absurd h1 ho
      · exact .inl ⟨s, hs⟩
  · rintro m k s (hs | hs) ho hsrc
    · exact h.wf m k s hs ho hsrc
    · cases hs
      rcases hold with h1 | ⟨q', h1, _⟩
      · exact absurd h1 ho
      · exact h.wf n q' s h1 ho hsrc
  · obtain ⟨a, ha, hn⟩ := h.new
    refine ⟨a, ha, fun e he => ?_⟩
    obtain ⟨m, q, s, h1, h2⟩ := hn e he
    exact ⟨m, q, s, .inl h1, h2⟩
  · rintro m k s e (hs | hs) ho hsrc hadd
    · exact h.has m k s e hs ho hsrc hadd
    · cases hs
      rcases hold with h1 | ⟨q', h1, _⟩
      · exact absurd h1 ho
      · exact h.has n q' s e h1 ho hsrc hadd
  · intro m
    show m ∈ r.missing ↔ _
    rw [h.missing m]
    constructor
    · rintro ⟨h1, h2⟩; exact ⟨.inl h1, h2⟩
    · rintro ⟨h1 | h1, h2, h3⟩
      · exact ⟨h1, h2, h3⟩
      · cases h1
        rcases hold with h1 | ⟨q', h1, s, b, hs⟩
        · exact absurd h1 h2
        · exact absurd (hs.symm.trans h3) (by simp)
  · intro t
    show t ∈ r.refs ↔ _
    rw [h.refs t]
    constructor
    · rintro (h1 | ⟨m, k, s, h1, h2⟩)
      · exact .inl h1
      · exact .inr ⟨m, k, s, .inl h1, h2⟩
    · rintro (h1 | ⟨m, k, s, h1 | h1, ho, h2⟩)
      · exact .inl h1
      · exact .inr ⟨m, k, s, h1, ho, h2⟩
      · cases h1
        rcases hold with h1 | ⟨q', h1, _⟩
        · exact absurd h1 ho
        · exact .inr ⟨n, q', s, h1, ho, h2⟩

/-- A class that a `require` does not find. -/
theorem Inv.absent {r0 : Run} {ds : Dirs} {roots : List Bytes} {r : Run} {seen n qs} (h : Inv r0 ds (setting r0 ds roots) r seen)
    (hq : r.queue = (n, true) :: qs) (hname : NameOk n) (hno : ¬ (setting r0 ds roots).old n)
    (habs : (setting r0 ds roots).absent n) :
    Inv r0 ds (setting r0 ds roots) { r with queue := qs, missing := n :: r.missing } (more seen (n, true)) := by
  have hpop : ∀ p, p ∈ r.queue → p ∈ qs ∨ p = (n, true) := by
    intro p hp; rw [hq] at hp; rcases List.mem_cons.1 hp with h | h
    · exact .inr h
    · exact .inl h
  have hns : ∀ s, ¬ (setting r0 ds roots).src n s := by
    rintro s ⟨b, hb⟩
    exact absurd (hb.symm.trans habs) (by simp)
  refine { h with
    queue := fun p hp => h.queue p (by rw [hq]; exact List.mem_cons_of_mem _ hp)
    roots := ?_, closed := ?_, needed := ?_, names := ?_, found := ?_, wf := ?_, new := ?_, has := ?_, missing := ?_, refs := ?_ }
  · intro m hm
    rcases h.roots m hm with h | h
    · rcases hpop _ h with h | h
      · exact .inl h
      · exact .inr (.inr h)
    · exact .inr (.inl h)
  · intro m k s m' k' hs ho hsrc hment
    rcases hs with hs | hs
    · rcases h.closed m k s m' k' hs ho hsrc hment with h | h
      · rcases hpop _ h with h | h
        · exact .inl h
        · exact .inr (.inr h)
      · exact .inr (.inl h)
    · cases hs
      exact absurd hsrc (hns s)
  · rintro p (hs | rfl)
    · exact h.needed p hs
    · exact h.queue (n, true) (by rw [hq]; simp)
  · rintro p (hs | rfl)
    · exact h.names p hs
    · exact hname
  · rintro m k (hs | hs) ho
    · exact h.found m k hs ho
    · cases hs
      exact .inr ⟨rfl, habs⟩
  · rintro m k s (hs | hs) ho hsrc
    · exact h.wf m k s hs ho hsrc
    · cases hs
      exact absurd hsrc (hns s)
  · obtain ⟨a, ha, hn⟩ := h.new
    refine ⟨a, ha, fun e he => ?_⟩
    obtain ⟨m, q, s, h1, h2⟩ := hn e he
    exact ⟨m, q, s, .inl h1, h2⟩
  · rintro m k s e (hs | hs) ho hsrc hadd
    · exact h.has m k s e hs ho hsrc hadd
    · cases hs
      exact absurd hsrc (hns s)
  · intro m
    show m ∈ n :: r.missing ↔ _
    rw [List.mem_cons, h.missing m]
    constructor
    · rintro (rfl | ⟨h1, h2⟩)
      · exact ⟨.inr rfl, hno, habs⟩
      · exact ⟨.inl h1, h2⟩
    · rintro ⟨h1 | h1, h2, h3⟩
      · exact .inr ⟨h1, h2, h3⟩
      · cases h1; exact .inl rfl
  · intro t
    show t ∈ r.refs ↔ _
    rw [h.refs t]
    constructor
    · rintro (h1 | ⟨m, k, s, h1, h2⟩)
      · exact .inl h1
      · exact .inr ⟨m, k, s, .inl h1, h2⟩
    · rintro (h1 | ⟨m, k, s, h1 | h1, ho, hsrc, h2⟩)
      · exact .inl h1
      · exact .inr ⟨m, k, s, h1, ho, hsrc, h2⟩
      · cases h1
        exact absurd hsrc (hns s)

/-- A class whose source is read. -/
theorem Inv.read {r0 : Run} {ds : Dirs} {roots : List Bytes} {r r' : Run} {seen n q qs fs s}
    (h : Inv r0 ds (setting r0 ds roots) r seen)
    (hq : r.queue = (n, q) :: qs) (hname : NameOk n) (hno : ¬ (setting r0 ds roots).old n)
    (hv : ∀ m, view fs ds m = view r.files ds m) (hsrc : (setting r0 ds roots).src n s) (hwf : WellFormed n s)
    (he : r'.errs = false) (d : DidParse n s { r with queue := qs, files := fs } r') :
    Inv r0 ds (setting r0 ds roots) r' (more seen (n, q)) := by
  have hpop : ∀ p, p ∈ r.queue → p ∈ r'.queue ∨ p = (n, q) := by
    intro p hp; rw [hq] at hp; rcases List.mem_cons.1 hp with h | h
    · exact .inr h
    · exact .inl ((d.queue p).2 (.inl h))
  have hcur : Needed (setting r0 ds roots) n q := h.queue (n, q) (by rw [hq]; simp)
  have huniq : ∀ s', (setting r0 ds roots).src n s' → s' = s := fun s' h' => src_unique h' hsrc
  refine { cons := d.grow.cons h.cons, views := ?_, queue := ?_, errs := he
           roots := ?_, closed := ?_, needed := ?_, names := ?_, found := ?_, wf := ?_, new := ?_, has := ?_, missing := ?_, refs := ?_ }
  · intro m
    rw [d.grow.files]
    exact (hv m).trans (h.views m)
  · intro p hp
    rcases (d.queue p).1 hp with hp | hp
    · exact h.queue p (by rw [hq]; exact List.mem_cons_of_mem _ hp)
    · exact .mention hcur hno hsrc hp
  · intro m hm
    rcases h.roots m hm with h | h
    · rcases hpop _ h with h | h
      · exact .inl h
      · exact .inr (.inr h)
    · exact .inr (.inl h)
  · intro m k s' m' k' hs ho hsrc' hment
    rcases hs with hs | hs
    · rcases h.closed m k s' m' k' hs ho hsrc' hment with h | h
      · rcases hpop _ h with h | h
        · exact .inl h
        · exact .inr (.inr h)
      · exact .inr (.inl h)
    · cases hs
      cases huniq s' hsrc'
      exact .inl ((d.queue _).2 (.inr hment))
  · rintro p (hs | rfl)
    · exact h.needed p hs
    · exact hcur
  · rintro p (hs | rfl)
    · exact h.names p hs
    · exact hname
  · rintro m k (hs | hs) ho
    · exact h.found m k hs ho
    · cases hs
      exact .inl ⟨s, hsrc⟩
  · rintro m k s' (hs | hs) ho hsrc'
    · exact h.wf m k s' hs ho hsrc'
    · cases hs
      cases huniq s' hsrc'
      exact hwf
  · obtain ⟨a, ha, hn⟩ := h.new
    obtain ⟨b, hb, hn'⟩ := d.grow.add
    refine ⟨a ++ b, by rw [hb]; show r.types ++ b = _; rw [ha, List.append_assoc], fun e he => ?_⟩
    rcases List.mem_append.1 he with he | he
    · obtain ⟨m, q, s, h1, h2⟩ := hn e he
      exact ⟨m, q, s, .inl h1, h2⟩
    · exact ⟨n, q, s, .inr rfl, hno, hsrc, hn' e he⟩
  · rintro m k s' e (hs | hs) ho hsrc' hadd
    · exact (d.grow.has _).2 (.inl (h.has m k s' e hs ho hsrc' hadd))
    · cases hs
      cases huniq s' hsrc'
      exact (d.grow.has _).2 (.inr ⟨e, hadd, rfl⟩)
  · intro m
    rw [d.grow.missing]
    show m ∈ r.missing ↔ _
    rw [h.missing m]
    constructor
    · rintro ⟨h1, h2⟩; exact ⟨.inl h1, h2⟩
    · rintro ⟨h1 | h1, h2, h3⟩
      · exact ⟨h1, h2, h3⟩
      · cases h1
        obtain ⟨b, hb⟩ := hsrc
        exact absurd (hb.symm.trans h3) (by simp)
  · intro t
    rw [d.refs t]
    show t ∈ r.refs ∨ _ ↔ _
    rw [h.refs t]
    constructor
    · rintro ((h1 | ⟨m, k, s, h1, h2⟩) | h1)
      · exact .inl h1
      · exact .inr ⟨m, k, s, .inl h1, h2⟩
      · exact .inr ⟨n, q, s, .inr rfl, hno, hsrc, h1⟩
    · rintro (h1 | ⟨m, k, s', h1 | h1, ho, hsrc', h2⟩)
      · exact .inl (.inl h1)
      · exact .inl (.inr ⟨m, k, s', h1, ho, hsrc', h2⟩)
      · cases h1
        cases huniq s' hsrc'
        exact .inr h2

/-- What is assumed about the sources. -/
structure Fine (r0 : Run) (ds : Dirs) (S : Setting) : Prop where
  live : ∀ n c b, view r0.files ds n = some (c, b) → b = true
  safe : ∀ n s, S.src n s → Safe n s
  plain : ∀ n q, Needed S n q → ¬ Occurs (Spec.Load.bytes "::anon_method::") n

/-- The loop ends without error exactly if everything can be loaded, and then everything has been seen. -/
theorem load_spec (r0 : Run) (ds : Dirs) (roots : List Bytes) (hc0 : Cons r0.types r0.sym) (fine : Fine r0 ds (setting r0 ds roots)) :
    ∀ k r seen r' b, Inv r0 ds (setting r0 ds roots) r seen → load ds k r = .ok (r', b) →
    (b = false → r'.errs = false → ∃ seen', Inv r0 ds (setting r0 ds roots) r' seen' ∧ r'.queue = []) ∧
    (Loadable (setting r0 ds roots) → b = false ∧ r'.errs = false) := by
  intro k
  induction k with
  | zero => intro r seen r' b _ h; cases h
  | succ k ih =>
    intro r seen r' b hI h
    cases hq : r.queue with
    | nil =>
      rw [load, hq] at h
      cases h
      exact ⟨fun _ _ => ⟨seen, hI, hq⟩, fun _ => ⟨rfl, hI.errs⟩⟩
    | cons p qs =>
      obtain ⟨n, q⟩ := p
      have hcur : Needed (setting r0 ds roots) n q := hI.queue (n, q) (by rw [hq]; simp)
      rw [load, hq] at h
      simp only at h
      cases hbad : badName n with
      | true =>
        rw [hbad] at h
        cases h
        refine ⟨fun _ h => by simp [Run.error] at h, fun L => ?_⟩
        have := (badName_iff n).2 (L.names n q hcur)
        rw [hbad] at this
        cases this
      | false =>
        have hname := (badName_iff n).1 hbad
        rw [hbad] at h
        simp only [Bool.false_eq_true, if_false] at h
        by_cases hs : (r.sym n).isSome = true
        · rw [if_pos hs] at h
          refine ih _ (more seen (n, q)) r' b (hI.skip hq hname ?_) h
          rcases (hI.sym (fun _ => Iff.rfl) hc0 n).1 hs with ho | ⟨m, q', s, e, h1, h2, h3, ⟨is, nm, p, refs, hb, h4⟩, h5⟩
          · exact .inl ho
          · rcases h4 with rfl | ⟨_, _, l, c, _, hn⟩
            · simp only at h5
              subst h5
              exact .inr ⟨q', h1, s, h3⟩
            · have := fine.plain n q hcur
              rw [mark_method, ← h5, hn] at this
              exact absurd (anonName_mark m l c) this
        · rw [if_neg hs] at h
          have hno : ¬ (setting r0 ds roots).old n := fun ho => hs ((hI.sym (fun _ => Iff.rfl) hc0 n).2 (.inl ho))
          cases hf : fetch r.files ds n with
          | none =>
            rw [hf] at h
            simp only at h
            have habs : (setting r0 ds roots).absent n := by
              show view r0.files ds n = none
              rw [← hI.views]
              exact (fetch_none _ _ _).1 hf
            cases q with
            | true =>
              simp only [if_true] at h
              exact ih _ (more seen (n, true)) r' b (hI.absent hq hname hno habs) h
            | false =>
              simp only [Bool.false_eq_true, if_false, Out.ok.injEq, Prod.mk.injEq] at h
              obtain ⟨rfl, rfl⟩ := h
              refine ⟨fun _ h => by simp [Run.error] at h, fun L => ?_⟩
              rcases L.found n false hcur hno with ⟨s, b, hb⟩ | ⟨h, _⟩
              · exact absurd (hb.symm.trans habs) (by simp)
              · cases h
          | some fp =>
            obtain ⟨f, fs⟩ := fp
            rw [hf] at h
            simp only at h
            obtain ⟨hv, hvs, _⟩ := fetch_some _ _ _ _ _ hf
            have hv0 : view r0.files ds n = some (f.content, f.live) := by rw [← hI.views, hv]
            cases hcon : f.content with
            | none =>
              rw [hcon] at h
              simp only [Out.ok.injEq, Prod.mk.injEq] at h
              obtain ⟨rfl, rfl⟩ := h
              refine ⟨fun _ h => by simp [Run.error] at h, fun L => ?_⟩
              rw [hcon] at hv0
              rcases L.found n q hcur hno with ⟨s, b, hb⟩ | ⟨_, h⟩
              · exact absurd (hb.symm.trans hv0) (by simp)
              · exact absurd (hv0.symm.trans h) (by simp)
            | some s =>
              rw [hcon] at h hv0
              simp only [hI.errs, Bool.false_eq_true, if_false] at h
              have hsrc : (setting r0 ds roots).src n s := ⟨_, hv0⟩
              have hlive := fine.live n _ _ hv0
              cases ht : s.textOk with
              | false =>
                rw [ht] at h
                simp only [Bool.not_false, if_true, Out.ok.injEq, Prod.mk.injEq] at h
                obtain ⟨rfl, rfl⟩ := h
                refine ⟨fun _ h => by simp [Run.error] at h, fun L => ?_⟩
                have := (L.sources n q s hcur hno hsrc).1
                rw [ht] at this
                cases this
              | true =>
                rw [ht, hlive] at h
                simp only [Bool.not_true, Bool.false_eq_true, if_false, if_true] at h
                cases hp : parse { r with queue := qs, files := fs } (some n) s with
                | die m => rw [hI.errs] at hp; rw [hp] at h; cases h
                | ub => rw [hI.errs] at hp; rw [hp] at h; cases h
                | ok rb =>
                  obtain ⟨r1, b1⟩ := rb
                  have hps := parse_spec _ _ _ _ _ (safe_named (fine.safe n s hsrc)) hp
                  have hclean : (b1 = false ∧ r1.errs = false) ↔ Clean n s := by
                    rw [hps.1]; simp [hI.errs]
                  rw [hI.errs] at hp
                  rw [hp] at h
                  cases b1 with
                  | true =>
                    simp only [Out.ok.injEq, Prod.mk.injEq] at h
                    obtain ⟨rfl, rfl⟩ := h
                    refine ⟨fun h => by (cases h), fun L => ?_⟩
                    exact hclean.2 (((wf_iff n s).1 (L.sources n q s hcur hno hsrc)).2)
                  | false =>
                    simp only at h
                    cases he : r1.errs with
                    | false =>
                      have hwf : WellFormed n s := (wf_iff n s).2 ⟨ht, hclean.1 ⟨rfl, he⟩⟩
                      exact ih r1 (more seen (n, q)) r' b
                        (hI.read hq hname hno hvs hsrc hwf he (hps.2 rfl he)) h
                    | true =>
                      have hnc : ¬ Clean n s := fun hcl => by
                        have := (hclean.2 hcl).2
                        rw [he] at this
                        cases this
                      refine ⟨fun _ he' => ?_, fun L => absurd ((wf_iff n s).1 (L.sources n q s hcur hno hsrc)).2 hnc⟩
                      have := (load_went ds _ _ _ _ h).errs he
                      rw [he'] at this
                      cases this

/-! ## The loop ends -/

/-- The sources there are. -/
def sources (fs : List File) (ds : Dirs) : List (Bytes × Source) :=
  fs.filterMap (fun f => f.content.map (fun s => (f.name, s))) ++ ds.flatten

/-- The uses in sources of classes that are not there yet. -/
def weight (sym : Bytes → Option Nat) : List (Bytes × Source) → Nat
  | [] => 0
  | p :: ps => (if (sym p.1).isSome then 0 else uses p.2) + weight sym ps

theorem weight_mono (sym sym' : Bytes → Option Nat) (h : ∀ n, (sym n).isSome = true → (sym' n).isSome = true)
    (l : List (Bytes × Source)) : weight sym' l ≤ weight sym l := by
  induction l with
  | nil => exact Nat.le_refl _
  | cons p l ih =>
    simp only [weight]
    by_cases hp : (sym p.1).isSome = true
    · rw [if_pos hp, if_pos (h _ hp)]; omega
    · rw [if_neg hp]; split <;> omega

theorem weight_drop (sym sym' : Bytes → Option Nat) (h : ∀ n, (sym n).isSome = true → (sym' n).isSome = true)
    (n : Bytes) (s : Source) (h1 : ¬ (sym n).isSome = true) (h2 : (sym' n).isSome = true) (l : List (Bytes × Source))
    (hm : (n, s) ∈ l) : weight sym' l + uses s ≤ weight sym l := by
  induction l with
  | nil => cases hm
  | cons p l ih =>
    simp only [weight]
    rcases List.mem_cons.1 hm with hp | hp
    · subst hp
      rw [if_neg h1, if_pos h2]
      have := weight_mono sym sym' h l
      simp only
      omega
    · have := ih hp
      by_cases hp : (sym p.1).isSome = true
      · rw [if_pos hp, if_pos (h _ hp)]; omega
      · rw [if_neg hp]; split <;> omega

theorem search_mem (ds : Dirs) (n : Bytes) (s : Source) (h : search ds n = some s) : (n, s) ∈ ds.flatten := by
  induction ds with
  | nil => cases h
  | cons d ds ih =>
    rw [search] at h
    rw [List.flatten_cons, List.mem_append]
    cases hf : d.find? (fun p => p.1 == n) with
    | none => rw [hf] at h; exact .inr (ih h)
    | some p =>
      rw [hf] at h
      cases h
      have h1 := List.find?_some hf
      have h2 := List.mem_of_find?_eq_some hf
      simp only [beq_iff_eq] at h1
      subst h1
      exact .inl h2

theorem view_mem (fs : List File) (ds : Dirs) (n : Bytes) (s : Source) (b : Bool) (h : view fs ds n = some (some s, b)) :
    (n, s) ∈ sources fs ds := by
  unfold view at h
  unfold sources
  rw [List.mem_append]
  cases hg : getFile fs n with
  | some f =>
    rw [hg] at h
    simp only [Option.some.injEq, Prod.mk.injEq] at h
    have h1 := List.find?_some hg
    have h2 := List.mem_of_find?_eq_some hg
    simp only [beq_iff_eq] at h1
    left
    rw [List.mem_filterMap]
    exact ⟨f, h2, by rw [h.1, h1]; rfl⟩
  | none =>
    rw [hg] at h
    cases hs : search ds n with
    | none => rw [hs] at h; cases h
    | some s' =>
      rw [hs] at h
      cases h
      exact .inr (search_mem ds n s hs)

/-- The steps that are left. -/
def steps (l : List (Bytes × Source)) (r : Run) : Nat := r.queue.length + if r.errs then 0 else weight r.sym l

theorem sym_mono {r r' : Run} (h : Ext r r') (hc : Cons r.types r.sym) (n : Bytes) (hn : (r.sym n).isSome = true) :
    (r'.sym n).isSome = true := by
  obtain ⟨e, he, hen⟩ := (hc.isSome n).1 hn
  obtain ⟨a, ha⟩ := h.add
  exact ((h.cons hc).isSome n).2 ⟨e, by rw [ha]; exact List.mem_append_left _ he, hen⟩

theorem load_ends (r0 : Run) (ds : Dirs) (hl : ∀ n c b, view r0.files ds n = some (c, b) → b = true)
    (hs : ∀ n s b, view r0.files ds n = some (some s, b) → Safe n s) :
    ∀ k r, Cons r.types r.sym → (∀ m, view r.files ds m = view r0.files ds m) → steps (sources r0.files ds) r < k →
    ∃ r' b, load ds k r = .ok (r', b) := by
  intro k
  induction k with
  | zero => intro r _ _ h; omega
  | succ k ih =>
    intro r hc hv hk
    cases hq : r.queue with
    | nil => rw [load, hq]; exact ⟨_, _, rfl⟩
    | cons p qs =>
      obtain ⟨n, q⟩ := p
      rw [load, hq]
      simp only
      have hk' : qs.length + (if r.errs then 0 else weight r.sym (sources r0.files ds)) < k := by
        unfold steps at hk
        rw [hq, List.length_cons] at hk
        omega
      split
      · exact ⟨_, _, rfl⟩
      · split
        · exact ih _ hc hv hk'
        · rename_i hsym
          cases hf : fetch r.files ds n with
          | none =>
            simp only
            split
            · exact ih _ hc hv hk'
            · exact ⟨_, _, rfl⟩
          | some fp =>
            obtain ⟨f, fs⟩ := fp
            simp only
            obtain ⟨hvn, hvs, _⟩ := fetch_some _ _ _ _ _ hf
            rw [hv] at hvn
            cases hcon : f.content with
            | none => exact ⟨_, _, rfl⟩
            | some s =>
              rw [hcon] at hvn
              simp only
              split
              · exact ⟨_, _, rfl⟩
              · split
                · exact ⟨_, _, rfl⟩
                · rename_i herr
                  have herr : r.errs = false := by simpa using herr
                  rw [hl _ _ _ hvn, if_pos rfl]
                  rw [herr, if_neg (by simp)] at hk'
                  obtain ⟨r1, b1, hp⟩ := parse_total { r with queue := qs, files := fs } n s (hs _ _ _ hvn)
                  have hp' := hp
                  rw [herr] at hp'
                  simp only [herr, hp']
                  cases b1 with
                  | true => exact ⟨_, _, rfl⟩
                  | false =>
                    simp only
                    have he := parse_ext _ _ _ _ _ hp
                    refine ih r1 (he.1.cons hc) (fun m => by rw [he.1.files]; exact (hvs m).trans (hv m)) ?_
                    have hlen : r1.queue.length ≤ qs.length + uses s := he.2 rfl
                    unfold steps
                    cases her : r1.errs with
                    | true =>
                      simp only [if_true]
                      have : uses s ≤ weight r.sym (sources r0.files ds) := by
                        have := weight_drop r.sym (fun x => if x = n then some 0 else r.sym x)
                          (fun m hm => by split <;> simp_all) n s hsym (by simp) _ (view_mem _ _ _ _ _ hvn)
                        omega
                      omega
                    | false =>
                      simp only [Bool.false_eq_true, if_false]
                      have hps := parse_spec _ _ _ _ _ (safe_named (hs _ _ _ hvn)) hp
                      have hd := hps.2 rfl her
                      rcases (hps.1.1 ⟨rfl, her⟩).2 with hb | ⟨is, nm, p, refs, hb, _⟩
                      · have hu : uses s = 0 := by unfold uses; rw [hb]
                        have := weight_mono r.sym r1.sym (fun m hm => (hd.grow.has m).2 (.inl hm)) (sources r0.files ds)
                        omega
                      · have hn : (r1.sym n).isSome = true :=
                          (hd.grow.has n).2 (.inr ⟨_, ⟨is, nm, p, refs, hb, .inl rfl⟩, rfl⟩)
                        have := weight_drop r.sym r1.sym (fun m hm => (hd.grow.has m).2 (.inl hm)) n s hsym hn
                          (sources r0.files ds) (view_mem _ _ _ _ _ hvn)
                        omega

theorem weight_le (sym : Bytes → Option Nat) (l : List (Bytes × Source)) : weight sym l ≤ (l.map (fun p => uses p.2)).sum := by
  induction l with
  | nil => exact Nat.le_refl _
  | cons p l ih =>
    simp only [weight, List.map_cons, List.sum_cons]
    split <;> omega

theorem fuel_enough (ds : Dirs) (r : Run) : steps (sources r.files ds) r < fuel ds r := by
  have h1 := weight_le r.sym (sources r.files ds)
  have h2 : ((sources r.files ds).map (fun p => uses p.2)).sum =
      (r.files.map fileUses).sum + (ds.flatten.map (fun p => uses p.2)).sum := by
    unfold sources
    rw [List.map_append, List.sum_append]
    congr 1
    induction r.files with
    | nil => rfl
    | cons f fs ih =>
      cases hc : f.content with
      | none => simp [hc, fileUses, ih]
      | some s => simp [hc, fileUses, ih]
  unfold steps fuel
  split <;> omega

end Load
end SPVM
