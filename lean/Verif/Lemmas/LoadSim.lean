import Verif.Lemmas.LoadFinish
/-! Two compilers that read the same sources do the same. -/
namespace SPVM
namespace Load
open VM (Bytes)
open Spec.Load (Occurs NameOk First HasSource Absent Mentions Setting Needed Loaded Defines WellFormed Refers Loadable Resolved Safe
  basicTypes defaultClasses defaultSources settingOf Added)

/-- The same state with other class files. -/
def Run.withFiles (g : List File) (r : Run) : Run := { r with files := g }

theorem wf_addType (g : List File) (r : Run) (e : Entry) : addType (r.withFiles g) e = (addType r e).withFiles g := by
  unfold addType Run.withFiles
  cases r.sym e.name <;> rfl

theorem wf_pushParent (g : List File) (r : Run) (p : Option Bytes) : pushParent (r.withFiles g) p = (pushParent r p).withFiles g := by
  cases p <;> rfl

/-- The files of the result are `g`. -/
def mapF (g : List File) : Out Run → Out Run
  | .ok r => .ok (r.withFiles g)
  | .die m => .die m
  | .ub => .ub

theorem wf_buildClass (g : List File) (r : Run) (o nm p : Option Bytes) (src : Option Source) :
    buildClass (r.withFiles g) o nm p src = mapF g (buildClass r o nm p src) := by
  have h : ∀ m, pushParent (addType { r.withFiles g with refs := r.refs ++ [m] } { name := m, src := src }) p =
      (pushParent (addType { r with refs := r.refs ++ [m] } { name := m, src := src }) p).withFiles g := by
    intro m
    rw [← wf_pushParent, ← wf_addType]
    rfl
  cases o with
  | none => rfl
  | some o =>
    simp only [buildClass, Out.pure_eq, Out.ok_bind]
    split
    · cases nm with
      | some m => rfl
      | none => exact congrArg Out.ok (h o)
    · cases nm with
      | none => rfl
      | some m =>
        simp only
        split
        · exact congrArg Out.ok (h m)
        · split
          · exact congrArg Out.ok (h m)
          · exact congrArg (fun x => Out.ok (Run.error x)) (h m)

theorem wf_item (g : List File) (r : Run) (o : Option Bytes) (i : Item) : item o (r.withFiles g) i = mapF g (item o r i) := by
  cases i with
  | use n q => rfl
  | err => rfl
  | anon l c =>
    cases o with
    | none => rfl
    | some o =>
      simp only [item]
      split
      · exact wf_buildClass g r _ _ _ _
      · rfl

theorem wf_items (g : List File) (o : Option Bytes) (is : List Item) : ∀ r, items o (r.withFiles g) is = mapF g (items o r is) := by
  induction is with
  | nil => intro r; rfl
  | cons i is ih =>
    intro r
    simp only [items]
    rw [wf_item]
    cases item o r i with
    | ok r1 => exact ih r1
    | die m => rfl
    | ub => rfl

theorem wf_parse (g : List File) (r : Run) (o : Option Bytes) (s : Source) :
    parse (r.withFiles g) o s = match parse r o s with
      | .ok (r', b) => .ok (r'.withFiles g, b)
      | .die m => .die m
      | .ub => .ub := by
  unfold parse
  cases s.body with
  | blank => rfl
  | broken is =>
    simp only
    rw [wf_items]
    cases items o r is <;> rfl
  | cls is nm p refs =>
    simp only
    have : items o { r.withFiles g with refs := (r.withFiles g).refs ++ refs } is = mapF g (items o { r with refs := r.refs ++ refs } is) :=
      wf_items g o is { r with refs := r.refs ++ refs }
    rw [this]
    cases items o { r with refs := r.refs ++ refs } is with
    | die m => rfl
    | ub => rfl
    | ok r1 =>
      simp only [mapF, Out.ok_bind]
      rw [wf_buildClass]
      cases buildClass r1 o nm p (some s) <;> rfl

theorem went_sym {ds : Dirs} {r r' : Run} (h : Went ds r r') (hc : Cons r.types r.sym) (n : Bytes) (hn : r'.sym n = none) : r.sym n = none := by
  cases hs : r.sym n with
  | none => rfl
  | some i =>
    obtain ⟨e, he, hen⟩ := (hc.isSome n).1 (by rw [hs]; rfl)
    obtain ⟨a, ha⟩ := h.add
    exact absurd hen (((h.cons hc).none n).1 hn e (by rw [ha]; exact List.mem_append_left _ he))

/-- Two runs that differ in their class files, but read the same for every class that is not there. -/
theorem load_sim (ds : Dirs) : ∀ k r g r1 b, Cons r.types r.sym → (∀ n, r.sym n = none → view g ds n = view r.files ds n) →
    load ds k r = .ok (r1, b) →
    ∃ g1, load ds k (r.withFiles g) = .ok (r1.withFiles g1, b) ∧ ∀ n, r1.sym n = none → view g1 ds n = view r1.files ds n := by
  intro k
  induction k with
  | zero => intro r g r1 b _ _ h; cases h
  | succ k ih =>
    intro r g r1 b hc hg h
    cases hq : r.queue with
    | nil =>
      rw [load, hq] at h
      cases h
      refine ⟨g, ?_, hg⟩
      rw [load]
      simp only [Run.withFiles, hq]
    | cons p qs =>
      obtain ⟨n, q⟩ := p
      rw [load, hq] at h
      rw [load]
      simp only [Run.withFiles, hq] at h ⊢
      split at h
      · rename_i hbad
        cases h
        rw [if_pos hbad]
        exact ⟨g, rfl, hg⟩
      · rename_i hbad
        rw [if_neg hbad]
        split at h
        · rename_i hs
          rw [if_pos hs]
          exact ih { r with queue := qs } g r1 b hc hg h
        · rename_i hs
          rw [if_neg hs]
          have hnone : r.sym n = none := by cases hx : r.sym n <;> simp_all
          cases hf : fetch r.files ds n with
          | none =>
            have hf' : fetch g ds n = none := by rw [fetch_none, hg n hnone, ← fetch_none]; exact hf
            rw [hf] at h
            rw [hf']
            simp only at h ⊢
            split at h
            · rename_i hreq
              rw [if_pos hreq]
              exact ih { r with queue := qs, missing := n :: r.missing } g r1 b hc hg h
            · rename_i hreq
              rw [if_neg hreq]
              cases h
              exact ⟨g, rfl, hg⟩
          | some fp =>
            obtain ⟨f, fs⟩ := fp
            obtain ⟨hv, hvs, _⟩ := fetch_some _ _ _ _ _ hf
            cases hf' : fetch g ds n with
            | none =>
              have := (fetch_none _ _ _).1 hf'
              rw [hg n hnone, hv] at this
              cases this
            | some fp' =>
              obtain ⟨f', fs'⟩ := fp'
              obtain ⟨hv', hvs', _⟩ := fetch_some _ _ _ _ _ hf'
              have hff : f'.content = f.content ∧ f'.live = f.live := by
                rw [hg n hnone, hv] at hv'
                simp only [Option.some.injEq, Prod.mk.injEq] at hv'
                exact ⟨hv'.1.symm, hv'.2.symm⟩
              have hg' : ∀ m, r.sym m = none → view fs' ds m = view fs ds m := by
                intro m hm
                rw [hvs', hvs, hg m hm]
              rw [hf] at h
              simp only [hff.1, hff.2] at h ⊢
              cases hcon : f.content with
              | none =>
                rw [hcon] at h
                cases h
                exact ⟨fs', rfl, hg'⟩
              | some s =>
                rw [hcon] at h
                simp only at h ⊢
                split at h
                · rename_i ht
                  rw [if_pos ht]
                  cases h
                  exact ⟨fs', rfl, hg'⟩
                · rename_i ht
                  rw [if_neg ht]
                  split at h
                  · rename_i he
                    rw [if_pos he]
                    cases h
                    exact ⟨fs', rfl, hg'⟩
                  · rename_i he
                    rw [if_neg he]
                    have hp : parse { r with queue := qs, files := fs' } (if f.live then some n else none) s =
                        match parse { r with queue := qs, files := fs } (if f.live then some n else none) s with
                        | .ok (r', b) => .ok (r'.withFiles fs', b)
                        | .die m => .die m
                        | .ub => .ub := wf_parse fs' { r with queue := qs, files := fs } _ s
                    rw [hp]
                    cases hpr : parse { r with queue := qs, files := fs } (if f.live then some n else none) s with
                    | die m => rw [hpr] at h; cases h
                    | ub => rw [hpr] at h; cases h
                    | ok rb =>
                      obtain ⟨r2, b2⟩ := rb
                      rw [hpr] at h
                      have hext := (parse_ext _ _ _ _ _ hpr).1
                      have hw : Went ds { r with queue := qs, files := fs } r2 := Went.ofExt hext
                      have hg2 : ∀ m, r2.sym m = none → view fs' ds m = view r2.files ds m := by
                        intro m hm
                        rw [hext.files]
                        exact hg' m (went_sym hw hc m hm)
                      cases b2 with
                      | true =>
                        cases h
                        exact ⟨fs', rfl, hg2⟩
                      | false =>
                        exact ih r2 fs' r1 b (hext.cons hc) hg2 h

theorem load_succ (ds : Dirs) : ∀ k r x, load ds k r = .ok x → load ds (k + 1) r = .ok x := by
  intro k
  induction k with
  | zero => intro r x h; cases h
  | succ k ih =>
    intro r x h
    rw [load] at h
    rw [load]
    cases hq : r.queue with
    | nil => rw [hq] at h; exact h
    | cons p qs =>
      obtain ⟨n, q⟩ := p
      rw [hq] at h
      simp only at h ⊢
      split at h
      · rename_i h1; rw [if_pos h1]; exact h
      · rename_i h1
        rw [if_neg h1]
        split at h
        · rename_i h2; rw [if_pos h2]; exact ih _ _ h
        · rename_i h2
          rw [if_neg h2]
          cases hf : fetch r.files ds n with
          | none =>
            rw [hf] at h
            simp only at h ⊢
            split at h
            · rename_i h3; rw [if_pos h3]; exact ih _ _ h
            · rename_i h3; rw [if_neg h3]; exact h
          | some fp =>
            obtain ⟨f, fs⟩ := fp
            rw [hf] at h
            simp only at h ⊢
            cases hc : f.content with
            | none => rw [hc] at h; exact h
            | some s =>
              rw [hc] at h
              simp only at h ⊢
              split at h
              · rename_i h3; rw [if_pos h3]; exact h
              · rename_i h3
                rw [if_neg h3]
                split at h
                · rename_i h4; rw [if_pos h4]; exact h
                · rename_i h4
                  rw [if_neg h4]
                  cases hp : parse { r with queue := qs, files := fs } (if f.live then some n else none) s with
                  | die m => rw [hp] at h; cases h
                  | ub => rw [hp] at h; cases h
                  | ok rb =>
                    obtain ⟨r2, b2⟩ := rb
                    rw [hp] at h
                    cases b2 with
                    | true => exact h
                    | false => exact ih _ _ h

theorem load_mono (ds : Dirs) (k j : Nat) (r : Run) (x : Run × Bool) (h : load ds k r = .ok x) : load ds (k + j) r = .ok x := by
  induction j with
  | zero => exact h
  | succ j ih => exact load_succ ds _ r x ih

theorem load_det (ds : Dirs) (k k' : Nat) (r : Run) (x y : Run × Bool) (h : load ds k r = .ok x) (h' : load ds k' r = .ok y) : x = y := by
  have h1 := load_mono ds k k' r x h
  have h2 := load_mono ds k' k r y h'
  rw [Nat.add_comm, h1] at h2
  cases h2
  rfl

end Load
end SPVM
