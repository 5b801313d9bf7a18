import Verif.Lemmas.LoadHist
/-!
# C69 Compiling again and again

A compilation loads the classes it needs, once each, from their class files or from the first directory that has them; it succeeds
exactly if everything that is needed can be loaded, and then adds exactly these classes.  A compilation that fails changes nothing.
-/
namespace SPVM
namespace Load
open VM (Bytes)
open Spec.Load (Occurs NameOk First HasSource Absent Mentions Setting Needed Loaded Defines WellFormed Refers Loadable Resolved Safe
  basicTypes defaultClasses defaultSources settingOf Added bytes)

/-- A state of the compiler after some history of operations. -/
def Reach (chk : List Entry → List Entry → Bool) (c : Comp) : Prop := ∃ os bs, run chk Comp.new os = .ok (c, bs)

theorem Reach.hist {chk c} (h : Reach chk c) : Hist c := by
  obtain ⟨os, bs, h⟩ := h
  exact (run_hist chk os Comp.new hist_new c bs h).1

/-! ## When a compilation succeeds -/

/-- Whatever was compiled before: a compilation comes to an end.  It succeeds exactly if everything that it needs can be loaded, every
type name is known and the checks of the types find no error; the classes that it adds are those it needs.  Missing: sources on which
the compiler goes wrong (`Safe`), class files whose name has been freed, uses of names with `::anon_method::`, see the violations
below. -/
theorem compile_iff_partial (chk : List Entry → List Entry → Bool) (ds : Dirs) (c : Comp) (hr : Reach chk c) (name : Option Bytes) (keeps : Bool)
    (hlive : ∀ f ∈ c.files, f.live = true)
    (hsafe : ∀ n s, (settingOf c.types c.files ds name).src n s → Safe n s)
    (hplain : ∀ n q, Needed (settingOf c.types c.files ds name) n q → ¬ Occurs (bytes "::anon_method::") n) :
    ∃ c' ok new, compile chk ds c name keeps = .ok (c', ok) ∧
      (ok = true ↔ Loadable (settingOf c.types c.files ds name) ∧ Resolved (settingOf c.types c.files ds name) ∧ chk c.types new = true) ∧
      (Loadable (settingOf c.types c.files ds name) → Added c.types (settingOf c.types c.files ds name) new) ∧
      (ok = true → c'.types = c.types ++ new ∧ c'.runtime = c.types ++ new) ∧
      (ok = false → c'.types = c.types ∧ c'.runtime = c.types) := by
  have hh := hr.hist
  obtain ⟨c', ok, h, hspec⟩ := finish_spec chk ds c c.files name (if keeps then none else name) c.anons hh.cons hlive hsafe
  obtain ⟨new, h1, h2, h3⟩ := hspec hplain
  obtain ⟨hh', _, hf, _⟩ := finish_hist chk ds c c.files name _ _ hh hh.nodup c' ok h
  refine ⟨c', ok, new, h, h1, h2, fun e => ⟨h3 e, by rw [hh'.runtime]; exact h3 e⟩, fun e => ⟨(hf e).1, by rw [hh'.runtime]; exact (hf e).1⟩⟩

/-- The same for an anon class: its source is the class file of a new class.  Missing: also the anon classes from the tenth on. -/
theorem compile_anon_iff_partial (chk : List Entry → List Entry → Bool) (ds : Dirs) (c : Comp) (hr : Reach chk c) (s : Source) (hnine : c.anons < 9)
    (hlive : ∀ f ∈ c.files, f.live = true)
    (hsafe : ∀ n s', (settingOf c.types (setFile c.files (anonClassName c.anons) s) ds (some (anonClassName c.anons))).src n s' → Safe n s')
    (hplain : ∀ n q, Needed (settingOf c.types (setFile c.files (anonClassName c.anons) s) ds (some (anonClassName c.anons))) n q →
      ¬ Occurs (bytes "::anon_method::") n) :
    ∃ c' ok new, compileAnon chk ds c s = .ok (c', ok) ∧
      (ok = true ↔ Loadable (settingOf c.types (setFile c.files (anonClassName c.anons) s) ds (some (anonClassName c.anons))) ∧
        Resolved (settingOf c.types (setFile c.files (anonClassName c.anons) s) ds (some (anonClassName c.anons))) ∧ chk c.types new = true) ∧
      (ok = true → Added c.types (settingOf c.types (setFile c.files (anonClassName c.anons) s) ds (some (anonClassName c.anons))) new ∧
        c'.types = c.types ++ new ∧ c'.anons = c.anons + 1) ∧
      (ok = false → c'.types = c.types ∧ c'.anons = c.anons) := by
  have hh := hr.hist
  have hlen : (anonClassName c.anons).length + 1 ≤ 23 ∧ (anonClassFile (c.anons + 1)).length + 1 ≤ 23 := by
    have : ∀ k, k < 9 → (anonClassName k).length + 1 ≤ 23 ∧ (anonClassFile (k + 1)).length + 1 ≤ 23 := by decide +kernel
    exact this c.anons hnine
  have hlive' : ∀ f ∈ setFile c.files (anonClassName c.anons) s, f.live = true := by
    intro f hf
    rcases setContent_mem _ _ _ _ hf with hf | ⟨g, hg, rfl, _⟩
    · unfold addFile at hf
      split at hf
      · exact hlive f hf
      · rcases List.mem_append.1 hf with h | h
        · exact hlive f h
        · rw [List.mem_singleton.1 h]
    · unfold addFile at hg
      split at hg
      · exact hlive g hg
      · rcases List.mem_append.1 hg with h | h
        · exact hlive g h
        · rw [List.mem_singleton.1 h]
  obtain ⟨c', ok, h, hspec⟩ := finish_spec chk ds c (setFile c.files (anonClassName c.anons) s) (some (anonClassName c.anons))
    (some (anonClassName c.anons)) (c.anons + 1) hh.cons hlive' hsafe
  obtain ⟨new, h1, h2, h3⟩ := hspec hplain
  obtain ⟨hh', _, hf, ht⟩ := finish_hist chk ds c _ _ _ _ hh (setFile_nodup _ _ _ hh.nodup) c' ok h
  refine ⟨c', ok, new, ?_, h1, fun e => ⟨h2 (h1.1 e).1, h3 e, ht e⟩, fun e => ⟨(hf e).1, (hf e).2.2.1⟩⟩
  unfold compileAnon
  rw [if_pos hlen]
  exact h

/-- `if (require Foo) { } else { }` after a compilation that succeeded: the first block is the one that is compiled exactly if the class
was there before or has a file. -/
theorem require_block (chk : List Entry → List Entry → Bool) (ds : Dirs) (c : Comp) (hr : Reach chk c) (name : Option Bytes) (keeps : Bool)
    (hlive : ∀ f ∈ c.files, f.live = true)
    (hsafe : ∀ n s, (settingOf c.types c.files ds name).src n s → Safe n s)
    (hplain : ∀ n q, Needed (settingOf c.types c.files ds name) n q → ¬ Occurs (bytes "::anon_method::") n)
    (c' : Comp) (h : compile chk ds c name keeps = .ok (c', true)) (n : Bytes) (hn : Needed (settingOf c.types c.files ds name) n true)
    (t f : α) :
    ((settingOf c.types c.files ds name).old n ∨ ¬ (settingOf c.types c.files ds name).absent n → requireBlock c' n t f = t) ∧
    (¬ (settingOf c.types c.files ds name).old n ∧ (settingOf c.types c.files ds name).absent n → requireBlock c' n t f = f) := by
  obtain ⟨c1, ok, new, h0, h1, h2, h3, _⟩ := compile_iff_partial chk ds c hr name keeps hlive hsafe hplain
  rw [h] at h0
  cases h0
  obtain ⟨hL, hR, _⟩ := h1.1 rfl
  have hA := h2 hL
  have ht := (h3 rfl).1
  have hh' := (finish_hist chk ds c c.files name _ _ hr.hist hr.hist.nodup c' true h).1
  have hsym : (c'.sym n).isSome = true ↔ ∃ e ∈ c.types ++ new, e.name = n := by rw [hh'.cons.isSome, ht]
  generalize hS : settingOf c.types c.files ds name = S at *
  have hsa : ∀ s, S.src n s → ¬ S.absent n := by
    rw [← hS, ← setting_eq c c.files ds name hr.hist.cons]
    rintro s ⟨b, h⟩ h'
    exact absurd (h.symm.trans h') (by simp)
  have key : (c'.sym n).isSome = true ↔ S.old n ∨ ¬ S.absent n := by
    rw [hsym]
    constructor
    · rintro ⟨e, he, rfl⟩
      rcases List.mem_append.1 he with he | he
      · left; rw [← hS]; exact .inl ⟨e, he, rfl⟩
      · rcases hA.only e he with ⟨h1, _, h2⟩ | ⟨s, _, hl⟩ | ⟨_, m, s, is, nm, p, refs, l, cc, _, _, _, hname⟩
        · left; rw [← hS]; exact .inr ⟨h1, h2⟩
        · exact .inr (hsa s hl.2.2.1)
        · refine absurd ?_ (hplain _ _ hn)
          rw [hname, spec_anonName, mark_method]
          exact anonName_mark m l cc
    · intro hor
      by_cases ho : S.old n
      · rw [← hS] at ho
        rcases ho with ⟨e, he, hen⟩ | ⟨hz, hb⟩
        · exact ⟨e, List.mem_append_left _ he, hen⟩
        · exact ⟨_, List.mem_append_right _ (hA.basic hz n hb), rfl⟩
      · have habs : ¬ S.absent n := hor.resolve_left ho
        have href : Refers S n := by
          cases hn with
          | mention hm hno hs hment =>
            refine .inr ⟨_, _, ⟨⟨_, hm⟩, hno, hs, ?_⟩, .inr ⟨_, hment⟩⟩
            cases hment with
            | item hb _ => exact ⟨_, _, _, _, hb⟩
        rcases hR n href with h | h | ⟨_, h⟩
        · exact absurd h ho
        · rcases hA.anons n h with h | ⟨e, he, hen⟩
          · exact absurd h ho
          · exact ⟨e, List.mem_append_right _ he, hen⟩
        · exact absurd h habs
  refine ⟨fun hx => ?_, fun hx => ?_⟩
  · unfold requireBlock
    rw [if_pos (key.2 hx)]
  · unfold requireBlock
    rw [if_neg (fun h => (key.1 h).elim hx.1 (fun h => h hx.2))]

/-! ## What stays -/

/-- A compilation that fails leaves the classes of the compiler and of the runtime as they were, with their positions, and an anon class
does not use up a number. -/
theorem failed_compile_restores (chk : List Entry → List Entry → Bool) (c : Comp) (hr : Reach chk c) (o : Op) (c' : Comp)
    (h : step chk c o = .ok (c', false)) :
    c'.types = c.types ∧ c'.sym = c.sym ∧ c'.anons = c.anons ∧ c'.runtime = c.runtime :=
  (step_hist chk c hr.hist o c' false h).2.2 rfl

/-- Along any history the classes keep their positions, the runtime has exactly the classes of the compiler, no class is there twice, and
the position of a class is found by its name. -/
theorem classes_keep_their_place (chk : List Entry → List Entry → Bool) (c : Comp) (hr : Reach chk c) (os : List Op) (c' : Comp) (bs : List Bool)
    (h : run chk c os = .ok (c', bs)) :
    (∀ (i : Nat) e, c.types[i]? = some e → c'.types[i]? = some e) ∧ c'.runtime = c'.types ∧ (c'.types.map (·.name)).Nodup ∧
    (∀ n (i : Nat), c'.sym n = some i ↔ ∃ e, c'.types[i]? = some e ∧ e.name = n) := by
  obtain ⟨hh, new, hn⟩ := run_hist chk os c hr.hist c' bs h
  refine ⟨?_, hh.runtime, hh.cons.nodup, hh.cons⟩
  intro i e hi
  rw [hn, List.getElem?_append_left (List.getElem?_eq_some_iff.1 hi).1]
  exact hi

/-- With the directories unchanged a compilation that fails has no influence on the later ones: they succeed or fail and give the same
classes as if it had not been tried.  Missing: class files that were set by hand, changed directories, names that the caller frees, see
the violations below. -/
theorem failed_compile_harmless_partial (chk : List Entry → List Entry → Bool) (ds : Dirs) (c : Comp) (hr : Reach chk c)
    (hlive : ∀ f ∈ c.files, f.live = true) (hsafe : ∀ f ∈ c.files, ∀ s, f.content = some s → Safe f.name s)
    (hdirs : ∀ d ∈ ds, ∀ p ∈ d, Safe p.1 p.2)
    (hdisk : ∀ f ∈ c.files, (∃ e ∈ c.types, e.name = f.name) ∨ (c.types = [] ∧ f.name ∈ defaultClasses) ∨
      ∃ s, f.content = some s ∧ HasSource [] ds f.name s)
    (name : Option Bytes) (c' : Comp) (h : compile chk ds c name true = .ok (c', false)) (names : List (Option Bytes)) :
    ∃ d d' bs, run chk c (names.map (fun n => .compile ds n true)) = .ok (d, bs) ∧
      run chk c' (names.map (fun n => .compile ds n true)) = .ok (d', bs) ∧ d'.types = d.types ∧ d'.runtime = d.runtime ∧ d'.sym = d.sym := by
  have hg : Good c := ⟨hr.hist.cons, fun f hf => ⟨hlive f hf, hsafe f hf⟩, hr.hist.nodup⟩
  have hd : SafeDirs ds := by
    intro n s hs
    have := search_mem ds n s hs
    obtain ⟨d, hd, hp⟩ := List.mem_flatten.1 this
    exact hdirs d hd (n, s) hp
  have hk : Disk ds c := by
    intro f hf
    rcases hdisk f hf with h | h | ⟨s, h1, h2⟩
    · exact .inl ((hr.hist.cons.isSome _).2 h)
    · exact .inr (.inl h)
    · refine .inr (.inr ⟨s, h1, ?_⟩)
      rw [hasSource_iff] at h2
      obtain ⟨b, h2⟩ := h2
      unfold view at h2
      simp only [getFile, List.find?_nil] at h2
      cases hs : search ds f.name with
      | none => rw [hs] at h2; cases h2
      | some s' => rw [hs] at h2; cases h2; rfl
  obtain ⟨hg', hs⟩ := failed_same chk ds hd c c' hg hk name h
  exact run_same chk ds hd names c c' hg hg' hs

/-- Different classes have different files: the path of a class file gives back the name. -/
theorem class_files_differ (n m : Bytes) (hn : ∀ b ∈ n, b ≠ 47) (hm : ∀ b ∈ m, b ≠ 47) (h : relFile n = relFile m) : n = m := by
  unfold relFile at h
  have := List.append_cancel_right h
  rw [← unPath_relPath n hn, ← unPath_relPath m hm, this]

/-! ## Examples -/

section Examples

def exFoo : Bytes := lit "Foo"
def exBar : Bytes := lit "Bar::Baz"
def exQux : Bytes := lit "Qux"

/-- `class Foo { use Bar::Baz; ... if (require Qux) ... an anon method ... }` -/
def exFooSrc : Source := { body := .cls [.use exBar false, .use exQux true, .anon 7 12] (some exFoo) none [exBar] }
/-- `class Bar::Baz extends Error { use Foo; }` -/
def exBarSrc : Source := { body := .cls [.use exFoo false] (some exBar) (some (lit "Error")) [] }
def exDirs : Dirs := [[(exFoo, exFooSrc)], [(exBar, exBarSrc), (exFoo, { body := .broken [] })]]

def noChk : List Entry → List Entry → Bool := fun _ _ => true

/-- The results of a history. -/
def results (os : List Op) : Option (List Bool) :=
  match run noChk Comp.new os with
  | .ok (_, bs) => some bs
  | _ => none

/-- The class names after a history. -/
def classes (os : List Op) : Option (List Bytes) :=
  match run noChk Comp.new os with
  | .ok (c, _) => some (c.types.map (·.name))
  | _ => none

theorem exSrc (n : Bytes) (s : Source) (h : (settingOf [] [] exDirs (some exFoo)).src n s) :
    (n, s) ∈ defaultSources ∨ (n, s) ∈ exDirs.flatten := by
  rcases h with ⟨_, h⟩ | ⟨_, h⟩
  · exact .inl h
  · rw [hasSource_iff] at h
    obtain ⟨b, h⟩ := h
    unfold view at h
    simp only [getFile, List.find?_nil] at h
    cases hs : search exDirs n with
    | none => rw [hs] at h; cases h
    | some s' => rw [hs] at h; cases h; exact .inr (search_mem _ _ _ hs)

/-- The hypotheses of `compile_iff_partial` hold for a new compiler and a class that uses another one, which uses it. -/
theorem ex_hypotheses : Reach noChk Comp.new ∧ (∀ f ∈ Comp.new.files, f.live = true) ∧
    (∀ n s, (settingOf Comp.new.types Comp.new.files exDirs (some exFoo)).src n s → Safe n s) ∧
    (∀ n q, Needed (settingOf Comp.new.types Comp.new.files exDirs (some exFoo)) n q → ¬ Occurs (bytes "::anon_method::") n) := by
  refine ⟨⟨[], [], rfl⟩, by simp [Comp.new], ?_, ?_⟩
  · intro n s h
    rcases exSrc n s h with h | h
    · exact default_safe n s h
    · have h13 : (digits 7).length + (digits 12).length ≤ 13 := by decide +kernel
      simp only [exDirs, List.flatten_cons, List.flatten_nil, List.append_nil, List.mem_append, List.mem_cons, List.not_mem_nil, or_false,
        Prod.mk.injEq] at h
      rcases h with ⟨rfl, rfl⟩ | ⟨rfl, rfl⟩ | ⟨rfl, rfl⟩
      · intro is nm p refs
        refine ⟨fun hb _ => ?_, fun hb l cc hm => ?_⟩
        · cases hb; exact ⟨by simp, fun m hm hne => absurd (Option.some.inj hm).symm hne⟩
        · rcases hb with hb | hb <;> cases hb
          simp only [List.mem_cons, List.not_mem_nil, reduceCtorEq, false_or, or_false, Item.anon.injEq] at hm
          rw [hm.1, hm.2]
          exact h13
      · intro is nm p refs
        refine ⟨fun hb _ => ?_, fun hb l cc hm => ?_⟩
        · cases hb; exact ⟨by simp, fun m hm hne => absurd (Option.some.inj hm).symm hne⟩
        · rcases hb with hb | hb <;> cases hb
          simp at hm
      · intro is nm p refs
        refine ⟨fun hb _ => (by cases hb), fun hb l cc hm => ?_⟩
        rcases hb with hb | hb <;> cases hb
        cases hm
  · have hall : ∀ n ∈ defaultClasses ++ [exFoo, exBar, exQux], strstr anonMethodMark n = false := by decide +kernel
    have hp : ∀ p ∈ defaultSources ++ exDirs.flatten, ∀ n ∈ (match p.2.body with
        | .cls is _ par _ => is.filterMap (fun i => match i with | Item.use m _ => some m | _ => none) ++ par.toList
        | _ => []), n ∈ defaultClasses ++ [exFoo, exBar, exQux] := by decide +kernel
    have key : ∀ n q, Needed (settingOf [] [] exDirs (some exFoo)) n q → n ∈ defaultClasses ++ [exFoo, exBar, exQux] := by
      intro n q h
      induction h with
      | root h =>
        rcases List.mem_append.1 h with h | h
        · exact List.mem_append_left _ h
        · refine List.mem_append_right _ ?_
          simp only [Option.toList_some, List.mem_singleton] at h
          rw [h]
          simp
      | mention _ _ hs hm _ =>
        have hmem := exSrc _ _ hs
        rw [← List.mem_append] at hmem
        have h1 := hp _ hmem
        cases hm with
        | item hb hi =>
          simp only [hb] at h1
          refine h1 _ (List.mem_append_left _ (List.mem_filterMap.2 ⟨_, hi, rfl⟩))
        | parent hb =>
          simp only [hb] at h1
          exact h1 _ (List.mem_append_right _ (by simp))
    intro n q h
    rw [mark_method, ← strstr_false]
    exact hall n (key n q h)

/-- The compilation succeeds, the classes are the needed ones, the second directory is not asked for `Foo`. -/
example : results [.compile exDirs (some exFoo) true] = some [true] := by decide +kernel
example : (classes [.compile exDirs (some exFoo) true]).map (·.drop 11) =
    some (["Byte", "Short", "Int", "Long", "Float", "Double", "Bool", "Error", "Error::System", "Error::NotSupported", "CommandInfo",
      "Address", "Error::Compile", "Foo::anon_method::7::12", "Foo", "Bar::Baz"].map lit) := by decide +kernel
example : Loadable (settingOf Comp.new.types Comp.new.files exDirs (some exFoo)) := by
  obtain ⟨h1, h2, h3, h4⟩ := ex_hypotheses
  obtain ⟨c', ok, new, h, hiff, _⟩ := compile_iff_partial noChk exDirs Comp.new h1 (some exFoo) true h2 h3 h4
  have : results [.compile exDirs (some exFoo) true] = some [true] := by decide +kernel
  have hr : results [.compile exDirs (some exFoo) true] = some [ok] := by
    simp [results, run, step, h]
  rw [this] at hr
  simp only [Option.some.injEq, List.cons.injEq, and_true] at hr
  exact (hiff.1 hr.symm).1
/-- A class that is not there: the compilation fails, and the next one succeeds. -/
example : results [.compile exDirs (some (lit "Zork")) true, .compile exDirs (some exFoo) true] = some [false, true] := by decide +kernel
/-- `require_block`: `Qux` is needed, and is absent. -/
example : Needed (settingOf Comp.new.types Comp.new.files exDirs (some exFoo)) exQux true := by
  refine .mention (s := exFooSrc) (.root (n := exFoo) (List.mem_append_right _ (by simp))) ?_ ?_ (.item rfl (by decide +kernel))
  · rintro (⟨e, he, _⟩ | ⟨_, h⟩)
    · simp [Comp.new] at he
    · revert h; decide +kernel
  · refine .inr ⟨fun _ => by decide +kernel, ?_⟩
    rw [hasSource_iff]
    exact ⟨true, by decide +kernel⟩
/-- An anon class. -/
def exAnon : Source := { body := .cls [.use exFoo false] none none [exFoo] }
example : results [.anon exDirs exAnon, .anon exDirs exAnon] = some [true, true] := by decide +kernel
example : ((classes [.anon exDirs exAnon, .anon exDirs exAnon]).map (fun l => l.filter (fun n => anonCls n))) =
    some (["eval::anon_class::0", "eval::anon_class::1"].map lit) := by decide +kernel

end Examples

/-! ## Violations -/

/-- A file with a syntax error is compiled, then corrected and compiled again: the second compilation still reads the old text and
fails.  (A class is registered at its end, so the class file of a class with a syntax error is not deleted, spvm_compiler.c 266-277.) -/
theorem corrected_file_violated :
    results [.compile [[(exFoo, { body := .broken [] })]] (some exFoo) true,
      .compile [[(exFoo, { body := .cls [] (some exFoo) none [] })]] (some exFoo) true] = some [false, false] ∧
    results [.compile [[(exFoo, { body := .cls [] (some exFoo) none [] })]] (some exFoo) true] = some [true] := by
  decide +kernel

/-- The class file of a class is set by hand.  A compilation that fails since another class is missing deletes it: when the other class
is there the compilation fails again, although it succeeds without the first attempt. -/
theorem class_file_kept_violated :
    results [.setFile exFoo { body := .cls [.use exQux false] (some exFoo) none [] }, .compile [] (some exFoo) true,
      .compile [[(exQux, { body := .cls [] (some exQux) none [] })]] (some exFoo) true] = some [true, false, false] ∧
    results [.setFile exFoo { body := .cls [.use exQux false] (some exFoo) none [] },
      .compile [[(exQux, { body := .cls [] (some exQux) none [] })]] (some exFoo) true] = some [true, true] := by
  decide +kernel

/-- After an anon class with a syntax error the next anon class reads the freed name of the first one. -/
theorem anon_class_after_error_violated :
    results [.anon [] { body := .broken [] }] = some [false] ∧
    (match run noChk Comp.new [.anon [] { body := .broken [] }, .anon [] { body := .cls [] none none [] }] with
      | .ub => true | _ => false) = true := by
  decide +kernel

/-- The same for the class of a compilation whose name the caller frees. -/
theorem freed_name_violated :
    (match run noChk Comp.new [.compile [[(exFoo, { body := .broken [.anon 1 1] })]] (some exFoo) false,
      .compile [[(exFoo, { body := .broken [.anon 1 1] })]] (some exFoo) false] with | .ub => true | _ => false) = true := by
  decide +kernel

/-- The tenth anon class writes behind the end of the block for its file name. -/
theorem tenth_anon_class_violated (chk : List Entry → List Entry → Bool) (ds : Dirs) (c : Comp) (s : Source) (h : c.anons = 9) :
    compileAnon chk ds c s = .ub := by
  unfold compileAnon
  rw [h, if_neg (by decide +kernel)]

example : (match run noChk Comp.new (List.replicate 9 (.anon [] { body := .cls [] none none [] })) with
    | .ok (c, bs) => c.anons == 9 && bs.all id | _ => false) = true := by decide +kernel

/-- A class without a name in the file of an ordinary class is a null pointer dereference. -/
theorem unnamed_class_violated :
    (match run noChk Comp.new [.compile [[(exFoo, { body := .cls [] none none [] })]] (some exFoo) true] with
      | .ub => true | _ => false) = true := by
  decide +kernel

/-- An anon class cannot have anon methods: they are refused with the message for named classes. -/
theorem anon_method_in_anon_class_violated :
    results [.anon [] { body := .cls [.anon 3 5] none none [] }] = some [false] := by
  decide +kernel

/-- The name of an anon method at line 10000000 column 1000000 does not fit into its block. -/
theorem anon_method_position_violated :
    (match run noChk Comp.new [.compile [[(exFoo, { body := .cls [.anon 10000000 1000000] (some exFoo) none [] })]] (some exFoo) true] with
      | .ub => true | _ => false) = true := by
  decide +kernel

/-- `Bar::Baz` uses the class `Qux`, which does not exist, as a type and without `require`.  The compilation fails, but it succeeds if
another class asks for `Qux` with `require`. -/
theorem missing_class_hidden_violated :
    results [.compile [[(exFoo, { body := .cls [.use exBar false] (some exFoo) none [] }), (exBar, { body := .cls [] (some exBar) none [exQux] })]]
      (some exFoo) true] = some [false] ∧
    results [.compile [[(exFoo, { body := .cls [.use exBar false, .use exQux true] (some exFoo) none [] }),
      (exBar, { body := .cls [] (some exBar) none [exQux] })]] (some exFoo) true] = some [true] := by
  decide +kernel

/-- The file of `Foo` has a class whose name looks like a generated one, and uses `Foo`. -/
def exLoopSrc : Source := { body := .cls [.use exFoo false] (some (lit "X::anon_class::Y")) none [] }

theorem exLoop (ds : Dirs) : ∀ k r, (∀ p ∈ r.queue, p.1 = exFoo ∨ ((r.sym p.1).isSome = true ∧ badName p.1 = false)) →
    (∃ q, (exFoo, q) ∈ r.queue) → r.sym exFoo = none → view r.files ds exFoo = some (some exLoopSrc, true) → r.errs = false →
    load ds k r = .ub := by
  intro k
  induction k with
  | zero => intro r _ _ _ _ _; rfl
  | succ k ih =>
    intro r hq hin hs hv he
    cases hqe : r.queue with
    | nil => obtain ⟨q, h⟩ := hin; rw [hqe] at h; cases h
    | cons p qs =>
      obtain ⟨n, q⟩ := p
      have hfoo : badName exFoo = false := by decide +kernel
      have hne : ¬ lit "X::anon_class::Y" = exFoo := by decide +kernel
      rw [load, hqe]
      simp only
      by_cases hn : n = exFoo
      · subst hn
        rw [if_neg (by rw [hfoo]; simp), if_neg (by rw [hs]; simp)]
        cases hf : fetch r.files ds exFoo with
        | none => have := (fetch_none _ _ _).1 hf; rw [hv] at this; cases this
        | some fp =>
          obtain ⟨f, fs⟩ := fp
          obtain ⟨h1, h2, _⟩ := fetch_some _ _ _ _ _ hf
          rw [hv] at h1
          simp only [Option.some.injEq, Prod.mk.injEq] at h1
          simp only [← h1.1, ← h1.2, he]
          rw [if_neg (by simp [exLoopSrc])]
          simp only [Bool.false_eq_true, if_false, if_true]
          have hm1 : strstr anonClassMark exFoo = false := by decide +kernel
          have hm2 : strstr anonClassMark (lit "X::anon_class::Y") = true := by decide +kernel
          have hp : ∀ r : Run, parse r (some exFoo) exLoopSrc =
              .ok (addType { pushUse r exFoo false with refs := (pushUse r exFoo false).refs ++ [lit "X::anon_class::Y"] }
                { name := lit "X::anon_class::Y", src := some exLoopSrc }, false) := by
            intro r
            simp only [parse, exLoopSrc, items, item, Out.ok_bind, buildClass, Out.pure_eq, hm1, hm2, Bool.false_eq_true, if_false, Bool.or_true,
              if_true, pushParent, List.append_nil]
          rw [hp]
          simp only
          refine ih _ ?_ ?_ ?_ ?_ ?_
          · intro p hp
            rw [addType_queue] at hp
            simp only [pushUse, List.mem_append, List.mem_singleton] at hp
            rcases hp with hp | hp
            · rcases hq p (by rw [hqe]; exact List.mem_cons_of_mem _ hp) with h | ⟨h, h'⟩
              · exact .inl h
              · exact .inr ⟨((addType_grow _ _).has _).2 (.inl h), h'⟩
            · exact .inl (by rw [hp])
          · exact ⟨false, by rw [addType_queue]; simp [pushUse]⟩
          · cases hx : (addType { pushUse { r with queue := qs, files := fs, errs := false } exFoo false with
              refs := (pushUse { r with queue := qs, files := fs, errs := false } exFoo false).refs ++ [lit "X::anon_class::Y"] }
                { name := lit "X::anon_class::Y", src := some exLoopSrc }).sym exFoo with
            | none => rfl
            | some i =>
              have := ((addType_grow _ _).has exFoo).1 (by rw [hx]; rfl)
              rcases this with h | ⟨_, rfl, h⟩
              · have h' : (r.sym exFoo).isSome = true := h
                rw [hs] at h'; cases h'
              · exact absurd h hne
          · rw [(addType_grow _ _).files]
            exact (h2 exFoo).trans hv
          · rw [addType_errs]; rfl
      · rcases hq (n, q) (by rw [hqe]; simp) with h | ⟨h, h'⟩
        · exact absurd h hn
        · rw [if_neg (by rw [h']; simp), if_pos h]
          refine ih _ ?_ ?_ hs hv he
          · intro p hp
            exact hq p (by rw [hqe]; exact List.mem_cons_of_mem _ hp)
          · obtain ⟨q', h⟩ := hin
            rw [hqe] at h
            rcases List.mem_cons.1 h with h | h
            · cases h; exact absurd rfl hn
            · exact ⟨q', h⟩

/-- After a first compilation: the compiler loads `Foo` again and again, however long it runs. -/
theorem generated_name_hangs_violated : ∃ c, Reach noChk c ∧ ∀ k, load [[(exFoo, exLoopSrc)]] k (begin' c c.files (some exFoo)) = .ub := by
  have hrun : ∃ c bs, run noChk Comp.new [.compile [] none true] = .ok (c, bs) ∧
      (∀ n ∈ defaultClasses, (c.sym n).isSome = true ∧ badName n = false) ∧ c.sym exFoo = none ∧ c.types.length ≠ 0 ∧
      view c.files [[(exFoo, exLoopSrc)]] exFoo = some (some exLoopSrc, true) := by
    have : (match run noChk Comp.new [.compile [] none true] with
      | .ok (c, _) => decide ((∀ n ∈ defaultClasses, (c.sym n).isSome = true ∧ badName n = false) ∧ c.sym exFoo = none ∧ c.types.length ≠ 0 ∧
          view c.files [[(exFoo, exLoopSrc)]] exFoo = some (some exLoopSrc, true))
      | _ => false) = true := by decide +kernel
    cases h : run noChk Comp.new [.compile [] none true] with
    | ok cb =>
      obtain ⟨c, bs⟩ := cb
      rw [h] at this
      exact ⟨c, bs, rfl, of_decide_eq_true this⟩
    | die m => rw [h] at this; cases this
    | ub => rw [h] at this; cases this
  obtain ⟨c, bs, hrun, hdef, hfoo, hlen, hv⟩ := hrun
  refine ⟨c, ⟨_, _, hrun⟩, fun k => ?_⟩
  have hb := begin_spec c c.files (some exFoo)
  have hz : c.types ≠ [] := fun h => hlen (by rw [h]; rfl)
  refine exLoop _ k _ ?_ ?_ ?_ ?_ hb.errs
  · intro p hp
    have := ((hb.queue p).1 hp).2
    rcases List.mem_append.1 this with h | h
    · exact .inr ⟨(hb.sym _).2 (.inl (hdef _ h).1), (hdef _ h).2⟩
    · simp only [Option.toList_some, List.mem_singleton] at h
      exact .inl h
  · exact ⟨false, (hb.queue _).2 ⟨rfl, List.mem_append_right _ (by simp)⟩⟩
  · cases hx : (begin' c c.files (some exFoo)).sym exFoo with
    | none => rfl
    | some i =>
      rcases (hb.sym exFoo).1 (by rw [hx]; rfl) with h | ⟨h, _⟩
      · rw [hfoo] at h; cases h
      · exact absurd h hz
  · rw [hb.files, if_neg hlen]
    exact hv

end Load
end SPVM
