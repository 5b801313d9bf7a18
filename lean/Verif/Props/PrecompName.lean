import Verif.Lemmas.PrecompName

/-
C72: in the C code written for a precompiled method, each class, class variable, field and method mentioned is looked up by its own
name, and the C function of each method has a name of its own.
-/

namespace SPVM.Precomp

open Spec.PrecompName

/-- What a use of the identifier of `e` in the C code refers to: the entity of the declaration of that identifier.  The C compiler
refuses the code when there is none, and when there are two. -/
def refersTo (ds : List Ent) (e : Ent) : Option Ent := ds.find? fun d => ident d == ident e

/-- Whatever the names, no C identifier is declared twice, and nothing is looked up that the method does not mention. -/
theorem lookups_sound (ms : List Mention) : ((decls ms).map ident).Nodup ∧ ∀ e ∈ decls ms, ∃ m ∈ ms, e ∈ m := by
  refine ⟨fold_nodup (by simp), ?_⟩
  intro e he
  rcases fold_sub he with h | h
  · simp at h
  · simpa using h

/-- Every entity mentioned is declared, and a use of its identifier refers to it: for methods which mention tidy names only. -/
theorem lookups_exact_partial (ms : List Mention) (h : ∀ m ∈ ms, ∀ e ∈ m, TidyEnt e) :
    (∀ e, e ∈ decls ms ↔ ∃ m ∈ ms, e ∈ m) ∧ ∀ m ∈ ms, ∀ e ∈ m, refersTo (decls ms) e = some e := by
  have hf : ∀ d ∈ ms.flatten, TidyEnt d := by
    intro d hd
    obtain ⟨m, h1, h2⟩ := List.mem_flatten.1 hd
    exact h m h1 d h2
  have hiff : ∀ e, e ∈ decls ms ↔ ∃ m ∈ ms, e ∈ m := by
    intro e
    constructor
    · exact (lookups_sound ms).2 e
    · rintro ⟨m, h1, h2⟩
      exact fold_mem (by simp) hf (List.mem_flatten.2 ⟨m, h1, h2⟩)
  refine ⟨hiff, ?_⟩
  intro m hm e he
  have hin := (hiff e).2 ⟨m, hm, he⟩
  cases hr : refersTo (decls ms) e with
  | none =>
    have := List.find?_eq_none.1 hr e hin
    simp at this
  | some d =>
    have h1 := List.mem_of_find?_eq_some hr
    have h2 := List.find?_some hr
    obtain ⟨m', hm', hd⟩ := (hiff d).1 h1
    rw [ident_inj (h m' hm' d hd) (h m hm e he) (by simpa using h2)]

/-- Two different entities with tidy names never have the same identifier. -/
theorem ident_unique_partial (e e' : Ent) (h : TidyEnt e) (h' : TidyEnt e') (hne : e ≠ e') : ident e ≠ ident e' :=
  fun hc => hne (ident_inj h h' hc)

/-- Two different methods with tidy names are written as C functions with different names. -/
theorem symbol_unique_partial (c m c' m' : Name) (hc : TidyClass c) (hm : TidyMember m) (hc' : TidyClass c') (hm' : TidyMember m')
    (hs : symbol c m = symbol c' m') : c = c' ∧ m = m' := by
  unfold symbol at hs
  have hs := List.append_cancel_left hs
  obtain ⟨ps, h1, h2, rfl, -⟩ := hc
  obtain ⟨qs, h1', h2', rfl, -⟩ := hc'
  rw [mangle_join fun p hp => (h2 p hp).1, mangle_join fun p hp => (h2' p hp).1, member_mangle hm, member_mangle hm'] at hs
  have key : ∀ {ps : List Name} {m : Name}, ps ≠ [] → joinUnd ps ++ ("__".toList ++ m) = joinUnd (ps ++ [m]) := by
    intro ps m
    induction ps with
    | nil => intro h; exact absurd rfl h
    | cons p ps ih =>
      intro _
      cases ps with
      | nil => rfl
      | cons p' ps =>
        rw [joinUnd_tail, List.append_assoc, List.append_assoc, ih (by simp)]
        rfl
  rw [key h1, key h1'] at hs
  have hall : ∀ {ps : List Name} {m : Name}, (∀ p ∈ ps, TidyWord p) → TidyMember m → ∀ p ∈ ps ++ [m], Part 2 p := by
    intro ps m h1 h2 p hp
    rcases List.mem_append.1 hp with hp | hp
    · exact part_of_word (h1 p hp)
    · rw [List.mem_singleton] at hp
      rw [hp]; exact member_part h2
  have := joinUnd_inj (by simp) (by simp) (hall h2 hm) (hall h2' hm') hs
  have hl := List.append_inj' this rfl
  exact ⟨by rw [hl.1], by simpa using hl.2⟩

/-! ## Names which are not tidy -/

theorem word_of {w : Name} (h : (!w.isEmpty && w.all (fun ch => ch.isAlphanum || ch == '_') && !strstr w (und 2)) = true) : Word w := by
  simp only [Bool.and_eq_true, Bool.not_eq_true', List.all_eq_true, Bool.or_eq_true, beq_iff_eq] at h
  refine ⟨by intro hc; rw [hc] at h; exact absurd h.1.1 (by decide), h.1.2, ?_⟩
  intro hc
  have := (strstr_iff (und 2) w).2 hc
  rw [h.2] at this
  exact absurd this (by decide)

/-- A class with a method `get` after a method `get_`: the declaration of the second is not written, since the identifier of the first
contains its identifier, and the C code uses an identifier which is not declared. -/
theorem lookup_missing_violated : ∃ c m1 m2, ClassName c ∧ Word m1 ∧ Word m2 ∧
    refersTo (decls [[.method c m1], [.method c m2]]) (.method c m2) = none :=
  ⟨"Foo".toList, "get_".toList, "get".toList, ⟨["Foo".toList], by decide, by
    intro p hp; rw [List.mem_singleton] at hp; subst hp; exact word_of (by decide +kernel), rfl⟩,
    word_of (by decide +kernel), word_of (by decide +kernel), by decide +kernel⟩

/-- The same with the classes `Foo_` and `Foo`. -/
theorem lookup_class_missing_violated : ∃ c1 c2, ClassName c1 ∧ ClassName c2 ∧
    refersTo (decls [[.basicType c1], [.basicType c2]]) (.basicType c2) = none :=
  ⟨"Foo_".toList, "Foo".toList,
    ⟨["Foo_".toList], by decide, by intro p hp; rw [List.mem_singleton] at hp; subst hp; exact word_of (by decide +kernel), rfl⟩,
    ⟨["Foo".toList], by decide, by intro p hp; rw [List.mem_singleton] at hp; subst hp; exact word_of (by decide +kernel), rfl⟩,
    by decide +kernel⟩

/-- A class whose name ends with `basic_type` hides the lookup of a class named as one of its fields. -/
theorem lookup_label_violated : ∃ c f, ClassName c ∧ Word f ∧ ClassName f ∧
    refersTo (decls [[.fieldOffset c f], [.basicType f]]) (.basicType f) = none :=
  ⟨"My_basic_type".toList, "Foo".toList,
    ⟨["My_basic_type".toList], by decide, by intro p hp; rw [List.mem_singleton] at hp; subst hp; exact word_of (by decide +kernel), rfl⟩,
    word_of (by decide +kernel),
    ⟨["Foo".toList], by decide, by intro p hp; rw [List.mem_singleton] at hp; subst hp; exact word_of (by decide +kernel), rfl⟩,
    by decide +kernel⟩

/-- The methods `Foo_->get` and `Foo->_get` have the same identifier: a precompiled method which calls both calls the first twice. -/
theorem lookup_wrong_violated : ∃ c1 m1 c2 m2, ClassName c1 ∧ ClassName c2 ∧ Word m1 ∧ Word m2 ∧ Ent.method c1 m1 ≠ .method c2 m2 ∧
    refersTo (decls [[.method c1 m1], [.method c2 m2]]) (.method c2 m2) = some (.method c1 m1) :=
  ⟨"Foo_".toList, "get".toList, "Foo".toList, "_get".toList,
    ⟨["Foo_".toList], by decide, by intro p hp; rw [List.mem_singleton] at hp; subst hp; exact word_of (by decide +kernel), rfl⟩,
    ⟨["Foo".toList], by decide, by intro p hp; rw [List.mem_singleton] at hp; subst hp; exact word_of (by decide +kernel), rfl⟩,
    word_of (by decide +kernel), word_of (by decide +kernel), by decide +kernel, by decide +kernel⟩

/-- The C functions of `Foo_->get` and `Foo->_get` have the same name, and so do those of the method `m` of `Foo_::Bar` and of
`Foo::_Bar`. -/
theorem symbol_clash_violated : (∃ c1 m1 c2 m2, ClassName c1 ∧ ClassName c2 ∧ Word m1 ∧ Word m2 ∧ c1 ≠ c2 ∧ m1 ≠ m2 ∧ symbol c1 m1 = symbol c2 m2)
    ∧ ∃ c1 c2, ClassName c1 ∧ ClassName c2 ∧ c1 ≠ c2 ∧ ∀ m, symbol c1 m = symbol c2 m := by
  constructor
  · exact ⟨"Foo_".toList, "get".toList, "Foo".toList, "_get".toList,
      ⟨["Foo_".toList], by decide, by intro p hp; rw [List.mem_singleton] at hp; subst hp; exact word_of (by decide +kernel), rfl⟩,
      ⟨["Foo".toList], by decide, by intro p hp; rw [List.mem_singleton] at hp; subst hp; exact word_of (by decide +kernel), rfl⟩,
      word_of (by decide +kernel), word_of (by decide +kernel), by decide +kernel, by decide +kernel, by decide +kernel⟩
  · refine ⟨"Foo_::Bar".toList, "Foo::_Bar".toList, ⟨["Foo_".toList, "Bar".toList], by decide, ?_, by decide +kernel⟩,
      ⟨["Foo".toList, "_Bar".toList], by decide, ?_, by decide +kernel⟩, by decide +kernel, ?_⟩
    · intro p hp
      simp only [List.mem_cons, List.not_mem_nil, or_false] at hp
      rcases hp with rfl | rfl <;> exact word_of (by decide +kernel)
    · intro p hp
      simp only [List.mem_cons, List.not_mem_nil, or_false] at hp
      rcases hp with rfl | rfl <;> exact word_of (by decide +kernel)
    · intro m
      unfold symbol
      rw [show mangle "Foo_::Bar".toList = mangle "Foo::_Bar".toList from by decide +kernel]

/-! ## The hypotheses are met -/

theorem tidyWord_of {w : Name}
    (h : (!w.isEmpty && w.all (fun ch => ch.isAlphanum || ch == '_') && !strstr w (und 2) && w.getLast? != some '_') = true) : TidyWord w := by
  rw [Bool.and_eq_true] at h
  exact ⟨word_of h.1, by simpa using h.2⟩

theorem tidy_point : TidyClass "Math::Point_3D".toList := by
  refine ⟨["Math".toList, "Point_3D".toList], by decide, ?_, by decide +kernel, ?_⟩
  · intro p hp
    simp only [List.mem_cons, List.not_mem_nil, or_false] at hp
    rcases hp with rfl | rfl <;> exact tidyWord_of (by decide +kernel)
  · rw [← List.isSuffixOf_iff_suffix]; decide +kernel

/-- A method which mentions a class, three of its members, one of them twice. -/
def sampleMentions : List Mention :=
  [[.basicType "Math::Point_3D".toList], [.fieldOffset "Math::Point_3D".toList "x".toList],
   [.method "Math::Point_3D".toList "_init".toList], [.classVar "Math::Point_3D".toList "$MAX".toList],
   [.fieldOffset "Math::Point_3D".toList "x".toList], []]

theorem sample_tidy : ∀ m ∈ sampleMentions, ∀ e ∈ m, TidyEnt e := by
  intro m hm e he
  simp only [sampleMentions, List.mem_cons, List.not_mem_nil, or_false] at hm
  rcases hm with rfl | rfl | rfl | rfl | rfl | rfl
  · rw [List.mem_singleton] at he; subst he; exact tidy_point
  · rw [List.mem_singleton] at he; subst he; exact ⟨tidy_point, Or.inr (tidyWord_of (by decide +kernel))⟩
  · rw [List.mem_singleton] at he; subst he; exact ⟨tidy_point, Or.inr (tidyWord_of (by decide +kernel))⟩
  · rw [List.mem_singleton] at he; subst he
    exact ⟨tidy_point, "MAX".toList, by decide +kernel, tidyWord_of (by decide +kernel)⟩
  · rw [List.mem_singleton] at he; subst he; exact ⟨tidy_point, Or.inr (tidyWord_of (by decide +kernel))⟩
  · simp at he

example : (decls sampleMentions).length = 4 := by decide +kernel
example : refersTo (decls sampleMentions) (.classVar "Math::Point_3D".toList "$MAX".toList)
    = some (.classVar "Math::Point_3D".toList "$MAX".toList) :=
  (lookups_exact_partial sampleMentions sample_tidy).2 [.classVar "Math::Point_3D".toList "$MAX".toList] (by simp [sampleMentions]) _ (by simp)
example : declText (.fieldOffset "A::B".toList "x".toList) = "  int32_t field_offset____A__B____x____ = -1;
  if (field_offset____A__B____x____ < 0) {
    field_offset____A__B____x____ = SPVM_IMPLEMENT_GET_FIELD_OFFSET_BY_NAME(env, stack, \"A::B\", \"x\", &error_id);
    if (error_id) {
      goto END_OF_METHOD;
    }
  }
".toList := by decide +kernel
example : ∃ c m, TidyClass c ∧ TidyMember m ∧ symbol c m = "SPVMPRECOMPILE__Math__Point_3D__new".toList :=
  ⟨_, "new".toList, tidy_point, Or.inr (tidyWord_of (by decide +kernel)), by decide +kernel⟩

end SPVM.Precomp
