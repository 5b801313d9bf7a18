import Verif.Model.PrecompName

/-
The names of the language, as far as the C identifiers of a precompiled method depend on them.  See the documents "Class Name",
"Method Name", "Field Name" and "Class Variable Name" of the language: words of letters, digits and underscores without two
underscores in a row; class names are words joined by `::`; class variables begin with `$`.
-/

namespace SPVM.Spec.PrecompName

/-- A word: letters, digits and underscores, never two underscores in a row. -/
structure Word (w : List Char) : Prop where
  ne : w ≠ []
  chars : ∀ ch ∈ w, ch.isAlphanum = true ∨ ch = '_'
  noDouble : ¬ ['_', '_'] <:+: w

/-- Words joined by `::`. -/
def joinColons : List (List Char) → List Char
  | [] => []
  | [w] => w
  | w :: ws => w ++ ':' :: ':' :: joinColons ws

/-- A class name. -/
def ClassName (c : List Char) : Prop := ∃ ps, ps ≠ [] ∧ (∀ p ∈ ps, Word p) ∧ c = joinColons ps

/-- A word which does not end with an underscore. -/
def TidyWord (w : List Char) : Prop := Word w ∧ w.getLast? ≠ some '_'

/-- A class name with no underscore at the end of one of its parts, which does not end with `basic_type`. -/
def TidyClass (c : List Char) : Prop :=
  ∃ ps, ps ≠ [] ∧ (∀ p ∈ ps, TidyWord p) ∧ c = joinColons ps ∧ ¬ "basic_type".toList <:+ c

/-- The name of a field, or of a method: the method of an `anon` method has the empty name. -/
def TidyMember (m : List Char) : Prop := m = [] ∨ TidyWord m

/-- The name of a class variable which does not end with an underscore. -/
def TidyVar (v : List Char) : Prop := ∃ w, v = '$' :: w ∧ TidyWord w

/-- An entity whose names are tidy. -/
def TidyEnt : Precomp.Ent → Prop
  | .basicType c => TidyClass c
  | .classVar c v => TidyClass c ∧ TidyVar v
  | .fieldOffset c f => TidyClass c ∧ TidyMember f
  | .method c m => TidyClass c ∧ TidyMember m

end SPVM.Spec.PrecompName
