import Verif.Model.Build

namespace SPVM.Build

/-- Written by a build. -/
def Output : Name → Prop
  | .src _ => False
  | .ver => False
  | _ => True

instance : DecidablePred Output := fun n => by cases n <;> unfold Output <;> infer_instance

/-- The files with an empty build directory. -/
def clean (w : World β) : World β := { w with fs := fun n => if Output n then none else w.fs n }

/-- Everything saved is saved in a later second than any file written by a build so far; nothing is removed or put back with an old
time, and the files of used classes stay as they are. -/
def Calm (p : Proj β) : World β → List (Ev β) → Prop
  | _, [] => True
  | w, e :: es =>
    (match e with
      | .edit n _ => ¬ Output n ∧ (∀ d ∈ p.deps, n = .src d → d = p.cls) ∧ ∀ m f, Output m → w.fs m = some f → f.mtime < w.clock
      | .put _ _ _ => False
      | .remove _ => False
      | .wait _ => True
      | .build _ => True) ∧ Calm p (apply p w e) es

/-- A project before its first build: no file is from the future, the class file is there. -/
structure Start (p : Proj β) (w : World β) : Prop where
  none_built : ∀ n, Output n → w.fs n = none
  past : ∀ n f, w.fs n = some f → f.mtime ≤ w.clock
  cls : (w.fs (.src p.cls)).isSome = true

/-- A part of a class name or a method name: not empty, no colon, no `__` (spvm_toke.c 2558). -/
def NoDouble : List Char → Prop
  | [] => True
  | c :: cs => (c = '_' → cs.head? ≠ some '_') ∧ NoDouble cs

structure Ident (s : List Char) : Prop where
  ne : s ≠ []
  colon : ':' ∉ s
  noDouble : NoDouble s

/-- A class part that does not end with `_`. -/
structure Part (s : List Char) : Prop extends Ident s where
  last : s.getLast? ≠ some '_'

end SPVM.Build
