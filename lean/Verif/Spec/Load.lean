import Verif.Model.Load
/-!
# Which classes a compilation loads, and when it succeeds

Written without the work list, the symbol table, the class file list and the roll back of the compiler.  Sources and class files are
the data types of Model/Load.
-/
namespace SPVM
namespace Spec
namespace Load
open VM (Bytes)
open SPVM.Load (Source Item Body Entry File Dirs Comp)

/-- The bytes of a literal. -/
def bytes (s : String) : Bytes := s.toUTF8.toList

/-- `p` occurs in `n`. -/
def Occurs (p n : Bytes) : Prop := ∃ a b, n = a ++ p ++ b

/-- ASCII lower case letters and digits. -/
def Lower (b : UInt8) : Prop := b.toNat ∈ List.range' 97 26
def Digit (b : UInt8) : Prop := b.toNat ∈ List.range' 48 10

/-- The documented rules for class names (Document/Language/Tokenization.pm, "Class Name"), or a name that the compiler itself
generates. -/
def NameOk (n : Bytes) : Prop :=
  Occurs (bytes "::anon_method::") n ∨ Occurs (bytes "::anon_class::") n ∨
  ((∀ c s, n = c :: s → ¬ Lower c ∧ ¬ Digit c) ∧
   (∀ a c b, n = a ++ bytes "::" ++ c :: b → ¬ Lower c) ∧
   ¬ Occurs (bytes "__") n ∧ ¬ Occurs (bytes "::::") n ∧
   (∀ a, n ≠ bytes "::" ++ a) ∧ (∀ a, n ≠ a ++ bytes "::"))

/-- `x` is the first element of `l` with `p`. -/
def First (p : α → Prop) (x : α) (l : List α) : Prop := ∃ a b, l = a ++ x :: b ∧ p x ∧ ∀ y ∈ a, ¬ p y

/-- The source of a class: the content of its class file if it has one, otherwise the file in the first directory that has one. -/
def HasSource (files : List File) (ds : Dirs) (n : Bytes) (s : Source) : Prop :=
  (∃ f, First (fun f : File => f.name = n) f files ∧ f.content = some s) ∨
  ((∀ f ∈ files, f.name ≠ n) ∧
   ∃ d, First (fun d => ∃ p ∈ d, p.1 = n) d ds ∧ First (fun p : Bytes × Source => p.1 = n) (n, s) d)

/-- There is no file for a class. -/
def Absent (files : List File) (ds : Dirs) (n : Bytes) : Prop :=
  (∀ f ∈ files, f.name ≠ n) ∧ ∀ d ∈ ds, ∀ p ∈ d, p.1 ≠ n

/-- A source mentions a class in `use`, `interface`, `allow` or `extends`, or (`true`) in `require`. -/
inductive Mentions : Source → Bytes → Bool → Prop
  | item {s is nm p refs m q} : s.body = .cls is nm p refs → .use m q ∈ is → Mentions s m q
  | parent {s is nm refs m} : s.body = .cls is nm (some m) refs → Mentions s m false

/-- The setting of a compilation: the classes that are there, the sources, the files that are missing, and the classes to be
compiled. -/
structure Setting where
  old : Bytes → Prop
  src : Bytes → Source → Prop
  absent : Bytes → Prop
  roots : List Bytes

/-- The classes that a compilation needs, `true` if a `require` asks for them. -/
inductive Needed (S : Setting) : Bytes → Bool → Prop
  | root {n} : n ∈ S.roots → Needed S n false
  | mention {n q s m r} : Needed S n q → ¬ S.old n → S.src n s → Mentions s m r → Needed S m r

/-- A class that a compilation loads, with its source. -/
def Loaded (S : Setting) (n : Bytes) (s : Source) : Prop :=
  (∃ q, Needed S n q) ∧ ¬ S.old n ∧ S.src n s ∧ ∃ is nm p refs, s.body = .cls is nm p refs

/-- The name of the class of an anon method at a position in the class `n`. -/
def anonName (n : Bytes) (line column : Nat) : Bytes :=
  n ++ bytes "::anon_method::" ++ SPVM.Load.digits line ++ bytes "::" ++ SPVM.Load.digits column

/-- The classes that are there after the compilation: those of the sources and of their anon methods. -/
def Defines (S : Setting) (n : Bytes) : Prop :=
  ∃ m s, Loaded S m s ∧
    (n = m ∨ ∃ is nm p refs l c, s.body = .cls is nm p refs ∧ .anon l c ∈ is ∧ n = anonName m l c)

/-- The source of the class `n` is well-formed: proper text, no errors, a class of the right name.  An anon class has no name and
no anon methods. -/
def WellFormed (n : Bytes) (s : Source) : Prop :=
  s.textOk = true ∧
  (s.body = .blank ∨
   ∃ is nm p refs, s.body = .cls is nm p refs ∧ .err ∉ is ∧
    (Occurs (bytes "::anon_class::") n → nm = none ∧ ∀ l c, .anon l c ∉ is) ∧
    (¬ Occurs (bytes "::anon_class::") n → nm = some n))

/-- A class name is used as a type. -/
def Refers (S : Setting) (t : Bytes) : Prop :=
  t ∈ S.roots ∨ ∃ n s, Loaded S n s ∧
    ((∃ is nm p refs, s.body = .cls is nm p refs ∧ t ∈ refs) ∨ ∃ q, Mentions s t q)

/-- Everything that is needed can be loaded. -/
structure Loadable (S : Setting) : Prop where
  names : ∀ n q, Needed S n q → NameOk n
  found : ∀ n q, Needed S n q → ¬ S.old n → (∃ s, S.src n s) ∨ (q = true ∧ S.absent n)
  sources : ∀ n q s, Needed S n q → ¬ S.old n → S.src n s → WellFormed n s

/-- Every type name is a class, or a class that a `require` did not find. -/
def Resolved (S : Setting) : Prop := ∀ t, Refers S t → S.old t ∨ Defines S t ∨ (Needed S t true ∧ S.absent t)

/-- The types that are not classes. -/
def basicTypes : List Bytes :=
  ["unknown", "undef", "void", "byte", "short", "int", "long", "float", "double", "string", "object"].map bytes

/-- The classes that the compiler itself has the sources of, with their parent classes.  Every compilation needs them. -/
def defaultParents : List (String × Option String) :=
  [("Byte", none), ("Short", none), ("Int", none), ("Long", none), ("Float", none), ("Double", none), ("Bool", none), ("Error", none),
   ("Error::System", some "Error"), ("Error::NotSupported", some "Error"), ("CommandInfo", none), ("Address", none),
   ("Error::Compile", some "Error")]
def defaultClasses : List Bytes := defaultParents.map (fun p => bytes p.1)
def defaultSources : List (Bytes × Source) :=
  defaultParents.map (fun p => (bytes p.1, { body := .cls [] (some (bytes p.1)) (p.2.map bytes) [] }))

/-- The setting of a compilation: the classes `types` are there; if there are none the compiler is new, it has the basic types and
the sources of its own classes. -/
def settingOf (types : List Entry) (files : List File) (ds : Dirs) (name : Option Bytes) : Setting where
  old n := (∃ e ∈ types, e.name = n) ∨ (types = [] ∧ n ∈ basicTypes)
  src n s := (types = [] ∧ (n, s) ∈ defaultSources) ∨ ((types = [] → n ∉ defaultClasses) ∧ HasSource files ds n s)
  absent n := (types = [] → n ∉ defaultClasses) ∧ Absent files ds n
  roots := defaultClasses ++ name.toList

/-- `new` lists what a compilation adds to `types`: every loaded class with its source, the classes of its anon methods, at first the
basic types, nothing else, and nothing twice. -/
structure Added (types : List Entry) (S : Setting) (new : List Entry) : Prop where
  classes : ∀ n s, Loaded S n s → { name := n, src := some s } ∈ new
  anons : ∀ n, Defines S n → S.old n ∨ ∃ e ∈ new, e.name = n
  basic : types = [] → ∀ n ∈ basicTypes, { name := n, src := none } ∈ new
  only : ∀ e ∈ new, (types = [] ∧ e.src = none ∧ e.name ∈ basicTypes) ∨ (∃ s, e.src = some s ∧ Loaded S e.name s) ∨
    (e.src = none ∧ ∃ m s is nm p refs l c, Loaded S m s ∧ s.body = .cls is nm p refs ∧ .anon l c ∈ is ∧ e.name = anonName m l c)
  once : ((types ++ new).map (·.name)).Nodup

/-- Sources on which the compiler does not go wrong: an ordinary class has a name, it does not have a name like those that the
compiler generates unless this is the right name, and the positions of its anon methods have at most 13 digits. -/
def Safe (n : Bytes) (s : Source) : Prop :=
  ∀ is nm p refs, (s.body = .cls is nm p refs → ¬ Occurs (bytes "::anon_class::") n → nm ≠ none ∧
      ∀ m, nm = some m → m ≠ n → ¬ Occurs (bytes "::anon_class::") m ∧ ¬ Occurs (bytes "::anon_method::") m) ∧
    ((s.body = .cls is nm p refs ∨ s.body = .broken is) →
      ∀ l c, .anon l c ∈ is → (SPVM.Load.digits l).length + (SPVM.Load.digits c).length ≤ 13)

end Load
end Spec
end SPVM
