import Verif.Base
/-!
# Specification: INIT methods

The `INIT` blocks of a class run once, after those of its parent class and of the classes it uses.
-/
namespace SPVM.Spec.Init

/-- An `INIT` block: it changes the state `σ` of the program and returns `true` if a `return` statement ended it. -/
abbrev Block (σ : Type) := Prog σ Bool

inductive Kind where
  | «class» | interface | multiNumeric | builtin
deriving DecidableEq, Repr

/-- What a class (or another type) has to do with initialization.  Types are referred to by their number. -/
structure Cls (σ : Type) where
  kind : Kind
  parent : Option Nat
  uses : List Nat
  blocks : List (Block σ)

variable {σ : Type}

/-- The classes that have to be initialized before class `c`: its parent class, and then the classes it uses in the order of
the `use` statements. -/
def deps (P : List (Cls σ)) (c : Nat) : List Nat :=
  match P[c]? with
  | none => []
  | some k => k.parent.toList ++ k.uses.filter fun u => (P[u]?.map (·.kind)) = some .class

/-- Parent classes exist and are classes. -/
def ParentsExist (P : List (Cls σ)) : Prop :=
  ∀ (c : Nat) (k : Cls σ) (p : Nat), P[c]? = some k → k.parent = some p → (P[p]?.map (·.kind)) = some .class

/-- The types that have an `INIT` method: all but the built-in ones. -/
def initTypes (P : List (Cls σ)) : List Nat :=
  (List.range P.length).filter fun c => ∃ k, P[c]? = some k ∧ k.kind ≠ .builtin

/-- The `INIT` blocks of a class run one after the other; a `return` statement ends them all. -/
def runBlocks : List (Block σ) → Prog σ Unit
  | [] => pure ()
  | b :: bs => do
    let returned ← b
    if returned then pure () else runBlocks bs

/-- The `INIT` blocks of class `c`. -/
def runClass (P : List (Cls σ)) (c : Nat) : Prog σ Unit := runBlocks ((P[c]?.map (·.blocks)).getD [])

/-- The `INIT` blocks of the classes `cs`, one class after the other.  An exception ends them all. -/
def runAll (P : List (Cls σ)) : List Nat → Prog σ Unit
  | [] => pure ()
  | c :: cs => do
    runClass P c
    runAll P cs

/-- `Visits next seen cs order`: to visit `cs` in this order, and for each of them first the ones it needs, passing over those
that were seen, is to go through `order`. -/
inductive Visits (next : Nat → List Nat) : List Nat → List Nat → List Nat → Prop where
  | nil : Visits next seen [] []
  | skip : c ∈ seen → Visits next seen cs o → Visits next seen (c :: cs) o
  | visit : c ∉ seen → Visits next (c :: seen) (next c) o₁ → Visits next (o₁ ++ c :: seen) cs o₂ →
      Visits next seen (c :: cs) (o₁ ++ c :: o₂)

/-- `b` is needed by `a`, directly or through others. -/
inductive Needs (next : Nat → List Nat) : Nat → Nat → Prop where
  | direct : b ∈ next a → Needs next a b
  | through : b ∈ next a → Needs next b c → Needs next a c

/-- What can happen to a program: classes are loaded, all `INIT` methods are called, one of them is called. -/
inductive Op (σ : Type) where
  | load (new : List (Cls σ))
  | initAll
  | initOne (c : Nat)

/-- The outcomes and the final state of a history in which the blocks of the classes `rans` ran. -/
def replay (P : List (Cls σ)) : List (Op σ) → List (List Nat) → σ → List (Out Unit) × σ
  | .load new :: ops, _ :: rans, s => let r := replay (P ++ new) ops rans s; (.ok () :: r.1, r.2)
  | .initAll :: ops, ran :: rans, s =>
    let r := replay P ops rans (runAll P ran s).2
    ((runAll P ran s).1 :: r.1, r.2)
  | .initOne _ :: ops, ran :: rans, s =>
    let r := replay P ops rans (runAll P ran s).2
    ((runAll P ran s).1 :: r.1, r.2)
  | _, _, s => ([], s)

end SPVM.Spec.Init
