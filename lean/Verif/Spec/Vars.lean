/-!
# Local variables: which declaration a name means, and where variables may be

A method body is a sequence of scopes opened and closed, declarations and uses of variables.
-/
namespace SPVM
namespace Vars

/-- What is kept apart for variables: numbers by their size and kind, objects, references; `void` has no memory. -/
inductive VarKind where
  | byte | short | int | long | float | double | object | ref | void
deriving DecidableEq, Repr

/-- The bytes of one value. -/
def VarKind.size : VarKind → Nat
  | .byte => 1 | .short => 2 | .int => 4 | .long => 8 | .float => 4 | .double => 8 | .object => 8 | .ref => 8 | .void => 0

/-- A declared variable; `width` is 1, or the number of fields of a multi-numeric type. -/
structure Decl where
  name : String
  kind : VarKind
  width : Nat
deriving DecidableEq, Repr

/-- What a method body does with variables, in the order of evaluation. -/
inductive Ev where
  | enter
  | leave
  | decl (d : Decl)
  | use (name : String)
deriving DecidableEq, Repr

/-- The change of the nesting depth. -/
def Ev.depth : Ev → Int
  | .enter => 1
  | .leave => -1
  | _ => 0

/-- The nesting depth before position `j`. -/
def depth (evs : List Ev) (j : Nat) : Int := ((evs.take j).map Ev.depth).sum

/-- `d` is declared at position `i`. -/
def DeclaredAt (evs : List Ev) (i : Nat) (d : Decl) : Prop := evs[i]? = some (.decl d)

/-- What is declared at position `i` can be seen at the later position `j`: the scope it is in has not been left. -/
def Visible (evs : List Ev) (i j : Nat) : Prop := i < j ∧ ∀ k, i < k → k ≤ j → depth evs i ≤ depth evs k

/-- At position `j` the name `n` means the variable declared at position `i`: it is the last visible declaration of the name. -/
def Means (evs : List Ev) (n : String) (j i : Nat) : Prop :=
  (∃ d, DeclaredAt evs i d ∧ d.name = n) ∧ Visible evs i j ∧
  ∀ i' d, DeclaredAt evs i' d → d.name = n → Visible evs i' j → i' ≤ i

/-- The declaration at position `j` declares a name a second time in one scope. -/
def Redeclares (evs : List Ev) (j : Nat) : Prop :=
  ∃ d i d', DeclaredAt evs j d ∧ DeclaredAt evs i d' ∧ d'.name = d.name ∧ Visible evs i j ∧ depth evs i = depth evs j

/-- Declarations before position `i`. -/
def declIndex (evs : List Ev) (i : Nat) : Nat := (evs.take i).countP (fun e => match e with | .decl _ => true | _ => false)

/-- Variable ops before position `j`. -/
def varOps (evs : List Ev) (j : Nat) : Nat :=
  (evs.take j).countP (fun e => match e with | .decl _ => true | .use _ => true | _ => false)

/-- The declarations of a list of events. -/
def declsOf (evs : List Ev) : List Decl := evs.filterMap (fun e => match e with | .decl d => some d | _ => none)

/-- A name that only the compiler makes. -/
def Internal (n : String) : Prop := ∃ rest, n.toList = '$' :: '.' :: rest

/-- Two byte ranges without a common byte. -/
def Apart (a n b m : Nat) : Prop := ∀ x, ¬ ((a ≤ x ∧ x < a + n) ∧ (b ≤ x ∧ x < b + m))

end Vars
end SPVM
