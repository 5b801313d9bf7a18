import Verif.Model.Conc
/-!
# What threads may do

A thread may use variables, and the fields of objects that one of its own variables holds.  A variable of another thread is used to
hand over a reference: the arguments of a new thread, what a thread returns, class variables (take a number of a thread that has no
steps of its own for them).
-/
namespace SPVM
namespace Conc

/-- A variable of thread `t` holds object `p`. -/
def Holds (s : State) (t p : Nat) : Prop := ∃ i, s.cell (.var t i) = .strong p

/-- Thread `t` may use a place. -/
def May (s : State) (t : Nat) : Loc → Prop
  | .var _ _ => True
  | .field p f => Holds s t p ∧ f < s.fields p

/-- The reference that was read is still where it was read. -/
def Current (s : State) (src : Loc) (o : Nat) : Prop := s.cell src = .strong o ∨ s.cell src = .weak o

/-- The place is a field that was set to `undef` because its object is being destroyed. -/
def Destroyed (s : State) : Loc → Prop
  | .var _ _ => False
  | .field p f => ∃ t k, (t, Task.clear p k) ∈ s.tasks ∧ f < k

/-- The steps that a program without data races does: places are those the thread may use, nobody overwrites a place between the
read of a reference and its use, and no field of an object is set again while the object is being destroyed. -/
def Disciplined (s : State) (t : Nat) : Act → Prop
  | .new _ _ => True
  | .load src => May s t src
  | .store dst =>
    May s t dst ∧ ∀ src o, s.reg t = some (src, o) → Current s src o ∧ ¬ Destroyed s dst
  | .undef dst => May s t dst
  | .weaken l => May s t l
  | .unweaken l => May s t l
  | .run => True
  | .self _ => True

/-- Every step of a schedule is one of these. -/
def Obeys (s : State) : List (Nat × Act) → Prop
  | [] => True
  | (t, a) :: as => Disciplined s t a ∧ ∀ s1, s.step t a = some s1 → Obeys s1 as

end Conc
end SPVM
