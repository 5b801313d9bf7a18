import Verif.Spec.Expr
/-!
# Logical operators and condition evaluation: documented meaning

lib/SPVM/Document/Language/Operators.pm, "Logical Operators" and "Condition Evaluation", for conditions on numeric expressions,
object variables, reference variables and `undef`.
-/
namespace SPVM
namespace Expr

/-- What a variable of an object type or of a reference type holds: `undef`, an object of the class `Bool` with its field `value`, which is 0 or 1,
or something else. -/
inductive Held where
  | null
  | bool (value : Bool)
  | other

/-- The values of the object variables and of the reference variables.  The evaluation of a condition does not assign to them. -/
abbrev Objs := Nat → Held

/-- The type of such a variable, as far as conditions distinguish them. -/
inductive ObjTy where
  | bool
  | object
  | ref

/-- The operand of `if`, `unless`, `while` and of the logical operators. -/
inductive Cond (φ : Type) where
  | num (e : Expr φ)
  /-- an object variable or a reference variable -/
  | obj (t : ObjTy) (n : Nat)
  | undef
  /-- `A && B` -/
  | and (a b : Cond φ)
  /-- `A || B` -/
  | or (a b : Cond φ)
  /-- `!A` -/
  | not (a : Cond φ)

/-- "Condition Evaluation": `byte`, `short` and `int` give their value, the other types `!!OPERAND` of C. -/
def truth {φ} (F : Fl φ) (t : NT) : Val φ → Int
  | .i n => if t.rank ≤ NT.int.rank then n else if n = 0 then 0 else 1
  | .f x => if F.eq t x (F.ofInt t 0) then 0 else 1

/-- "Condition Evaluation" of an object: the field `value` for the type `Bool`, otherwise whether there is an object.  What an undefined variable
of the type `Bool` gives is not documented; here it is 0, as for every other undefined value. -/
def truthHeld : ObjTy → Held → Int
  | .bool, .bool b => if b then 1 else 0
  | _, .null => 0
  | _, _ => 1

/-- What the evaluation of a condition gives. -/
inductive Verdict (φ : Type) where
  | val (s : Store φ) (n : Int)
  | throws (msg : String) (s : Store φ)
  | undefined

def Verdict.andThen {φ} (o : Verdict φ) (k : Store φ → Int → Verdict φ) : Verdict φ :=
  match o with
  | .val s n => k s n
  | .throws msg s => .throws msg s
  | .undefined => .undefined

/-- The value of a condition.  The right operand is evaluated only if the left one does not decide. -/
def judge {φ} (F : Fl φ) (O : Objs) : Cond φ → Store φ → Verdict φ
  | .num e, s =>
    match eval F e s with
    | .val s x => .val s (truth F (ty e) x)
    | .throws msg s => .throws msg s
    | .undefined => .undefined
  | .obj t n, s => .val s (truthHeld t (O n))
  | .undef, s => .val s 0
  | .and a b, s => (judge F O a s).andThen fun s n => if n = 0 then .val s 0 else judge F O b s
  | .or a b, s => (judge F O a s).andThen fun s n => if n ≠ 0 then .val s n else judge F O b s
  | .not a, s => (judge F O a s).andThen fun s n => .val s (if n = 0 then 1 else 0)

/-- A rule for all the numeric expressions of a condition. -/
def Cond.All {φ} (R : Expr φ → Prop) : Cond φ → Prop
  | .num e => R e
  | .obj _ _ => True
  | .undef => True
  | .and a b => a.All R ∧ b.All R
  | .or a b => a.All R ∧ b.All R
  | .not a => a.All R

/-- The variables of type `Bool` in a condition hold an object of that class. -/
def Cond.BoolsDefined {φ} (O : Objs) : Cond φ → Prop
  | .obj .bool n => ∃ b, O n = .bool b
  | .and a b => a.BoolsDefined O ∧ b.BoolsDefined O
  | .or a b => a.BoolsDefined O ∧ b.BoolsDefined O
  | .not a => a.BoolsDefined O
  | _ => True

end Expr
end SPVM
