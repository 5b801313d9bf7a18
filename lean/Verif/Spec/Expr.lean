/-!
# Numeric expressions: syntax and documented meaning

The operators of lib/SPVM/Document/Language/Operators.pm on local variables and literals of the six numeric types.  This file does not
refer to the compiler.
-/
namespace SPVM
namespace Expr

/-- The numeric types, in the order of Types.pm, "Numeric Types Order". -/
inductive NT | byte | short | int | long | float | double
deriving DecidableEq, Repr

def NT.rank : NT → Nat
  | .byte => 0 | .short => 1 | .int => 2 | .long => 3 | .float => 4 | .double => 5

/-- The number of bits of an integer type. -/
def NT.bits : NT → Nat
  | .byte => 8 | .short => 16 | .int => 32 | _ => 64

def NT.IsInt (t : NT) : Prop := t.rank ≤ 3
instance (t) : Decidable (NT.IsInt t) := by unfold NT.IsInt; infer_instance

/-- `n` is a value of the integer type `t`. -/
def InRange (t : NT) (n : Int) : Prop := -2 ^ (t.bits - 1) ≤ n ∧ n < 2 ^ (t.bits - 1)
instance (t n) : Decidable (InRange t n) := by unfold InRange; infer_instance

/-- A number: an integer, or a floating point number of an arbitrary representation `φ`. -/
inductive Val (φ : Type) where
  | i (n : Int)
  | f (x : φ)
deriving DecidableEq, Repr

/-- `v` is a value of the type `t`. -/
def HasTy {φ} (t : NT) : Val φ → Prop
  | .i n => t.IsInt ∧ InRange t n
  | .f _ => ¬ t.IsInt

/-- The floating point operations of C; the type is `float` or `double`. -/
structure Fl (φ : Type) where
  add : NT → φ → φ → φ
  sub : NT → φ → φ → φ
  mul : NT → φ → φ → φ
  div : NT → φ → φ → φ
  neg : NT → φ → φ
  eq : NT → φ → φ → Bool
  lt : NT → φ → φ → Bool
  le : NT → φ → φ → Bool
  /-- the nearest number -/
  ofInt : NT → Int → φ
  /-- the number without its fraction, if it is finite -/
  toInt : NT → φ → Option Int
  /-- between `float` and `double` -/
  cast : NT → NT → φ → φ

inductive UnOp | plus | minus | bitNot
deriving DecidableEq, Repr

inductive BinOp
  | add | sub | mul | div | divUInt | divULong | mod | modUInt | modULong
  | bitAnd | bitOr | bitXor | shl | sar | shr
  | eq | ne | gt | ge | lt | le | cmp
deriving DecidableEq, Repr

/-- The operators `OP` of special assignments `OP=`. -/
inductive SpOp | add | sub | mul | div | mod | shl | sar | shr | bitXor | bitOr | bitAnd
deriving DecidableEq, Repr

def SpOp.bin : SpOp → BinOp
  | .add => .add | .sub => .sub | .mul => .mul | .div => .div | .mod => .mod | .shl => .shl | .sar => .sar | .shr => .shr
  | .bitXor => .bitXor | .bitOr => .bitOr | .bitAnd => .bitAnd

/-- A local variable with its declared type. -/
structure Var where
  ty : NT
  id : Nat
deriving DecidableEq, Repr

/-- Expressions. -/
inductive Expr (φ : Type) where
  | var (v : Var)
  | lit (t : NT) (c : Val φ)
  /-- `(TYPE)OPERAND` -/
  | cast (t : NT) (e : Expr φ)
  | un (o : UnOp) (e : Expr φ)
  | bin (o : BinOp) (a b : Expr φ)
  /-- `$v = OPERAND` -/
  | assign (v : Var) (e : Expr φ)
  /-- `$v OP= OPERAND` -/
  | special (o : SpOp) (v : Var) (e : Expr φ)
  /-- `++$v` (`true`), `--$v` (`false`) -/
  | pre (up : Bool) (v : Var)
  /-- `$v++` (`true`), `$v--` (`false`) -/
  | post (up : Bool) (v : Var)
  /-- the sequential operator `(OPERAND1, OPERAND2)`; `(A, B, C)` is `((A, B), C)` -/
  | seq (a b : Expr φ)
deriving Repr

/-! ## Types -/

/-- "Integer Promotional Conversion". -/
def promote (t : NT) : NT := if t.rank ≤ NT.int.rank then .int else t

/-- "Binary Numeric Conversion": the larger type, at least `int`. -/
def common (a b : NT) : NT := promote (if a.rank ≤ b.rank then b else a)

/-- The comparison operators. -/
def BinOp.IsCmp : BinOp → Bool
  | .eq | .ne | .gt | .ge | .lt | .le | .cmp => true
  | _ => false
def BinOp.IsShift : BinOp → Bool
  | .shl | .sar | .shr => true
  | _ => false

/-- The type the left operand is converted to. -/
def leftTy (o : BinOp) (a b : NT) : NT :=
  match o with
  | .divUInt | .modUInt => .int
  | .divULong | .modULong => .long
  | .shl | .sar | .shr => promote a
  | _ => common a b
/-- The type the right operand is converted to. -/
def rightTy (o : BinOp) (a b : NT) : NT :=
  match o with
  | .divUInt | .modUInt => .int
  | .divULong | .modULong => .long
  | .shl | .sar | .shr => promote b
  | _ => common a b
/-- The type of the result. -/
def resultTy (o : BinOp) (a b : NT) : NT := if o.IsCmp then .int else leftTy o a b

/-- The type of an expression. -/
def ty {φ} : Expr φ → NT
  | .var v => v.ty
  | .lit t _ => t
  | .cast t _ => t
  | .un _ e => promote (ty e)
  | .bin o a b => resultTy o (ty a) (ty b)
  | .assign v _ => v.ty
  | .special _ v _ => v.ty
  | .pre _ v => v.ty
  | .post _ v => v.ty
  | .seq _ b => ty b

/-- The operand types an operator accepts. -/
def Accepts (o : BinOp) (a b : NT) : Prop :=
  match o with
  | .add | .sub | .mul | .div | .eq | .ne | .gt | .ge | .lt | .le | .cmp => True
  | .mod | .bitAnd | .bitOr | .bitXor => a.IsInt ∧ b.IsInt
  | .divUInt | .modUInt => a = .int ∧ b = .int
  | .divULong | .modULong => a = .long ∧ b = .long
  | .shl | .sar | .shr => a.IsInt ∧ b.rank ≤ NT.int.rank
instance (o a b) : Decidable (Accepts o a b) := by unfold Accepts; cases o <;> infer_instance

/-- The literal an expression consists of; a cast to its own type does not change that. -/
def litOf {φ} : Expr φ → Option (NT × Val φ)
  | .lit t c => some (t, c)
  | .cast t e => if ty e = t then litOf e else none
  | _ => none

/-- A literal may be stored in a variable of a smaller type: an integer whose value fits, and a `double` in a `float`. -/
def Narrows {φ} (d : NT) : Option (NT × Val φ) → Prop
  | some (s, .i n) => s.IsInt ∧ InRange d n
  | some (s, .f _) => s = .double ∧ d = .float
  | none => False
instance {φ} (d : NT) (l : Option (NT × Val φ)) : Decidable (Narrows d l) := by
  unfold Narrows; split <;> infer_instance

/-- The expression keeps all the rules about types. -/
def Typed {φ} : Expr φ → Prop
  | .var _ => True
  | .lit _ _ => True
  | .cast _ e => Typed e
  | .un o e => Typed e ∧ (o = .bitNot → (ty e).IsInt)
  | .bin o a b => Typed a ∧ Typed b ∧ Accepts o (ty a) (ty b)
  | .assign v e => Typed e ∧ ((ty e).rank ≤ v.ty.rank ∨ Narrows v.ty (litOf e))
  | .special o v e => Typed e ∧ Accepts o.bin v.ty (ty e)
  | .pre _ _ => True
  | .post _ _ => True
  | .seq a b => Typed a ∧ Typed b

/-- The literals that can be written: see C59 and C60. -/
def Literal {φ} (t : NT) : Val φ → Prop
  | .i n => (t = .byte ∨ t = .int ∨ t = .long) ∧ InRange t n
  | .f _ => t = .float ∨ t = .double
def Literals {φ} : Expr φ → Prop
  | .lit t c => Literal t c
  | .cast _ e => Literals e
  | .un _ e => Literals e
  | .bin _ a b => Literals a ∧ Literals b
  | .assign _ e => Literals e
  | .special _ _ e => Literals e
  | .seq a b => Literals a ∧ Literals b
  | _ => True

/-! ## Values -/

/-- What an operator gives: a value, an exception, or no defined result (where C has none). -/
inductive Ans (α : Type) where
  | val (x : α)
  | throws (msg : String)
  | undefined
deriving DecidableEq, Repr

/-- An integer result: it must be a value of the type. -/
def fits {φ} (t : NT) (n : Int) : Ans (Val φ) := if InRange t n then .val (.i n) else .undefined

/-- The value of the type `t` that is equal to `n` modulo 2 to the number of bits. -/
def wrap (t : NT) (n : Int) : Int := Int.bmod n (2 ^ t.bits)
/-- The value as an unsigned number of the type. -/
def unsigned (t : NT) (n : Int) : Int := n % 2 ^ t.bits

/-- "Numeric Widening Conversion" and "Numeric Narrowing Conversion". -/
def conv {φ} (F : Fl φ) (s t : NT) : Val φ → Ans (Val φ)
  | .i n => if t.IsInt then .val (.i (wrap t n)) else .val (.f (F.ofInt t n))
  | .f x =>
    if t.IsInt then
      match F.toInt s x with
      | some n => fits t n
      | none => .undefined
    else if s = t then .val (.f x) else .val (.f (F.cast s t x))

/-- A unary operator on a value of the type `t`. -/
def unary {φ} (F : Fl φ) (o : UnOp) (t : NT) : Val φ → Ans (Val φ)
  | .i n =>
    match o with
    | .plus => .val (.i n)
    | .minus => fits t (-n)
    | .bitNot => .val (.i (-n - 1))
  | .f x =>
    match o with
    | .plus => .val (.f x)
    | .minus => .val (.f (F.neg t x))
    | .bitNot => .undefined

def msgZero : String := "Integral type values cannot be divided by 0."

def bool {φ} (b : Bool) : Ans (Val φ) := .val (.i (if b then 1 else 0))

/-- The bits of two's complement, combined. -/
def bits {φ} (t : NT) (f : Bool → Bool → Bool) (a b : Int) : Ans (Val φ) :=
  .val (.i (wrap t (((List.range t.bits).map fun k =>
    if f (unsigned t a / 2 ^ k % 2 = 1) (unsigned t b / 2 ^ k % 2 = 1) then (2 : Int) ^ k else 0).sum)))

/-- A binary operator on integers; `t` is the type of the left operand. -/
def arith {φ} (o : BinOp) (t : NT) (a b : Int) : Ans (Val φ) :=
  match o with
  | .add => fits t (a + b)
  | .sub => fits t (a - b)
  | .mul => fits t (a * b)
  -- rounded to 0
  | .div => if b = 0 then .throws msgZero else fits t (a.tdiv b)
  -- the result has the sign of `b`; where the division is undefined, so is the remainder
  | .mod => if b = 0 then .throws msgZero else if InRange t (a.tdiv b) then .val (.i (a.fmod b)) else .undefined
  | .divUInt | .divULong => if b = 0 then .throws msgZero else .val (.i (wrap t (unsigned t a / unsigned t b)))
  | .modUInt | .modULong => if b = 0 then .throws msgZero else .val (.i (wrap t (unsigned t a % unsigned t b)))
  | .bitAnd => bits t (· && ·) a b
  | .bitOr => bits t (· || ·) a b
  | .bitXor => bits t xor a b
  -- undefined for negative numbers
  | .shl => if 0 ≤ a ∧ 0 ≤ b ∧ b < t.bits then fits t (a * 2 ^ b.toNat) else .undefined
  | .sar => if 0 ≤ b ∧ b < t.bits then .val (.i (a / 2 ^ b.toNat)) else .undefined
  | .shr => if 0 ≤ b ∧ b < t.bits then .val (.i (wrap t (unsigned t a / 2 ^ b.toNat))) else .undefined
  | .eq => bool (a = b)
  | .ne => bool (a ≠ b)
  | .gt => bool (a > b)
  | .ge => bool (a ≥ b)
  | .lt => bool (a < b)
  | .le => bool (a ≤ b)
  | .cmp => .val (.i (if a > b then 1 else if a < b then -1 else 0))

/-- A binary operator on floating point numbers of the type `t`. -/
def arithF {φ} (F : Fl φ) (o : BinOp) (t : NT) (a b : φ) : Ans (Val φ) :=
  match o with
  | .add => .val (.f (F.add t a b))
  | .sub => .val (.f (F.sub t a b))
  | .mul => .val (.f (F.mul t a b))
  | .div => .val (.f (F.div t a b))
  | .eq => bool (F.eq t a b)
  | .ne => bool (!F.eq t a b)
  | .gt => bool (F.lt t b a)
  | .ge => bool (F.le t b a)
  | .lt => bool (F.lt t a b)
  | .le => bool (F.le t a b)
  | .cmp => .val (.i (if F.lt t b a then 1 else if F.lt t a b then -1 else 0))
  | _ => .undefined

def binary {φ} (F : Fl φ) (o : BinOp) (t : NT) : Val φ → Val φ → Ans (Val φ)
  | .i a, .i b => arith o t a b
  | .f a, .f b => arithF F o t a b
  | _, _ => .undefined

/-! ## Evaluation -/

/-- The values of the variables. -/
abbrev Store (φ : Type) := Var → Val φ
def Store.set {φ} (s : Store φ) (v : Var) (x : Val φ) : Store φ := fun w => if w = v then x else s w

/-- What the evaluation of an expression gives. -/
inductive Outcome (φ : Type) where
  | val (s : Store φ) (x : Val φ)
  | throws (msg : String) (s : Store φ)
  | undefined

/-- Continue with the result of an operator. -/
def Ans.andThen {φ} (a : Ans (Val φ)) (s : Store φ) (k : Val φ → Outcome φ) : Outcome φ :=
  match a with
  | .val x => k x
  | .throws msg => .throws msg s
  | .undefined => .undefined

def Outcome.andThen {φ} (o : Outcome φ) (k : Store φ → Val φ → Outcome φ) : Outcome φ :=
  match o with
  | .val s x => k s x
  | .throws msg s => .throws msg s
  | .undefined => .undefined

/-- `$v = ($v OP x)`, converted to the type of `$v`. -/
def update {φ} (F : Fl φ) (o : BinOp) (v : Var) (old : Val φ) (tx : NT) (x : Val φ) (s : Store φ) (result : Val φ → Val φ) :
    Outcome φ :=
  (conv F v.ty (leftTy o v.ty tx) old).andThen s fun a =>
    (conv F tx (rightTy o v.ty tx) x).andThen s fun b =>
      (binary F o (leftTy o v.ty tx) a b).andThen s fun r =>
        (conv F (resultTy o v.ty tx) v.ty r).andThen s fun y => .val (s.set v y) (result y)

/-- The value of an expression; operands are evaluated from left to right. -/
def eval {φ} (F : Fl φ) : Expr φ → Store φ → Outcome φ
  | .var v, s => .val s (s v)
  | .lit _ c, s => .val s c
  | .cast t e, s => (eval F e s).andThen fun s x => (conv F (ty e) t x).andThen s fun y => .val s y
  | .un o e, s => (eval F e s).andThen fun s x =>
    (conv F (ty e) (promote (ty e)) x).andThen s fun y => (unary F o (promote (ty e)) y).andThen s fun r => .val s r
  | .bin o a b, s => (eval F a s).andThen fun s x => (eval F b s).andThen fun s y =>
    (conv F (ty a) (leftTy o (ty a) (ty b)) x).andThen s fun x => (conv F (ty b) (rightTy o (ty a) (ty b)) y).andThen s fun y =>
      (binary F o (leftTy o (ty a) (ty b)) x y).andThen s fun r => .val s r
  | .assign v e, s => (eval F e s).andThen fun s x => (conv F (ty e) v.ty x).andThen s fun y => .val (s.set v y) y
  -- the old value of the variable is read first
  | .special o v e, s => (eval F e s).andThen fun s' x => update F o.bin v (s v) (ty e) x s' id
  | .pre up v, s => update F (if up then .add else .sub) v (s v) .int (.i 1) s id
  | .post up v, s => update F (if up then .add else .sub) v (s v) .int (.i 1) s fun _ => s v
  | .seq a b, s => (eval F a s).andThen fun s _ => eval F b s

/-! ## Operands that are variables -/

/-- The variables an expression assigns to. -/
def assigned {φ} : Expr φ → List Var
  | .var _ => []
  | .lit _ _ => []
  | .cast _ e => assigned e
  | .un _ e => assigned e
  | .bin _ a b => assigned a ++ assigned b
  | .assign v e => v :: assigned e
  | .special _ v e => v :: assigned e
  | .pre _ v => [v]
  | .post _ v => [v]
  | .seq a b => assigned a ++ assigned b

/-- A variable, or an assignment of one. -/
def copies {φ} : Expr φ → Bool
  | .var _ => true
  | .assign _ _ => true
  | .cast t e => if ty e = t then copies e else false
  | _ => false

/-- The variable that holds the value of an operand: the value is not copied. -/
def holder {φ} : Expr φ → Option Var
  | .var v => some v
  | .cast t e => if ty e = t then holder e else none
  | .assign v e => if ty e = v.ty ∧ copies e = true then holder e else some v
  | .special _ v _ => some v
  | .pre _ v => some v
  | .seq _ b => holder b
  | _ => none

/-- No operand is a variable that a later operand assigns to, as in `$x + ($x = 5)`. -/
def Calm {φ} : Expr φ → Prop
  | .var _ => True
  | .lit _ _ => True
  | .cast _ e => Calm e
  | .un _ e => Calm e
  | .bin o a b => Calm a ∧ Calm b ∧ (ty a = leftTy o (ty a) (ty b) → ∀ v, holder a = some v → v ∉ assigned b)
  | .assign _ e => Calm e
  | .special _ _ e => Calm e
  | .pre _ _ => True
  | .post _ _ => True
  | .seq a b => Calm a ∧ Calm b

/-! ## Nested sequences -/

/-- The last operand of a sequential operator. -/
def lastOf {φ} : Expr φ → Option (Expr φ)
  | .seq _ b => some b
  | .cast t e => if ty e = t then lastOf e else none
  | _ => none

/-- A sequential operator, or an operator that is turned into one. -/
def isSequence {φ} : Expr φ → Bool
  | .seq _ _ => true
  | .special _ _ _ => true
  | .pre _ _ => true
  | .post _ _ => true
  | .cast t e => if ty e = t then isSequence e else false
  | _ => false

/-- No sequence whose last operand is again a sequence, as in `(1, $y++)`, is assigned to a variable of its own type. -/
def Kept {φ} : Expr φ → Prop
  | .var _ => True
  | .lit _ _ => True
  | .cast _ e => Kept e
  | .un _ e => Kept e
  | .bin _ a b => Kept a ∧ Kept b
  | .assign v e => Kept e ∧ (ty e = v.ty → ∀ b, lastOf e = some b → isSequence b = false)
  | .special _ _ e => Kept e
  | .pre _ _ => True
  | .post _ _ => True
  | .seq a b => Kept a ∧ Kept b

end Expr
end SPVM
