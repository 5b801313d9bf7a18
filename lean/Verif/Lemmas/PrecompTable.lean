import Verif.Spec.Precomp

/-
The tables of the interpreter and of the code generator agree, case by case.
-/

namespace SPVM.Precomp

/-- What the code generator has to write for an argument of the interpreter. -/
def toSym : Sym → Sym
  | .objectDataOffset => .objectHeaderSize
  | s => s

def toP : VArg → PArg
  | .sym s => .sym (toSym s)
  | .var b k => .var b k
  | .addr b k => .addr b k
  | .num e => .int e
  | .typeId k => .typeId k
  | .byteConst k => .byte k
  | .longConst => .long
  | .floatConst k => .float k
  | .doubleConst => .double
  | .basicType k => .basicType k
  | .typeOfVar k => .typeOfVar k
  | .classVar c k => .classVar c k
  | .fieldOffset c k => .fieldOffset c k
  | .method c k => .method c k
  | .methodName c k => .quotedMethod c k
  | .methodClassName c _ => .quotedType c
  | .constData k => .hexConst k
  | .constLength k => .constLength k
  | .constText k => .quotedConst k
  | .currentClass => .quotedCurrentClass
  | .currentMethod => .quotedCurrentMethod
  | .currentFile => .quotedFile

/-- What the code generator has to write for a statement of the interpreter. -/
def toPS : VStmt → List PStmt
  | .call f args => [if f = .LEAVE_SCOPE then .callIfMortal f (args.map toP) else .call f (args.map toP)]
  | .jump k => [.goto k]
  | .ifZero v k => [.ifZero v k]
  | .ifNonzero v k => [.ifNonzero v k]
  | .catchError l k => [.catchError l k]
  | .leaveOnError l k => [.leaveOnError l k]
  | .switch v n d => [.switch v n d]
  | .finish => []

theorem table (id : OpId) : pcCase id = (vmCase id).flatMap toPS := by
  cases id <;> rfl

/-- The mentions an argument needs. -/
def needs : VArg → List MEnt
  | .typeId k => [.basicType k]
  | .basicType k => [.basicType k]
  | .classVar c k => [.basicType c, .classVar c k]
  | .fieldOffset c k => [.basicType c, .fieldOffset c k]
  | .method c k => [.basicType c, .method c k]
  | _ => []

def stmtArgs : VStmt → List VArg
  | .call _ args => args
  | _ => []

theorem mention_table (id : OpId) : mentionCase id = ((vmCase id).flatMap stmtArgs).flatMap needs := by
  cases id <;> rfl

end SPVM.Precomp
