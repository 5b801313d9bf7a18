import Verif.Model.Except

namespace SPVM.Except

/-- A place in a method, and the call depth it is executed at. -/
structure Place where
  meth : Meth
  line : Int
  depth : Nat

/-- An exception on its way: error ID, message, and the places it was thrown at and has passed, the innermost first. -/
structure Thrown where
  id : Int
  msg : Msg
  places : List Place

/-- One line of a stack trace (Document/Language/Statements.pm, die Statement). -/
def Place.text (p : Place) : Msg :=
  "\n  ".toList ++ p.meth.cls ++ "->".toList ++ p.meth.name ++ " at ".toList ++ p.meth.file ++ " line ".toList ++ decimal p.line

/-- The message a handler finds in `$@`. -/
def Thrown.text (t : Thrown) : Msg := t.msg ++ (t.places.map Place.text).flatten

/-- The same without the places at a call depth over 100. -/
def Thrown.cut (t : Thrown) : Msg := t.msg ++ ((t.places.filter (·.depth ≤ 100)).map Place.text).flatten

/-- What the documentation says (Document/Language/ExceptionHandling.pm, Statements.pm): an exception carries its message and ID to the
nearest eval block, which puts them into `$@` and `eval_error_id`; an undefined message is "Error"; an eval block starts with
both empty; `eval_error_id` belongs to the method.  `text` is what is put into `$@`. -/
def want (text : Thrown → Msg) (m : Meth) (depth : Nat) : Code → St → Option Thrown × St
  | .skip, s => (none, s)
  | .seq a b, s =>
    match want text m depth a s with
    | (some t, s') => (some t, s')
    | (none, s') => want text m depth b s'
  | .die id msg line, s => (some ⟨id, msg.getD "Error".toList, [⟨m, line, depth⟩]⟩, s)
  | .setExc v, s => (none, { s with exc := v })
  | .look, s => (none, { s with log := s.log ++ [(s.exc, s.evalErr)] })
  | .evalB body, s =>
    match want text m depth body { s with exc := none, evalErr := 0 } with
    | (some t, s') => (none, { s' with exc := some (text t), evalErr := t.id })
    | (none, s') => (none, s')
  | .call m' body line, s =>
    if depth + 1 > 1000 then (some ⟨errorClass, deepMsg, [⟨m, line, depth⟩]⟩, s)
    else
      match want text m' (depth + 1) body { s with evalErr := 0 } with
      | (some t, s') => (some { t with places := t.places ++ [⟨m, line, depth⟩] }, { s' with evalErr := s.evalErr })
      | (none, s') => (none, { s' with evalErr := s.evalErr })

/-- Every `die` has a message and an ID other than 0. -/
def Proper : Code → Prop
  | .seq a b => Proper a ∧ Proper b
  | .die id msg _ => id ≠ 0 ∧ msg ≠ none
  | .evalB b => Proper b
  | .call _ b _ => Proper b
  | _ => True

/-- How deep the calls go. -/
def calls : Code → Nat
  | .seq a b => max (calls a) (calls b)
  | .evalB b => calls b
  | .call _ b _ => calls b + 1
  | _ => 0

/-- A piece of the message of a native exception: plain text, a percent sign, a string, or a number written with `%d` or `%i`. -/
inductive Piece where
  | plain (c : Char)
  | percent
  | str (s : Msg)
  | num (d : Bool) (i : Int)

/-- How the piece is written in the format. -/
def Piece.format : Piece → Msg
  | .plain c => [c]
  | .percent => ['%', '%']
  | .str _ => ['%', 's']
  | .num d _ => ['%', if d then 'd' else 'i']

/-- The argument the piece takes. -/
def Piece.args : Piece → List Arg
  | .str s => [.str s]
  | .num _ i => [.int i]
  | _ => []

/-- What a reader of the message sees. -/
def Piece.shown : Piece → Msg
  | .plain c => [c]
  | .percent => ['%']
  | .str s => s
  | .num _ i => (toString i).toList

end SPVM.Except
