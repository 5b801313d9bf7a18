import Verif.Model.CallMethod

/-!
# Specification of `Native::MethodCall`

What `lib/SPVM/Native/MethodCall.pm` says about a call whose arguments are objects: which object may be given for which
parameter, what the method then receives, and what the caller gets back.  Objects, types and parameters are those of the data
exchange (`Verif.Spec.Exchange`, `Verif.Model.Exchange`).
-/

namespace SPVM.MethodCall

open SPVM.Exch (NumK BT Cell Arg Obj Heap World)

/-- What a method receives for a parameter: a number, an object, or the address of the elements of the array `a`. -/
inductive Word
  | num (k : NumK) (c : Cell k)
  | obj (o : Option Nat)
  | elems (a : Nat)

/-- The class whose objects hold one number of the type. -/
def boxClass : NumK → String
  | .byte => "Byte"
  | .short => "Short"
  | .int => "Int"
  | .long => "Long"
  | .float => "Float"
  | .double => "Double"

/-- The numeric object with the value `c`. -/
def boxOf (k : NumK) (c : Cell k) : Obj := { ty := .cls (boxClass k), dim := 0, len := 0, body := .nums k [c], rc := 0 }

/-- The numeric array with the elements `cs`. -/
def arrayOf (k : NumK) (cs : List (Cell k)) : Obj :=
  { ty := .num k, dim := 1, len := cs.length, body := .nums k cs, rc := 0 }

/-- The object at `x` is a numeric object with the value `c`. -/
def IsBox (h : Heap) (x : Nat) (k : NumK) (c : Cell k) : Prop :=
  ∃ ob, h[x]? = some ob ∧ ob.ty = .cls (boxClass k) ∧ ob.dim = 0 ∧ ob.body = .nums k [c]

/-- The object at `x` is a numeric array with the elements `cs`. -/
def IsArray (h : Heap) (x : Nat) (k : NumK) (cs : List (Cell k)) : Prop :=
  ∃ ob, h[x]? = some ob ∧ ob.ty = .num k ∧ ob.dim = 1 ∧ ob.len = cs.length ∧ ob.body = .nums k cs

/-- Values of the type are objects. -/
def IsObject (ty : BT) (dim : Nat) : Prop := dim ≠ 0 ∨ ty = .string ∨ ty = .any ∨ ∃ n, ty = .cls n

/-- The types a parameter can have: references are references to a numeric or multi-numeric type. -/
def ArgOk (a : Arg) : Prop := a.ref = true → a.dim = 0 ∧ ((∃ k, a.ty = .num k) ∨ ∃ fs k, a.ty = .mul fs k)

/-- The argument `o` is accepted for the parameter `a`, and the method receives `ws` for it (MethodCall.pm, "Arguments").  An
object is accepted if its type can be assigned to the type of the parameter. -/
inductive Passed (W : World) (h : Heap) (a : Arg) : Option Nat → List Word → Prop
  | undef : a.ref = false → IsObject a.ty a.dim → Passed W h a none [.obj none]
  | object {x : Nat} {ob : Obj} : a.ref = false → IsObject a.ty a.dim → h[x]? = some ob →
      W.isa ob.ty ob.dim a.ty a.dim = true → Passed W h a (some x) [.obj (some x)]
  | number {x : Nat} {k : NumK} {c : Cell k} : a.ref = false → a.dim = 0 → a.ty = .num k → IsBox h x k c →
      Passed W h a (some x) [.num k c]
  | fields {x : Nat} {k : NumK} {fs : List String} {cs : List (Cell k)} : a.ref = false → a.dim = 0 → a.ty = .mul fs k →
      IsArray h x k cs → cs.length = fs.length → Passed W h a (some x) (cs.map (.num k))
  | numberRef {x : Nat} {k : NumK} {c : Cell k} : a.ref = true → a.ty = .num k → IsArray h x k [c] →
      Passed W h a (some x) [.elems x]
  | fieldsRef {x : Nat} {k : NumK} {fs : List String} {cs : List (Cell k)} : a.ref = true → a.ty = .mul fs k →
      IsArray h x k cs → cs.length = fs.length → Passed W h a (some x) [.elems x]

/-- All arguments are accepted, each for the parameter at its position; parameters without argument are left out. -/
inductive AllPassed (W : World) (h : Heap) : List Arg → List (Option Nat) → List Word → Prop
  | nil {as : List Arg} : AllPassed W h as [] []
  | cons {a : Arg} {as : List Arg} {o : Option Nat} {os : List (Option Nat)} {w ws : List Word} :
      Passed W h a o w → AllPassed W h as os ws → AllPassed W h (a :: as) (o :: os) (w ++ ws)

/-- What the caller gets for what the method left (MethodCall.pm, "Return Value"): an object as it is, a new numeric object for
a number, a new numeric array for the fields of a multi-numeric value, undef for nothing. -/
inductive Returned : Option (BT × Nat) → (Nat → Word) → Heap → Option Nat → Heap → Prop
  | void {st : Nat → Word} {h : Heap} : Returned none st h none h
  | object {ty : BT} {dim : Nat} {st : Nat → Word} {h : Heap} {o : Option Nat} : IsObject ty dim → st 0 = .obj o →
      Returned (some (ty, dim)) st h o h
  | number {k : NumK} {st : Nat → Word} {h : Heap} {c : Cell k} : st 0 = .num k c →
      Returned (some (.num k, 0)) st h (some h.length) (h ++ [boxOf k c])
  | fields {fs : List String} {k : NumK} {st : Nat → Word} {h : Heap} {cs : List (Cell k)} : cs.length = fs.length →
      (∀ i (_ : i < cs.length), st i = .num k cs[i]) →
      Returned (some (.mul fs k, 0)) st h (some h.length) (h ++ [arrayOf k cs])

/-- The stack the method sees: its words from the bottom, above them whatever was there. -/
def StackOf (ws : List Word) (stale st : Nat → Word) : Prop :=
  (∀ i (_ : i < ws.length), st i = ws[i]) ∧ ∀ i, ws.length ≤ i → st i = stale i

/-- The error id is stored in the array the caller gave, if any. -/
inductive IdStored (id : Int) : Option Nat → Heap → Heap → Prop
  | none {h : Heap} : IdStored id none h h
  | some {h : Heap} {e : Nat} {ob : Obj} : h[e]? = some ob →
      IdStored id (some e) h (h.set e { ob with body := .nums .int [BitVec.ofInt 32 id] })

/-- Every numeric object holds one number of its type, and every numeric array as many as its length. -/
structure HeapOk (h : Heap) : Prop where
  box : ∀ (x : Nat) (ob : Obj) (k : NumK), h[x]? = some ob → ob.ty = .cls (boxClass k) → ob.dim = 0 → ∃ c, ob.body = .nums k [c]
  array : ∀ (x : Nat) (ob : Obj) (k : NumK), h[x]? = some ob → ob.ty = .num k → ob.dim = 1 →
    ∃ cs, ob.body = .nums k cs ∧ ob.len = cs.length

/-- The array dimension plays no part in whether the argument is accepted for the parameter; so it is, for instance, if the
two dimensions are equal. -/
def DimIrrelevant (W : World) (h : Heap) (a : Arg) (o : Option Nat) : Prop :=
  ∀ x ob, o = some x → h[x]? = some ob → IsObject a.ty a.dim → W.isa ob.ty a.dim a.ty a.dim = W.isa ob.ty ob.dim a.ty a.dim

/-- The dimension plays no part for any of the arguments. -/
def DimsIrrelevant (W : World) (h : Heap) (as : List Arg) (os : List (Option Nat)) : Prop :=
  ∀ (i : Nat) (a : Arg) (o : Option Nat), as[i]? = some a → os[i]? = some o → DimIrrelevant W h a o

end SPVM.MethodCall
