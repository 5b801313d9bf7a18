import Verif.Model.CallMethod
import Verif.Spec.ExchangeHeap

/-!
# What a call from Perl means

The values a parameter takes (`Accepts`), what the method receives for them (`Passed`), what Perl gets for the value returned
(`Returned`) and what the scalars behind references hold afterwards (`Restored`).
-/

namespace SPVM.Exch

/-- The hash has every field, with a number, a string or undef. -/
def HasFields (es : List (String × Sv)) (fs : List String) : Prop :=
  ∀ f ∈ fs, ∃ x, (es.find? (·.1 == f)).map (·.2) = some x ∧ (Plain x ∨ x = .undef)

/-- The values documented for a parameter of each type. -/
def Accepts (W : World) (h : Heap) (a : Arg) (v : Sv) : Prop :=
  match a.dim, a.ref, a.ty with
  | 0, false, .num _ => Plain v
  | 0, false, .string => v = .undef ∨ Plain v ∨ ∃ o, v = .obj .str o
  | 0, false, .any => v = .undef ∨ (∃ s, v = .pv s) ∨ ∃ k o, v = .obj k o
  | 0, false, .cls c => v = .undef ∨ ∃ b ob, v = .obj .cls (some b) ∧ h[b]? = some ob ∧ W.isa ob.ty ob.dim (.cls c) 0 = true
  | 0, false, .mul fs _ => ∃ es, v = .href es ∧ HasFields es fs
  | 0, true, .num _ => ∃ w, v = .sref w ∧ (Plain w ∨ w = .undef)
  | 0, true, .mul fs _ => ∃ es, v = .sref (.href es) ∧ HasFields es fs
  | 0, true, _ => False
  | 1, _, .num k => v = .undef ∨ (∃ b ob, v = .obj .arr (some b) ∧ h[b]? = some ob ∧ ob.ty = .num k ∧ ob.dim = 1) ∨
      ∃ es, v = .aref es ∧ ∀ e ∈ es, Plain e
  | 1, _, .string => v = .undef ∨ (∃ b ob, v = .obj .arr (some b) ∧ h[b]? = some ob ∧ ob.ty = .string ∧ ob.dim = 1) ∨
      ∃ es, v = .aref es ∧ ∀ e ∈ es, e = .undef ∨ Plain e ∨ ∃ o, e = .obj .str o
  | 1, _, .mul fs k => v = .undef ∨ (∃ b ob, v = .obj .arr (some b) ∧ h[b]? = some ob ∧ W.isa ob.ty ob.dim (.mul fs k) 1 = true) ∨
      ∃ es, v = .aref es ∧ ∀ e ∈ es, ∃ m, e = .href m ∧ HasFields m fs
  | d, _, t => v = .undef ∨ (∃ b ob, v = .obj .arr (some b) ∧ h[b]? = some ob ∧ W.isa ob.ty ob.dim t d = true) ∨
      ∃ es, v = .aref es ∧ ∀ e ∈ es, Assignable W t (d - 1) h e

/-- The string object a method gets for a scalar. -/
inductive StrGot (P : Perl) (h : Heap) : Sv → Option Nat → Prop
  | undef : StrGot P h .undef none
  | same (b) : StrGot P h (.obj .str (some b)) (some b)
  | new {v b ob} : Plain v → h[b]? = some ob → ob.ty = .string → ob.dim = 0 → ob.body = .str (svPV P v) → StrGot P h v (some b)

/-- The object a method gets for an object. -/
inductive ObjGot : Sv → Option Nat → Prop
  | undef : ObjGot .undef none
  | same (k b) : ObjGot (.obj k (some b)) (some b)

/-- What the method receives for the `i`th argument: the cells on the stack and the buffer behind a reference. -/
inductive Passed (P : Perl) (h : Heap) (i : Nat) : Arg → Sv → List Slot → Option Buf → Prop
  | num {k v c} : Shows P false k v (svOf P k c) → Passed P h i ⟨.num k, 0, false⟩ v [.num k c] none
  | str {v o} : StrGot P h v o → Passed P h i ⟨.string, 0, false⟩ v [.obj o] none
  | any {v o} : ObjGot v o ∨ (∃ s, v = .pv s) ∧ StrGot P h v o → Passed P h i ⟨.any, 0, false⟩ v [.obj o] none
  | cls {c v o} : ObjGot v o → Passed P h i ⟨.cls c, 0, false⟩ v [.obj o] none
  | mul {fs k es} {cs : List (Cell k)} : cs.length = fs.length → ShowsFields P k es fs (fs.zip (cs.map (svOf P k))) →
      Passed P h i ⟨.mul fs k, 0, false⟩ (.href es) (cs.map (.num k)) none
  | refNum {k v c} : Shows P false k v (svOf P k c) → Passed P h i ⟨.num k, 0, true⟩ (.sref v) [.ref i] (some ⟨k, [c]⟩)
  | refMul {fs k es} {cs : List (Cell k)} : cs.length = fs.length → ShowsFields P k es fs (fs.zip (cs.map (svOf P k))) →
      Passed P h i ⟨.mul fs k, 0, true⟩ (.sref (.href es)) [.ref i] (some ⟨k, cs⟩)
  | arr {t d r v o} : (v = .undef ∧ o = none ∨ ∃ b, v = .obj .arr (some b) ∧ o = some b) → Passed P h i ⟨t, d + 1, r⟩ v [.obj o] none
  | numArr {k r b rc} {es : List Sv} {cs : List (Cell k)} : h[b]? = some ⟨.num k, 1, es.length, .nums k cs, rc⟩ →
      AllRel (Shows P false k) es (cs.map (svOf P k)) → Passed P h i ⟨.num k, 1, r⟩ (.aref es) [.obj (some b)] none
  | strArr {r b os rc} {es : List Sv} : h[b]? = some ⟨.string, 1, es.length, .objs os, rc⟩ → AllRel (StrGot P h) es os →
      Passed P h i ⟨.string, 1, r⟩ (.aref es) [.obj (some b)] none
  | mulArr {fs k r b rc} {es : List Sv} {css : List (List (Cell k))} : h[b]? = some ⟨.mul fs k, 1, es.length, .nums k css.flatten, rc⟩ →
      AllRel (fun v cs => ∃ m, v = .href m ∧ cs.length = fs.length ∧ ShowsFields P k m fs (fs.zip (cs.map (svOf P k)))) es css →
      Passed P h i ⟨.mul fs k, 1, r⟩ (.aref es) [.obj (some b)] none
  | objArr {t d r b os rc} {es : List Sv} : h[b]? = some ⟨t, d + 1, es.length, .objs os, rc⟩ → AllRel ObjGot es os →
      Passed P h i ⟨t, d + 1, r⟩ (.aref es) [.obj (some b)] none

/-- What the method receives for all arguments: their cells one after the other. -/
inductive AllPassed (P : Perl) (h : Heap) : Nat → List Arg → List Sv → List Slot → List (Option Buf) → Prop
  | nil {i as} : AllPassed P h i as [] [] []
  | cons {i a as v vs s ss b bs} : Passed P h i a v s b → AllPassed P h (i + 1) as vs ss bs →
      AllPassed P h i (a :: as) (v :: vs) (s ++ ss) (b :: bs)

/-- The class of the Perl object for an object of unknown type. -/
inductive KindOf : Obj → Kind → Prop
  | arr {ob : Obj} : 0 < ob.dim → KindOf ob .arr
  | str {ob : Obj} : ob.dim = 0 → ob.ty = .string → KindOf ob .str
  | cls {ob : Obj} : ob.dim = 0 → ob.ty ≠ .string → KindOf ob .cls

/-- The class of the Perl object for an object returned as the type. -/
inductive RetKind (ob : Obj) : BT × Nat → Kind → Prop
  | str : RetKind ob (.string, 0) .str
  | any {k} : KindOf ob k → RetKind ob (.any, 0) k
  | cls (c) : RetKind ob (.cls c, 0) .cls
  | arr (t d) : RetKind ob (t, d + 1) .arr

/-- What Perl gets for what the method leaves on the stack. -/
inductive Returned (P : Perl) (h : Heap) : Option (BT × Nat) → (Nat → Slot) → Option Sv → Prop
  | void {st} : Returned P h none st none
  | num {k c st} : st 0 = .num k c → Returned P h (some (.num k, 0)) st (some (svOf P k c))
  | mul {fs k st} {cs : List (Cell k)} : cs.length = fs.length → (∀ i c, cs[i]? = some c → st i = .num k c) →
      Returned P h (some (.mul fs k, 0)) st (some (.href (fs.zip (cs.map (svOf P k)))))
  | undef {t d st} : (d = 0 → ∀ k, t ≠ .num k) → (d = 0 → ∀ fs k, t ≠ .mul fs k) → st 0 = .obj none →
      Returned P h (some (t, d)) st (some .undef)
  | obj {r b ob kd st} : st 0 = .obj (some b) → h[b]? = some ob → RetKind ob r kd → Returned P h (some r) st (some (.obj kd (some b)))

/-- The fields of the hash after the call: the field `f` holds what the method left in the buffer, other keys are as before. -/
def FieldsAfter (P : Perl) (k : NumK) (fs : List String) (cs : List (Cell k)) (es es' : List (String × Sv)) : Prop :=
  (∀ f, f ∉ fs → (es'.find? (·.1 == f)).map (·.2) = (es.find? (·.1 == f)).map (·.2)) ∧
  ∀ (i : Nat) f c, fs[i]? = some f → cs[i]? = some c → (es'.find? (·.1 == f)).map (·.2) = some (svOf P k c)

/-- What the scalar of an argument holds after the call. -/
inductive Restored (P : Perl) : Arg → Option (Option Buf) → Sv → Sv → Prop
  | keep {a : Arg} {b v} : a.ref = false → Restored P a b v v
  | num {k d c cs v} : Restored P ⟨.num k, d, true⟩ (some (some ⟨k, c :: cs⟩)) (.sref v) (.sref (svOf P k c))
  | mul {fs k d cs es es'} : FieldsAfter P k fs cs es es' →
      Restored P ⟨.mul fs k, d, true⟩ (some (some ⟨k, cs⟩)) (.sref (.href es)) (.sref (.href es'))

/-- What the scalars of all arguments hold after the call. -/
inductive AllRestored (P : Perl) (bufs : List (Option Buf)) : Nat → List Arg → List Sv → List Sv → Prop
  | nil {i as} : AllRestored P bufs i as [] []
  | cons {i a as v vs w ws} : Restored P a bufs[i]? v w → AllRestored P bufs (i + 1) as vs ws →
      AllRestored P bufs i (a :: as) (v :: vs) (w :: ws)

/-- The method leaves a value of its return type on the stack. -/
def GivesBack (h : Heap) (ret : Option (BT × Nat)) (st : Nat → Slot) : Prop :=
  match ret with
  | none => True
  | some (.num k, 0) => ∃ c, st 0 = .num k c
  | some (.mul fs k, 0) => ∃ cs : List (Cell k), cs.length = fs.length ∧ ∀ i c, cs[i]? = some c → st i = .num k c
  | some _ => ∃ o, st 0 = .obj o ∧ ∀ b, o = some b → ∃ ob, h[b]? = some ob

/-- The method leaves the buffers in place: each still holds as many numbers of its type. -/
def SameShape : Option Buf → Option Buf → Prop
  | none, none => True
  | some b, some b' => b.k = b'.k ∧ b.cells.length = b'.cells.length
  | _, _ => False

/-- The objects an argument holds exist, directly or as elements of a list. -/
def KnownArg (h : Heap) (v : Sv) : Prop := Known h v ∧ ∀ es, v = .aref es → ∀ e ∈ es, Known h e

/-- Lists and strings of the argument are shorter than 2³¹. -/
def SmallArg (P : Perl) (v : Sv) : Prop :=
  (svPV P v).length < 2147483648 ∧ ∀ es, v = .aref es → es.length < 2147483648 ∧ ∀ e ∈ es, (svPV P e).length < 2147483648

/-- The parameter does not take the value.  For multi-numeric types only the documented errors: the value is not a hash
reference, or a field is missing. -/
def Refuses (W : World) (h : Heap) (a : Arg) (v : Sv) : Prop :=
  match a.dim, a.ref, a.ty with
  | 0, false, .mul fs _ => (∀ k o, v ≠ .obj k o) ∧ ∀ es, v = .href es → ∃ f ∈ fs, ∀ x ∈ es, x.1 ≠ f
  | 0, true, .mul fs _ => (∀ k o, v ≠ .sref (.obj k o)) ∧ ∀ es, v = .sref (.href es) → ∃ f ∈ fs, ∀ x ∈ es, x.1 ≠ f
  | 0, true, .num _ => ¬ Accepts W h a v
  | 0, true, _ => False
  | 1, _, .mul fs _ => ∃ es, v = .aref es ∧ (∀ e ∈ es, ∀ k o, e ≠ .obj k o) ∧
      ∃ e ∈ es, ∀ m, e = .href m → ∃ f ∈ fs, ∀ x ∈ m, x.1 ≠ f
  | _, _, _ => ¬ Accepts W h a v

/-- The fields of a multi-numeric type have different names. -/
def DistinctFields (a : Arg) : Prop := ∀ fs k, a.ty = .mul fs k → fs.Nodup

/-- The method that is called: for a class name the class method of that class; for an object the instance method of the object's
class, or, if the name is written `CLASS::NAME`, the instance method of that class, which the object must be assignable to. -/
inductive Finds (P : Perl) (R : Runtime) (h : Heap) : Sv → List UInt8 → Method → Prop
  | cls {inv t name m} : (∀ k o, inv ≠ .obj k o) → R.basicType (svPV P inv) = some t → R.method t name = some m → m.static = true →
      Finds P R h inv name m
  | obj {b ob name m} : h[b]? = some ob → 58 ∉ name → R.dispatch ob.ty name = some m → m.static = false →
      Finds P R h (.obj .cls (some b)) name m
  | static {b ob c name t m} : h[b]? = some ob → 58 ∉ name → R.basicType c = some t → R.isa ob.ty ob.dim t 0 = true →
      R.method t name = some m → m.static = false → Finds P R h (.obj .cls (some b)) (c ++ [58, 58] ++ name) m

end SPVM.Exch
