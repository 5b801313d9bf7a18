import Verif.Model.ArrayOps
import Verif.Spec.CloneEq

/-!
# Array->copy_object, Array->equals_object (lib/SPVM/Array.spvm) and the default methods they are used with
(lib/SPVM/Cloner.spvm, EqualityChecker.spvm, Point.spvm, Point3D.spvm)

`σ` is the state the cloner and the equality checker can see and change, `array s` the elements of the given array in the state `s`.
The new array is not reachable for the cloner, so it is kept beside `σ`.
-/

namespace SPVM.CloneEq

open Spec.Callback Spec.CloneEq

/-! ## Arrays -/

/-- A call of the cloner (`$cloner->($array->[$offset + $i])`, Array.spvm 1115). -/
def call (p : Prog σ β) : Prog (σ × List (Option α)) β := fun s => ((p s.1).1, ((p s.1).2, s.2))

/-- `$new_array->[$i] = ...`, Array.spvm 1115. -/
def storeNew (accept : α → Bool) (i : Nat) (y : Option α) : Prog (σ × List (Option α)) Unit := fun s =>
  match VM.setElementChecked accept s.2 i y with
  | .ok r => (.ok (), (s.1, r))
  | .die m => (.die m, s)
  | .ub => (.ub, s)

/-- The loop of `copy_object_with_proto` with a cloner, Array.spvm 1114-1116. -/
def cloneLoop (accept : α → Bool) (array : σ → List (Option α)) (cloner : Callback σ α (Option α)) (offset : Int) (start n : Nat) :
    Prog (σ × List (Option α)) Unit :=
  Prog.loopUp start n fun i => do
    let s ← Prog.get
    let k ← Prog.lift (add32 offset i)
    let x ← Prog.lift (aGet (array s.1) k)
    let y ← call (cloner x)
    storeNew accept i y

/-- The checks of `copy_object_with_proto` and its new array, Array.spvm 1090-1111.  Result: the length to copy and the array. -/
def prepare (limit : Nat) (arrayLength offset length : Int) : Out (Int × List (Option α)) :=
  if ¬ offset ≥ 0 then .die ArrayOps.msgOffsetNeg
  else do
    let len ← ArrayOps.effLength arrayLength offset length
    let e ← add32 offset len
    if ¬ e ≤ arrayLength then .die ArrayOps.msgRange
    else do
      let new ← newProto limit len
      return (len, new)

/-- `Array->copy_object`, Array.spvm 141-152, with `copy_object_with_proto`, Array.spvm 1088-1123.  `accept` is the element type test
of the new array, which has the type of the given one.  `newProto` has a simplification for a failed allocation. -/
def copyObject (limit : Nat) (accept : α → Bool) (array : Option (σ → List (Option α))) (cloner : Option (Callback σ α (Option α)))
    (offset : Int := 0) (length : Int := -1) : Prog σ (List (Option α)) := fun s =>
  match array with
  | none => (.die ArrayOps.msgArrayUndef, s)
  | some array =>
    match prepare limit (alen (array s)) offset length with
    | .die m => (.die m, s)
    | .ub => (.ub, s)
    | .ok (len, new) =>
      match cloner with
      | none => (SPVM.memcpyObj accept new 0 (array s) offset len, s)
      | some cloner =>
        match cloneLoop accept array cloner offset 0 len.toNat (s, new) with
        | (.ok (), r) => (.ok r.2, r.1)
        | (.die m, r) => (.die m, r.1)
        | (.ub, r) => (.ub, r.1)

/-- The loop of `equals_object` with an equality checker, Array.spvm 480-485: `n` pairs from number `i` on.  The length of an array never
changes, so the condition `$i < @$array1` is that of the beginning. -/
def equalsLoop (a b : σ → List (Option α)) (chk : Checker σ α) : Nat → Nat → Prog σ Int
  | 0, _ => pure 1
  | n + 1, i => do
    let s ← Prog.get
    let x ← Prog.lift (aGet (a s) i)
    let y ← Prog.lift (aGet (b s) i)
    let r ← chk x y
    if r = 0 then pure 0 else equalsLoop a b chk n (i + 1)

/-- `Array->equals_object`, Array.spvm 466-501.  Without a checker the references are compared (488-493). -/
def equalsObject [DecidableEq α] (array1 array2 : Option (σ → List (Option α))) (chk : Option (Checker σ α)) : Prog σ Int := fun s =>
  match array1, array2 with
  | none, none => (.ok 1, s)
  | some _, none => (.ok 0, s)
  | none, some _ => (.ok 0, s)
  | some a, some b =>
    if alen (a s) = alen (b s) then
      match chk with
      | some chk => equalsLoop a b chk (a s).length 0 s
      | none => equalsLoop a b (fun x y => pure (if x = y then 1 else 0)) (a s).length 0 s
    else (.ok 0, s)

/-! ## Points -/

/-- The check of an argument of an instance method, spvm_api.c 4808-4832: `undef`, or an object that passes the type test. -/
def checkArg (msg : String) (isa : Obj → Bool) (a : Option Nat) : Prog Objs Unit := fun h =>
  match a with
  | none => (.ok (), h)
  | some k =>
    match h[k]? with
    | none => (.ub, h)
    | some o => if isa o then (.ok (), h) else (.die msg, h)

/-- Read the object behind a reference. -/
def deref (k : Nat) : Prog Objs Obj := fun h =>
  match h[k]? with
  | none => (.ub, h)
  | some o => (.ok o, h)

/-- Replace the object behind a reference. -/
def update (k : Nat) (f : Obj → Out Obj) : Prog Objs Unit := fun h =>
  match h[k]? with
  | none => (.ub, h)
  | some o =>
    match f o with
    | .ok o => (.ok (), h.set k o)
    | .die m => (.die m, h)
    | .ub => (.ub, h)

/-- A new object.  Simplification: the objects of the model are not freed (that is C32 and C84). -/
def alloc (o : Obj) : Prog Objs Nat := fun h => (.ok h.length, h ++ [o])

/-- The field `x`; the fields of `Point` are at the same place in a `Point3D`. -/
def fieldX : Obj → Out Int
  | .point x _ => .ok x
  | .point3d x _ _ => .ok x
  | .other _ => .ub

/-- The field `y`. -/
def fieldY : Obj → Out Int
  | .point _ y => .ok y
  | .point3d _ y _ => .ok y
  | .other _ => .ub

/-- The field `z` of a `Point3D`. -/
def fieldZ : Obj → Out Int
  | .point3d _ _ z => .ok z
  | _ => .ub

/-- `Point#init`, Point.spvm 24-27: `$self->{x} = $x; $self->{y} = $y;`. -/
def initPoint (k : Nat) (x y : Int) : Prog Objs Unit := update k fun
  | .point _ _ => .ok (.point x y)
  | .point3d _ _ z => .ok (.point3d x y z)
  | .other _ => .ub

/-- `$self->{z} = $z`, Point3D.spvm 20. -/
def setZ (k : Nat) (z : Int) : Prog Objs Unit := update k fun
  | .point3d x y _ => .ok (.point3d x y z)
  | _ => .ub

/-- `Point->new`, Point.spvm 15-21. -/
def newPoint (x y : Int) : Prog Objs Nat := do
  let k ← alloc (.point 0 0)
  initPoint k x y
  return k

/-- `Point3D->new` with `Point3D#init`, Point3D.spvm 10-21. -/
def newPoint3D (x y z : Int) : Prog Objs Nat := do
  let k ← alloc (.point3d 0 0 0)
  initPoint k x y
  setZ k z
  return k

/-- `clone` of the class of the object: Point.spvm 34-38, Point3D.spvm 28-32. -/
def clone (k : Nat) : Prog Objs (Option Nat) := do
  let o ← deref k
  match o with
  | .point x y => do
    let c ← newPoint x y
    return some c
  | .point3d x y z => do
    let c ← newPoint3D x y z
    return some c
  | .other _ => Prog.lift .ub

/-- `clear` of the class of the object: Point.spvm 29-32, Point3D.spvm 23-26. -/
def clear (k : Nat) : Prog Objs Unit := do
  let o ← deref k
  match o with
  | .point _ _ => initPoint k 0 0
  | .point3d _ _ _ => do
    initPoint k 0 0
    setZ k 0
  | .other _ => Prog.lift .ub

/-- `Point#eq`, Point.spvm 49-68. -/
def pointEq (a b : Option Nat) : Prog Objs Int :=
  match a, b with
  | some k, some j => do
    let o ← deref k
    let p ← deref j
    let x1 ← Prog.lift (fieldX o)
    let x2 ← Prog.lift (fieldX p)
    let y1 ← Prog.lift (fieldY o)
    let y2 ← Prog.lift (fieldY p)
    return (if x1 = x2 ∧ y1 = y2 then 1 else 0)
  | some _, none => return 0
  | none, some _ => return 0
  | none, none => return 1

/-- `Point3D#eq`, Point3D.spvm 44-63. -/
def point3dEq (a b : Option Nat) : Prog Objs Int :=
  match a, b with
  | some k, some j => do
    let o ← deref k
    let p ← deref j
    let x1 ← Prog.lift (fieldX o)
    let x2 ← Prog.lift (fieldX p)
    let y1 ← Prog.lift (fieldY o)
    let y2 ← Prog.lift (fieldY p)
    let z1 ← Prog.lift (fieldZ o)
    let z2 ← Prog.lift (fieldZ p)
    return (if x1 = x2 ∧ y1 = y2 ∧ z1 = z2 then 1 else 0)
  | some _, none => return 0
  | none, some _ => return 0
  | none, none => return 1

def msgArg (i : Nat) (method cls : String) : String :=
  s!"The object given in the {i}th argument must be assigned to the type of the {i}th argument of the \"{method}\" method in the \"{cls}\" class."

/-- The call `$object->eq($a, $b)`: the method of the class of the object, after the check of its arguments. -/
def callEq (k : Nat) (a b : Option Nat) : Prog Objs Int := do
  let o ← deref k
  match o with
  | .point _ _ => do
    checkArg (msgArg 1 "eq" "Point") Obj.isPoint a
    checkArg (msgArg 2 "eq" "Point") Obj.isPoint b
    pointEq a b
  | .point3d _ _ _ => do
    checkArg (msgArg 1 "eq" "Point3D") Obj.isPoint3D a
    checkArg (msgArg 2 "eq" "Point3D") Obj.isPoint3D b
    point3dEq a b
  | .other _ => Prog.lift .ub

/-- `EqualityChecker->default_equality_checker`, EqualityChecker.spvm 10-32; the arguments must be `EqualityCheckable`, which of the
classes of the model are `Point` and `Point3D`. -/
def defaultChecker : Checker Objs Nat := fun a b => do
  checkArg (msgArg 1 "" "EqualityChecker::anon") Obj.isPoint a
  checkArg (msgArg 2 "" "EqualityChecker::anon") Obj.isPoint b
  match a, b with
  | some k, some _ => callEq k a b
  | some _, none => return 0
  | none, some _ => return 0
  | none, none => return 1

/-- `Cloner->default_cloner`, Cloner.spvm 12-26; the argument must be `Cloneable`. -/
def defaultCloner : Callback Objs Nat (Option Nat) := fun a => do
  checkArg (msgArg 1 "" "Cloner::anon") Obj.isPoint a
  match a with
  | some k => clone k
  | none => return none

end SPVM.CloneEq
