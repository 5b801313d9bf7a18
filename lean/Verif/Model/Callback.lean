import Verif.Model.ArrayOps
import Verif.Spec.Callback
/-!
# Fn->grep, Fn->map, Fn->map_expand (lib/SPVM/Fn.spvm)

`σ` is the state the callback can see and change, `array s` the elements of the given array in the state `s`.  The list
the functions build is not reachable for the callback, so it is kept beside `σ`.
-/
namespace SPVM.FnCallback
open Spec.Callback
variable {σ α : Type} (limit : Nat) (accept : α → Bool)

def msgCallback : String := "The callback $callback must be defined."

/-- A call of the callback (`$callback->($element)`, Fn.spvm 1313, 1340, 1365). -/
def call (p : Prog σ β) : Prog (σ × ObjList α) β := fun s => ((p s.1).1, ((p s.1).2, s.2))

/-- A call of a method of the list. -/
def onList (p : Prog (ObjList α) β) : Prog (σ × ObjList α) β := fun s => ((p s.2).1, (s.1, (p s.2).2))

/-- `for my $element (@$array) body`: the length is read once, the element at every turn (spvm_op.c 1899-2000). -/
def forEach (array : σ → List (Option α)) (n : Nat) (body : Option α → Prog (σ × ObjList α) Unit) :
    Prog (σ × ObjList α) Unit :=
  Prog.loopUp 0 n fun i => do
    let s ← Prog.get
    let x ← Prog.lift (aGet (array s.1) i)
    body x

/-- The loop of `grep`, Fn.spvm 1312-1318. -/
def grepLoop (callback : Callback σ α Int) (array : σ → List (Option α)) (n : Nat) : Prog (σ × ObjList α) Unit :=
  forEach array n fun x => do
    let ok ← call (callback x)
    if ok ≠ 0 then onList (ObjList.push limit accept x) else pure ()

/-- The loop of `map`, Fn.spvm 1339-1343. -/
def mapLoop (callback : Callback σ α (Option α)) (array : σ → List (Option α)) (n : Nat) : Prog (σ × ObjList α) Unit :=
  forEach array n fun x => do
    let y ← call (callback x)
    onList (ObjList.push limit accept y)

/-- The loop of `map_expand`, Fn.spvm 1364-1370.  The answer is an array or `undef`, whose length is not defined
(`SPVM_IMPLEMENT_ARRAY_LENGTH`, spvm_implement.h 1092-1101). -/
def mapExpandLoop (callback : Callback σ α (Option (List (Option α)))) (array : σ → List (Option α)) (n : Nat) :
    Prog (σ × ObjList α) Unit :=
  forEach array n fun x => do
    let ys ← call (callback x)
    match ys with
    | none => Prog.die SPVM.msgArrayUndef
    | some ys => Prog.loopUp 0 ys.length fun k => do
      let y ← Prog.lift (aGet ys (k : Nat))
      onList (ObjList.push limit accept y)

/-- The common beginning and end of the three functions (Fn.spvm 1300-1310 and 1320-1322, and the same lines of the others):
the checks, the new list of the type of the array, and its conversion to an array. -/
def build (loop : Callback σ α β → (σ → List (Option α)) → Nat → Prog (σ × ObjList α) Unit)
    (array : Option (σ → List (Option α))) (callback : Option (Callback σ α β)) : Prog σ (List (Option α)) := fun s =>
  match array, callback with
  | none, _ => (.die ArrayOps.msgArrayUndef, s)
  | some _, none => (.die msgCallback, s)
  | some array, some callback =>
    match (do
      let proto ← newProto limit 0
      ObjList.new limit accept (some proto) : Out (ObjList α)) with
    | .ok list =>
      let r := (do
        loop callback array (array s).length
        onList (ObjList.toArray limit accept) : Prog (σ × ObjList α) (List (Option α))) (s, list)
      (r.1, r.2.1)
    | .die m => (.die m, s)
    | .ub => (.ub, s)

/-- `Fn->grep`, Fn.spvm 1298-1323. -/
def grep (array : Option (σ → List (Option α))) (callback : Option (Callback σ α Int)) : Prog σ (List (Option α)) :=
  build limit accept (grepLoop limit accept) array callback

/-- `Fn->map`, Fn.spvm 1325-1348. -/
def map (array : Option (σ → List (Option α))) (callback : Option (Callback σ α (Option α))) : Prog σ (List (Option α)) :=
  build limit accept (mapLoop limit accept) array callback

/-- `Fn->map_expand`, Fn.spvm 1350-1377. -/
def mapExpand (array : Option (σ → List (Option α))) (callback : Option (Callback σ α (Option (List (Option α))))) :
    Prog σ (List (Option α)) :=
  build limit accept (mapExpandLoop limit accept) array callback

end SPVM.FnCallback
