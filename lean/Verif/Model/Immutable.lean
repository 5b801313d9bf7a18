import Verif.Spec.Immutable
import Verif.Model.ArrayC

/-!
# Model of the immutable lists (lib/SPVM/Immutable/*.spvm)

The numeric classes have the same text up to the element type, except for `Immutable::DoubleList->to_array`.
-/

namespace SPVM.Immutable

/-- An element of an array: a number, or the address of a string. -/
inductive Val (α : Type)
  | num (v : α)
  | str (o : Option Nat)

/-- Strings with their read-only flag, arrays, and what the program has: references to strings (`true` if held in a
`mutable string` variable), to arrays, and the lists with their fields `length` and `array`. -/
structure St (α : Type) where
  strs : List (List UInt8 × Bool)
  heap : List (List (Val α))
  userStrs : List (Nat × Bool)
  userArrs : List Nat
  lists : List (Int × Nat)

/-- The empty program. -/
def start : St α := ⟨[], [], [], [], []⟩

/-- A new string object. -/
def allocStr (b : List UInt8) : Prog (St α) Nat := fun s => (.ok s.strs.length, { s with strs := s.strs ++ [(b, false)] })

/-- A new array object. -/
def allocArr (xs : List (Val α)) : Prog (St α) Nat := fun s => (.ok s.heap.length, { s with heap := s.heap ++ [xs] })

/-- The contents of an array object. -/
def arr (a : Nat) : Prog (St α) (List (Val α)) := fun s =>
  match s.heap[a]? with
  | some xs => (.ok xs, s)
  | none => (.ub, s)

/-- An array object gets new contents. -/
def setArr (a : Nat) (xs : List (Val α)) : Prog (St α) Unit := fun s => (.ok (), { s with heap := s.heap.set a xs })

/-- The zero of the element type: `new int[$length]`, `new string[$length]`. -/
def zeroOf (zero : α) : Kind → Val α
  | .string => .str none
  | _ => .num zero

/-- `copy` of a string (spvm_api.c `SPVM_API_copy_no_mortal`): a new string that is not read-only; undef stays undef. -/
def copyStr (v : Val α) : Prog (St α) (Option Nat) := fun s =>
  match v with
  | .str none => (.ok none, s)
  | .str (some x) =>
    match s.strs[x]? with
    | some (b, _) => ((allocStr b s).1.bind fun y => .ok (some y), (allocStr b s).2)
    | none => (.ub, s)
  | .num _ => (.ub, s)

/-- `make_read_only` (spvm_api.c 3667-3672): the type of the object is looked up before the test for undef. -/
def makeRO (o : Option Nat) : Prog (St α) Unit := fun s =>
  match o with
  | none => (.ub, s)
  | some x =>
    match s.strs[x]? with
    | some (b, _) => (.ok (), { s with strs := s.strs.set x (b, true) })
    | none => (.ub, s)

/-- The loop of `Immutable::StringList->new`, StringList.spvm 26-30: `left` rounds from index `i`, `source` and `dest` are the
addresses of the arrays. -/
def copyLoop (source dest : Nat) : Nat → Int → Prog (St α) Unit
  | 0, _ => pure ()
  | left + 1, i => do
    let src ← arr source
    let e ← Prog.lift (aGet src i)
    let value ← copyStr e
    makeRO value
    let dst ← arr dest
    let dst ← Prog.lift (aSet dst i (.str value))
    setArr dest dst
    copyLoop source dest left (i + 1)

def msgLen : String := "The length $length must be greater than or equal to 0."
def msgNeg : String := "The index $index must be greater than or equal to 0."
def msgBig : String := "The index $index must be less than the length of $list."

/-- `new_len`, IntList.spvm 31-42, StringList.spvm 36-47: the fields of the new list. -/
def newLen (K : Kind) (zero : α) (limit : Nat) (n : Int) : Prog (St α) (Int × Nat) :=
  if n ≥ 0 then do
    let xs ← Prog.lift (newArray limit (zeroOf zero K) n)
    let a ← allocArr xs
    pure (n, a)
  else Prog.die msgLen

/-- `new`, IntList.spvm 13-29, StringList.spvm 13-34.  `array` is the address of the array. -/
def new (K : Kind) (zero : α) (limit : Nat) (array : Option Nat) : Prog (St α) (Int × Nat) :=
  match array with
  | none => newLen K zero limit 0
  | some u => do
    let xs ← arr u
    let f ← newLen K zero limit (alen xs)
    if K = .string then do
      copyLoop u f.2 xs.length 0
      pure f
    else do
      let dst ← arr f.2
      let src ← arr u
      let r ← Prog.lift (arrayMemcpy false (some dst) 0 (some src) 0 f.1)
      setArr f.2 r
      pure f

/-- `get`, IntList.spvm 45-59, StringList.spvm 50-64. -/
def get (f : Int × Nat) (i : Int) : Prog (St α) (Val α) :=
  if i ≥ 0 then
    if i < f.1 then do
      let xs ← arr f.2
      Prog.lift (aGet xs i)
    else Prog.die msgBig
  else Prog.die msgNeg

/-- The loop of `Array->memcpy_object_address` for two arrays of the length `left + i`, Array.spvm 604-608.  The checks before
it, which compare the lengths, are left out. -/
def copyRefs (source dest : Nat) : Nat → Int → Prog (St α) Unit
  | 0, _ => pure ()
  | left + 1, i => do
    let src ← arr source
    let e ← Prog.lift (aGet src i)
    let dst ← arr dest
    let dst ← Prog.lift (aSet dst i e)
    setArr dest dst
    copyRefs source dest left (i + 1)

/-- `to_array`, IntList.spvm 61-71, StringList.spvm 66-76: the address of the returned array.  `Immutable::DoubleList` returns
the array of the list, DoubleList.spvm 70. -/
def toArray (K : Kind) (zero : α) (limit : Nat) (f : Int × Nat) : Prog (St α) Nat := do
  let xs ← Prog.lift (newArray limit (zeroOf zero K) f.1)
  let a ← allocArr xs
  if K = .string then copyRefs f.2 a f.1.toNat 0
  else do
    let dst ← arr a
    let src ← arr f.2
    let r ← Prog.lift (arrayMemcpy false (some dst) 0 (some src) 0 f.1)
    setArr a r
  if K = .double then pure f.2 else pure a

/-- The value a program gives; `none` if the program does not have it or the type is wrong. -/
def resolve (K : Kind) (s : St α) : Src α → Option (Val α)
  | .num v => if K = .string then none else some (.num v)
  | .str h => if K = .string then (s.userStrs[h]?).map fun r => .str (some r.1) else none
  | .undef => if K = .string then some (.str none) else none

/-- All the values of an array literal. -/
def resolveAll (K : Kind) (s : St α) : List (Src α) → Option (List (Val α))
  | [] => some []
  | x :: xs => (resolve K s x).bind fun v => (resolveAll K s xs).map fun vs => v :: vs

/-- What the program sees of an element. -/
def view (s : St α) : Val α → View α
  | .num v => .num v
  | .str none => .str none
  | .str (some x) => .str ((s.strs[x]?).map (·.1))

/-- The program looks at an element it was given, and keeps it if it is a string. -/
def keep (v : Val α) : Prog (St α) (Res α) := fun s =>
  match v with
  | .str (some x) => (.ok (.value (view s v)), { s with userStrs := s.userStrs ++ [(x, false)] })
  | _ => (.ok (.value (view s v)), s)

/-- A new string is assigned to a variable of the program. -/
def addStr (x : Nat) : Prog (St α) (Res α) := fun s => (.ok .unit, { s with userStrs := s.userStrs ++ [(x, true)] })

/-- A list is assigned to a variable of the program. -/
def addList (f : Int × Nat) : Prog (St α) (Res α) := fun s => (.ok .unit, { s with lists := s.lists ++ [f] })

/-- An array is assigned to a variable of the program. -/
def addArr (a : Nat) : Prog (St α) (Res α) := fun s => (.ok .unit, { s with userArrs := s.userArrs ++ [a] })

/-- One operation of the program.  Operations on things it does not have do nothing. -/
def step (K : Kind) (zero : α) (limit : Nat) : Op α → Prog (St α) (Res α)
  | .newString b => do
    let x ← allocStr b
    addStr x
  | .writeString h i c => fun s =>
    match s.userStrs[h]? with
    | some (x, true) =>
      match s.strs[x]? with
      | some (b, ro) =>
        match aSet b i c with
        | .ok b => (.ok .unit, { s with strs := s.strs.set x (b, ro) })
        | .die m => (.die m, s)
        | .ub => (.ub, s)
      | none => (.ub, s)
    | _ => (.ok .unit, s)
  | .castMutable h => fun s =>
    match s.userStrs[h]? with
    | some (x, _) =>
      match s.strs[x]? with
      | some (_, true) => (.die "The string is read-only", s)
      | some (_, false) => (.ok .unit, { s with userStrs := s.userStrs ++ [(x, true)] })
      | none => (.ub, s)
    | none => (.ok .unit, s)
  | .makeReadOnly h => fun s =>
    match s.userStrs[h]? with
    | some (x, _) => (do makeRO (some x); pure .unit : Prog (St α) (Res α)) s
    | none => (.ok .unit, s)
  | .newArray xs => fun s =>
    match resolveAll K s xs with
    | some vs =>
      if vs.length ≤ limit then
        (.ok .unit, { s with heap := s.heap ++ [vs], userArrs := s.userArrs ++ [s.heap.length] })
      else (.die msgNewArrayMem, s)
    | none => (.ok .unit, s)
  | .write u i v => fun s =>
    match s.userArrs[u]?, resolve K s v with
    | some a, some v => (do
        let xs ← arr a
        let xs ← Prog.lift (aSet xs i v)
        setArr a xs
        pure .unit : Prog (St α) (Res α)) s
    | _, _ => (.ok .unit, s)
  | .read u i => fun s =>
    match s.userArrs[u]? with
    | some a => (do
        let xs ← arr a
        let v ← Prog.lift (aGet xs i)
        keep v : Prog (St α) (Res α)) s
    | none => (.ok .unit, s)
  | .new u => fun s =>
    match u with
    | none => (do
        let f ← new K zero limit none
        addList f : Prog (St α) (Res α)) s
    | some u =>
      match s.userArrs[u]? with
      | some a => (do
          let f ← new K zero limit (some a)
          addList f : Prog (St α) (Res α)) s
      | none => (.ok .unit, s)
  | .newLen n => do
    let f ← newLen K zero limit n
    addList f
  | .length l => fun s =>
    match s.lists[l]? with
    | some f => (.ok (.int f.1), s)
    | none => (.ok .unit, s)
  | .get l i => fun s =>
    match s.lists[l]? with
    | some f => (do
        let v ← get f i
        keep v : Prog (St α) (Res α)) s
    | none => (.ok .unit, s)
  | .toArray l => fun s =>
    match s.lists[l]? with
    | some f => (do
        let a ← toArray K zero limit f
        addArr a : Prog (St α) (Res α)) s
    | none => (.ok .unit, s)

/-- A program: exceptions are caught, and it goes on.  After undefined behaviour nothing is known. -/
def run (K : Kind) (zero : α) (limit : Nat) : List (Op α) → St α → Option (St α)
  | [], s => some s
  | op :: ops, s =>
    match step K zero limit op s with
    | (.ub, _) => none
    | (_, s) => run K zero limit ops s

/-- The elements of list `l` as the program sees them. -/
def contents (s : St α) (l : Nat) : Option (List (View α)) :=
  match s.lists[l]? with
  | some f => (s.heap[f.2]?).map fun xs => xs.map (view s)
  | none => none

/-- The elements of the program's array `u`. -/
def elements (s : St α) (u : Nat) : Option (List (View α)) :=
  match s.userArrs[u]? with
  | some a => (s.heap[a]?).map fun xs => xs.map (view s)
  | none => none

end SPVM.Immutable
