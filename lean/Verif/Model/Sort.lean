import Verif.Model.VM
/-!
# `Sort` (lib/SPVM/Sort.spvm): merge sort with a user comparator

The methods for the element types byte, short, int, long, float, double, string and object have the same text up to the
element type; the model is generic in it.
-/
namespace SPVM
namespace MSort
variable {α τ : Type}

/-- The array being sorted, the scratch array `$b`, and everything the comparator can see or change (`env`).  The
comparator is assumed not to write the array that is being sorted. -/
structure St (τ α : Type) where
  a : List α
  b : List α
  env : τ
deriving DecidableEq, Repr

/-- A comparator: may throw, and may answer differently each time. -/
abbrev Cmp (τ α : Type) := τ → α → α → Out Int × τ

/-- `$comparator->($x, $y)`. -/
def callCmp (cmp : Cmp τ α) (x y : α) : Prog (St τ α) Int := fun s =>
  ((cmp s.env x y).1, { s with env := (cmp s.env x y).2 })

/-- `$b->[$k] = $x`. -/
def setB (k : Nat) (x : α) : Prog (St τ α) Unit := do
  let s ← Prog.get
  let b ← Prog.lift (aSet s.b k x)
  Prog.set { s with b := b }

/-- `$a->[$k] = $x`. -/
def setA (k : Nat) (x : α) : Prog (St τ α) Unit := do
  let s ← Prog.get
  let a ← Prog.lift (aSet s.a k x)
  Prog.set { s with a := a }

/-- `$a->[$i]`. -/
def getA (i : Nat) : Prog (St τ α) α := do
  let s ← Prog.get
  Prog.lift (aGet s.a i)

/-- `$b->[$i]`. -/
def getB (i : Nat) : Prog (St τ α) α := do
  let s ← Prog.get
  Prog.lift (aGet s.b i)

/-- The comparing loop of `_sort_int_merge`, Sort.spvm 449-458.  Indices are at most the array length, so `++` does not
overflow. -/
def mergeLoop (cmp : Cmp τ α) (mid right i j k : Nat) : Prog (St τ α) (Nat × Nat × Nat) :=
  if i ≤ mid ∧ j ≤ right then do
    let x ← getA i
    let y ← getA j
    let c ← callCmp cmp x y
    if c ≤ 0 then do
      let x ← getA i
      setB k x
      mergeLoop cmp mid right (i + 1) j (k + 1)
    else do
      let y ← getA j
      setB k y
      mergeLoop cmp mid right i (j + 1) (k + 1)
  else pure (i, j, k)
termination_by (mid + 1 - i) + (right + 1 - j)

/-- The loops that copy the rest of one half, Sort.spvm 459-470. Returns the final index and `$k`. -/
def drain (last i k : Nat) : Prog (St τ α) (Nat × Nat) :=
  if i ≤ last then do
    let x ← getA i
    setB k x
    drain last (i + 1) (k + 1)
  else pure (i, k)
termination_by last + 1 - i

/-- Sort.spvm 459-470. -/
def drains (mid right : Nat) (ijk : Nat × Nat × Nat) : Prog (St τ α) (Nat × Nat × Nat) :=
  if ijk.1 = mid + 1 then do
    let r ← drain right ijk.2.1 ijk.2.2
    pure (ijk.1, r.1, r.2)
  else do
    let r ← drain mid ijk.1 ijk.2.2
    pure (r.1, ijk.2.1, r.2)

/-- The copy back to the array, Sort.spvm 472-474. -/
def copyBack (left i : Nat) : Nat → Prog (St τ α) Unit
  | 0 => pure ()
  | n + 1 => do
    let x ← getB i
    setA (i + left) x
    copyBack left (i + 1) n

/-- After the first round of the outer loop of the merge; a second round, which would repeat the first one, is modelled as
`ub` (the theorems show that it does not happen). -/
def mergeEnd (left mid right : Nat) (ijk : Nat × Nat × Nat) : Prog (St τ α) Unit :=
  if ijk.1 ≤ mid ∧ ijk.2.1 ≤ right then Prog.lift .ub else copyBack left 0 ijk.2.2

/-- `_sort_int_merge`, Sort.spvm 441-476 (and its siblings for the other element types). -/
def merge (cmp : Cmp τ α) (left mid right : Nat) : Prog (St τ α) Unit :=
  if left ≤ mid ∧ mid + 1 ≤ right then do
    let ijk ← mergeLoop cmp mid right left (mid + 1) 0
    let ijk ← drains mid right ijk
    mergeEnd left mid right ijk
  else copyBack left 0 0

/-- `_sort_int_merge_sort`, Sort.spvm 477-487. `$left + $right` is an `int` addition. -/
def mergeSort (cmp : Cmp τ α) (left right : Nat) : Prog (St τ α) Unit :=
  if left ≥ right then pure ()
  else do
    let _ ← Prog.lift (add32 left right)
    mergeSort cmp left ((left + right) / 2)
    mergeSort cmp ((left + right) / 2 + 1) right
    merge cmp left ((left + right) / 2) right
termination_by right - left

def msgArray : String := "The array $array must be defined."
def msgComparator : String := "The comparator $comparator must be defined."
def msgOffset : String := "The offset $offset must be greater than or equal to 0."
def msgRange : String := "The offset $offset + the length $length must be less than or equal to the length of the array $array."

/-- The part of `sort_int` after the range check, Sort.spvm 144-149. `zero` fills the scratch array. -/
def sortRange (limit : Nat) (zero : α) (cmp : Cmp τ α) (array : List α) (env : τ) (offset length : Int) :
    Out Unit × List α × τ :=
  if length = 0 then (.ok (), array, env)
  else match newArray limit zero length with
    | .ok b =>
      let r := mergeSort cmp offset.toNat (offset + length - 1).toNat { a := array, b := b, env := env }
      (r.1, r.2.a, r.2.env)
    | .die m => (.die m, array, env)
    | .ub => (.ub, array, env)

/-- `sort_int` and its siblings (Sort.spvm 14-287, e.g. 122-150): the outcome, the array and the environment afterwards.
`undef` arguments are `none`. -/
def sort (limit : Nat) (zero : α) (cmp : Option (Cmp τ α)) (array : Option (List α)) (env : τ)
    (offset : Int := 0) (length : Int := -1) : Out Unit × List α × τ :=
  match array with
  | none => (.die msgArray, [], env)
  | some array =>
    match cmp with
    | none => (.die msgComparator, array, env)
    | some cmp =>
      if ¬ offset ≥ 0 then (.die msgOffset, array, env)
      else
        match (if length < 0 then sub32 (alen array) offset else .ok length) with
        | .ok length =>
          match add32 offset length with
          | .ok e => if ¬ e ≤ alen array then (.die msgRange, array, env) else sortRange limit zero cmp array env offset length
          | .die m => (.die m, array, env)
          | .ub => (.ub, array, env)
        | .die m => (.die m, array, env)
        | .ub => (.ub, array, env)

/-- The comparator `method : int ($a : int, $b : int) { return $a <=> $b; }` of `sort_int_asc` (Sort.spvm 151-153); also
for byte, short and long. -/
def ascCmp : Cmp Unit Int := fun t x y => (.ok (VM.numCmp x y), t)
/-- The comparator `$b <=> $a` of `sort_int_desc` (Sort.spvm 154-156). -/
def descCmp : Cmp Unit Int := fun t x y => (.ok (VM.numCmp y x), t)
/-- The comparator `$a cmp $b` of `sort_string_asc` (Sort.spvm 282-284). -/
def strAscCmp : Cmp Unit (Option VM.Bytes) := fun t x y => (VM.stringCmp x y, t)
/-- The comparator `$b cmp $a` of `sort_string_desc` (Sort.spvm 285-287). -/
def strDescCmp : Cmp Unit (Option VM.Bytes) := fun t x y => (VM.stringCmp y x, t)

/-- `Fn->sort_asc` on an integer array, Fn.spvm 1612-1644: the new array, and the argument afterwards.  The copy of the
array holds the same elements (its allocation is assumed to succeed). -/
def fnSortAsc (limit : Nat) (array : Option (List Int)) : Out (List Int) × Option (List Int) :=
  match array with
  | none => (.die msgArray, none)
  | some array =>
    let sortedArray := array
    match sort limit 0 (some ascCmp) (some sortedArray) () with
    | (.ok _, sortedArray, _) => (.ok sortedArray, some array)
    | (.die m, _, _) => (.die m, some array)
    | (.ub, _, _) => (.ub, some array)

/-- `Fn->sort`, Fn.spvm 1680-1687: returns the array it built, and the argument array as it is afterwards.  The copy
(`Array->copy_object_address`) of a defined array holds the same elements. -/
def fnSort (limit : Nat) (cmp : Option (Cmp τ (Option α))) (array : List (Option α)) (env : τ) :
    Out (List (Option α)) × List (Option α) × τ :=
  let sortedArray := array
  match sort limit none cmp (some array) env with
  | (.ok _, array', env') => (.ok sortedArray, array', env')
  | (.die m, array', env') => (.die m, array', env')
  | (.ub, array', env') => (.ub, array', env')

end MSort
end SPVM
