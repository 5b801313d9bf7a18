import Verif.Model.ObjList
import Verif.Model.FnMem
import Verif.Model.Rand
/-!
# Array operations (lib/SPVM/Array.spvm, lib/SPVM/Fn.spvm)
-/
namespace SPVM
namespace ArrayOps
open VM (Bytes)
open FnMem (MemObj)

def msgArrayUndef : String := "The array $array must be defined."
def msgOffsetNeg : String := "The offset $offset must be greater than or equal to 0."
def msgRange : String := "The offset $offset + the length $length must be less than or equal to the length of the array $array."

/-! ## copy, equals, merge, memset -/

/-- `if ($length < 0) { $length = $array_length - $offset; }`, Array.spvm 21-24. -/
def effLength (arrayLength offset length : Int) : Out Int :=
  if length < 0 then sub32 arrayLength offset else .ok length

/-- `Array->copy_byte` ... `copy_double`, Array.spvm 11-182 (numeric element types). -/
def copyNum (limit : Nat) (zero : α) (array : Option (List α)) (offset : Int := 0) (length : Int := -1) : Out (List α) :=
  match array with
  | none => .die msgArrayUndef
  | some a =>
    if ¬ offset ≥ 0 then .die msgOffsetNeg
    else do
      let length ← effLength (alen a) offset length
      let e ← add32 offset length
      if ¬ e ≤ alen a then .die msgRange
      else do
        let newArr ← newArray limit zero length
        arrayMemcpy false (some newArr) 0 (some a) offset length

/-- The loop of `Array->equals_*`, Array.spvm 343-351: leaves with 0 at the first difference. -/
def equalsLoop (ne : α → α → Bool) (a b : List α) : Nat → Nat → Out Int
  | _, 0 => .ok 1
  | i, n + 1 => do
    let x ← aGet a i
    let y ← aGet b i
    if ne x y then .ok 0 else equalsLoop ne a b (i + 1) n

/-- `Array->equals_byte` ... `equals_string`, `equals_object_address`, Array.spvm 331-563.  `ne` is the operator `!=`
(`ne` for strings) of the element type. -/
def equals (ne : α → α → Bool) (array1 array2 : Option (List α)) : Out Int :=
  match array1, array2 with
  | none, none => .ok 1
  | some _, none => .ok 0
  | none, some _ => .ok 0
  | some a, some b => if alen a = alen b then equalsLoop ne a b 0 a.length else .ok 0

/-- `Array->merge_byte` ... `merge_string`, Array.spvm 831-1037. -/
def merge (limit : Nat) (zero : α) (array1 array2 : Option (List α)) : Out (List α) :=
  match array1 with
  | none => .die "The array1 $array1 must be defined."
  | some a =>
    match array2 with
    | none => .die "The array2 $array2 must be defined."
    | some b => do
      let n ← add32 (alen a) (alen b)
      let m ← newArray limit zero n
      let m ← forLoop 0 a.length (fun i m => do
        let x ← aGet a i
        aSet m i x) m
      forLoop 0 b.length (fun i m => do
        let x ← aGet b i
        let j ← add32 (alen a) i
        aSet m j x) m

/-- `Array->memset_*` including the `undef` check, Array.spvm 666-829. -/
def memset (array : Option (List α)) (element : α) (offset : Int := 0) (length : Int := -1) : Out (List α) :=
  match array with
  | none => .die msgArrayUndef
  | some a => arrayMemset a element offset length

/-! ## Exchanging elements -/

/-- `my $temp = $a->[$i]; $a->[$i] = $a->[$j]; $a->[$j] = $temp;`, Array.spvm 1057-1061, Fn.spvm 1439-1441. -/
def swap (a : List α) (i j : Int) : Out (List α) := do
  let temp ← aGet a i
  let x ← aGet a j
  let a ← aSet a i x
  aSet a j temp

/-- C `memcpy` where an exact copy of a range onto itself is harmless (what every `memcpy` in use does), other overlaps
being undefined.  The C standard calls the exact self-copy undefined too (`rawCopy`). -/
def rawCopyLax (same : Bool) (dst : List α) (d : Int) (src : List α) (s len : Int) : Out (List α) :=
  if same = true ∧ d ≠ s ∧ d < s + len ∧ s < d + len then .ub else rawMove dst d src s len

/-- A numeric or multi-numeric array of `n` elements of `es` bytes with the data `b`. -/
def numObj (es n : Int) (b : Bytes) : MemObj :=
  { isMem := true, readOnly := false, elemSize := es, length := n, bytes := b }

/-- The three `Fn->memcpy` calls that exchange elements `i` and `j` of a numeric array through the buffer `$temp`:
Array.spvm 1450-1456, Fn.spvm 1464-1469.  `lax` selects the reading of C `memcpy` (see `rawCopyLax`). -/
def swapNum (lax : Bool) (es n : Int) (temp b : Bytes) (i j : Int) : Out (Bytes × Bytes) := do
  let oi ← mul32 es i
  let temp ← FnMem.memcpy false (some (numObj 1 temp.length temp)) 0 (some (numObj es n b)) oi es
  let oi ← mul32 es i
  let oj ← mul32 es j
  let b ← FnMem.copyCommon (if lax then rawCopyLax true else rawCopy true) (some (numObj es n b)) oi (some (numObj es n b)) oj es
  let oj ← mul32 es j
  let b ← FnMem.memcpy false (some (numObj es n b)) oj (some (numObj 1 temp.length temp)) 0 es
  return (temp, b)

/-! ## shuffle -/

/-- The rest of the loop body of `Array->shuffle_object` after the random number `r` is drawn, Array.spvm 1055-1061.
Simplification: the element type check of `$array->[$i] = ...` is left out, the values come from the same array. -/
def shuffleBody (a : List α) (i : Nat) (r : Int) : Out (List α) := do
  let m ← add32 i 1
  let j ← VM.modInt r m
  swap a i j

/-- The loop `for (my $i = i; $i > 0; $i--)` of `Array->shuffle_object`, Array.spvm 1053-1062.  `next` is the random
source `Fn->crand($seed_ref)` with its state. -/
def shuffleLoop (next : Prog S Int) : Nat → List α → Prog S (List α)
  | 0, a => pure a
  | i + 1, a => do
    let r ← next
    let a ← Prog.lift (shuffleBody a (i + 1) r)
    shuffleLoop next i a

/-- `Array->shuffle_object`, Array.spvm 1045-1063.  Result: the new contents of the array and the new seed. -/
def shuffleObject (array : Option (List α)) (seed : BitVec 32) : Out (List α) × BitVec 32 :=
  match array with
  | none => (.die msgArrayUndef, seed)
  | some a => shuffleLoop Rand.crand (a.length - 1) a seed

/-- The rest of the loop body of `Array->shuffle_any_numeric` after the random number `r` is drawn, Array.spvm 1448-1456. -/
def shuffleNumBody (lax : Bool) (es n : Int) (temp b : Bytes) (i : Nat) (r : Int) : Out (Bytes × Bytes) := do
  let m ← add32 i 1
  let j ← VM.modInt r m
  swapNum lax es n temp b i j

/-- The loop of `Array->shuffle_any_numeric`, Array.spvm 1446-1457. -/
def shuffleNumLoop (next : Prog S Int) (lax : Bool) (es n : Int) : Nat → Bytes → Bytes → Prog S Bytes
  | 0, _, b => pure b
  | i + 1, temp, b => do
    let r ← next
    let (temp, b) ← Prog.lift (shuffleNumBody lax es n temp b (i + 1) r)
    shuffleNumLoop next lax es n i temp b

/-- `Array->shuffle_any_numeric`, Array.spvm 1432-1458, on an array of `n` elements of `es` bytes.  The type check has
passed; `new byte[$elem_size]` cannot fail for the allocator limits considered here (`es` is at most a few hundred). -/
def shuffleNum (lax : Bool) (es : Nat) (n : Nat) (b : Bytes) (seed : BitVec 32) : Out Bytes × BitVec 32 :=
  shuffleNumLoop Rand.crand lax es n (n - 1) (List.replicate es 0) b seed

/-! ## reverse -/

/-- `Fn->reverse_inplace` on a string that is not read-only or on an object array, Fn.spvm 1427-1456: the loop runs while
`$i < $length / 2`. -/
def reverseInplace (a : List α) : Out (List α) := do
  let h ← VM.divInt (alen a) 2
  forLoop 0 h.toNat (fun i a' => do
    let l1 ← sub32 (alen a) i
    let j ← sub32 l1 1
    swap a' i j) a

/-- `Fn->reverse_inplace` on a numeric array, Fn.spvm 1457-1470. -/
def reverseInplaceNum (lax : Bool) (es n : Nat) (b : Bytes) : Out Bytes := do
  let h ← VM.divInt n 2
  let r ← forLoop 0 h.toNat (fun i (tb : Bytes × Bytes) => do
    let l1 ← sub32 n i
    let j ← sub32 l1 1
    swapNum lax es n tb.1 tb.2 i j) (List.replicate es 0, b)
  return r.2

/-! ## repeat and slice -/

/-- `Array->new_proto_any`, Array.c 622-644, with `SPVM_API_new_array_proto_no_mortal`, spvm_api.c 4102-4124:
`length + 1` is an `int` addition; a failed allocation gives `undef` (`none`), not an exception. -/
def newProtoAny (limit : Nat) (zero : α) (length : Int) : Out (Option (List α)) :=
  if ¬ length ≥ 0 then .die "The length $length must be greater than or equal to 0."
  else do
    let _ ← add32 length 1
    return (if length.toNat ≤ limit then some (List.replicate length.toNat zero) else none)

/-- `Array->memcpy_object_address` with the `undef` check of the destination, Array.spvm 574-609. -/
def memcpyObj (accept : α → Bool) (dest : Option (List (Option α))) (d : Int) (source : List (Option α)) (s len : Int) :
    Out (List (Option α)) :=
  match dest with
  | none => .die msgDestUndef
  | some dest => SPVM.memcpyObj accept dest d source s len

/-- `Array->repeat` on an object array, Array.spvm 1477-1511, as written: the loop runs over the *length* and copies
*count* elements each time.  `accept` is the element type test of the new array. -/
def repeatObject (limit : Nat) (accept : α → Bool) (array : Option (List (Option α))) (count : Int) :
    Out (Option (List (Option α))) :=
  match array with
  | none => .die msgArrayUndef
  | some a =>
    if ¬ count ≥ 0 then .die "The repeat count $count must be a non-negative integer."
    else do
      let n ← mul32 count (alen a)
      let ret ← newProtoAny limit none n
      forLoop 0 a.length (fun i ret => do
        let d ← mul32 count i
        let r ← memcpyObj accept ret d a 0 count
        return some r) ret

/-- `Array->repeat` on a numeric array of `n` elements of `es` bytes, Array.spvm 1477-1511. -/
def repeatNum (limit : Nat) (es n : Nat) (b : Bytes) (count : Int) : Out (Option Bytes) :=
  if ¬ count ≥ 0 then .die "The repeat count $count must be a non-negative integer."
  else do
    let m ← mul32 count n
    let ret ← newProtoAny limit (0 : UInt8) m
    let ret := ret.map fun _ => List.replicate (es * m.toNat) (0 : UInt8)
    forLoop 0 n (fun i ret => do
      let x ← mul32 es count
      let d ← mul32 x i
      let l ← mul32 es count
      let r ← FnMem.memcpy false (ret.map (numObj es m)) d (some (numObj es n b)) 0 l
      return some r) ret

/-- The loops of `Array->repeat_string`, Array.spvm 1077-1081, pushing on a `StringList` (a `List`, StringList.spvm 4, 44). -/
def repeatStringPush (limit : Nat) (strings : List (Option Bytes)) (count : Nat) : Prog (ObjList Bytes) Unit :=
  Prog.loopUp 0 count fun _ =>
    Prog.loopUp 0 strings.length fun k => do
      let x ← Prog.lift (aGet strings k)
      ObjList.push limit (fun _ => true) x

/-- `Array->repeat_string`, Array.spvm 1065-1086. -/
def repeatString (limit : Nat) (strings : Option (List (Option Bytes))) (count : Int) : Out (List (Option Bytes)) :=
  match strings with
  | none => .die "The strings $strings must be defined."
  | some strings =>
    if ¬ count ≥ 0 then .die "The repeat count $count must be greater than or equal to 0."
    else do
      let list ← ObjList.new limit (fun _ => true) (some [])
      ((do
        repeatStringPush limit strings count.toNat
        ObjList.toArray limit (fun _ => true) : Prog (ObjList Bytes) (List (Option Bytes))) list).1

/-- `Fn->slice` on an object array, Fn.spvm 1579-1604. -/
def sliceObject (limit : Nat) (accept : α → Bool) (array : Option (List (Option α))) (offset length : Int) :
    Out (List (Option α)) :=
  match array with
  | none => .die msgArrayUndef
  | some a => do
    let s ← newProtoAny limit none length
    memcpyObj accept s 0 a offset length

/-- `Fn->slice` on a numeric array of `n` elements of `es` bytes, Fn.spvm 1579-1604. -/
def sliceNum (limit : Nat) (es n : Nat) (b : Bytes) (offset length : Int) : Out Bytes := do
  let s ← newProtoAny limit (0 : UInt8) length
  let s := s.map fun _ => List.replicate (es * length.toNat) (0 : UInt8)
  let o ← mul32 es offset
  let l ← mul32 es length
  FnMem.memcpy false (s.map (numObj es length)) 0 (some (numObj es n b)) o l

end ArrayOps
end SPVM
