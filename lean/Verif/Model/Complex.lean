import Verif.Model.ArrayAny

/-!
# Arrays of complex numbers (lib/SPVM/Complex_2d.spvm 28-126, lib/SPVM/Complex_2f.spvm 26-124)

The classes differ in the size `es` of a number: 8 for `Complex_2d`, 4 for `Complex_2f`.  A number is the bytes it has in memory, a
complex number the two numbers `re` and `im`, which are its memory in this order (C48).
-/

namespace SPVM.Complex

open FnMem VM ArrayAny

abbrev Z := Bytes × Bytes

/-- The memory of an array of complex numbers, element by element. -/
def memory (z : List Z) : List Bytes := z.map fun c => c.1 ++ c.2

/-- The elements of an array with `n` elements of `es` bytes, read from its memory. -/
def cells (es : Nat) : Nat → Bytes → List Bytes
  | 0, _ => []
  | n + 1, b => b.take es :: cells es n (b.drop es)

/-- The same for complex numbers. -/
def complexes (es n : Nat) (b : Bytes) : List Z := (cells (es + es) n b).map fun c => (c.take es, c.drop es)

def zero (es : Nat) : Bytes := List.replicate es 0

/-- `new_array_from_pairs`, Complex_2d.spvm 25-44, Complex_2f.spvm 23-42. -/
def fromPairs (limit es : Nat) (pairs : Option (List Bytes)) : Out (List Z) :=
  match pairs with
  | none => .die "The pairs $pairs must be defined."
  | some p =>
    if ¬ alen p % 2 = 0 then .die "The length of the pairs $data must be an even number."
    else do
      let length := alen p / 2
      let new ← newArray limit (zero es, zero es) length
      let n ← mul32 (es * 2) length
      let b ← FnMem.memcpy false (some (memObj (es + es) (memory new))) 0 (some (memObj es p)) 0 n
      .ok (complexes es new.length b)

/-- `to_pairs`, Complex_2d.spvm 114-125, Complex_2f.spvm 44-55. -/
def toPairs (limit es : Nat) (array : Option (List Z)) : Out (List Bytes) :=
  match array with
  | none => .die SPVM.msgArrayUndef
  | some z => do
    let length := alen z
    let pl ← mul32 length 2
    let new ← newArray limit (zero es) pl
    let n ← mul32 (es * 2) length
    let b ← FnMem.memcpy false (some (memObj es new)) 0 (some (memObj (es + es) (memory z))) 0 n
    .ok (cells es new.length b)

/-- `new_array_from_re_array`, Complex_2d.spvm 46-61. -/
def fromRe (limit es : Nat) (re : Option (List Bytes)) : Out (List Z) :=
  match re with
  | none => .die "The real part array $re_array must be defined."
  | some r => do
    let new ← newArray limit (zero es, zero es) (alen r)
    forLoop 0 r.length (fun i s => do
      let x ← aGet r i
      let c ← aGet s i
      aSet s i (x, c.2)) new

/-- `new_array_from_im_array`, Complex_2d.spvm 63-78. -/
def fromIm (limit es : Nat) (im : Option (List Bytes)) : Out (List Z) :=
  match im with
  | none => .die "The imaginary part array $im_array must be defined."
  | some r => do
    let new ← newArray limit (zero es, zero es) (alen r)
    forLoop 0 r.length (fun i s => do
      let x ← aGet r i
      let c ← aGet s i
      aSet s i (c.1, x)) new

/-- `to_re_array`, Complex_2d.spvm 80-95. -/
def toRe (limit es : Nat) (array : Option (List Z)) : Out (List Bytes) :=
  match array with
  | none => .die "The array $array must be defined."
  | some z => do
    let new ← newArray limit (zero es) (alen z)
    forLoop 0 z.length (fun i s => do
      let c ← aGet z i
      aSet s i c.1) new

/-- `to_im_array`, Complex_2d.spvm 97-112. -/
def toIm (limit es : Nat) (array : Option (List Z)) : Out (List Bytes) :=
  match array with
  | none => .die "The array $array must be defined."
  | some z => do
    let new ← newArray limit (zero es) (alen z)
    forLoop 0 z.length (fun i s => do
      let c ← aGet z i
      aSet s i c.2) new

end SPVM.Complex
