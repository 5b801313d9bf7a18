import Verif.Base
/-!
# Native memory copies on arrays (lib/SPVM/Array.c) and counted loops
-/
namespace SPVM

/-- The array `dst` with the `n` elements starting at `d` replaced by the `n` elements of `src` starting at `s`.
This is the effect of C `memcpy`/`memmove` when both ranges lie inside their blocks. -/
def blit (dst : List α) (d : Nat) (src : List α) (s n : Nat) : List α :=
  dst.take d ++ ((src.drop s).take n ++ dst.drop (d + n))

/-- C `memmove` on element ranges: undefined if one of the ranges leaves its block. -/
def rawMove (dst : List α) (d : Int) (src : List α) (s len : Int) : Out (List α) :=
  if 0 ≤ d ∧ 0 ≤ s ∧ 0 ≤ len ∧ d + len ≤ dst.length ∧ s + len ≤ src.length then
    .ok (blit dst d.toNat src s.toNat len.toNat)
  else .ub

/-- C `memcpy` on element ranges: as `memmove`, and also undefined if the ranges overlap, which is only possible
when both arguments are the same object (`same`). -/
def rawCopy (same : Bool) (dst : List α) (d : Int) (src : List α) (s len : Int) : Out (List α) :=
  if same = true ∧ d < s + len ∧ s < d + len then .ub else rawMove dst d src s len

def msgDestUndef : String := "The destination $dest must be defined."
def msgSourceUndef : String := "The source $source must be defined."
def msgLengthNeg : String := "The length $length must be greater than or equal to 0."
def msgDestOffNeg : String := "The destination offset $dest_offset must be greater than or equal to 0."
def msgSourceOffNeg : String := "The source offset $source_offset must be greater than or equal to 0."
def msgDestRange : String := "The destination offset $dest_offset + the length $length must be less than or equal to the length of the destination $dest."
def msgSourceRange : String := "The source offset $source_offset + the length $length must be less than or equal to the length of the source $source."

/-- The checks shared by `SPVM__Array__memcpy_*` (Array.c 10-314) and `SPVM__Array__memmove_*` (Array.c 316-620), in
source order, followed by the raw copy `raw`.  `undef` arguments are `none`.  The six element types have the same text
up to the element type; `length * sizeof(T)` is a `size_t` computation. -/
def arrayCopyCommon (raw : List α → Int → List α → Int → Int → Out (List α))
    (dest : Option (List α)) (destOffset : Int) (source : Option (List α)) (sourceOffset length : Int) :
    Out (List α) :=
  match dest with
  | none => .die msgDestUndef
  | some dst =>
    match source with
    | none => .die msgSourceUndef
    | some src =>
      if ¬ length ≥ 0 then .die msgLengthNeg
      else if ¬ destOffset ≥ 0 then .die msgDestOffNeg
      else if ¬ sourceOffset ≥ 0 then .die msgSourceOffNeg
      else if length = 0 then .ok dst
      else do
        let dEnd ← add32 destOffset length
        if ¬ dEnd ≤ alen dst then .die msgDestRange
        else do
          let sEnd ← add32 sourceOffset length
          if ¬ sEnd ≤ alen src then .die msgSourceRange
          else raw dst destOffset src sourceOffset length

/-- `Array->memcpy_int` etc. (Array.c 10-314).  The result is the new contents of the destination. -/
def arrayMemcpy (same : Bool) (dest : Option (List α)) (destOffset : Int) (source : Option (List α))
    (sourceOffset length : Int) : Out (List α) :=
  arrayCopyCommon (rawCopy same) dest destOffset source sourceOffset length

/-- `Array->memmove_int` etc. (Array.c 316-620).  The result is the new contents of the destination. -/
def arrayMemmove (dest : Option (List α)) (destOffset : Int) (source : Option (List α))
    (sourceOffset length : Int) : Out (List α) :=
  arrayCopyCommon rawMove dest destOffset source sourceOffset length

/-- Counted loop `for (my $i = start; $i < start + n; $i++) body` carrying a local state. -/
def forLoop (start n : Nat) (body : Nat → σ → Out σ) (s : σ) : Out σ :=
  match n with
  | 0 => .ok s
  | n + 1 => do
    let s' ← body start s
    forLoop (start + 1) n body s'

/-- `Array->memset_int` etc. (Array.spvm 666-829): the loop writes `$array->[$offset + $i]` for `i < $length`. -/
def arrayMemset (array : List α) (element : α) (offset : Int := 0) (length : Int := -1) : Out (List α) :=
  if ¬ offset ≥ 0 then .die "The offset $offset must be greater than or equal to 0."
  else do
    let arrayLength := alen array
    let length ← if length < 0 then sub32 arrayLength offset else .ok length
    let e ← add32 offset length
    if ¬ e ≤ arrayLength then
      .die "The offset $offset + the length $length must be less than or equal to the length of the array $array."
    else
      forLoop 0 length.toNat (fun i a => do
        let j ← add32 offset i
        aSet a j element) array

end SPVM
