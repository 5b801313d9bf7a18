import Verif.Model.Types
/-!
# Type casts

Models `SPVM_TYPE_satisfy_cast_requirement` (lib/SPVM/Builder/src/spvm_type.c), the compilation of a cast (spvm_check.c,
spvm_opcode_builder.c) and the run time operations (lib/SPVM/Builder/include/spvm_implement.h).

Simplifications: numbers, the contents of strings, byte arrays and boxes are of an arbitrary type `φ`, and the conversions of numbers
and between numbers and strings are given functions (C22, C43 and C47 are about them).  Of an object only its type, the read-only flag and its contents
are kept.  `assert(0)` is `ub`.
-/
namespace SPVM
namespace Types

/-- `SPVM_TYPE_is_byte_array_type`, spvm_type.c. -/
def isByteArray (t : Ty) : Bool := t.dim == 1 && t.bt == 3 && !t.ref

/-- `SPVM_TYPE_satisfy_cast_requirement`, spvm_type.c 1378-1813, given `is_super_class` and `has_interface`. -/
def castWith (w : World) (sup hi : Nat → Nat → Out Bool) (d s : Ty) : Out Bool :=
  if isNumeric d then
    if isNumeric s then .ok true
    else if isNumericObject s then .ok (d.bt + 8 == s.bt)
    else .ok (isAnyObject s || isString s)
  else if isMulnum w d then .ok (d == s)
  else if d.ref then .ok (d == s)
  else if isString d then .ok (isString s || isNumeric s || isByteArray s || isAnyObject s || isUndef s)
  else if isNumericObject d then
    if isNumeric s then .ok (d.bt == s.bt + 8)
    else .ok (isAnyObject s || isUndef s)
  else if isClass w d then
    if isClass w s then
      if s.bt = d.bt then .ok true
      else do
        let b ← sup d.bt s.bt
        if b then .ok true else sup s.bt d.bt
    else if isInterface w s then hi d.bt s.bt
    else .ok (isAnyObject s || isUndef s)
  else if isInterface w d then
    if isClass w s then hi s.bt d.bt
    else if isInterface w s then hi s.bt d.bt
    else .ok (isAnyObject s || isUndef s)
  else if isAnyObject d then .ok (isNumeric s || isObject w s || isUndef s)
  else if isUndef d then .ub
  else if isByteArray d then .ok (isString s || isByteArray s || isAnyObject s || isUndef s)
  else if isNumericArray d then .ok (s.bt == d.bt || isAnyObject s || isUndef s)
  else if isMulnumArray w d then .ok (s.bt == d.bt || isAnyObject s || isUndef s)
  else if isStringArray d then .ok (isStringArray s || isAnyObject s || isAnyObjectArray s || isUndef s)
  else if isClassArray w d then
    if isClassArray w s then
      if s.bt = d.bt then .ok true
      else do
        let b ← sup d.bt s.bt
        if b then .ok true else sup s.bt d.bt
    else if isInterfaceArray w s then hi d.bt s.bt
    else .ok (isAnyObject s || isAnyObjectArray s || isUndef s)
  else if isInterfaceArray w d then
    if isClassArray w s then hi s.bt d.bt
    else if isInterfaceArray w s then hi s.bt d.bt
    else .ok (isAnyObject s || isAnyObjectArray s || isUndef s)
  else if isAnyObjectArray d then .ok (isAnyObject s || isObjectArray w s || isUndef s)
  else if isMuldim d then
    if isMuldim s then
      if s.dim = d.dim then
        if s.bt = d.bt then .ok true
        else do
          let b ← sup d.bt s.bt
          if b then .ok true
          else do
            let b ← sup s.bt d.bt
            if b then .ok true
            else if cat w d.bt = .cls then
              if cat w s.bt = .iface then hi s.bt d.bt else .ok false
            else if cat w d.bt = .iface then
              if cat w s.bt = .cls then hi s.bt d.bt
              else if cat w s.bt = .iface then hi s.bt d.bt
              else .ok false
            else .ok false
      else .ok false
    else .ok (isAnyObject s || isAnyObjectArray s || isUndef s)
  else .ub

/-- `SPVM_TYPE_satisfy_cast_requirement` with all its callees. -/
def cast (w : World) (n : Nat) (d s : Ty) : Out Bool := castWith w (isSuperClass w n) (hasInterface w n) d s

/-- What a cast is compiled to. -/
inductive CastOp where
  /-- the cast is removed, spvm_check.c 3393-3399 -/
  | skip
  | moveUndef
  | moveNum
  /-- `TYPE_CONVERSION_x_TO_y` -/
  | conv (src dst : Nat)
  | box (bt : Nat)
  | unbox (bt : Nat)
  | parse (bt : Nat)
  | format (bt : Nat)
  | bytesToString
  | stringToBytes
  | move
  /-- `MOVE_OBJECT_WITH_TYPE_CHECK` -/
  | check (bt dim : Nat)
  /-- `MOVE_OBJECT_CHECK_READ_ONLY_STRING` -/
  | checkReadOnly
deriving DecidableEq, Repr

/-- `SPVM_OP_C_ID_TYPE_CAST` of the opcode builder, spvm_opcode_builder.c 2735-3247, after the removal of casts to the same type in
spvm_check.c 3393-3399. -/
def castOp (w : World) (n : Nat) (d s : Ty) : Out CastOp :=
  if d = s then .ok .skip
  else if isUndef s then
    if isObject w d then .ok .moveUndef else .ub
  else if isNumeric d then
    if isNumeric s then
      if s.bt = d.bt then .ok .moveNum else .ok (.conv s.bt d.bt)
    else if isNumericObject s && s.bt == d.bt + 8 then .ok (.unbox d.bt)
    else if isAnyObject s then .ok (.unbox d.bt)
    else if isString s then .ok (.parse d.bt)
    else .ub
  else if isMulnum w d then .ub
  else if isNumericObject d then
    if isNumericObject s && s.bt == d.bt then .ok .move
    else if isNumeric s && s.bt + 8 == d.bt then .ok (.box s.bt)
    else if isAnyObject s then .ok (.check d.bt d.dim)
    else .ub
  else if isString d then
    if isString s then
      if d.isMut && !s.isMut then .ok .checkReadOnly else .ok .move
    else if isByteArray s then .ok .bytesToString
    else if isAnyObject s then
      if d.isMut then .ok .checkReadOnly else .ok (.check d.bt d.dim)
    else if isNumeric s then .ok (.format s.bt)
    else .ub
  else if isByteArray d then
    if isByteArray s then .ok .move
    else if isString s then .ok .stringToBytes
    else if isAnyObject s then .ok (.check d.bt d.dim)
    else .ub
  else if isAnyObject d then
    if isObject w s then .ok .move
    else if isNumeric s then .ok (.box s.bt)
    else .ub
  else if isObject w d then
    if isObject w s then do
      let b ← assignPlain w n d s
      if b then .ok .move else .ok (.check d.bt d.dim)
    else .ub
  else .ub

/-- An object. -/
structure Obj (φ : Type) where
  bt : Nat
  dim : Nat
  readOnly : Bool
  data : φ
deriving DecidableEq, Repr

/-- The value of a variable. -/
inductive Val (φ : Type) where
  /-- a number of a numeric type -/
  | num (bt : Nat) (x : φ)
  | obj (o : Option (Obj φ))
  /-- a multi-numeric value, or the address of a variable -/
  | other (x : φ)
deriving DecidableEq, Repr

/-- The conversions of numbers. -/
structure Conv (φ : Type) where
  /-- `(T)x` in C: from, to -/
  num : Nat → Nat → φ → φ
  /-- number to string -/
  format : Nat → φ → φ
  /-- string (or `undef`) to number -/
  parse : Nat → Option φ → φ

/-- `SPVM_IMPLEMENT_TYPE_CONVERSION_INT_OBJECT_TO_INT` and the like, spvm_implement.h 2284-2386. -/
def unbox {φ} (bt : Nat) : Val φ → Out (Val φ)
  | .obj none => .die "The unboxing conversion cannot be performed on the undefined value."
  | .obj (some o) =>
    if o.bt = bt + 8 ∧ o.dim = 0 then .ok (.num bt o.data)
    else .die "The source object of the unboxing conversion must be an object of the corresponding numeric object type."
  | _ => .ub

/-- The operations of spvm_vm.c and spvm_implement.h 384-407 and 2073-2390. -/
def runCast {φ} (c : Conv φ) (w : World) (n : Nat) : CastOp → Val φ → Out (Val φ)
  | .skip, v => .ok v
  | .moveUndef, _ => .ok (.obj none)
  | .moveNum, .num bt x => .ok (.num bt x)
  | .conv src dst, .num bt x => if bt = src then .ok (.num dst (c.num src dst x)) else .ub
  | .box bt, .num b x => if b = bt then .ok (.obj (some ⟨bt + 8, 0, false, x⟩)) else .ub
  | .unbox bt, v => unbox bt v
  | .parse bt, .obj o => .ok (.num bt (c.parse bt (o.map Obj.data)))
  | .format bt, .num b x => if b = bt then .ok (.obj (some ⟨9, 0, false, c.format bt x⟩)) else .ub
  | .bytesToString, .obj (some o) => .ok (.obj (some ⟨9, 0, false, o.data⟩))
  | .stringToBytes, .obj none => .ok (.obj none)
  | .stringToBytes, .obj (some o) => .ok (.obj (some ⟨3, 1, false, o.data⟩))
  | .move, .obj o => .ok (.obj o)
  | .check _ _, .obj none => .ok (.obj none)
  | .check bt dim, .obj (some o) => do
    let b ← assignPlain w n { bt := bt, dim := dim } { bt := o.bt, dim := o.dim }
    if b then .ok (.obj (some o)) else .die "A non-assignable type cannot be assigned."
  | .checkReadOnly, .obj none => .ok (.obj none)
  | .checkReadOnly, .obj (some o) =>
    if o.bt = 9 ∧ o.dim = 0 ∧ o.readOnly = true then .die "A read-only string cannnot be cast to mutable string type."
    else .ok (.obj (some o))
  | _, _ => .ub

end Types
end SPVM
