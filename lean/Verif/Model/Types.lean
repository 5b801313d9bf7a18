import Verif.Model.VM
import Verif.Model.CHash
import Verif.Spec.Decimal
/-!
# Types: assignability, inheritance, interfaces, method lookup

Models lib/SPVM/Builder/src/{spvm_type.c, spvm_basic_type.c, spvm_api_type.c, spvm_check.c} and the method lookup of
spvm_api.c.

Simplifications: a basic type is named by its index in `compiler->basic_types`; `SPVM_LIST_get` of an index outside the list
(an assertion failure in C) yields the category `unknown`.  Flags are two booleans (the only two flags of spvm_native.h are
`MUTABLE` and `REF`).  `basic_type_symtable` and `method_symtable` are `SPVM_HASH`es (modelled in Model/CHash.lean, proved to
be maps in C38); here a look-up is the first entry of that name in the list, and redeclarations are compile errors.
Error messages are not modelled.  Every `while (1)` loop and the mutual recursion of `SPVM_BASIC_TYPE_has_interface` and
`SPVM_TYPE_satisfy_assignment_requirement` take a fuel argument; running out of it (an endless loop, or a C stack overflow)
is `ub`.
-/
namespace SPVM
namespace Types
open VM (Bytes)

/-- `SPVM_NATIVE_C_BASIC_TYPE_CATEGORY_*`, lib/SPVM/Builder/include/spvm_native.h. -/
inductive Cat where
  | unknown | undef | void | numeric | mulnum | string | cls | iface | anyObject
deriving DecidableEq, Repr

/-- A type: basic type id, dimension and flags (`SPVM_TYPE`, spvm_type.h). -/
structure Ty where
  bt : Nat
  dim : Nat := 0
  ref : Bool := false
  isMut : Bool := false
deriving DecidableEq, Repr

/-- A method declaration (`SPVM_METHOD`, spvm_method.h); `args` contains the invocant of an instance method at index 0. -/
structure Method where
  name : Bytes
  isClass : Bool := false
  isRequired : Bool := false
  args : List Ty
  required : Nat
  ret : Ty
deriving DecidableEq, Repr

/-- A basic type (`SPVM_BASIC_TYPE`, spvm_basic_type.h). -/
structure BT where
  name : Bytes
  cat : Cat
  parentName : Option Bytes := none
  methods : List Method := []
deriving DecidableEq, Repr

/-- `compiler->basic_types`. -/
abbrev World := List BT

/-- The category of a basic type id. -/
def cat (w : World) (id : Nat) : Cat := (w[id]?.map BT.cat).getD .unknown

/-! ## Predicates, spvm_basic_type.c 112-210 and spvm_type.c 21-487 -/

/-- `SPVM_BASIC_TYPE_is_numeric_type` 124-134: ids BYTE(3) to DOUBLE(8). -/
def btNumeric (id : Nat) : Bool := 3 ≤ id && id ≤ 8
/-- `SPVM_BASIC_TYPE_is_numeric_object_type` 182-190: ids BYTE_CLASS(11) to DOUBLE_CLASS(16). -/
def btNumericObject (id : Nat) : Bool := 11 ≤ id && id ≤ 16

/-- `SPVM_TYPE_is_numeric_type`. -/
def isNumeric (t : Ty) : Bool := t.dim == 0 && btNumeric t.bt && !t.ref
/-- `SPVM_TYPE_is_numeric_object_type`. -/
def isNumericObject (t : Ty) : Bool := t.dim == 0 && btNumericObject t.bt && !t.ref
/-- `SPVM_TYPE_is_mulnum_type`. -/
def isMulnum (w : World) (t : Ty) : Bool := t.dim == 0 && cat w t.bt == .mulnum && !t.ref
/-- `SPVM_TYPE_is_string_type` (id STRING = 9). -/
def isString (t : Ty) : Bool := t.dim == 0 && t.bt == 9 && !t.ref
/-- `SPVM_TYPE_is_class_type`. -/
def isClass (w : World) (t : Ty) : Bool := t.dim == 0 && cat w t.bt == .cls && !t.ref
/-- `SPVM_TYPE_is_interface_type`. -/
def isInterface (w : World) (t : Ty) : Bool := t.dim == 0 && cat w t.bt == .iface && !t.ref
/-- `SPVM_TYPE_is_any_object_type` (id ANY_OBJECT = 10). -/
def isAnyObject (t : Ty) : Bool := t.dim == 0 && t.bt == 10 && !t.ref
/-- `SPVM_TYPE_is_undef_type` (id UNDEF = 1). -/
def isUndef (t : Ty) : Bool := t.dim == 0 && t.bt == 1 && !t.ref
/-- `SPVM_TYPE_is_void_type` (id VOID = 2). -/
def isVoid (t : Ty) : Bool := t.dim == 0 && t.bt == 2 && !t.ref
/-- `SPVM_TYPE_is_array_type`. -/
def isArray (t : Ty) : Bool := 0 < t.dim && !t.ref
/-- `SPVM_TYPE_is_object_type`: an array, or a string, class, interface or any object type. -/
def isObject (w : World) (t : Ty) : Bool :=
  isArray t || isString t || isClass w t || isInterface w t || isAnyObject t
/-- `SPVM_TYPE_is_object_array_type`: an array whose elements are of an object type. -/
def isObjectArray (w : World) (t : Ty) : Bool :=
  isArray t && isObject w { t with dim := t.dim - 1 }
/-- `SPVM_TYPE_is_muldim_array_type`. -/
def isMuldim (t : Ty) : Bool := 1 < t.dim && !t.ref
/-- `SPVM_TYPE_is_numeric_array_type`. -/
def isNumericArray (t : Ty) : Bool := t.dim == 1 && btNumeric t.bt && !t.ref
/-- `SPVM_TYPE_is_mulnum_array_type`. -/
def isMulnumArray (w : World) (t : Ty) : Bool := t.dim == 1 && cat w t.bt == .mulnum && !t.ref
/-- `SPVM_TYPE_is_string_array_type`. -/
def isStringArray (t : Ty) : Bool := t.dim == 1 && t.bt == 9 && !t.ref
/-- `SPVM_TYPE_is_class_array_type`. -/
def isClassArray (w : World) (t : Ty) : Bool := t.dim == 1 && cat w t.bt == .cls && !t.ref
/-- `SPVM_TYPE_is_interface_array_type`. -/
def isInterfaceArray (w : World) (t : Ty) : Bool := t.dim == 1 && cat w t.bt == .iface && !t.ref
/-- `SPVM_TYPE_is_any_object_array_type`. -/
def isAnyObjectArray (t : Ty) : Bool := t.bt == 10 && t.dim == 1 && !t.ref

/-! ## Inheritance -/

/-- `SPVM_HASH_get(compiler->basic_type_symtable, name)`. -/
def lookup (w : World) (name : Bytes) : Option Nat := w.findIdx? (fun b => b.name == name)

/-- The `parent` pointer of a basic type, set by `SPVM_CHECK_check_basic_types_relation`, spvm_check.c 97-115. -/
def parent (w : World) (id : Nat) : Option Nat := (w[id]?.bind BT.parentName).bind (lookup w)

/-- The loop of `SPVM_BASIC_TYPE_is_super_class`, spvm_basic_type.c 313-330: walk the parent names. -/
def superLoop (w : World) (dist : Bytes) : Nat → Option Bytes → Out Bool
  | 0, _ => .ub
  | _ + 1, none => .ok false
  | n + 1, some p =>
    if dist = p then .ok true
    else match lookup w p with
      | none => .ub
      | some id => superLoop w dist n (w[id]?.bind BT.parentName)

/-- `SPVM_BASIC_TYPE_is_super_class`, spvm_basic_type.c 300-331. -/
def isSuperClass (w : World) (n : Nat) (dist src : Nat) : Out Bool :=
  if cat w dist ≠ .cls then .ok false
  else if cat w src ≠ .cls then .ok false
  else superLoop w ((w[dist]?.map BT.name).getD []) n (w[src]?.bind BT.parentName)

/-- `SPVM_HASH_get(basic_type->method_symtable, name)`. -/
def method (w : World) (id : Nat) (name : Bytes) : Option Method :=
  w[id]?.bind fun b => b.methods.find? fun m => m.name == name

/-- The search for a method through the parents, spvm_basic_type.c 262-277 (compile time). -/
def findLoop (w : World) (name : Bytes) : Nat → Option Nat → Out (Option Method)
  | 0, _ => .ub
  | _ + 1, none => .ok none
  | n + 1, some id =>
    match method w id name with
    | some m => .ok (some m)
    | none => findLoop w name n (parent w id)

/-! ## Interfaces and assignability -/

/-- A loop that returns 0 at the first failing element and 1 at the end. -/
def andAll (f : α → Out Bool) : List α → Out Bool
  | [] => .ok true
  | a :: as => do
    let b ← f a
    if b then andAll f as else .ok false

/-- The answer of `SPVM_TYPE_satisfy_assignment_requirement`: `can_assign` and `*need_data_conversion`. -/
inductive Ans where
  | no | yes | conv
deriving DecidableEq, Repr

/-- `can_assign = b`. -/
def Ans.ofBool (b : Bool) : Ans := if b then .yes else .no

/-- `SPVM_TYPE_satisfy_assignment_requirement`, spvm_type.c 903-1324, given `is_super_class` and `has_interface`. -/
def assignWith (w : World) (sup hi : Nat → Nat → Out Bool) (narrow im : Bool) (d s : Ty) : Out Ans :=
  if isNumeric d then
    if isNumeric s then
      if s.bt = d.bt then .ok .yes
      else if d.bt > s.bt then .ok .conv
      else .ok (if narrow then .conv else .no)
    else if isObject w s then
      if isNumericObject s then .ok (if s.bt = d.bt + 8 then .conv else .no)
      else if isAnyObject s then .ok .conv
      else .ok .no
    else .ok .no
  else if isMulnum w d then
    .ok (.ofBool (isMulnum w s && d == s))
  else if d.ref then
    .ok (.ofBool (s.ref && d == s))
  else if isString d then
    if isString s then .ok (.ofBool (!(d.isMut && !s.isMut)))
    else if isNumeric s then .ok .conv
    else .ok (.ofBool (isUndef s))
  else if isNumericObject d then
    if isNumeric s then .ok (if d.bt = s.bt + 8 then .conv else .no)
    else if isNumericObject s then .ok (.ofBool (s.bt == d.bt))
    else .ok (.ofBool (isUndef s))
  else if isClass w d then
    if isClass w s then
      if s.bt = d.bt then .ok .yes
      else do let b ← sup d.bt s.bt; .ok (.ofBool b)
    else .ok (.ofBool (isUndef s))
  else if isInterface w d then
    if im then
      if isObject w s then .ok (.ofBool (d == s))
      else .ok (.ofBool (isUndef s))
    else
      if isInterface w s then
        if d = s then .ok .yes
        else do let b ← hi s.bt d.bt; .ok (.ofBool b)
      else if isClass w s then do let b ← hi s.bt d.bt; .ok (.ofBool b)
      else .ok (.ofBool (isUndef s))
  else if isAnyObject d then
    if isNumeric s then .ok .conv
    else if isObject w s then .ok .yes
    else .ok (.ofBool (isUndef s))
  else if isUndef d then .ok .no
  else if isNumericArray d then
    if isNumericArray s then .ok (.ofBool (d == s))
    else .ok (.ofBool (isUndef s))
  else if isMulnumArray w d then
    if isMulnumArray w s then .ok (.ofBool (d == s))
    else .ok (.ofBool (isUndef s))
  else if isStringArray d then
    if isStringArray s then .ok .yes
    else .ok (.ofBool (isUndef s))
  else if isClassArray w d then
    if isClassArray w s then
      if d = s then .ok .yes
      else do let b ← sup d.bt s.bt; .ok (.ofBool b)
    else .ok (.ofBool (isUndef s))
  else if isInterfaceArray w d then
    if isInterfaceArray w s then
      if d = s then .ok .yes
      else do let b ← hi s.bt d.bt; .ok (.ofBool b)
    else if isClassArray w s then do let b ← hi s.bt d.bt; .ok (.ofBool b)
    else .ok (.ofBool (isUndef s))
  else if isAnyObjectArray d then
    if isObjectArray w s then .ok .yes
    else .ok (.ofBool (isUndef s))
  else if isMuldim d then
    if isMuldim s then
      if s.dim = d.dim then
        if s.bt = d.bt then .ok .yes
        else do
          let b ← sup d.bt s.bt
          if b then .ok .yes
          else if cat w d.bt = .iface then
            if cat w s.bt = .iface then do let b ← hi s.bt d.bt; .ok (.ofBool b)
            else if cat w s.bt = .cls then do let b ← hi s.bt d.bt; .ok (.ofBool b)
            else .ok .no
          else .ok .no
      else .ok .no
    else .ok (.ofBool (isUndef s))
  else if isVoid d then .ok (.ofBool (isVoid s))
  else .ub

/-- `satisfy && !need_data_conversion`, spvm_type.c 1345-1349 and 1371-1375. -/
def Ans.plain : Ans → Bool
  | .yes => true
  | _ => false

/-- The argument loop of `SPVM_TYPE_satisfy_interface_method_requirement`, spvm_type.c 1872-1903, over the pairs of the
arguments with index 1, 2, ... that both methods have. -/
def argPairs (dm sm : Method) : List (Ty × Ty) := (dm.args.drop 1).zip (sm.args.drop 1)

/-- `SPVM_TYPE_satisfy_interface_method_requirement`, spvm_type.c 1825-1929. -/
def satisfyMethod (asg : Ty → Ty → Out Ans) (dm sm : Method) : Out Bool :=
  if sm.isClass then .ok false
  else if dm.isClass then .ok false
  else if ¬ (dm.args.length ≥ sm.required) then .ok false
  else do
    let b ← andAll (fun p : Ty × Ty => do let a ← asg p.1 p.2; .ok a.plain) (argPairs dm sm)
    if b then do
      let a ← asg dm.ret sm.ret
      .ok a.plain
    else .ok false

/-- The body of the method loop of `SPVM_BASIC_TYPE_has_interface_common`, spvm_basic_type.c 259-294. -/
def checkMethod (w : World) (n : Nat) (asg : Ty → Ty → Out Ans) (src : Nat) (dm : Method) : Out Bool :=
  if dm.isClass then .ok true
  else do
    let sm ← findLoop w dm.name n (some src)
    match sm with
    | none => .ok (!dm.isRequired)
    | some sm => satisfyMethod asg dm sm

/-- `SPVM_BASIC_TYPE_has_interface_common`, spvm_basic_type.c 226-298. -/
def hasInterfaceCommonWith (w : World) (n : Nat) (asg : Ty → Ty → Out Ans) (src dist : Nat) : Out Bool :=
  if ¬ (cat w src = .cls ∨ cat w src = .iface) then .ok false
  else if ¬ (cat w dist = .cls ∨ cat w dist = .iface) then .ok false
  else andAll (checkMethod w n asg src) ((w[dist]?.map BT.methods).getD [])

/-- `SPVM_BASIC_TYPE_has_interface`, spvm_basic_type.c 212-224; the methods are compared with `interface_match = 1`
(spvm_type.c 1352-1376). -/
def hasInterface (w : World) : Nat → Nat → Nat → Out Bool
  | 0, _, _ => .ub
  | n + 1, src, dist =>
    if cat w dist ≠ .iface then .ok false
    else hasInterfaceCommonWith w n (assignWith w (isSuperClass w n) (hasInterface w n) false true) src dist

/-- `SPVM_TYPE_satisfy_assignment_requirement` (903-1324) with all its callees. -/
def assign (w : World) (n : Nat) (narrow im : Bool) (d s : Ty) : Out Ans :=
  assignWith w (isSuperClass w n) (hasInterface w n) narrow im d s

/-- `SPVM_BASIC_TYPE_has_interface_common`, spvm_basic_type.c 226-298, with all its callees. -/
def hasInterfaceCommon (w : World) (n : Nat) (src dist : Nat) : Out Bool :=
  hasInterfaceCommonWith w n (assign w n false true) src dist

/-- `SPVM_TYPE_satisfy_assignment_requirement_without_data_conversion`, spvm_type.c 1326-1350. -/
def assignPlain (w : World) (n : Nat) (d s : Ty) : Out Bool := do
  let a ← assign w n false false d s
  .ok a.plain

/-! ## The compiler's checks -/

/-- The cycle check of `SPVM_CHECK_check_basic_types_relation`, spvm_check.c 131-146, for one basic type: `ok true` when no
super class has the name of the basic type itself, `ok false` for the compile error. -/
def cycleLoop (w : World) (name : Bytes) : Nat → Option Nat → Out Bool
  | 0, _ => .ub
  | _ + 1, none => .ok true
  | n + 1, some p =>
    if (w[p]?.map BT.name) = some name then .ok false
    else cycleLoop w name n (parent w p)

/-- The first loop of `SPVM_CHECK_check_basic_types_relation`, spvm_check.c 91-115, for one basic type (`ok false` = compile
error, `ub` = the null pointer dereference when the parent was never loaded; loading is not modelled). -/
def checkParent (w : World) (b : BT) : Out Bool :=
  match b.parentName with
  | none => .ok true
  | some p => match lookup w p with
    | none => .ub
    | some pid =>
      if cat w pid ≠ .cls then .ok false
      else if b.cat ≠ .cls then .ok false
      else if b.name = p then .ok false
      else .ok true

/-- The second loop of `SPVM_CHECK_check_basic_types_relation`, spvm_check.c 131-146. -/
def checkCycles (w : World) (n : Nat) : Out Bool :=
  andAll (fun id => cycleLoop w ((w[id]?.map BT.name).getD []) n (parent w id)) (List.range w.length)

/-- `SPVM_CHECK_check_basic_types_relation`, spvm_check.c 90-146 (all basic types are taken to be compiled at once,
`basic_types_base_id = 0`; interface declarations are not modelled). -/
def checkRelation (w : World) (n : Nat) : Out Bool := do
  let b ← andAll (checkParent w) w
  if b then checkCycles w n else .ok false

/-- The check of a class against its super classes in `SPVM_CHECK_check_methods`, spvm_check.c 785-800. -/
def checkSupers (w : World) (n : Nat) (id : Nat) : Nat → Option Nat → Out Bool
  | 0, _ => .ub
  | _ + 1, none => .ok true
  | k + 1, some p => do
    let b ← hasInterfaceCommon w n id p
    if b then checkSupers w n id k (parent w p) else .ok false

/-! ## Method lookup at run time -/

/-- `strcmp` of two strings without `NUL`: the difference of the first differing bytes, as `unsigned char`. -/
def strcmp : Bytes → Bytes → Int
  | [], [] => 0
  | [], b :: _ => -(b.toNat : Int)
  | a :: _, [] => a.toNat
  | a :: as, b :: bs => if a = b then strcmp as bs else (a.toNat : Int) - b.toNat

/-- `SPVM_API_BASIC_TYPE_get_method_by_index`; dereferencing the null pointer of a bad index is `ub`. -/
def methodAt (ms : List Method) (i : Int) : Out Method :=
  if i < 0 then .ub else match ms[i.toNat]? with
    | some m => .ok m
    | none => .ub

/-- The binary search of `SPVM_API_BASIC_TYPE_get_method_by_name`, spvm_api_basic_type.c 208-231. -/
def bsearch (ms : List Method) (name : Bytes) : Nat → Int → Int → Out (Option Method)
  | 0, _, _ => .ub
  | n + 1, lo, hi =>
    if hi < lo then .ok none
    else do
      let half := lo + (hi - lo) / 2
      let m ← methodAt ms half
      let c := strcmp name m.name
      if c > 0 then bsearch ms name n (half + 1) hi
      else if c < 0 then bsearch ms name n lo (half - 1)
      else .ok (some m)

/-- `SPVM_API_BASIC_TYPE_get_method_by_name`, spvm_api_basic_type.c 200-234. -/
def getMethodByName (ms : List Method) (name : Bytes) : Out (Option Method) :=
  if ms.length > 0 then bsearch ms name (ms.length + 1) 0 (ms.length - 1) else .ok none

/-- The methods of a runtime basic type. -/
def methodsOf (w : World) (id : Nat) : List Method := (w[id]?.map BT.methods).getD []

/-- The loop of `SPVM_API_get_instance_method`, spvm_api.c 4333-4355. -/
def getInstanceMethod (w : World) (name : Bytes) : Nat → Option Nat → Out (Option (Nat × Method))
  | 0, _ => .ub
  | _ + 1, none => .ok none
  | n + 1, some id => do
    let m ← getMethodByName (methodsOf w id) name
    match m with
    | some m => .ok (if m.isClass then none else some (id, m))
    | none => getInstanceMethod w name n (parent w id)

/-- `SPVM_IMPLEMENT_CALL_INSTANCE_METHOD`, spvm_implement.h 2614-2643, up to the call: an undefined invocant or a missing
method throws. The result is the basic type and the method that is run. -/
def resolveCall (w : World) (n : Nat) (invocant : Option Nat) (name : Bytes) : Out (Nat × Method) :=
  match invocant with
  | none => .die "The invocant must be defined."
  | some id => do
    let m ← getInstanceMethod w name n (some id)
    match m with
    | none => .die "The instance method is not found."
    | some m => .ok m

end Types
end SPVM
