import Verif.Model.Types
/-!
# Access control: `private`, `protected`, `public` and `allow`

Models the four checks of lib/SPVM/Builder/src/spvm_check.c (`new`, class variables, method calls, field accesses) with the
resolution of the member they check, `SPVM_CHECK_can_access`, `SPVM_OP_is_allowed` (spvm_op.c), and the access control that the
attributes of a declaration give (spvm_op.c).

Simplifications: the basic types are those of Model/Types (names, categories, parents); `info` adds, for every basic type id, the
lists the checks look at.  The symbol tables are the maps C38 proves them to be, redeclarations are compile errors.  Types of
members are left out (C35, C64, C65): a field that a child class declares again has the same type (C53).  Names are taken as the
tokenizer (C66) gives them.  Error messages are constants.  Loops over the super classes take fuel, running out of it is `ub`.
-/
namespace SPVM
namespace Access
open VM (Bytes)
open Types (World BT Cat lookup parent isSuperClass)

/-- `SPVM_ATTRIBUTE_C_ID_PRIVATE`, `PROTECTED`, `PUBLIC`, spvm_attribute.h. -/
inductive Acc where
  | priv | prot | pub
deriving DecidableEq, Repr

/-- A field or class variable (`SPVM_FIELD`, `SPVM_CLASS_VAR`): name and `access_control_type`.  The name of a class variable
begins with `$`. -/
structure Member where
  name : Bytes
  acc : Acc
deriving DecidableEq, Repr

/-- A method (`SPVM_METHOD`): name, `is_class_method` and `access_control_type`. -/
structure Meth where
  name : Bytes
  isClass : Bool
  acc : Acc
deriving DecidableEq, Repr

/-- The parts of `SPVM_BASIC_TYPE`, spvm_basic_type.h, that the checks use.  `outmost` is `some` if the class is generated by an
anon method (`is_generated_by_anon_method`, `outmost`, spvm_check.c 196-209); `fields` is `unmerged_fields`. -/
structure Info where
  outmost : Option Nat := none
  acc : Acc := .priv
  allows : List Bytes := []
  fields : List Member := []
  vars : List Member := []
  methods : List Meth := []

/-- The basic types of a program. -/
structure Classes where
  w : World
  info : Nat → Info

/-- `basic_type->name`. -/
def Classes.name (P : Classes) (i : Nat) : Bytes := (P.w[i]?.map BT.name).getD []

/-- A compile error. -/
def err : String := "compile error"

/-! ## Who may access what -/

/-- `SPVM_CHECK_can_access`, spvm_check.c 3962-4004. -/
def canAccess (P : Classes) (n : Nat) (src dist : Nat) (a : Acc) (isParentField : Bool) : Out Bool :=
  let src := (P.info src).outmost.getD src
  match a with
  | .priv => if isParentField then .ok false else .ok (P.name src == P.name dist)
  | .prot => if P.name src = P.name dist then .ok true else isSuperClass P.w n dist src
  | .pub => .ok true

/-- `SPVM_OP_is_allowed`, spvm_op.c 3680-3703. -/
def isAllowed (P : Classes) (cur dist : Nat) (isParentField : Bool) : Bool :=
  if !isParentField && P.name cur == P.name dist then true
  else (P.info dist).allows.any (fun x => P.name cur == x)

/-- The two nested tests that all four checks use, for example spvm_check.c 2165-2170. -/
def check (P : Classes) (n : Nat) (cur dist : Nat) (a : Acc) (isParentField : Bool) : Out Unit :=
  (canAccess P n cur dist a isParentField).bind fun b =>
    if b then .ok ()
    else if isAllowed P cur dist isParentField then .ok ()
    else .die err

/-! ## `new` -/

/-- The part of `SPVM_OP_C_ID_NEW` for classes, spvm_check.c 2152-2171: `new C` in a method of the class `cur`. -/
def checkNew (P : Classes) (n : Nat) (cur c : Nat) : Out Unit :=
  if Types.cat P.w c = .iface then .die err
  else if Types.cat P.w c = .mulnum then .die err
  else check P n cur c (P.info c).acc false

/-! ## Class variables -/

/-- `strrchr(name, ':')`: the bytes before and after the last colon. -/
def rsplit : Bytes → Option (Bytes × Bytes)
  | [] => none
  | c :: cs =>
    match rsplit cs with
    | some (a, b) => some (c :: a, b)
    | none => if c = 58 then some ([], cs) else none

/-- A member of that name in a symbol table. -/
def findMember (l : List Member) (name : Bytes) : Option Member := l.find? (fun m => m.name == name)

/-- `SPVM_CHECK_check_class_var_access`, spvm_check.c 965-1011: class and name of the class variable.  The class name has the
length `(colon_ptr - name + 1) - 1 - 2`; the tokenizer only gives names with `::`, one `:` as the first character after `$` would
make it negative. -/
def resolveVar (P : Classes) (cur : Nat) (name : Bytes) : Out (Option (Nat × Member)) :=
  match rsplit name with
  | some (pre, post) =>
    if pre.length < 2 then .ub
    else match lookup P.w ((pre.drop 1).take (pre.length - 2)) with
      | none => .ok none
      | some d => .ok ((findMember (P.info d).vars (36 :: post)).map fun v => (d, v))
  | none =>
    match lookup P.w (P.name ((P.info cur).outmost.getD cur)) with
    | none => .ok none
    | some d => .ok ((findMember (P.info d).vars name).map fun v => (d, v))

/-- The class variable branch of `SPVM_OP_C_ID_VAR`, spvm_check.c 3030-3076: a variable `name` that is no local variable, in a
method of `cur`. -/
def checkVar (P : Classes) (n : Nat) (cur : Nat) (name : Bytes) : Out (Nat × Member) :=
  (resolveVar P cur name).bind fun r =>
    match r with
    | none => .die err
    | some (d, v) => (check P n cur d v.acc false).bind fun _ => .ok (d, v)

/-! ## Method calls -/

/-- `SPVM_HASH_get(basic_type->method_symtable, name)`. -/
def findMeth (l : List Meth) (name : Bytes) : Option Meth := l.find? (fun m => m.name == name)

/-- `SPVM_CHECK_search_method`, spvm_check.c 3914-3935: the class and the method. -/
def searchMeth (P : Classes) (name : Bytes) : Nat → Option Nat → Out (Option (Nat × Meth))
  | 0, _ => .ub
  | _ + 1, none => .ok none
  | n + 1, some i =>
    match findMeth (P.info i).methods name with
    | some m => .ok (some (i, m))
    | none => searchMeth P name n (parent P.w i)

/-- The class method part of `SPVM_CHECK_check_call_method`, spvm_check.c 1136-1174, and the check 3092-3097: `C->name`, or
`&name` if there is no class.  Type checks have looked the class up before (an unknown one is a compile error there). -/
def checkClassCall (P : Classes) (n : Nat) (cur : Nat) (c : Option Nat) (name : Bytes) : Out (Nat × Meth) :=
  let d := c.getD ((P.info cur).outmost.getD cur)
  match findMeth (P.info d).methods name with
  | none => .die err
  | some m => if !m.isClass then .die err else (check P n cur d m.acc false).bind fun _ => .ok (d, m)

/-- `"SUPER::"`. -/
def super : Bytes := [83, 85, 80, 69, 82, 58, 58]

/-- `strstr(abs, "SUPER::") == abs` and the lookup, spvm_check.c 1197-1219, of a static instance method call; `pre` is what is
before the last colon. -/
def resolveStatic (P : Classes) (n : Nat) (inv : Nat) (name pre post : Bytes) : Out (Option (Nat × Meth)) :=
  if super.isPrefixOf name then
    match parent P.w inv with
    | none => .ok none
    | some p => searchMeth P post n (some p)
  else
    match lookup P.w (pre.take (pre.length - 1)) with
    | none => .die err
    | some d => .ok ((findMeth (P.info d).methods post).map fun m => (d, m))

/-- The instance method part of `SPVM_CHECK_check_call_method`, spvm_check.c 1176-1250, and the check 3092-3097:
`$inv->name`, `$inv->C::name` or `$inv->SUPER::name`, the type of `$inv` being the basic type `inv`. -/
def checkInstanceCall (P : Classes) (n : Nat) (cur inv : Nat) (name : Bytes) : Out (Nat × Meth) :=
  if Types.cat P.w inv ≠ .cls ∧ Types.cat P.w inv ≠ .iface then .die err
  else
    (match rsplit name with
      | some (pre, post) => resolveStatic P n inv name pre post
      | none => searchMeth P name n (some inv)).bind fun r =>
    match r with
    | none => .die err
    | some (d, m) => if m.isClass then .die err else (check P n cur d m.acc false).bind fun _ => .ok (d, m)

/-! ## Field accesses -/

/-- The class and its super classes, nearest first: `basic_type_merge_stack`, spvm_check.c 327-343. -/
def supers (P : Classes) : Nat → Option Nat → Out (List Nat)
  | 0, _ => .ub
  | _ + 1, none => .ok []
  | n + 1, some i => (supers P n (parent P.w i)).bind fun l => .ok (i :: l)

/-- A field of that name in `unmerged_field_symtable` of one of the classes; `SPVM_CHECK_search_unmerged_field`, spvm_check.c
3937-3960. -/
def declared (P : Classes) (l : List Nat) (name : Bytes) : Bool := l.any fun i => (findMember (P.info i).fields name).isSome

/-- The loop over the fields of one class, spvm_check.c 351-380: a field that a super class has too ends it. -/
def mergeOne (P : Classes) (above : List Nat) : List Member → List Member
  | [] => []
  | f :: fs => if declared P above f.name then [] else f :: mergeOne P above fs

/-- `basic_type->fields`, spvm_check.c 345-384, from the root class down.  The clones that belong to the class keep name and
access. -/
def merged (P : Classes) : List Nat → List Member
  | [] => []
  | i :: above => merged P above ++ mergeOne P above (P.info i).fields

/-- `SPVM_HASH_get(basic_type->field_symtable, name)` after the loop 391-395 has set the merged fields one after the other: a
later one replaces an earlier one. -/
def mergedField (P : Classes) (l : List Nat) (name : Bytes) : Option Member := findMember (merged P l).reverse name

/-- The loop of `SPVM_CHECK_check_field_access`, spvm_check.c 1031-1049: the `current_basic_type` of the found field and the
field. -/
def resolveField (P : Classes) (name : Bytes) : List Nat → Option (Nat × Member)
  | [] => none
  | i :: above =>
    match mergedField P (i :: above) name with
    | some f => some (i, f)
    | none => resolveField P name above

/-- `SPVM_OP_C_ID_FIELD_ACCESS`, spvm_check.c 3277-3294: `$inv->{name}` in a method of `cur`.  The result is the
`access_control_type` of the field. -/
def checkField (P : Classes) (n : Nat) (cur inv : Nat) (name : Bytes) : Out Acc :=
  (supers P n (some inv)).bind fun l =>
    match resolveField P name l with
    | none => .die err
    | some (d, f) =>
      let isParentField := (findMember (P.info cur).fields name).isNone && (P.info cur).outmost.isNone
      (check P n cur d f.acc isParentField).bind fun _ => .ok f.acc

/-! ## Attributes -/

/-- The attributes of declarations, spvm_attribute.h. -/
inductive Attr where
  | acc (a : Acc) | rw | ro | wo | static | precompile | native | required | mulnumT | pointer | interfaceT
deriving DecidableEq, Repr

/-- What is declared. -/
inductive Decl where
  | cls | classVar | field | method | enum
deriving DecidableEq, Repr

/-- The attributes of the `switch` statements: classes spvm_op.c 355-397, enumerations 1107-1127, class variables 1229-1264,
fields 1305-1343, methods 1397-1433. -/
def attrKnown : Decl → Attr → Bool
  | _, .acc _ => true
  | .cls, .pointer | .cls, .mulnumT | .cls, .precompile | .cls, .interfaceT => true
  | .classVar, .rw | .classVar, .ro | .classVar, .wo => true
  | .field, .rw | .field, .ro | .field, .wo => true
  | .method, .precompile | .method, .required | .method, .native | .method, .static => true
  | _, _ => false

/-- `class_attributes_count`, `field_method_attributes_count`: attributes of which only one may be given. -/
def attrKind : Attr → Bool
  | .rw | .ro | .wo | .pointer | .mulnumT | .interfaceT => true
  | _ => false

/-- `access_control_attributes_count` counts these. -/
def Attr.access : Attr → Option Acc
  | .acc a => some a
  | _ => none

/-- The defaults, spvm_op.c 411-413 (class; 320-323 set an anon method class to public before), 826-838 (field), 1136-1138
(enumeration), 1276-1278 (class variable), 1446-1448 (method). -/
def defaultAcc (d : Decl) (anonMethodClass mulnumClass : Bool) : Acc :=
  match d with
  | .cls => if anonMethodClass then .pub else .priv
  | .field => if anonMethodClass then .pub else if mulnumClass then .pub else .priv
  | .classVar => .priv
  | .method => .pub
  | .enum => .pub

/-- The loop over the attributes; the last access attribute sets the access control type, the counters are compared after it.  In a
method `native` and `precompile` exclude each other. -/
def declAcc (d : Decl) (anonMethodClass mulnumClass : Bool) (attrs : List Attr) : Out Acc :=
  if attrs.any (fun a => !attrKnown d a) then .die err
  else if (attrs.filter attrKind).length > 1 then .die err
  else if (attrs.filterMap Attr.access).length > 1 then .die err
  else if d = .method ∧ .native ∈ attrs ∧ .precompile ∈ attrs then .die err
  else .ok (((attrs.filterMap Attr.access).getLast?).getD (defaultAcc d anonMethodClass mulnumClass))

end Access
end SPVM
