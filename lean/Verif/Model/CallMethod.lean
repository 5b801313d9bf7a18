import Verif.Model.Exchange

/-!
# Model of `call_method` (SPVM.xs 1182-2312)

The call of an SPVM method from Perl: the lookup of the method, the conversion of the arguments, the call, the conversion of the
return value and the update of the references.  The called method is a parameter.
-/

namespace SPVM.Exch

/-- The type of a parameter of a method: basic type, dimension and whether it is a reference (`int*`). -/
structure Arg where
  ty : BT
  dim : Nat
  ref : Bool

/-- What `call_method` asks about a method (`env->api->method`): for an instance method the invocant is the first parameter.
`ret` is `none` for `void`. -/
structure Method where
  static : Bool
  args : List Arg
  required : Nat
  ret : Option (BT × Nat)

/-- The loaded program: `get_basic_type_by_name`, `get_method_by_name` (lib/SPVM/Builder/src/spvm_api_basic_type.c 200-240) and
`get_instance_method` (lib/SPVM/Builder/src/spvm_api.c 4324-4365). -/
structure Runtime extends World where
  basicType : List UInt8 → Option BT
  method : BT → List UInt8 → Option Method
  dispatch : BT → List UInt8 → Option Method

/-- A cell of the stack (`SPVM_VALUE`): a number, an object, or the address of the buffer made for the `i`th argument. -/
inductive Slot
  | num (k : NumK) (c : Cell k)
  | obj (o : Option Nat)
  | ref (i : Nat)

/-- The buffer behind a reference argument. -/
structure Buf where
  k : NumK
  cells : List (Cell k)

/-- The field loop of a multi-numeric argument, SPVM.xs 1488-1544 and, for a reference, 1714-1795. -/
def fieldCells (P : Perl) (k : NumK) (es : List (String × Sv)) : List String → Out (List (Cell k))
  | [] => .ok []
  | f :: fs =>
    match fetch es f with
    | none => .die "The hash reference for the argument must have the key for the field"
    | some v => (fieldCells P k es fs).bind fun cs => .ok (cellOf P false k v :: cs)

/-- The conversion of one argument, SPVM.xs 1349-1925.  An SPVM object given as a hash reference is left out (`ub`). -/
def convertArg (P : Perl) (W : World) (a : Arg) (i : Nat) (v : Sv) : X (List Slot × Option Buf) :=
  match a.dim with
  | 0 =>
    if a.ref then
      match a.ty with
      | .num k =>
        match v with
        | .sref w =>
          match w with
          | .undef | .int _ | .nv _ | .pv _ => pure ([.ref i], some ⟨k, [cellOf P false k w]⟩)
          | _ => Prog.die "The argument must be a scalar reference"
        | _ => Prog.die "The argument must be a scalar reference"
      | .mul fs k =>
        match v with
        | .sref (.href es) => do
          let cs ← Prog.lift (fieldCells P k es fs)
          pure ([.ref i], some ⟨k, cs⟩)
        | .sref (.obj _ _) => crash
        | _ => Prog.die "The argument must be a reference to a hash reference"
      | _ => crash
    else
      match a.ty with
      | .num k =>
        if isPlain v then pure ([.num k (cellOf P false k v)], none)
        else Prog.die "The argument must be a non-reference scalar"
      | .string => do
        let w ← newString P v
        let o ← objectOf w
        pure ([.obj o], none)
      | .any =>
        match v with
        | .undef => pure ([.obj none], none)
        | .obj _ o => pure ([.obj o], none)
        | .pv s =>
          if s.length < 2147483648 then do
            let b ← alloc { ty := .string, dim := 0, len := s.length, body := .str s, rc := 0 }
            let _ ← bless .str (some b)
            pure ([.obj (some b)], none)
          else crash
        | _ => Prog.die "The argument must be an SPVM::BlessedObject object or a string or undef"
      | .cls c =>
        match v with
        | .undef => pure ([.obj none], none)
        | .obj .cls o => do
          let ok ← isa W o (.cls c) 0
          if ok then pure ([.obj o], none)
          else Prog.die "The argument must be an SPVM::BlessedObject::Class object of an assignable type or undef"
        | _ => Prog.die "The argument must be an SPVM::BlessedObject::Class object of an assignable type or undef"
      | .mul fs k =>
        match v with
        | .href es => do
          let cs ← Prog.lift (fieldCells P k es fs)
          pure (cs.map (.num k), none)
        | .obj _ _ => crash
        | _ => Prog.die "The argument must be a hash reference"
  | 1 => do
    let w ← match a.ty with
      | .num k => newNumArray P false k v
      | .mul fs k => newMulArray P W fs k v
      | .string => newStrArray P v
      | .any => newObjArray W .any 1 v
      | .cls c => newObjArray W (.cls c) 1 v
    let o ← objectOf w
    pure ([.obj o], none)
  | d => do
    let w ← newObjArray W a.ty d v
    let o ← objectOf w
    pure ([.obj o], none)

/-- The argument loop, SPVM.xs 1330-1930: the `break` at line 1926, meant for a `switch`, leaves the loop after an argument with
two or more dimensions. -/
def convertArgs (P : Perl) (W : World) : Nat → List Arg → List Sv → X (List Slot × List (Option Buf))
  | _, [], _ => pure ([], [])
  | _, _ :: _, [] => pure ([], [])
  | i, a :: as, v :: vs => do
    let r ← convertArg P W a i v
    if 1 < a.dim then pure (r.1, [r.2])
    else do
      let rs ← convertArgs P W (i + 1) as vs
      pure (r.1 ++ rs.1, r.2 :: rs.2)

/-- What a called method does: it returns, leaving its value on the stack and numbers in the buffers, or it throws. -/
inductive CallRes
  | ret (stack : Nat → Slot) (bufs : List (Option Buf))
  | throw (id : Int) (text : List UInt8)

/-- A called method: it sees the number of stack cells that were filled, the stack, the buffers and the heap
(`env->call_method_no_mortal`). -/
abbrev Callee : Type := Method → Nat → (Nat → Slot) → List (Option Buf) → Heap → CallRes × Heap

/-- A number read from the stack; reading a cell that holds something else is undefined. -/
def slotNum (k : NumK) : Slot → Out (Cell k)
  | .num k' c => if h : k' = k then .ok (h ▸ c) else .ub
  | _ => .ub

/-- An object read from the stack. -/
def slotObj : Slot → Out (Option Nat)
  | .obj o => .ok o
  | _ => .ub

/-- `new_sv_blessed_object`, or undef for no object. -/
def blessOr (kd : Kind) (o : Option Nat) : X Sv :=
  match o with
  | none => pure .undef
  | some _ => bless kd o

/-- The loop over the fields of a returned multi-numeric value, SPVM.xs 1999-2041. -/
def retFields (P : Perl) (k : NumK) (st : Nat → Slot) : Nat → List String → Out (List (String × Sv))
  | _, [] => .ok []
  | i, f :: fs => (slotNum k (st i)).bind fun c => (retFields P k st (i + 1) fs).bind fun r => .ok ((f, svOf P k c) :: r)

/-- The conversion of the return value, SPVM.xs 1956-2116. -/
def retSv (P : Perl) (ret : Option (BT × Nat)) (st : Nat → Slot) : X (Option Sv) :=
  match ret with
  | none => pure none
  | some (t, 0) =>
    match t with
    | .num k => do
      let c ← Prog.lift (slotNum k (st 0))
      pure (some (svOf P k c))
    | .mul fs k => do
      let r ← Prog.lift (retFields P k st 0 fs)
      pure (some (.href r))
    | .string => do
      let o ← Prog.lift (slotObj (st 0))
      let w ← blessOr .str o
      pure (some w)
    | .any => do
      let o ← Prog.lift (slotObj (st 0))
      match o with
      | none => pure (some .undef)
      | some _ => do
        let ob ← deref o
        let w ← bless (if 0 < ob.dim then .arr else match ob.ty with | .string => .str | _ => .cls) o
        pure (some w)
    | .cls _ => do
      let o ← Prog.lift (slotObj (st 0))
      let w ← blessOr .cls o
      pure (some w)
  | some (_, _ + 1) => do
    let o ← Prog.lift (slotObj (st 0))
    let w ← blessOr .arr o
    pure (some w)

/-- `hv_store`. -/
def store (es : List (String × Sv)) (f : String) (v : Sv) : List (String × Sv) :=
  if es.any (·.1 == f) then es.map fun x => if x.1 == f then (x.1, v) else x else es ++ [(f, v)]

/-- The loop over the fields of a multi-numeric reference, SPVM.xs 2212-2288. -/
def storeFields (P : Perl) (k : NumK) (cells : List (Cell k)) : Nat → List String → List (String × Sv) → Out (List (String × Sv))
  | _, [], es => .ok es
  | i, f :: fs, es => (cellAt cells i).bind fun c => storeFields P k cells (i + 1) fs (store es f (svOf P k c))

/-- The update of one reference, SPVM.xs 2131-2290. -/
def restoreOne (P : Perl) (ty : BT) (buf : Option (Option Buf)) (v : Sv) : Out Sv :=
  match ty, v, buf with
  | .num k, .sref _, some (some ⟨k', cells⟩) =>
    if h : k' = k then (cellAt cells 0).bind fun c => .ok (.sref (svOf P k (h ▸ c))) else .ub
  | .mul fs k, .sref (.href es), some (some ⟨k', cells⟩) =>
    if k' = k then (storeFields P k' cells 0 fs es).bind fun es => .ok (.sref (.href es)) else .ub
  | _, _, _ => .ub

/-- The loop that updates the references, SPVM.xs 2118-2298: it runs over all parameters.  `dbg` says whether assertions are
compiled in: every parameter that is not a reference then ends the process. -/
def restore (P : Perl) (dbg : Bool) (bufs : List (Option Buf)) : Nat → List Arg → List Sv → Out (List Sv)
  | _, [], vs => .ok vs
  | i, a :: as, vs =>
    if a.ref then
      match vs with
      | [] => .ub
      | v :: vs => (restoreOne P a.ty bufs[i]? v).bind fun w => (restore P dbg bufs (i + 1) as vs).bind fun ws => .ok (w :: ws)
    else if dbg then .ub
    else
      match vs with
      | [] => restore P dbg bufs (i + 1) as []
      | v :: vs => (restore P dbg bufs (i + 1) as vs).bind fun ws => .ok (v :: ws)

/-- `strrchr(name, ':')`. -/
def lastColon : List UInt8 → Option Nat
  | [] => none
  | c :: cs =>
    match lastColon cs with
    | some j => some (j + 1)
    | none => if c = 58 then some 0 else none

/-- The lookup of the method, SPVM.xs 1209-1286, with the contents of the caller's method name afterwards: for
`CLASS::METHOD` the first colon is overwritten with a NUL while the class is looked up.  Names contain no NUL. -/
def resolve (P : Perl) (R : Runtime) (inv : Sv) (name : List UInt8) (h : Heap) : Out Method × List UInt8 :=
  match inv with
  | .obj .cls o =>
    match (deref o h).1 with
    | .ok ob =>
      match lastColon name with
      | none =>
        match R.dispatch ob.ty name with
        | some m => (if m.static then .die "The method is not found" else .ok m, name)
        | none => (.die "The method is not found", name)
      | some 0 => (.ub, name)
      | some (p + 1) =>
        if name[p]? = some 58 then
          match R.basicType (name.take p) with
          | none => (.die "The basic type is not found", name.set p 0)
          | some t =>
            if R.isa ob.ty ob.dim t 0 then
              match R.method t (name.drop (p + 2)) with
              | some m => (if m.static then .die "The method is not found" else .ok m, name)
              | none => (.die "The method is not found", name)
            else (.die "The invocant must be assigned to the basic type", name.set p 0)
        else (.die "The static method call must be valid", name)
    | _ => (.ub, name)
  | .obj _ _ => (.die "$invocant must be an SPVM::BlessedObject::Class object", name)
  | _ =>
    match R.basicType (svPV P inv) with
    | none => (.ub, name)
    | some t =>
      match R.method t name with
      | some m => (if m.static then .ok m else .die "The method is not found", name)
      | none => (.die "The method is not found", name)

/-- What Perl sees of a call: the returned value (none for `void`) with the argument scalars afterwards, the exception of the
method, or an error of `call_method` itself. -/
inductive Res
  | done (ret : Option Sv) (args : List Sv)
  | thrown (text : List UInt8) (id : Option Int)
  | refused (m : String)
  | ub

/-- `call_method`, SPVM.xs 1182-2312, after the method has been found.  `err` says whether an `SPVM::ExchangeAPI::Error` object
was passed; `stale` is what the stack held before.  The text of the exception is printed with `%s` (line 1952). -/
def callFound (P : Perl) (W : World) (dbg err : Bool) (C : Callee) (stale : Nat → Slot) (m : Method) (vs : List Sv) (h : Heap) :
    Res × Heap :=
  if vs.length < m.required then (.refused "Too few arguments", h)
  else if m.args.length < vs.length then (.refused "Too many arguments", h)
  else
    match convertArgs P W 0 m.args vs h with
    | (.ok (ss, bufs), h) =>
      match C m ss.length (fun i => (ss[i]?).getD (stale i)) bufs h with
      | (.throw id text, h) => (.thrown (text.takeWhile (· != 0)) (if err then some id else none), h)
      | (.ret st bufs, h) =>
        match retSv P m.ret st h with
        | (.ok r, h) =>
          if m.args.any (·.ref) then
            match restore P dbg bufs 0 m.args vs with
            | .ok ws => (.done r ws, h)
            | _ => (.ub, h)
          else (.done r vs, h)
        | (_, h) => (.ub, h)
    | (.die msg, h) => (.refused msg, h)
    | (.ub, h) => (.ub, h)

/-- `call_method`, SPVM.xs 1182-2312. -/
def callMethod (P : Perl) (R : Runtime) (dbg err : Bool) (C : Callee) (stale : Nat → Slot) (inv : Sv) (name : List UInt8)
    (args : List Sv) (h : Heap) : Res × List UInt8 × Heap :=
  match resolve P R inv name h with
  | (.ok m, name) =>
    let r := callFound P R.toWorld dbg err C stale m (if m.static then args else inv :: args) h
    (r.1, name, r.2)
  | (.die msg, name) => (.refused msg, name, h)
  | (.ub, name) => (.ub, name, h)

end SPVM.Exch
