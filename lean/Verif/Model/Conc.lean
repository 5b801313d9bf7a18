/-!
# Reference counts under concurrent threads

`SPVM_API_assign_object`, `SPVM_API_weaken`, `SPVM_API_unweaken` and the release of objects (lib/SPVM/Builder/src/spvm_api.c
4987-5317) run by any number of threads.  Every part of the code between `SPVM_MUTEX_lock(runtime->mutex)` and the unlock is one
step; what lies between two such parts is where other threads can step in.  The read of a reference (`load`) is a step of its
own, because the virtual machine reads it without a lock (include/spvm_implement.h, `GET_FIELD_OBJECT` and the like) before it
calls `SPVM_API_assign_object`.

Simplifications: an object is a number of reference fields (an element of an object array is a field); other contents are left
out.  An object id is never used again.  `DESTROY` is not a step: while the release of an object is pending, its thread can do
further steps, the first of them (`self`) giving the object to a variable, and the release goes on whenever the scheduler
likes.  Reference counts are natural numbers (`int32_t` in the code).
-/
namespace SPVM
namespace Conc

/-- A place that holds a reference: a variable of a thread, or a field of an object. -/
inductive Loc where
  | var (thread i : Nat)
  | field (obj f : Nat)
deriving DecidableEq, Repr

/-- The contents: `NULL`, an address, or an address with the weak tag. -/
inductive Cell where
  | null
  | strong (o : Nat)
  | weak (o : Nat)
deriving DecidableEq, Repr

/-- What a thread has still to do in `SPVM_API_assign_object` for `released_object`. -/
inductive Task where
  /-- before the second critical section, spvm_api.c 5161 -/
  | release (o : Nat)
  /-- the fields before `k` are done, spvm_api.c 5181-5245; then the third critical section, 5247-5268 -/
  | clear (o k : Nat)
deriving DecidableEq, Repr

/-- `released_object` of a task. -/
def Task.obj : Task → Nat
  | .release o => o
  | .clear o _ => o

/-- Memory and threads. -/
structure State where
  cell : Loc → Cell
  /-- `ref_count` -/
  rc : Nat → Nat
  /-- allocated and not freed -/
  alive : Nat → Bool
  /-- number of fields -/
  fields : Nat → Nat
  /-- `weaken_backref_head` -/
  back : Nat → List Loc
  /-- ids from here on are unused -/
  fresh : Nat
  /-- pending tasks with their threads, the innermost of a thread first -/
  tasks : List (Nat × Task)
  /-- a reference that a thread has read, and the place it was read from -/
  reg : Nat → Option (Loc × Nat)

/-- The start. -/
def State.init : State := ⟨fun _ => .null, fun _ => 0, fun _ => false, fun _ => 0, fun _ => [], 0, [], fun _ => none⟩

/-- Updating a function at one point. -/
def upd {α β} [DecidableEq α] (f : α → β) (a : α) (b : β) : α → β := fun x => if x = a then b else f x

/-- Whether a place is in memory that is not freed. -/
def State.okLoc (s : State) : Loc → Bool
  | .var _ _ => true
  | .field p f => s.alive p && decide (f < s.fields p)

/-- `SPVM_API_unweaken_thread_unsafe`, spvm_api.c 5053-5093; `none` is undefined behaviour. -/
def State.unweak (s : State) (l : Loc) : Option State :=
  match s.cell l with
  | .weak p =>
    if s.alive p then
      some { s with cell := upd s.cell l (.strong p), rc := upd s.rc p (s.rc p + 1), back := upd s.back p ((s.back p).erase l) }
    else none
  | _ => some s

/-- A place without weak tag gives its reference to `released_object`, spvm_api.c 5146, 5156. -/
def State.take (s : State) (t : Nat) (l : Loc) : State :=
  match s.cell l with
  | .strong p => { s with cell := upd s.cell l .null, tasks := (t, .release p) :: s.tasks }
  | _ => s

/-- A reference goes to an empty place, spvm_api.c 5152-5156. -/
def State.put (s : State) (l : Loc) (o : Nat) : Option State :=
  if s.alive o then some { s with cell := upd s.cell l (.strong o), rc := upd s.rc o (s.rc o + 1) } else none

/-- The first critical section of `SPVM_API_assign_object`, spvm_api.c 5143-5159. -/
def State.assign (s : State) (t : Nat) (l : Loc) (new : Option Nat) : Option State :=
  if s.okLoc l then
    match s.unweak l with
    | none => none
    | some s1 =>
      match new with
      | none => some (s1.take t l)
      | some o => (s1.take t l).put l o
  else none

/-- `SPVM_API_weaken`, spvm_api.c 4987-5051. -/
def State.weaken (s : State) (t : Nat) (l : Loc) : Option State :=
  if s.okLoc l then
    match s.cell l with
    | .strong p =>
      if s.alive p = false ∨ s.rc p = 0 then none
      else if s.rc p = 1 then some (s.take t l)
      else some { s with cell := upd s.cell l (.weak p), rc := upd s.rc p (s.rc p - 1), back := upd s.back p (s.back p ++ [l]) }
    | _ => some s
  else none

/-- `SPVM_API_unweaken`, spvm_api.c 5095-5115. -/
def State.unweaken (s : State) (l : Loc) : Option State := if s.okLoc l then s.unweak l else none

/-- The innermost task of a thread, and the other tasks. -/
def pick (t : Nat) : List (Nat × Task) → Option (Task × List (Nat × Task))
  | [] => none
  | x :: xs =>
    if x.1 = t then some (x.2, xs)
    else
      match pick t xs with
      | none => none
      | some (k, rest) => some (k, x :: rest)

/-- `SPVM_API_free_weaken_backrefs`, spvm_api.c 5117-5134. -/
def State.clearWeak (s : State) : List Loc → Option State
  | [] => some s
  | l :: ls => if s.okLoc l then { s with cell := upd s.cell l .null }.clearWeak ls else none

/-- The third critical section of `SPVM_API_assign_object`, spvm_api.c 5247-5268. -/
def State.finish (s : State) (p : Nat) : Option State :=
  if s.rc p = 0 then none
  else if s.rc p - 1 = 0 then
    match { s with rc := upd s.rc p 0 }.clearWeak (s.back p) with
    | none => none
    | some s1 => some { s1 with back := upd s1.back p [], alive := upd s1.alive p false }
  else some { s with rc := upd s.rc p (s.rc p - 1) }

/-- The next step of the innermost pending `SPVM_API_assign_object` of a thread: the second critical section (spvm_api.c 5161-5177),
the assignment of `NULL` to the next field (5181-5245), or the third critical section. -/
def State.run (s : State) (t : Nat) : Option State :=
  match pick t s.tasks with
  | none => some s
  | some (.release p, rest) =>
    if s.alive p = false ∨ s.rc p = 0 then none
    else if s.rc p > 1 then some { s with rc := upd s.rc p (s.rc p - 1), tasks := rest }
    else some { s with tasks := (t, .clear p 0) :: rest }
  | some (.clear p k, rest) =>
    if s.alive p = false then none
    else if k < s.fields p then { s with tasks := (t, .clear p (k + 1)) :: rest }.assign t (.field p k) none
    else { s with tasks := rest }.finish p

/-- The steps of thread `t`. -/
inductive Act where
  /-- a new object with `n` fields goes to a variable: spvm_api.c 4714, then `SPVM_API_assign_object` -/
  | new (i n : Nat)
  /-- reading a reference, without a lock -/
  | load (src : Loc)
  /-- `SPVM_API_assign_object` with the reference that was read -/
  | store (dst : Loc)
  /-- `SPVM_API_assign_object` with `NULL` -/
  | undef (dst : Loc)
  | weaken (l : Loc)
  | unweaken (l : Loc)
  /-- going on with the pending releases -/
  | run
  /-- `DESTROY` is called, spvm_api.c 5197-5206: the invocant goes to a variable -/
  | self (i : Nat)
deriving DecidableEq, Repr

/-- One step; `none` is undefined behaviour: an access to freed memory, or to a count that is 0. -/
def State.step (s : State) (t : Nat) : Act → Option State
  | .new i n =>
    { s with
      alive := upd s.alive s.fresh true
      fields := upd s.fields s.fresh n
      back := upd s.back s.fresh []
      fresh := s.fresh + 1 }.assign t (.var t i) (some s.fresh)
  | .load src =>
    if s.okLoc src then
      match s.cell src with
      | .null => some { s with reg := upd s.reg t none }
      | .strong o => some { s with reg := upd s.reg t (some (src, o)) }
      | .weak o => some { s with reg := upd s.reg t (some (src, o)) }
    else none
  | .store dst =>
    match s.reg t with
    | none => s.assign t dst none
    | some (_, o) => s.assign t dst (some o)
  | .undef dst => s.assign t dst none
  | .weaken l => s.weaken t l
  | .unweaken l => s.unweaken l
  | .run => s.run t
  | .self i =>
    match pick t s.tasks with
    | some (.clear p 0, _) => s.assign t (.var t i) (some p)
    | _ => some s

/-- A schedule: which thread does which step. -/
def State.steps (s : State) : List (Nat × Act) → Option State
  | [] => some s
  | (t, a) :: as =>
    match s.step t a with
    | none => none
    | some s1 => s1.steps as

end Conc
end SPVM
