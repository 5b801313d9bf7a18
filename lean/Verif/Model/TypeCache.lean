import Verif.Model.Types
import Verif.Model.CHash
import Verif.Spec.Decimal
/-!
# The assignability cache of the runtime

`SPVM_API_TYPE_can_assign` (lib/SPVM/Builder/src/spvm_api_type.c 91-131), called by `isa`, by the run-time type checks of
moves, casts and arguments, from any number of threads.
-/
namespace SPVM
namespace TypeCache
open VM (Bytes)
open Types

/-- The six numbers of a question: basic type id, dimension and flags of the destination and of the source
(spvm_api_type.c 91; ids and dimensions are never negative, flags are bit sets). -/
structure Query where
  db : Nat
  dd : Nat
  df : Nat
  sb : Nat
  sd : Nat
  sf : Nat
  deriving DecidableEq, Repr

/-- `snprintf(assinability_key, 255, "%d-%d-%d-%d-%d-%d", ...)`, spvm_api_type.c 95-96 (six `int`s and five dashes fit into 255
bytes). -/
def key (q : Query) : Bytes :=
  Spec.digits q.db ++ 45 :: (Spec.digits q.dd ++ 45 :: (Spec.digits q.df ++ 45 :: (Spec.digits q.sb ++ 45 ::
    (Spec.digits q.sd ++ 45 :: Spec.digits q.sf))))

/-- The computation on a miss, spvm_api_type.c 114-121: the flags are replaced by 0. -/
def compute (w : World) (n : Nat) (q : Query) : Out Bool :=
  assignPlain w n { bt := q.db, dim := q.dd } { bt := q.sb, dim := q.sd }

/-- The state: the symbol table, for each thread the question it is working on between the two critical sections, and the
answers returned so far. -/
structure St where
  table : CHash.CHash Int
  pending : Nat → Option Query
  answers : List (Query × Bool)

/-- A schedule is a sequence of these: thread `t` calls the function and runs the first critical section, or thread `t` runs
the rest of the call. -/
inductive Step where
  | look (t : Nat) (q : Query)
  | store (t : Nat)

/-- The end of the call after the first critical section, spvm_api_type.c 104-112. -/
def looked (st : St) (t : Nat) (q : Query) (v : Int) : St :=
  if v > 0 then { st with answers := (q, true) :: st.answers }
  else if v < 0 then { st with answers := (q, false) :: st.answers }
  else { st with pending := fun u => if u = t then some q else st.pending u }

/-- The miss, spvm_api_type.c 113-128. -/
def stored (w : World) (n : Nat) (hf : Bytes → Out Int) (st : St) (t : Nat) (q : Query) : Out St := do
  let isa ← compute w n q
  let table ← CHash.set hf st.table (key q) (if isa then 1 else -1)
  .ok { table := table, pending := fun u => if u = t then none else st.pending u, answers := (q, isa) :: st.answers }

/-- One step, spvm_api_type.c 98-102 and 113-128.  The table is only touched under the reader/writer lock, so each of the two
critical sections is atomic; the computation between them only reads what the compiler left. A thread that is in the middle of
a call cannot start another, and an idle one has nothing to finish (the schedule is then taken to do nothing). -/
def step (w : World) (n : Nat) (hf : Bytes → Out Int) (st : St) : Step → Out St
  | .look t q => match st.pending t with
    | some _ => .ok st
    | none => do
      let v ← CHash.get hf 0 st.table (key q)
      .ok (looked st t q v)
  | .store t => match st.pending t with
    | none => .ok st
    | some q => stored w n hf st t q

/-- A whole schedule. -/
def run (w : World) (n : Nat) (hf : Bytes → Out Int) (st : St) : List Step → Out St
  | [] => .ok st
  | s :: ss => do
    let st ← step w n hf st s
    run w n hf st ss

/-- The runtime starts with an empty table (`SPVM_HASH_new_hash_permanent(runtime->allocator, 0)`, spvm_runtime.c 32). -/
def init : Out St := do
  let table ← CHash.new 0
  .ok { table := table, pending := fun _ => none, answers := [] }

end TypeCache
end SPVM
