import Verif.Base

/-!
# Sync::Mutex

Threads that share a memory and one `Sync::Mutex` object.  Models lib/SPVM/Sync/Mutex.c 32-76,
lib/SPVM/Builder/src/spvm_api_mutex.c 53-71 and spvm_mutex.c 47-82 (the POSIX branch).

Trusted: the operating system's `pthread_rwlock_*` are what POSIX says (`Rw` below): a write lock is given when nobody holds the
lock, a read lock when no writer holds it; a thread that holds the write lock gets `EDEADLK`; releasing a lock that is not held
is undefined.  Which of the waiting threads is served is left to the schedule.  Simplifications: one mutex; a step of a
thread between two calls of the mutex is any function of the shared memory and the thread's own variables.  The Windows branch
(spvm_mutex.c 16-44) differs in that a second lock of the owner waits for ever instead of ending the process.
-/

namespace SPVM.Mutex

/-- A `pthread_rwlock_t`: the thread with the write lock and the threads with a read lock. -/
structure Rw where
  writer : Option Nat := none
  readers : List Nat := []
deriving DecidableEq

/-- The answer of a blocking call: done, the caller waits, an error number. -/
inductive Call where
  | done (rw : Rw)
  | wait
  | errno
  | undefd
deriving DecidableEq

/-- `pthread_rwlock_wrlock`. -/
def wrlock (rw : Rw) (t : Nat) : Call :=
  if rw.writer = some t then .errno
  else if rw.writer = none ∧ rw.readers = [] then .done { rw with writer := some t }
  else .wait

/-- `pthread_rwlock_rdlock`. -/
def rdlock (rw : Rw) (t : Nat) : Call :=
  if rw.writer = some t then .errno
  else if rw.writer = none then .done { rw with readers := t :: rw.readers }
  else .wait

/-- `pthread_rwlock_unlock`. -/
def rwunlock (rw : Rw) (t : Nat) : Call :=
  if rw.writer = some t then .done { rw with writer := none }
  else if t ∈ rw.readers then .done { rw with readers := rw.readers.erase t }
  else .undefd

/-- A step of a thread: a call of one of the four methods, or code that writes, reads or uses only the thread's own variables. -/
inductive Instr (σ ρ : Type) where
  | lock
  | unlock
  | readerLock
  | readerUnlock
  | write (f : σ → ρ → σ × ρ)
  | read (g : σ → ρ → ρ)
  | loc (h : ρ → ρ)

/-- A thread: the rest of its code and its own variables. -/
structure Thread (σ ρ : Type) where
  code : List (Instr σ ρ)
  reg : ρ

/-- The whole process. -/
structure St (σ ρ : Type) where
  mem : σ
  rw : Rw := {}
  threads : List (Thread σ ρ)

/-- `SPVM_MUTEX_lock` etc., spvm_mutex.c 63-77: which function each method ends in. -/
def callOf (rw : Rw) (t : Nat) : Instr σ ρ → Option Call
  | .lock => some (wrlock rw t)
  | .unlock => some (rwunlock rw t)
  | .readerLock => some (rdlock rw t)
  | .readerUnlock => some (rwunlock rw t)
  | _ => none

/-- Thread `t` makes a step.  `SAFE_PTHREAD` (spvm_mutex.c 50-53) ends the process on an error number (`die`). -/
def step (s : St σ ρ) (t : Nat) : Out (St σ ρ) :=
  match s.threads[t]? with
  | none => .ok s
  | some th =>
    match th.code with
    | [] => .ok s
    | i :: rest =>
      match i with
      | .write f =>
        let r := f s.mem th.reg
        .ok { s with mem := r.1, threads := s.threads.set t ⟨rest, r.2⟩ }
      | .read g => .ok { s with threads := s.threads.set t ⟨rest, g s.mem th.reg⟩ }
      | .loc h => .ok { s with threads := s.threads.set t ⟨rest, h th.reg⟩ }
      | i =>
        match callOf s.rw t i with
        | some (.done rw) => .ok { s with rw := rw, threads := s.threads.set t ⟨rest, th.reg⟩ }
        | some .wait => .ok s
        | some .errno => .die "abort"
        | _ => .ub

/-- A schedule: the thread that makes each step. -/
def run (s : St σ ρ) : List Nat → Out (St σ ρ)
  | [] => .ok s
  | t :: ts => do
    let s' ← step s t
    run s' ts

end SPVM.Mutex
