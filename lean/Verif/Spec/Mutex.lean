import Verif.Model.Mutex

/-!
# What a mutex is for (C87)
-/

namespace SPVM.Mutex

/-- What a thread holds. -/
inductive Mode where
  | none
  | w
  | r
deriving DecidableEq

/-- Code that uses the mutex as documented: `lock` .. `unlock` and `reader_lock` .. `reader_unlock` in pairs that are not nested,
the shared memory written only between the first two and read only between the first or the last two. -/
def Disciplined : Mode → List (Instr σ ρ) → Prop
  | m, [] => m = .none
  | m, .loc _ :: c => Disciplined m c
  | m, .lock :: c => m = .none ∧ Disciplined .w c
  | m, .readerLock :: c => m = .none ∧ Disciplined .r c
  | m, .unlock :: c => m = .w ∧ Disciplined .none c
  | m, .readerUnlock :: c => m = .r ∧ Disciplined .none c
  | m, .write _ :: c => m = .w ∧ Disciplined m c
  | m, .read _ :: c => m ≠ .none ∧ Disciplined m c

/-- What thread `t` holds. -/
def modeOf (rw : Rw) (t : Nat) : Mode :=
  if rw.writer = some t then .w else if t ∈ rw.readers then .r else .none

/-- A state reached under some schedule from threads that have not begun. -/
def Reached (s₀ s : St σ ρ) : Prop :=
  s₀.rw = {} ∧ (∀ th ∈ s₀.threads, Disciplined .none th.code) ∧ ∃ sched, run s₀ sched = .ok s

/-- The sections of a thread keep `P`: run alone from a memory with `P`, each `lock` .. `unlock` section ends with a memory with
`P`.  `m` is the memory now, of interest inside a section. -/
def Keeps (P : σ → Prop) : Mode → List (Instr σ ρ) → σ → ρ → Prop
  | _, [], _, _ => True
  | k, .loc h :: c, m, r => Keeps P k c m (h r)
  | k, .read g :: c, m, r => Keeps P k c m (g m r)
  | k, .write f :: c, m, r => Keeps P k c (f m r).1 (f m r).2
  | _, .lock :: c, _, r => ∀ m, P m → Keeps P .w c m r
  | _, .readerLock :: c, _, r => ∀ m, P m → Keeps P .r c m r
  | _, .unlock :: c, m, r => P m ∧ ∀ m', P m' → Keeps P .none c m' r
  | _, .readerUnlock :: c, _, r => ∀ m', P m' → Keeps P .none c m' r

/-- The code of a thread that adds the numbers `ds` to a shared number, one after another, each by reading it, adding and
storing the sum. -/
def adder : List Int → List (Instr Int Int)
  | [] => []
  | d :: ds => .lock :: .read (fun x _ => x) :: .write (fun _ r => (r + d, r)) :: .unlock :: adder ds

/-- The start of threads that add the numbers of the lists. -/
def adders (x : Int) (l : List (List Int)) : St Int Int := { mem := x, threads := l.map fun ds => ⟨adder ds, 0⟩ }

/-- The sum of a list of numbers. -/
def total : List Int → Int
  | [] => 0
  | d :: ds => d + total ds

/-- All threads have ended. -/
def Ended (s : St σ ρ) : Prop := ∀ th ∈ s.threads, th.code = []

end SPVM.Mutex
