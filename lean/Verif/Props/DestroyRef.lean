import Verif.Lemmas.DestroyRef
import Verif.Props.Heap

/-!
# C84: destructors are called for objects nothing refers to, one at a time
-/

namespace SPVM.Destroy

open SPVM.Heap

theorem run_quiet {D : Dtors} {fuel n : Nat} {os : List Op} {h : Heap} {lg : List Ev} (hn : NoRefill D fuel os (Heap.init n))
    (hr : runL D fuel os (Heap.init n) = .ok (h, lg)) : Quiet [] [] lg := by
  have e1 := events_of_run D fuel os (Heap.init n)
  rw [hr] at e1
  have e2 : go D true fuel [] (.ops os) (Heap.init n) = .ok h := (go_strict D fuel [] [] _ _ hn).symm.trans e1
  exact goL_quiet D fuel [] [] (.ops os) _ _ _ _ (by simp) e2 hr ⟨(init_inv n).1, (init_inv n).2⟩

/-- **C84** (partial as C32 is: destructors must not store into an object whose fields are being cleared): when `DESTROY` is called
for an object, no variable, no field and no entry of the mortal stack holds a reference that keeps the object alive. -/
theorem unreferenced_at_call_partial (D : Dtors) (fuel n : Nat) (os : List Op) (h : Heap) (lg : List Ev)
    (hn : NoRefill D fuel os (Heap.init n)) (hr : runL D fuel os (Heap.init n) = .ok (h, lg)) (a : Nat) (g : Heap)
    (hd : Ev.destroy a g ∈ lg) (l : Loc) : g.cell l ≠ some (some ⟨a, false⟩) := by
  obtain ⟨es, e, _, q⟩ := run_quiet hn hr
  simp at e
  subst e
  exact (q a g hd).2 l

/-- **C84** (partial for the same reason): `DESTROY` is never called for an object whose `DESTROY` is running: between two calls the
object was kept, by a reference its destructor stored. -/
theorem not_reentered_partial (D : Dtors) (fuel n : Nat) (os : List Op) (h : Heap) (lg : List Ev)
    (hn : NoRefill D fuel os (Heap.init n)) (hr : runL D fuel os (Heap.init n) = .ok (h, lg)) : Settled lg := by
  obtain ⟨es, e, s, _⟩ := run_quiet hn hr
  simp at e
  subst e
  exact s

/-- A program with nested destructors that meets
the hypotheses. -/
example : NoRefill nested 40 [.new 0 1 1, .new 2 0 1, .move 1 (.var 0), .clear 0, .clear 1] (Heap.init 3) := by
  unfold NoRefill
  intro h
  have h2 : (go nested true 40 [] (.ops [.new 0 1 1, .new 2 0 1, .move 1 (.var 0), .clear 0, .clear 1]) (Heap.init 3) >>=
    fun r => .ok r.top) = .ok 0 := by decide +kernel
  rw [h] at h2
  cases h2

end SPVM.Destroy
