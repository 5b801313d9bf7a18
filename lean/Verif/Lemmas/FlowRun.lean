import Verif.Lemmas.FlowSwitch
/-!
# Running the operation codes
-/
namespace SPVM
namespace Flow

variable {τ : Type}

/-- `n` rounds of the loop lead from `m` to `m'`. -/
inductive Steps (I : Interp τ) (C : List Op) (L : Nat) : Nat → Vm τ → Vm τ → Prop where
  | refl (m) : Steps I C L 0 m m
  | step {n m m' m''} : m.step I C L = .go m' → Steps I C L n m' m'' → Steps I C L (n + 1) m m''

/-- Some number of rounds leads from `m` to `m'`. -/
def Reach (I : Interp τ) (C : List Op) (L : Nat) (m m' : Vm τ) : Prop := ∃ n, Steps I C L n m m'

/-- The loop goes on for at least `n` rounds. -/
def Busy (I : Interp τ) (C : List Op) (L : Nat) (n : Nat) (m : Vm τ) : Prop := ∃ m', Steps I C L n m m'

variable {I : Interp τ} {C : List Op} {L : Nat}

theorem Steps.trans {n k : Nat} {a b c : Vm τ} (h1 : Steps I C L n a b) (h2 : Steps I C L k b c) : Steps I C L (n + k) a c := by
  induction h1 with
  | refl m => rw [Nat.zero_add]; exact h2
  | step hs _ ih => rw [Nat.add_right_comm]; exact .step hs (ih h2)

theorem Reach.refl (m : Vm τ) : Reach I C L m m := ⟨0, .refl m⟩

theorem Reach.trans {a b c : Vm τ} (h1 : Reach I C L a b) (h2 : Reach I C L b c) : Reach I C L a c := by
  obtain ⟨n, h1⟩ := h1; obtain ⟨k, h2⟩ := h2
  exact ⟨n + k, h1.trans h2⟩

theorem Reach.one {m m' : Vm τ} (h : m.step I C L = .go m') : Reach I C L m m' := ⟨1, .step h (.refl m')⟩

theorem Busy.mono {n k : Nat} {m : Vm τ} (h : Busy I C L n m) (hk : k ≤ n) : Busy I C L k m := by
  obtain ⟨m', h⟩ := h
  induction h generalizing k with
  | refl m => have : k = 0 := by omega
              subst this; exact ⟨m, .refl m⟩
  | step hs _ ih =>
    cases k with
    | zero => exact ⟨_, .refl _⟩
    | succ k =>
      obtain ⟨m'', h''⟩ := ih (k := k) (by omega)
      exact ⟨m'', .step hs h''⟩

theorem Busy.zero (m : Vm τ) : Busy I C L 0 m := ⟨m, .refl m⟩

theorem Reach.busy {n : Nat} {m m' : Vm τ} (h : Reach I C L m m') (hb : Busy I C L n m') : Busy I C L n m := by
  obtain ⟨k, h⟩ := h; obtain ⟨m'', hb⟩ := hb
  exact Busy.mono ⟨m'', h.trans hb⟩ (by omega)

theorem Busy.succ {n : Nat} {m m' : Vm τ} (h : m.step I C L = .go m') (hb : Busy I C L n m') : Busy I C L (n + 1) m := by
  obtain ⟨m'', hb⟩ := hb
  exact ⟨m'', .step h hb⟩

theorem Steps.run {n : Nat} {a b : Vm τ} (h : Steps I C L n a b) (k : Nat) : a.run I C L (n + k) = b.run I C L k := by
  induction h with
  | refl m => rw [Nat.zero_add]
  | step hs _ ih => rw [Nat.add_right_comm, Vm.run, hs]; exact ih

/-! ## The state -/

theorem release_nil (s : State τ) : s.release [] = s := by
  cases s; simp [State.release]

theorem release_release (s : State τ) (X Y : List Nat) : (s.release X).release Y = s.release (Y ++ X) := by
  simp only [State.release]
  congr 1
  funext v
  by_cases h1 : v ∈ X <;> by_cases h2 : v ∈ Y <;> simp [h1, h2]

/-- The virtual machine at `pc` with the state of point `p`. -/
def Vm.at (p : Point τ) (pc : Nat) : Vm τ := { pc := pc, st := p.st, err := 0, mortal := p.open_ }

/-- The target of an abrupt end (for exceptions: of the end of the eval or method). -/
def target (ev : Bool) (ctx : Hole → Nat) (b : Nat) : End → Nat
  | .normal => b
  | .next => ctx .next
  | .last => ctx .last
  | .brk => ctx .brk
  | .ret => ctx .ret
  | .exc _ => if ev = true then ctx .excEval else ctx .excMethod

/-- An exception inside of an `eval` has been noted already when its end is reached. -/
def endMem (I : Interp τ) (ev : Bool) (r : End) (x : τ) : τ :=
  match r with
  | .exc e => if ev = true then I.caught e x else x
  | _ => x

/-- What is still in the mortal stack behind `open_` is released sooner or later: the machine has ended as `r` at point `q`, and
still has to release `X`. -/
structure Landed (I : Interp τ) (ev : Bool) (ctx : Hole → Nat) (b : Nat) (r : End) (q : Point τ) (X : List Nat) (m : Vm τ) : Prop where
  pc : m.pc = target ev ctx b r
  mortal : m.mortal = q.open_ ++ X
  vars : (m.st.release X).vars = q.st.vars
  err : m.err = if ev = true then 0 else r.error
  mem : m.st.mem = endMem I ev r q.st.mem

/-- Ended normally with nothing left to release. -/
theorem landed_normal {ev : Bool} {ctx : Hole → Nat} {b : Nat} {q : Point τ} {m : Vm τ} (h : Landed I ev ctx b .normal q [] m) :
    m = Vm.at q b := by
  obtain ⟨h1, h2, h3, h4, h5⟩ := h
  rw [release_nil] at h3
  cases m with
  | mk pc st err mortal =>
    cases q with
    | mk qst qo =>
      cases st; cases qst
      simp only [target, List.append_nil, End.error, ite_self, endMem] at h1 h2 h3 h4 h5
      subst h1 h2 h3 h4 h5
      rfl

theorem landed_at (ev : Bool) (ctx : Hole → Nat) (b : Nat) (q : Point τ) : Landed I ev ctx b .normal q [] (Vm.at q b) where
  pc := rfl
  mortal := by simp [Vm.at]
  vars := by rw [release_nil]; rfl
  err := by simp [Vm.at, End.error]
  mem := rfl

/-- Leaving a scope. -/
theorem reach_leave {need : Bool} {d a b : Nat} (h : Leave C need d a b) (m : Vm τ) (P Z : List Nat) (hpc : m.pc = a)
    (hm : m.mortal = P ++ Z) (hd : P.length = d) (hz : need = false → Z = []) :
    Reach I C L m { m with pc := b, st := m.st.release Z, mortal := P } := by
  unfold Leave at h
  cases need
  · rw [if_neg (by simp)] at h
    have := hz rfl
    subst this h
    rw [release_nil]
    rw [List.append_nil] at hm
    cases m
    simp only at hpc hm
    subst hpc hm
    exact Reach.refl _
  · rw [if_pos rfl] at h
    obtain ⟨h1, rfl⟩ := h
    apply Reach.one
    unfold Vm.step
    rw [hpc, h1]
    simp only
    rw [if_pos (by rw [hm]; simp; omega)]
    rw [hm]
    simp [← hd]

end Flow
end SPVM
