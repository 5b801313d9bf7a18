import Verif.Lemmas.Mutex

/-!
# C87: a `Sync::Mutex` keeps the threads apart under every schedule
-/

namespace SPVM.Mutex

/-- **C87.** A thread between `lock` and `unlock` is alone: no other thread is between `lock` and `unlock` or between
`reader_lock` and `reader_unlock`. -/
theorem mutual_exclusion {s₀ s : St σ ρ} (h : Reached s₀ s) {t u : Nat} (ht : modeOf s.rw t = .w) (hne : u ≠ t) :
    modeOf s.rw u = .none := by
  have hi := inv_reached h
  have hw := modeOf_w.1 ht
  have hr : s.rw.readers = [] := hi.excl (by rw [hw]; exact Option.some_ne_none _)
  unfold modeOf
  rw [hw, hr, if_neg (fun e => hne (Option.some.inj e).symm)]
  simp

/-- A thread that uses the mutex as documented never ends the process and never has undefined behaviour, under any schedule. -/
theorem no_error {s₀ : St σ ρ} (h0 : s₀.rw = {}) (hd : ∀ th ∈ s₀.threads, Disciplined .none th.code) (sched : List Nat) :
    ∃ s, run s₀ sched = .ok s ∧ Reached s₀ s := by
  obtain ⟨s, h1, _⟩ := run_inv (inv_start h0 hd) sched
  exact ⟨s, h1, h0, hd, sched, h1⟩

/-- What a thread holds is what its code says: its next call is the one that belongs to the lock it holds. -/
theorem holds_what_it_says {s₀ s : St σ ρ} (h : Reached s₀ s) {t : Nat} {th : Thread σ ρ} (ht : s.threads[t]? = some th) :
    Disciplined (modeOf s.rw t) th.code := (inv_reached h).code t th ht

/-- **C87.** While a thread is between `lock` and `unlock`, or between `reader_lock` and `reader_unlock`, the steps of the other
threads, however many, do not change the shared memory. -/
theorem held_memory_stable {s₀ s s' : St σ ρ} (h : Reached s₀ s) {t : Nat} (ht : modeOf s.rw t ≠ .none) {sched : List Nat}
    (hs : t ∉ sched) (hr : run s sched = .ok s') : s'.mem = s.mem ∧ s'.threads[t]? = s.threads[t]? ∧ modeOf s'.rw t = modeOf s.rw t := by
  have hi := inv_reached h
  clear h
  induction sched generalizing s with
  | nil => cases hr; exact ⟨rfl, rfl, rfl⟩
  | cons u us ih =>
    have hut : u ≠ t := fun e => hs (by simp [e])
    obtain ⟨s1, h1, h2, h3, _⟩ := step_inv hi u
    simp only [run, h1, Out.ok_bind] at hr
    obtain ⟨ho1, ho2⟩ := h3.other t (Ne.symm hut)
    obtain ⟨e1, e2, e3⟩ := ih (by rw [ho2]; exact ht) (fun hm => hs (List.mem_cons_of_mem _ hm)) hr h2
    refine ⟨?_, by rw [e2, ho1], by rw [e3, ho2]⟩
    rw [e1]
    apply h3.mem
    intro hw
    have hw' := modeOf_w.1 hw
    apply ht
    unfold modeOf
    rw [hw', hi.excl (by rw [hw']; exact Option.some_ne_none _), if_neg (fun e => hut (Option.some.inj e))]
    simp

/-- The memory changes only at a step of the thread that is between `lock` and `unlock`. -/
theorem only_owner_writes {s₀ s s' : St σ ρ} (h : Reached s₀ s) {t : Nat} (hs : step s t = .ok s') (hm : s'.mem ≠ s.mem) :
    modeOf s.rw t = .w := by
  obtain ⟨s1, h1, _, h3, _⟩ := step_inv (inv_reached h) t
  rw [hs] at h1
  cases h1
  apply Classical.byContradiction
  intro hw
  exact hm (h3.mem hw)

/-- No deadlock: as long as a thread has not ended, some thread can make a step; and from every reached state all threads can
end. -/
theorem no_deadlock {s₀ s : St σ ρ} (h : Reached s₀ s) :
    (¬ Ended s → ∃ t s' th th' i, step s t = .ok s' ∧ s.threads[t]? = some th ∧ s'.threads[t]? = some th' ∧ th.code = i :: th'.code) ∧
      ∃ sched s', run s sched = .ok s' ∧ Ended s' := by
  have hi := inv_reached h
  refine ⟨?_, can_end (codeSize s) hi (Nat.le_refl _)⟩
  intro he
  obtain ⟨t, s', h1, _, _, th, th', h4, h5, i, h6⟩ := can_move hi he
  exact ⟨t, s', th, th', i, h1, h4, h5, h6⟩

/-- When all threads have ended, nobody holds the mutex. -/
theorem released_at_end {s₀ s : St σ ρ} (h : Reached s₀ s) (he : Ended s) : s.rw.writer = none ∧ s.rw.readers = [] := by
  have hi := inv_reached h
  have key : ∀ t, t < s.threads.length → modeOf s.rw t = .none := by
    intro t ht
    have hg : s.threads[t]? = some s.threads[t] := List.getElem?_eq_getElem ht
    have := hi.code t _ hg
    rw [he _ (List.getElem_mem ht)] at this
    exact this
  constructor
  · cases hw : s.rw.writer with
    | none => rfl
    | some t =>
      have := key t (hi.wlt t hw)
      rw [modeOf_w.2 hw] at this
      cases this
  · cases hr : s.rw.readers with
    | nil => rfl
    | cons t ts =>
      have hm : t ∈ s.rw.readers := by rw [hr]; simp
      exact absurd hm (modeOf_none (key t (hi.rlt t hm))).2

/-- **C87.** No update is lost: threads that each read a shared number, add to it and store it, inside `lock` and `unlock`, leave
the sum of everything they had to add, under every schedule. -/
theorem no_lost_update {x : Int} {l : List (List Int)} {sched : List Nat} {s : St Int Int} (hr : run (adders x l) sched = .ok s)
    (he : Ended s) : s.mem = x + total (l.map total) := by
  have h0 : AInv (x + total (l.map total)) (adders x l) (l.map total) := by
    refine ⟨rfl, by simp [adders], ?_, rfl⟩
    intro t th ht
    have ht' : (l.map fun ds => (⟨adder ds, 0⟩ : Thread Int Int))[t]? = some th := ht
    rw [List.getElem?_map] at ht'
    cases hl : l[t]? with
    | none => rw [hl] at ht'; cases ht'
    | some ds =>
      rw [hl] at ht'
      cases ht'
      exact ⟨total ds, by rw [List.getElem?_map, hl]; rfl, .idle ds rfl rfl⟩
  obtain ⟨pend, ha⟩ := ainv_run sched h0 hr
  have hz : total pend = 0 := by
    apply total_zero
    intro p hp
    obtain ⟨t, ht⟩ := List.getElem?_of_mem hp
    have hlt : t < s.threads.length := by
      rw [← ha.len]
      rcases Nat.lt_or_ge t pend.length with h' | h'
      · exact h'
      · rw [List.getElem?_eq_none h'] at ht; cases ht
    obtain ⟨q, hq, hph⟩ := ha.phase t _ (List.getElem?_eq_getElem hlt)
    rw [ht] at hq
    cases hq
    have hc := he _ (List.getElem_mem hlt)
    cases hph with
    | idle ds h1 _ =>
      rw [hc] at h1
      rw [adder_nil h1.symm]
      rfl
    | locked d ds h1 _ => rw [hc] at h1; cases h1
    | loaded d ds h1 _ _ => rw [hc] at h1; cases h1
    | stored ds h1 _ => rw [hc] at h1; cases h1
  have := ha.sum
  omega

/-- Those threads use the mutex as documented, so every schedule runs and all of them can end. -/
theorem adders_end (x : Int) (l : List (List Int)) (sched : List Nat) :
    ∃ s, run (adders x l) sched = .ok s ∧ ∃ more s', run s more = .ok s' ∧ Ended s' ∧ s'.mem = x + total (l.map total) := by
  have hd : ∀ th ∈ (adders x l).threads, Disciplined .none th.code := by
    intro th hth
    obtain ⟨ds, _, rfl⟩ := List.mem_map.1 hth
    exact adder_disciplined ds
  obtain ⟨s, h1, h2⟩ := no_error (s₀ := adders x l) rfl hd sched
  obtain ⟨more, s', h3, h4⟩ := (no_deadlock h2).2
  refine ⟨s, h1, more, s', h3, h4, ?_⟩
  apply no_lost_update (sched := sched ++ more) _ h4
  rw [run_append, h1]
  exact h3

/-- **C87.** Whole writes only: a condition that every `lock` .. `unlock` section restores, although it may break it in between,
holds whenever a thread is between `reader_lock` and `reader_unlock`, and whenever nobody is between `lock` and `unlock`. -/
theorem readers_see_whole_writes {s₀ s : St σ ρ} (h : Reached s₀ s) {P : σ → Prop} (hP : P s₀.mem)
    (hk : ∀ th ∈ s₀.threads, Keeps P .none th.code s₀.mem th.reg) :
    (∀ t, modeOf s.rw t = .r → P s.mem) ∧ (s.rw.writer = none → P s.mem) := by
  obtain ⟨h0, hd, sched, hr⟩ := h
  have hi := inv_start h0 hd
  have hK : KInv P s₀ := by
    refine ⟨?_, fun _ => hP⟩
    intro t th ht
    rw [h0]
    exact hk th (List.mem_of_getElem? ht)
  have hK' := kinv_run sched hi hK hr
  refine ⟨?_, hK'.free⟩
  intro t ht
  apply hK'.free
  obtain ⟨_, hm⟩ := modeOf_r ht
  cases hw : s.rw.writer with
  | none => rfl
  | some u =>
    have hi' : Inv s := inv_reached ⟨h0, hd, sched, hr⟩
    have := hi'.excl (by rw [hw]; exact Option.some_ne_none _)
    rw [this] at hm; cases hm

/-! ### Misuse -/

/-- `unlock` of a mutex that is not locked has undefined behaviour instead of throwing. -/
theorem unlock_unheld_violated : run ({ mem := 0, threads := [⟨[.unlock], 0⟩] } : St Int Int) [0] = .ub := rfl

/-- A second `lock` of the owner ends the process instead of throwing. -/
theorem relock_violated : run ({ mem := 0, threads := [⟨[.lock, .lock], 0⟩] } : St Int Int) [0, 0] = .die "abort" := rfl

/-- `unlock` of another thread's lock has undefined behaviour. -/
theorem foreign_unlock_violated :
    run ({ mem := 0, threads := [⟨[.lock], 0⟩, ⟨[.unlock], 0⟩] } : St Int Int) [0, 1] = .ub := rfl

/-- Without the mutex an update is lost: the same code without `lock` and `unlock`. -/
theorem unguarded_update_lost :
    ∃ s, run ({ mem := 0, threads := [⟨[.read (fun x _ => x), .write (fun _ r => (r + 1, r))], 0⟩,
      ⟨[.read (fun x _ => x), .write (fun _ r => (r + 1, r))], 0⟩] } : St Int Int) [0, 1, 0, 1] = .ok s ∧ Ended s ∧ s.mem = 1 := by
  refine ⟨_, rfl, ?_, rfl⟩
  intro th hth
  rcases List.mem_cons.1 hth with h | h
  · subst h; rfl
  · have h := List.mem_singleton.1 h
    subst h; rfl

/-- A reader that asks for the write lock waits for itself: however often it is scheduled, it makes no step. -/
theorem upgrade_blocks_violated (n : Nat) :
    run ({ mem := 0, threads := [⟨[.readerLock, .lock, .unlock], 0⟩] } : St Int Int) (0 :: List.replicate n 0) =
      .ok { mem := 0, rw := { readers := [0] }, threads := [⟨[.lock, .unlock], 0⟩] } := by
  have h : ∀ k, run ({ mem := 0, rw := { readers := [0] }, threads := [⟨[.lock, .unlock], 0⟩] } : St Int Int) (List.replicate k 0)
      = .ok { mem := 0, rw := { readers := [0] }, threads := [⟨[.lock, .unlock], 0⟩] } := by
    intro k
    induction k with
    | zero => rfl
    | succ k ih => exact ih
  exact h n

/-! ### Examples -/

/-- Two adders in the middle of a schedule: the first is inside its section, the second waits. -/
example : ∃ s, run (adders 10 [[1, 2], [5]]) [0, 1, 0, 1] = .ok s ∧ Reached (adders 10 [[1, 2], [5]]) s ∧
    modeOf s.rw 0 = .w ∧ modeOf s.rw 1 = .none := by
  have hd : ∀ th ∈ (adders 10 [[1, 2], [5]]).threads, Disciplined .none th.code := by
    intro th hth
    obtain ⟨ds, _, rfl⟩ := List.mem_map.1 hth
    exact adder_disciplined ds
  exact ⟨_, rfl, ⟨rfl, hd, [0, 1, 0, 1], rfl⟩, by decide, by decide⟩

/-- A full schedule of the two. -/
example : ∃ s, run (adders 10 [[1, 2], [5]]) [0, 1, 0, 0, 0, 1, 0, 1, 1, 1, 0, 0, 0, 0] = .ok s ∧ s.mem = 18 :=
  ⟨_, rfl, by decide⟩

/-- A writer that moves one unit from the first number to the second, in two steps, and a reader: the hypotheses of
`readers_see_whole_writes` for "the sum is 10", which does not hold between the two steps. -/
example : ∃ s₀ : St (Int × Int) Unit, s₀.rw = {} ∧ s₀.threads.length = 2 ∧ (∀ th ∈ s₀.threads, Disciplined .none th.code) ∧
    (∀ th ∈ s₀.threads, Keeps (fun m => m.1 + m.2 = 10) .none th.code s₀.mem th.reg) ∧
    ∃ s, run s₀ [0, 0] = .ok s ∧ s.mem.1 + s.mem.2 = 9 := by
  refine ⟨{ mem := (10, 0), threads := [⟨[.lock, .write (fun m r => ((m.1 - 1, m.2), r)), .write (fun m r => ((m.1, m.2 + 1), r)),
    .unlock], ()⟩, ⟨[.readerLock, .read (fun _ r => r), .readerUnlock], ()⟩] }, rfl, rfl, ?_, ?_, _, rfl, by decide⟩
  · intro th hth
    rcases List.mem_cons.1 hth with h | h
    · subst h; exact ⟨rfl, rfl, rfl, rfl, rfl⟩
    · have h := List.mem_singleton.1 h
      subst h; exact ⟨rfl, Mode.noConfusion, rfl, rfl⟩
  · intro th hth
    rcases List.mem_cons.1 hth with h | h
    · subst h
      intro m hm
      refine ⟨?_, fun _ _ => trivial⟩
      show m.1 - 1 + (m.2 + 1) = 10
      omega
    · have h := List.mem_singleton.1 h
      subst h
      intro m hm m' hm'
      trivial

/-- Two readers at once. -/
example : ∃ s, run ({ mem := 3, threads := [⟨[.readerLock, .read (fun x _ => x), .readerUnlock], 0⟩,
    ⟨[.readerLock, .read (fun x _ => x), .readerUnlock], 0⟩] } : St Int Int) [0, 1] = .ok s ∧
    modeOf s.rw 0 = .r ∧ modeOf s.rw 1 = .r := ⟨_, rfl, by decide, by decide⟩

end SPVM.Mutex
