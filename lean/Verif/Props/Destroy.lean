import Verif.Lemmas.DestroyRun

/-!
# C84: the destructor of every object is called exactly once, before the object is freed
-/

namespace SPVM.Destroy

open SPVM.Heap

/-! ## The log belongs to the run of the code -/

theorem bind_fst {x : Res (Heap × List Ev)} {y : Res Heap} {f : Heap × List Ev → Res (Heap × List Ev)} {g : Heap → Res Heap}
    (hx : y = x >>= fun r => .ok r.1) (hf : ∀ r, g r.1 = f r >>= fun r => .ok r.1) :
    (y >>= g) = ((x >>= f) >>= fun r => .ok r.1) := by
  subst hx
  cases x with
  | ok r => exact hf r
  | ub => rfl
  | refill => rfl
  | limit => rfl

theorem bind_same {x : Res β} {f : β → Res (Heap × List Ev)} {g : β → Res Heap} (hf : ∀ r, g r = f r >>= fun r => .ok r.1) :
    (x >>= g) = ((x >>= f) >>= fun r => .ok r.1) := by
  cases x with
  | ok r => exact hf r
  | ub => rfl
  | refill => rfl
  | limit => rfl

theorem bind_plain {x : Res Heap} {lg : List Ev} :
    x = ((x >>= fun h => (.ok (h, lg) : Res (Heap × List Ev))) >>= fun r => .ok r.1) := by
  cases x <;> rfl

/-- `goL` does to the heap what the code does. -/
theorem goL_go (D : Dtors) : ∀ f dying c h lg, go D false f dying c h = (goL D f c h lg >>= fun r => .ok r.1) := by
  intro f
  induction f with
  | zero => intro dying c h lg; unfold go goL; rfl
  | succ f ih =>
    intro dying c h lg
    cases c with
    | assign l o =>
      unfold go goL
      refine bind_same (fun r => ?_)
      obtain ⟨r, h1⟩ := r
      cases r with
      | none => rfl
      | some a => exact ih _ _ _ _
    | release a =>
      unfold go goL
      refine bind_same (fun o => ?_)
      split
      · exact bind_plain
      · refine bind_fst (ih _ _ _ _) (fun r => ?_)
        refine bind_same (fun o' => ?_)
        refine bind_fst (ih _ _ _ _) (fun r => ?_)
        obtain ⟨h2, lg2⟩ := r
        dsimp only
        cases h2.finish a <;> rfl
    | clearSlots a i n =>
      cases n with
      | zero => unfold go goL; rfl
      | succ n =>
        unfold go goL
        exact bind_fst (ih _ _ _ _) (fun r => ih _ _ _ _)
    | dtor a cls =>
      unfold go goL
      split
      · exact bind_fst (ih _ _ _ _) (fun r => bind_fst (ih _ _ _ _) (fun r => ih _ _ _ _))
      · rfl
    | push a =>
      unfold go goL
      exact bind_same (fun h => bind_fst (ih _ _ _ _) (fun r => rfl))
    | leave k i =>
      unfold go goL
      split
      · exact bind_fst (ih _ _ _ _) (fun r => ih _ _ _ _)
      · rfl
    | weaken l =>
      unfold go goL
      refine bind_same (fun c => ?_)
      cases c with
      | none => rfl
      | some p =>
        dsimp only
        split
        · rfl
        · refine bind_same (fun o => ?_)
          split
          · exact bind_same (fun h => ih _ _ _ _)
          · exact bind_same (fun h => bind_same (fun h => bind_plain))
    | op o =>
      cases o with
      | new x n cls => unfold go goL; split; exact ih _ _ _ _; rfl
      | move x y => unfold go goL; split; exact ih _ _ _ _; rfl
      | clear x => unfold go goL; split; exact ih _ _ _ _; rfl
      | getField x y i =>
        unfold go goL
        rcases h.slotOf y i with _ | ⟨a, c⟩
        · rfl
        · dsimp only
          split
          · exact ih _ _ _ _
          · rfl
      | setField y i x =>
        unfold go goL
        rcases h.slotOf y i with _ | ⟨a, c⟩
        · rfl
        · dsimp only
          rw [if_neg (by simp)]
          exact ih _ _ _ _
      | clearField y i =>
        unfold go goL
        rcases h.slotOf y i with _ | ⟨a, c⟩
        · rfl
        · exact ih _ _ _ _
      | weaken y i =>
        unfold go goL
        rcases h.slotOf y i with _ | ⟨a, c⟩
        · rfl
        · exact ih _ _ _ _
      | unweaken y i =>
        unfold go goL
        rcases h.slotOf y i with _ | ⟨a, c⟩
        · rfl
        · exact bind_plain
      | pushMortal y =>
        unfold go goL
        rcases h.val y with _ | a
        · rfl
        · exact ih _ _ _ _
      | scope body =>
        unfold go goL
        exact bind_fst (ih _ _ _ _) (fun r => ih _ _ _ _)
    | ops os =>
      cases os with
      | nil => unfold go goL; rfl
      | cons o rest =>
        unfold go goL
        exact bind_fst (ih _ _ _ _) (fun r => ih _ _ _ _)

/-- **C84**: noting the events does not change the run. -/
theorem events_of_run (D : Dtors) (fuel : Nat) (os : List Op) (h : Heap) :
    run D fuel os h = (runL D fuel os h >>= fun r => .ok r.1) :=
  goL_go D fuel [] (.ops os) h []

/-! ## The history of an object -/

theorem ok_init (d : Nat → Bool) (n : Nat) : Ok d (Heap.init n) [] where
  chrono := fun l1 e l2 h => by simp at h
  fresh := fun a _ => rfl
  new := fun a c h => by simp at h
  alive := fun a o h => by simp [Heap.init] at h
  uniq := fun a c c' h => by simp at h
  cls := fun a c h => by simp at h
  dead := fun a c h => by simp at h
  gone := fun a c h => by simp at h

theorem run_ok {D : Dtors} {fuel n : Nat} {os : List Op} {h : Heap} {lg : List Ev}
    (hr : runL D fuel os (Heap.init n) = .ok (h, lg)) :
    Ok D.hasDtor h lg ∧ ∀ a, lg.countP (Ev.isDestroy a) = lg.countP (ended D.hasDtor a) := by
  obtain ⟨k, es, e, g⟩ := goL_ok D fuel _ _ _ _ _ (ok_init _ n) hr trivial
  simp at e
  subst e
  exact ⟨k, fun a => by simpa [extra] using g a⟩

/-- **C84**: in every run of every program every event fits what happened before: objects are created once, the destructor of the
class is called before an object is freed, and nothing happens to an object after it was freed. -/
theorem history (D : Dtors) (fuel n : Nat) (os : List Op) (h : Heap) (lg : List Ev)
    (hr : runL D fuel os (Heap.init n) = .ok (h, lg)) : Chrono D.hasDtor lg := (run_ok hr).1.chrono

/-- **C84**: the events are those of the objects in memory: an object that was created is freed or still there, and the objects
there are those that were created. -/
theorem freed_or_alive (D : Dtors) (fuel n : Nat) (os : List Op) (h : Heap) (lg : List Ev)
    (hr : runL D fuel os (Heap.init n) = .ok (h, lg)) :
    (∀ a c, Ev.created a c ∈ lg → (Ev.freed a c ∈ lg ↔ h.objs a = none)) ∧
    (∀ a o, h.objs a = some o → Ev.created a o.cls ∈ lg) := by
  obtain ⟨k, _⟩ := run_ok hr
  exact ⟨fun a c hc => ⟨fun hf => k.dead a c hf, fun hn => k.gone a c hc hn⟩, k.alive⟩

theorem freed_once {d : Nat → Bool} (a : Nat) : ∀ (m : Nat) (lg : List Ev), lg.length = m → Chrono d lg → lg.countP (Ev.isFreed a) ≤ 1 := by
  intro m
  induction m with
  | zero => intro lg hl _; simp at hl; subst hl; simp
  | succ m ih =>
    intro lg hl hc
    rcases List.eq_nil_or_concat lg with rfl | ⟨l, e, rfl⟩
    · simp
    · rw [List.concat_eq_append] at hl hc ⊢
      rw [List.countP_append]
      by_cases he : Ev.isFreed a e = true
      · have : l.countP (Ev.isFreed a) = 0 := by
          rw [List.countP_eq_zero]
          intro x hx hxf
          cases e with
          | freed b c =>
            simp [Ev.isFreed] at he
            subst he
            cases x with
            | freed b' c' =>
              simp [Ev.isFreed] at hxf
              subst hxf
              exact (hc l _ [] rfl).1 c' hx
            | created _ _ => cases hxf
            | destroy _ _ => cases hxf
            | kept _ _ => cases hxf
          | created _ _ => cases he
          | destroy _ _ => cases he
          | kept _ _ => cases he
        simp [this, he]
      · have := ih l (by simpa using hl) (fun l1 x l2 h => hc l1 x (l2 ++ [e]) (by simp [h]))
        simp [he]
        exact this

theorem ended_count {d : Nat → Bool} {h : Heap} {lg : List Ev} (k : Ok d h lg) {a c : Nat} (hc : Ev.created a c ∈ lg) :
    lg.countP (ended d a) = if d c = true then lg.countP (Ev.isFreed a) + lg.countP (Ev.isKept a) else 0 := by
  have hcl : ∀ e ∈ lg, ∀ c', (e = .freed a c' ∨ e = .kept a c') → c' = c := by
    intro e he c' h
    rcases h with rfl | rfl
    · exact k.uniq a c' c (k.cls a c' (.inl he)) hc
    · exact k.uniq a c' c (k.cls a c' (.inr he)) hc
  have key : ∀ l : List Ev, (∀ e ∈ l, ∀ c', (e = .freed a c' ∨ e = .kept a c') → c' = c) →
      l.countP (ended d a) = if d c = true then l.countP (Ev.isFreed a) + l.countP (Ev.isKept a) else 0 := by
    intro l
    induction l with
    | nil => intro _; simp
    | cons e l ih =>
      intro hl
      have h1 := ih (fun e' he' => hl e' (List.mem_cons_of_mem _ he'))
      have h2 := hl e List.mem_cons_self
      simp only [List.countP_cons, h1]
      cases e with
      | created _ _ => simp [ended, Ev.isFreed, Ev.isKept]
      | destroy _ _ => simp [ended, Ev.isFreed, Ev.isKept]
      | freed b c' =>
        by_cases hb : b = a
        · subst hb
          have := h2 c' (.inl rfl)
          subst this
          by_cases hd : d c' = true <;> simp [ended, Ev.isFreed, Ev.isKept, hd]
          omega
        · simp [ended, Ev.isFreed, Ev.isKept, hb]
      | kept b c' =>
        by_cases hb : b = a
        · subst hb
          have := h2 c' (.inr rfl)
          subst this
          by_cases hd : d c' = true <;> simp [ended, Ev.isFreed, Ev.isKept, hd]
          omega
        · simp [ended, Ev.isFreed, Ev.isKept, hb]
  exact key lg hcl

/-- **C84**: the calls of `DESTROY` for an object whose class has one are: one for being freed, and one for every time it was
kept. -/
theorem calls_counted (D : Dtors) (fuel n : Nat) (os : List Op) (h : Heap) (lg : List Ev)
    (hr : runL D fuel os (Heap.init n) = .ok (h, lg)) (a c : Nat) (hc : Ev.created a c ∈ lg) :
    lg.countP (Ev.isDestroy a) =
      if D.hasDtor c = true then (if h.objs a = none then 1 else 0) + lg.countP (Ev.isKept a) else 0 := by
  obtain ⟨k, g⟩ := run_ok hr
  rw [g a, ended_count k hc]
  by_cases hd : D.hasDtor c = true
  · rw [if_pos hd, if_pos hd]
    congr 1
    by_cases hn : h.objs a = none
    · rw [if_pos hn]
      have h1 := freed_once (d := D.hasDtor) a _ lg rfl k.chrono
      have h2 : 0 < lg.countP (Ev.isFreed a) := List.countP_pos_iff.mpr ⟨_, k.gone a c hc hn, by simp [Ev.isFreed]⟩
      omega
    · rw [if_neg hn, List.countP_eq_zero]
      intro x hx hxf
      cases x with
      | freed b c' =>
        simp [Ev.isFreed] at hxf
        subst hxf
        exact hn (k.dead b c' hx)
      | created _ _ => cases hxf
      | destroy _ _ => cases hxf
      | kept _ _ => cases hxf
  · rw [if_neg hd, if_neg hd]

/-- **C84**: `DESTROY` is called exactly once for an object that is gone, and not at all for one that is still there, provided that
no new reference to it was stored while it was being destroyed (see `revived_violated`). -/
theorem exactly_once_partial (D : Dtors) (fuel n : Nat) (os : List Op) (h : Heap) (lg : List Ev)
    (hr : runL D fuel os (Heap.init n) = .ok (h, lg)) (a c : Nat) (hc : Ev.created a c ∈ lg) (hd : D.hasDtor c = true)
    (hk : ∀ c, Ev.kept a c ∉ lg) :
    (h.objs a = none → lg.countP (Ev.isDestroy a) = 1) ∧ (h.objs a ≠ none → lg.countP (Ev.isDestroy a) = 0) := by
  have h1 := calls_counted D fuel n os h lg hr a c hc
  have h2 : lg.countP (Ev.isKept a) = 0 := by
    rw [List.countP_eq_zero]
    intro x hx hxf
    cases x with
    | kept b c' =>
      simp [Ev.isKept] at hxf
      subst hxf
      exact hk c' hx
    | created _ _ => cases hxf
    | destroy _ _ => cases hxf
    | freed _ _ => cases hxf
  rw [if_pos hd, h2] at h1
  exact ⟨fun hn => by rw [h1, if_pos hn], fun hn => by rw [h1, if_neg hn]⟩

/-- **C84**: an object whose class has no `DESTROY` is freed without one. -/
theorem no_destructor (D : Dtors) (fuel n : Nat) (os : List Op) (h : Heap) (lg : List Ev)
    (hr : runL D fuel os (Heap.init n) = .ok (h, lg)) (a c : Nat) (hc : Ev.created a c ∈ lg) (hd : D.hasDtor c = false) :
    lg.countP (Ev.isDestroy a) = 0 := by
  rw [calls_counted D fuel n os h lg hr a c hc, if_neg (by simp [hd])]

/-! ## Violation -/

/-- `DESTROY` of class 1 stores `$self` in variable 1. -/
def keeper : Dtors := ⟨fun c => c == 1, fun _ h => [.move 1 (.mortal (h.top - 1))]⟩

/-- **C84 does not hold** for an object whose `DESTROY` stores `$self` somewhere: the object is kept, and `DESTROY` is called again
when that reference is gone. -/
theorem revived_violated :
    (runL keeper 30 [.new 0 1 1, .clear 0, .move 2 (.var 1), .move 1 (.var 0), .new 1 1 2, .clear 2] (Heap.init 3) >>=
      fun r => .ok (r.2.countP (Ev.isDestroy 0), r.2.countP (Ev.isKept 0))) = .ok (2, 2) := by decide +kernel

/-! ## The hypotheses can be met -/

/-- `DESTROY` of class 1 creates and drops an object of class 2, whose `DESTROY` does nothing. -/
def nested : Dtors := ⟨fun c => c == 1 || c == 2, fun a _ => if a == 0 then [.new 1 0 2, .clear 1] else []⟩

example :
    (runL nested 40 [.new 0 1 1, .new 2 0 1, .move 1 (.var 0), .clear 0, .clear 1] (Heap.init 3) >>= fun r =>
      .ok [r.2.countP (Ev.isDestroy 0), r.2.countP (Ev.isDestroy 1), r.2.countP (Ev.isDestroy 2), r.2.countP (Ev.isKept 0),
        r.2.countP (Ev.isFreed 0), r.2.countP (Ev.isFreed 1), r.2.countP (Ev.isFreed 2)]) = .ok [1, 0, 1, 0, 1, 0, 1] := by
  decide +kernel

end SPVM.Destroy
