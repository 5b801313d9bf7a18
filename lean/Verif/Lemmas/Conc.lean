import Verif.Spec.Conc
/-! # Reference counts under concurrent threads: the invariant -/
namespace SPVM
namespace Conc

theorem upd_same {α β} [DecidableEq α] (f : α → β) (a : α) (b : β) : upd f a b a = b := by simp [upd]

theorem upd_other {α β} [DecidableEq α] (f : α → β) (a x : α) (b : β) (h : x ≠ a) : upd f a b x = f x := by simp [upd, h]

/-- How many places of the list hold object `o`. -/
def holds (c : Loc → Cell) (S : List Loc) (o : Nat) : Nat := S.countP (fun l => c l = .strong o)

/-- How many tasks are about object `o`. -/
def pending (ts : List (Nat × Task)) (o : Nat) : Nat := ts.countP (fun x => x.2.obj = o)

/-- One if it is so. -/
def one (p : Prop) [Decidable p] : Nat := if p then 1 else 0

theorem pending_cons (x : Nat × Task) (ts : List (Nat × Task)) (o : Nat) :
    pending (x :: ts) o = pending ts o + one (x.2.obj = o) := by
  unfold pending one
  rw [List.countP_cons]
  by_cases h : x.2.obj = o <;> simp [h]

theorem holds_upd_notin (c : Loc → Cell) (l : Loc) (v : Cell) (o : Nat) : ∀ S : List Loc, l ∉ S → holds (upd c l v) S o = holds c S o := by
  intro S h
  unfold holds
  apply List.countP_congr
  intro x hx
  rw [upd_other c l x v (by rintro rfl; exact h hx)]

theorem holds_upd (c : Loc → Cell) (l : Loc) (v : Cell) (o : Nat) : ∀ S : List Loc, S.Nodup → l ∈ S →
    holds (upd c l v) S o + one (c l = .strong o) = holds c S o + one (v = .strong o) := by
  intro S
  induction S with
  | nil => intro _ h; cases h
  | cons a S ih =>
    intro hn h
    rw [List.nodup_cons] at hn
    have e : ∀ c : Loc → Cell, holds c (a :: S) o = holds c S o + one (c a = .strong o) := by
      intro c
      unfold holds one
      rw [List.countP_cons]
      simp
    rw [e, e]
    by_cases ha : a = l
    · subst ha
      rw [holds_upd_notin c a v o S hn.1, upd_same]
      omega
    · rcases List.mem_cons.1 h with rfl | hm
      · exact absurd rfl ha
      · have := ih hn.2 hm
        rw [upd_other c l a v ha]
        omega

/-- The counts are right and nothing points to freed memory. -/
structure Core (s : State) (S : List Loc) : Prop where
  nodup : S.Nodup
  cover : ∀ l, s.cell l ≠ .null → l ∈ S
  count : ∀ o, s.rc o = holds s.cell S o + pending s.tasks o
  live : ∀ o, 0 < s.rc o → s.alive o = true
  used : ∀ o, s.alive o = true → o < s.fresh
  weak : ∀ l o, s.cell l = .weak o → s.alive o = true
  back : ∀ o, s.alive o = true → ∀ l, l ∈ s.back o ↔ s.cell l = .weak o
  backNodup : ∀ o, s.alive o = true → (s.back o).Nodup
  place : ∀ l, s.cell l ≠ .null → s.okLoc l = true

/-- The fields a release has passed are empty. -/
def Cleared (s : State) : Prop := ∀ t p k, (t, Task.clear p k) ∈ s.tasks → ∀ f, f < k → s.cell (.field p f) = .null

/-- Objects that are not freed are counted. -/
def Counted (s : State) : Prop := ∀ o, s.alive o = true → 0 < s.rc o

/-- Everything. -/
structure Inv (s : State) : Prop where
  core : ∃ S, Core s S
  cleared : Cleared s
  counted : Counted s

theorem holds_pos {s S l o} (hc : Core s S) (h : s.cell l = .strong o) : 0 < holds s.cell S o := by
  unfold holds
  rw [List.countP_pos_iff]
  exact ⟨l, hc.cover l (by rw [h]; simp), by simpa using h⟩

theorem strong_rc {s S l o} (hc : Core s S) (h : s.cell l = .strong o) : 0 < s.rc o := by
  have := holds_pos hc h
  rw [hc.count o]; omega

theorem strong_alive {s S l o} (hc : Core s S) (h : s.cell l = .strong o) : s.alive o = true := hc.live o (strong_rc hc h)

theorem task_rc {s S t k} (hc : Core s S) (h : (t, k) ∈ s.tasks) : 0 < s.rc k.obj := by
  have : 0 < pending s.tasks k.obj := by
    unfold pending
    rw [List.countP_pos_iff]
    exact ⟨_, h, by simp⟩
  rw [hc.count]; omega

theorem okLoc_congr {s s1 : State} (ha : s1.alive = s.alive) (hf : s1.fields = s.fields) (l : Loc) : s1.okLoc l = s.okLoc l := by
  cases l with
  | var => rfl
  | field p f => simp only [State.okLoc, ha, hf]

/-- A larger list of places. -/
theorem core_grow {s S} (hc : Core s S) (l : Loc) : ∃ S', l ∈ S' ∧ Core s S' := by
  by_cases h : l ∈ S
  · exact ⟨S, h, hc⟩
  · have hn : s.cell l = .null := by
      cases hl : s.cell l with
      | null => rfl
      | strong o => exact absurd (hc.cover l (by rw [hl]; simp)) h
      | weak o => exact absurd (hc.cover l (by rw [hl]; simp)) h
    refine ⟨l :: S, by simp, ?_⟩
    exact { hc with
      nodup := List.nodup_cons.2 ⟨h, hc.nodup⟩
      cover := fun x hx => List.mem_cons_of_mem _ (hc.cover x hx)
      count := fun o => by
        rw [hc.count o]
        unfold holds
        rw [List.countP_cons_of_neg]
        rw [hn]; simp }

/-! ## The parts of the steps -/

/-- Taking the weak tag away. -/
theorem core_unweak {s S} (hc : Core s S) (l : Loc) : ∃ s1, s.unweak l = some s1 ∧ Core s1 S ∧ s1.tasks = s.tasks ∧ s1.alive = s.alive ∧
    s1.fields = s.fields ∧ s1.fresh = s.fresh ∧ (∀ x, x ≠ l → s1.cell x = s.cell x) ∧ (∀ o, s1.cell l ≠ .weak o) ∧
    (s.cell l = .null → s1.cell l = .null) ∧ (∀ o, s.rc o ≤ s1.rc o) := by
  unfold State.unweak
  cases hl : s.cell l with
  | null => exact ⟨s, rfl, hc, rfl, rfl, rfl, rfl, fun _ _ => rfl, by simp [hl], fun _ => hl, fun _ => Nat.le_refl _⟩
  | strong o => exact ⟨s, rfl, hc, rfl, rfl, rfl, rfl, fun _ _ => rfl, by simp [hl], (fun h => by cases h), fun _ => Nat.le_refl _⟩
  | weak p =>
    have hp := hc.weak l p hl
    simp only [hp, if_true]
    refine ⟨_, rfl, ?_, rfl, rfl, rfl, rfl, fun x hx => upd_other _ _ _ _ hx, fun o => ?_, (fun h => by cases h), fun o => ?_⟩
    · have hm : l ∈ S := hc.cover l (by rw [hl]; simp)
      exact {
        nodup := hc.nodup
        cover := fun x hx => by
          by_cases hxl : x = l
          · subst hxl; exact hm
          · simp only [upd_other _ _ _ _ hxl] at hx
            exact hc.cover x hx
        count := fun o => by
          have h1 := holds_upd s.cell l (.strong p) o S hc.nodup hm
          have h2 := hc.count o
          rw [hl] at h1
          simp only [one, reduceCtorEq, if_false, Cell.strong.injEq] at h1
          show upd s.rc p (s.rc p + 1) o = _
          by_cases ho : o = p
          · subst ho
            rw [upd_same]
            simp only [if_true] at h1
            rw [show holds _ S o = _ from h1]
            show _ = _ + pending s.tasks o
            omega
          · rw [upd_other _ _ _ _ ho]
            rw [if_neg (fun h => ho h.symm)] at h1
            rw [show holds _ S o = _ from h1]
            show _ = _ + pending s.tasks o
            omega
        live := fun o ho => by
          show s.alive o = true
          by_cases hop : o = p
          · rw [hop]; exact hp
          · simp only [upd_other _ _ _ _ hop] at ho
            exact hc.live o ho
        used := hc.used
        weak := fun x o hx => by
          by_cases hxl : x = l
          · subst hxl; simp only [upd_same] at hx; cases hx
          · simp only [upd_other _ _ _ _ hxl] at hx
            exact hc.weak x o hx
        back := fun o ho x => by
          show x ∈ upd s.back p ((s.back p).erase l) o ↔ upd s.cell l (.strong p) x = .weak o
          by_cases hop : o = p
          · subst hop
            rw [upd_same, (hc.backNodup o ho).mem_erase_iff, hc.back o ho]
            by_cases hxl : x = l
            · subst hxl; rw [upd_same]; simp
            · rw [upd_other _ _ _ _ hxl]; simp [hxl]
          · rw [upd_other _ _ _ _ hop, hc.back o ho]
            by_cases hxl : x = l
            · subst hxl; rw [upd_same, hl]; simp [Ne.symm hop]
            · rw [upd_other _ _ _ _ hxl]
        backNodup := fun o ho => by
          show (upd s.back p ((s.back p).erase l) o).Nodup
          by_cases hop : o = p
          · subst hop; rw [upd_same]; exact (hc.backNodup o ho).erase l
          · rw [upd_other _ _ _ _ hop]; exact hc.backNodup o ho
        place := fun x hx => by
          refine (okLoc_congr (s := s) rfl rfl x).trans ?_
          by_cases hxl : x = l
          · subst hxl; exact hc.place x (by rw [hl]; simp)
          · simp only [upd_other _ _ _ _ hxl] at hx
            exact hc.place x hx }
    · simp only [upd_same]; simp
    · show s.rc o ≤ upd s.rc p (s.rc p + 1) o
      by_cases ho : o = p
      · subst ho; rw [upd_same]; omega
      · rw [upd_other _ _ _ _ ho]; exact Nat.le_refl _

/-- Moving the reference of a place to the pending releases. -/
theorem core_take {s S} (hc : Core s S) (t : Nat) (l : Loc) : Core (s.take t l) S := by
  unfold State.take
  cases hl : s.cell l with
  | null => exact hc
  | weak p => exact hc
  | strong p =>
    have hm : l ∈ S := hc.cover l (by rw [hl]; simp)
    exact {
      nodup := hc.nodup
      cover := fun x hx => by
        by_cases hxl : x = l
        · subst hxl; exact hm
        · simp only [upd_other _ _ _ _ hxl] at hx
          exact hc.cover x hx
      count := fun o => by
        have h1 := holds_upd s.cell l .null o S hc.nodup hm
        have h2 := hc.count o
        rw [hl] at h1
        simp only [one, reduceCtorEq, if_false, Cell.strong.injEq] at h1
        show s.rc o = holds _ S o + pending ((t, .release p) :: s.tasks) o
        have h3 : pending ((t, .release p) :: s.tasks) o = pending s.tasks o + one (p = o) := pending_cons _ _ _
        rw [h3]
        unfold one
        simp only at h1 ⊢
        omega
      live := hc.live
      used := hc.used
      weak := fun x o hx => by
        by_cases hxl : x = l
        · subst hxl; simp only [upd_same] at hx; cases hx
        · simp only [upd_other _ _ _ _ hxl] at hx
          exact hc.weak x o hx
      back := fun o ho x => by
        show x ∈ s.back o ↔ upd s.cell l .null x = .weak o
        rw [hc.back o ho]
        by_cases hxl : x = l
        · subst hxl; rw [upd_same, hl]; simp
        · rw [upd_other _ _ _ _ hxl]
      backNodup := hc.backNodup
      place := fun x hx => by
        refine (okLoc_congr (s := s) rfl rfl x).trans ?_
        by_cases hxl : x = l
        · subst hxl; exact hc.place x (by rw [hl]; simp)
        · simp only [upd_other _ _ _ _ hxl] at hx
          exact hc.place x hx }

theorem take_facts (s : State) (t : Nat) (l : Loc) : (s.take t l).alive = s.alive ∧ (s.take t l).fields = s.fields ∧
    (s.take t l).fresh = s.fresh ∧ (s.take t l).rc = s.rc ∧ (∀ x, x ≠ l → (s.take t l).cell x = s.cell x) ∧
    ((∀ o, s.cell l ≠ .weak o) → (s.take t l).cell l = .null) ∧
    (∀ y, y ∈ (s.take t l).tasks → y ∈ s.tasks ∨ ∃ p, y = (t, .release p)) := by
  unfold State.take
  cases hl : s.cell l with
  | null => exact ⟨rfl, rfl, rfl, rfl, fun _ _ => rfl, fun _ => hl, fun _ h => Or.inl h⟩
  | weak p => exact ⟨rfl, rfl, rfl, rfl, fun _ _ => rfl, fun h => absurd rfl (h p), fun _ h => Or.inl h⟩
  | strong p =>
    refine ⟨rfl, rfl, rfl, rfl, fun x hx => upd_other _ _ _ _ hx, fun _ => upd_same _ _ _, fun y hy => ?_⟩
    rcases List.mem_cons.1 hy with rfl | h
    · exact Or.inr ⟨p, rfl⟩
    · exact Or.inl h

/-- Putting a reference into an empty place. -/
theorem core_put {s S} (hc : Core s S) (l : Loc) (o : Nat) (hn : s.cell l = .null) (hok : s.okLoc l = true) (ho : s.alive o = true) :
    ∃ s1 S1, s.put l o = some s1 ∧ Core s1 S1 ∧ s1.tasks = s.tasks ∧ s1.alive = s.alive ∧ s1.fields = s.fields ∧ s1.fresh = s.fresh ∧
      (∀ x, x ≠ l → s1.cell x = s.cell x) ∧ (∀ q, s.rc q ≤ s1.rc q) ∧ 0 < s1.rc o := by
  obtain ⟨S1, hm, hc⟩ := core_grow hc l
  unfold State.put
  simp only [ho, if_true]
  refine ⟨_, S1, rfl, ?_, rfl, rfl, rfl, rfl, fun x hx => upd_other _ _ _ _ hx, fun q => ?_, ?_⟩
  · exact {
      nodup := hc.nodup
      cover := fun x hx => by
        by_cases hxl : x = l
        · subst hxl; exact hm
        · simp only [upd_other _ _ _ _ hxl] at hx
          exact hc.cover x hx
      count := fun q => by
        have h1 := holds_upd s.cell l (.strong o) q S1 hc.nodup hm
        have h2 := hc.count q
        rw [hn] at h1
        simp only [one, reduceCtorEq, if_false, Cell.strong.injEq] at h1
        show upd s.rc o (s.rc o + 1) q = holds _ S1 q + pending s.tasks q
        by_cases hq : q = o
        · subst hq
          rw [upd_same]
          simp only [if_true] at h1
          simp only
          omega
        · rw [upd_other _ _ _ _ hq]
          rw [if_neg (fun h => hq h.symm)] at h1
          simp only
          omega
      live := fun q hq => by
        show s.alive q = true
        by_cases hqo : q = o
        · rw [hqo]; exact ho
        · simp only [upd_other _ _ _ _ hqo] at hq
          exact hc.live q hq
      used := hc.used
      weak := fun x q hx => by
        by_cases hxl : x = l
        · subst hxl; simp only [upd_same] at hx; cases hx
        · simp only [upd_other _ _ _ _ hxl] at hx
          exact hc.weak x q hx
      back := fun q hq x => by
        show x ∈ s.back q ↔ upd s.cell l (.strong o) x = .weak q
        rw [hc.back q hq]
        by_cases hxl : x = l
        · subst hxl; rw [upd_same, hn]; simp
        · rw [upd_other _ _ _ _ hxl]
      backNodup := hc.backNodup
      place := fun x hx => by
        refine (okLoc_congr (s := s) rfl rfl x).trans ?_
        by_cases hxl : x = l
        · subst hxl; exact hok
        · simp only [upd_other _ _ _ _ hxl] at hx
          exact hc.place x hx }
  · show s.rc q ≤ upd s.rc o (s.rc o + 1) q
    by_cases h : q = o
    · subst h; rw [upd_same]; omega
    · rw [upd_other _ _ _ _ h]; exact Nat.le_refl _
  · show 0 < upd s.rc o (s.rc o + 1) o
    rw [upd_same]; omega

/-- The first critical section of an assignment. -/
theorem core_assign {s S} (hc : Core s S) (t : Nat) (l : Loc) (new : Option Nat) (hok : s.okLoc l = true)
    (hnew : ∀ o, new = some o → s.alive o = true) :
    ∃ s1 S1, s.assign t l new = some s1 ∧ Core s1 S1 ∧ s1.alive = s.alive ∧ s1.fields = s.fields ∧ s1.fresh = s.fresh ∧
      (∀ x, x ≠ l → s1.cell x = s.cell x) ∧ (new = none → s1.cell l = .null) ∧ (∀ q, s.rc q ≤ s1.rc q) ∧
      (∀ o, new = some o → 0 < s1.rc o) ∧ (∀ y, y ∈ s1.tasks → y ∈ s.tasks ∨ ∃ p, y = (t, .release p)) := by
  unfold State.assign
  rw [if_pos hok]
  obtain ⟨s1, e1, c1, a1, a2, a3, a4, a5, a6, a7, a8⟩ := core_unweak hc l
  rw [e1]
  obtain ⟨b1, b2, b3, b4, b5, b6, b7⟩ := take_facts s1 t l
  have c2 := core_take c1 t l
  cases new with
  | none =>
    refine ⟨_, S, rfl, c2, by rw [b1, a2], by rw [b2, a3], by rw [b3, a4], fun x hx => by rw [b5 x hx, a5 x hx], fun _ => b6 a6,
      fun q => by rw [b4]; exact a8 q, (fun o h => by cases h), fun y hy => ?_⟩
    rw [← a1]; exact b7 y hy
  | some o =>
    obtain ⟨s3, S3, e3, c3, d1, d2, d3, d4, d5, d6, d7⟩ := core_put c2 l o (b6 a6)
      (by rw [okLoc_congr (b1.trans a2) (b2.trans a3)]; exact hok) (by rw [b1, a2]; exact hnew o rfl)
    refine ⟨s3, S3, e3, c3, by rw [d2, b1, a2], by rw [d3, b2, a3], by rw [d4, b3, a4],
      fun x hx => by rw [d5 x hx, b5 x hx, a5 x hx], (fun h => by cases h), fun q => ?_, ?_, fun y hy => ?_⟩
    · exact Nat.le_trans (a8 q) (by rw [← b4]; exact d6 q)
    · intro o' h; cases h; exact d7
    · rw [d1] at hy; rw [← a1]; exact b7 y hy

theorem pick_perm (t : Nat) : ∀ (ts : List (Nat × Task)) (k : Task) (rest : List (Nat × Task)), pick t ts = some (k, rest) →
    ts.Perm ((t, k) :: rest) := by
  intro ts
  induction ts with
  | nil => intro k rest h; cases h
  | cons x xs ih =>
    intro k rest h
    simp only [pick] at h
    split at h
    · rename_i hx
      cases h
      rw [← hx]
    · cases hp : pick t xs with
      | none => rw [hp] at h; cases h
      | some y =>
        obtain ⟨k', r⟩ := y
        rw [hp] at h
        simp only [Option.some.injEq, Prod.mk.injEq] at h
        obtain ⟨rfl, rfl⟩ := h
        exact ((ih k' r hp).cons x).trans (List.Perm.swap _ _ _)

theorem pending_perm {ts us : List (Nat × Task)} (h : ts.Perm us) (o : Nat) : pending ts o = pending us o := h.countP_eq _

/-- Only the tasks change, and their objects stay. -/
theorem core_tasks {s S} (hc : Core s S) (ts : List (Nat × Task)) (h : ∀ o, pending ts o = pending s.tasks o) :
    Core { s with tasks := ts } S :=
  { hc with count := fun o => by show s.rc o = holds s.cell S o + pending ts o; rw [h o]; exact hc.count o
            place := fun x hx => by exact (okLoc_congr (s := s) rfl rfl x).trans (hc.place x hx) }

/-- A task ends by giving its reference up. -/
theorem core_drop {s S} (hc : Core s S) (p : Nat) (ts : List (Nat × Task)) (h : ∀ o, pending s.tasks o = pending ts o + one (p = o)) :
    Core { s with rc := upd s.rc p (s.rc p - 1), tasks := ts } S where
  nodup := hc.nodup
  cover := hc.cover
  count := fun o => by
    show upd s.rc p (s.rc p - 1) o = holds s.cell S o + pending ts o
    have h1 := hc.count o
    have h2 := h o
    by_cases ho : o = p
    · subst ho
      rw [upd_same]
      simp only [one, if_true] at h2
      omega
    · rw [upd_other _ _ _ _ ho]
      simp only [one, if_neg (fun h : p = o => ho h.symm)] at h2
      omega
  live := fun o ho => by
    show s.alive o = true
    apply hc.live
    by_cases hop : o = p
    · subst hop; simp only [upd_same] at ho; omega
    · simp only [upd_other _ _ _ _ hop] at ho; exact ho
  used := hc.used
  weak := hc.weak
  back := hc.back
  backNodup := hc.backNodup
  place := fun x hx => by exact (okLoc_congr (s := s) rfl rfl x).trans (hc.place x hx)

/-- Making a strong reference weak while there are others. -/
theorem core_weaken {s S} (hc : Core s S) (l : Loc) (p : Nat) (hl : s.cell l = .strong p) (h1 : s.rc p ≠ 0) :
    Core { s with cell := upd s.cell l (.weak p), rc := upd s.rc p (s.rc p - 1), back := upd s.back p (s.back p ++ [l]) } S := by
  have hm : l ∈ S := hc.cover l (by rw [hl]; simp)
  have hp := strong_alive hc hl
  exact {
    nodup := hc.nodup
    cover := fun x hx => by
      by_cases hxl : x = l
      · subst hxl; exact hm
      · simp only [upd_other _ _ _ _ hxl] at hx
        exact hc.cover x hx
    count := fun o => by
      have e1 := holds_upd s.cell l (.weak p) o S hc.nodup hm
      have e2 := hc.count o
      rw [hl] at e1
      simp only [one, reduceCtorEq, if_false, Cell.strong.injEq] at e1
      show upd s.rc p (s.rc p - 1) o = holds _ S o + pending s.tasks o
      by_cases ho : o = p
      · subst ho
        rw [upd_same]
        simp only [if_true] at e1
        simp only
        omega
      · rw [upd_other _ _ _ _ ho]
        rw [if_neg (fun h => ho h.symm)] at e1
        simp only
        omega
    live := fun o ho => by
      show s.alive o = true
      apply hc.live
      by_cases hop : o = p
      · subst hop; omega
      · simp only [upd_other _ _ _ _ hop] at ho; exact ho
    used := hc.used
    weak := fun x o hx => by
      show s.alive o = true
      by_cases hxl : x = l
      · subst hxl; simp only [upd_same] at hx; cases hx; exact hp
      · simp only [upd_other _ _ _ _ hxl] at hx
        exact hc.weak x o hx
    back := fun o ho x => by
      show x ∈ upd s.back p (s.back p ++ [l]) o ↔ upd s.cell l (.weak p) x = .weak o
      by_cases hop : o = p
      · subst hop
        rw [upd_same, List.mem_append, hc.back o ho]
        by_cases hxl : x = l
        · subst hxl; rw [upd_same]; simp
        · rw [upd_other _ _ _ _ hxl]; simp [hxl]
      · rw [upd_other _ _ _ _ hop, hc.back o ho]
        by_cases hxl : x = l
        · subst hxl; rw [upd_same, hl]; simp [Ne.symm hop]
        · rw [upd_other _ _ _ _ hxl]
    backNodup := fun o ho => by
      show (upd s.back p (s.back p ++ [l]) o).Nodup
      by_cases hop : o = p
      · subst hop
        rw [upd_same, List.nodup_append]
        refine ⟨hc.backNodup o ho, by simp, ?_⟩
        intro a ha b hb
        rw [List.mem_singleton] at hb
        subst hb
        rintro rfl
        rw [hc.back o ho, hl] at ha
        cases ha
      · rw [upd_other _ _ _ _ hop]; exact hc.backNodup o ho
    place := fun x hx => by
      refine (okLoc_congr (s := s) rfl rfl x).trans ?_
      by_cases hxl : x = l
      · subst hxl; exact hc.place x (by rw [hl]; simp)
      · simp only [upd_other _ _ _ _ hxl] at hx
        exact hc.place x hx }

/-- Clearing weak references. -/
theorem clearWeak_spec : ∀ (ls : List Loc) (s : State), (∀ l ∈ ls, s.okLoc l = true) →
    s.clearWeak ls = some { s with cell := fun x => if x ∈ ls then .null else s.cell x } := by
  intro ls
  induction ls with
  | nil => intro s _; simp [State.clearWeak]
  | cons l ls ih =>
    intro s h
    simp only [State.clearWeak]
    rw [if_pos (h l (by simp)), ih _ (fun x hx => by exact (okLoc_congr (s := s) rfl rfl x).trans (h x (by simp [hx])))]
    congr 1
    congr 1
    funext x
    by_cases hx : x ∈ ls
    · simp [hx]
    · by_cases hl : x = l
      · subst hl; simp [upd]
      · simp [hx, hl, upd]

/-- The third critical section when the count becomes 0: the object is freed. -/
theorem core_free {s S} (hc : Core s S) (p : Nat) (hp : s.alive p = true) (hz : s.rc p = 0) (hf : ∀ f, s.cell (.field p f) = .null) :
    Core { s with cell := fun x => if x ∈ s.back p then .null else s.cell x, back := upd s.back p [], alive := upd s.alive p false } S := by
  have hno : ∀ x, s.cell x ≠ .strong p := fun x h => by have := strong_rc hc h; omega
  have hcell : ∀ x c, (if x ∈ s.back p then Cell.null else s.cell x) = c → c ≠ .null → s.cell x = c ∧ x ∉ s.back p := by
    intro x c h hcn
    split at h
    · exact absurd h.symm hcn
    · rename_i hx; exact ⟨h, hx⟩
  have halive : ∀ o, s.alive o = true → o ≠ p → upd s.alive p false o = true := fun o h1 h2 => by rw [upd_other _ _ _ _ h2]; exact h1
  have halive' : ∀ o, upd s.alive p false o = true → o ≠ p ∧ s.alive o = true := by
    intro o h
    by_cases hop : o = p
    · subst hop; rw [upd_same] at h; cases h
    · rw [upd_other _ _ _ _ hop] at h; exact ⟨hop, h⟩
  exact {
    nodup := hc.nodup
    cover := fun x hx => by
      apply hc.cover
      intro h
      apply hx
      simp only
      split
      · rfl
      · exact h
    count := fun o => by
      show s.rc o = holds _ S o + pending s.tasks o
      rw [hc.count o]
      congr 1
      unfold holds
      apply List.countP_congr
      intro x _
      simp only [decide_eq_true_eq]
      split
      · rename_i hx
        rw [hc.back p hp] at hx
        rw [hx]
        simp
      · exact Iff.rfl
    live := fun o ho => by
      apply halive o (hc.live o ho)
      rintro rfl
      have : 0 < s.rc o := ho
      omega
    used := fun o ho => hc.used o (halive' o ho).2
    weak := fun x o hx => by
      obtain ⟨h1, h2⟩ := hcell x _ hx (by simp)
      apply halive o (hc.weak x o h1)
      rintro rfl
      rw [hc.back o hp] at h2
      exact h2 h1
    back := fun o ho x => by
      obtain ⟨h1, h2⟩ := halive' o ho
      show x ∈ upd s.back p [] o ↔ _
      rw [upd_other _ _ _ _ h1, hc.back o h2]
      constructor
      · intro h
        show (if x ∈ s.back p then Cell.null else s.cell x) = _
        rw [if_neg, h]
        rw [hc.back p hp, h]
        simp [h1]
      · intro h
        exact (hcell x _ h (by simp)).1
    backNodup := fun o ho => by
      obtain ⟨h1, h2⟩ := halive' o ho
      show (upd s.back p [] o).Nodup
      rw [upd_other _ _ _ _ h1]
      exact hc.backNodup o h2
    place := fun x hx => by
      have hx' : s.cell x ≠ .null := by
        intro h
        apply hx
        simp only
        split
        · rfl
        · exact h
      have h1 := hc.place x hx'
      cases x with
      | var => rfl
      | field q f =>
        simp only [State.okLoc, Bool.and_eq_true] at h1 ⊢
        refine ⟨halive q h1.1 ?_, h1.2⟩
        rintro rfl
        exact hx' (hf f) }

/-! ## Checking a schedule -/

/-- `May` for variables with a number below `N`. -/
def mayB (N : Nat) (s : State) (t : Nat) : Loc → Bool
  | .var _ _ => true
  | .field p f => (List.range N).any (fun i => decide (s.cell (.var t i) = .strong p)) && decide (f < s.fields p)

theorem mayB_may {N s t l} (h : mayB N s t l = true) : May s t l := by
  cases l with
  | var => exact trivial
  | field p f =>
    simp only [mayB, Bool.and_eq_true, List.any_eq_true, decide_eq_true_eq] at h
    obtain ⟨⟨i, _, hi⟩, hf⟩ := h
    exact ⟨⟨i, hi⟩, hf⟩

/-- `Destroyed`, decided. -/
def destroyedB (s : State) : Loc → Bool
  | .var _ _ => false
  | .field p f => s.tasks.any (fun x =>
    match x.2 with
    | .clear q k => decide (q = p ∧ f < k)
    | .release _ => false)

theorem destroyedB_false {s l} (h : destroyedB s l = false) : ¬ Destroyed s l := by
  cases l with
  | var => exact fun h => h
  | field p f =>
    rintro ⟨t, k, hm, hf⟩
    have := List.any_eq_false.1 h _ hm
    simp [hf] at this

def discB (N : Nat) (s : State) (t : Nat) : Act → Bool
  | .new _ _ => true
  | .load src => mayB N s t src
  | .store dst => mayB N s t dst &&
    (match s.reg t with
    | none => true
    | some (src, o) => (decide (s.cell src = .strong o) || decide (s.cell src = .weak o)) && !destroyedB s dst)
  | .undef dst => mayB N s t dst
  | .weaken l => mayB N s t l
  | .unweaken l => mayB N s t l
  | .run => true
  | .self _ => true

theorem discB_disc {N s t a} (h : discB N s t a = true) : Disciplined s t a := by
  cases a with
  | new => exact trivial
  | load => exact mayB_may h
  | undef => exact mayB_may h
  | weaken => exact mayB_may h
  | unweaken => exact mayB_may h
  | run => exact trivial
  | self => exact trivial
  | store dst =>
    simp only [discB, Bool.and_eq_true] at h
    refine ⟨mayB_may h.1, fun src o hr => ?_⟩
    have h2 := h.2
    rw [hr] at h2
    simp only [Bool.and_eq_true, Bool.or_eq_true, decide_eq_true_eq, Bool.not_eq_true'] at h2
    exact ⟨h2.1, destroyedB_false h2.2⟩

def obeysB (N : Nat) (s : State) : List (Nat × Act) → Bool
  | [] => true
  | (t, a) :: as => discB N s t a &&
    (match s.step t a with
    | none => true
    | some s1 => obeysB N s1 as)

theorem obeysB_obeys {N} : ∀ (as : List (Nat × Act)) (s : State), obeysB N s as = true → Obeys s as
  | [], _, _ => trivial
  | (t, a) :: as, s, h => by
    simp only [obeysB, Bool.and_eq_true] at h
    refine ⟨discB_disc h.1, fun s1 hs => ?_⟩
    have h2 := h.2
    rw [hs] at h2
    exact obeysB_obeys as s1 h2

end Conc
end SPVM
