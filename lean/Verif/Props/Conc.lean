import Verif.Lemmas.Conc
/-! # C57: reference counts under every schedule of threads -/
namespace SPVM
namespace Conc

theorem may_ok {s S t l} (hc : Core s S) (h : May s t l) : s.okLoc l = true := by
  cases l with
  | var => rfl
  | field p f =>
    obtain ⟨⟨i, hi⟩, hf⟩ := h
    simp only [State.okLoc, Bool.and_eq_true, decide_eq_true_eq]
    exact ⟨strong_alive hc hi, hf⟩

theorem cleared_assign {s s1 : State} {t l new} (h : Cleared s) (hcell : ∀ x, x ≠ l → s1.cell x = s.cell x)
    (hn : new = none → s1.cell l = .null) (hd : ∀ o : Nat, new = some o → ¬ Destroyed s l)
    (ht : ∀ y, y ∈ s1.tasks → y ∈ s.tasks ∨ ∃ p, y = (t, .release p)) : Cleared s1 := by
  intro t' p k hm f hf
  rcases ht _ hm with hm | ⟨q, hq⟩
  · by_cases hl : Loc.field p f = l
    · subst hl
      cases new with
      | none => exact hn rfl
      | some o => exact absurd ⟨t', k, hm, hf⟩ (hd o rfl)
    · rw [hcell _ hl]; exact h t' p k hm f hf
  · cases hq

theorem inv_assign {s : State} (hi : Inv s) (t : Nat) (l : Loc) (new : Option Nat) (hok : s.okLoc l = true)
    (hnew : ∀ o, new = some o → s.alive o = true) (hd : ∀ o, new = some o → ¬ Destroyed s l) :
    ∃ s1, s.assign t l new = some s1 ∧ Inv s1 := by
  obtain ⟨S, hc⟩ := hi.core
  obtain ⟨s1, S1, e, c, a1, a2, a3, a4, a5, a6, a7, a8⟩ := core_assign hc t l new hok hnew
  refine ⟨s1, e, ⟨S1, c⟩, cleared_assign hi.cleared a4 a5 hd a8, ?_⟩
  intro o ho
  rw [a1] at ho
  exact Nat.lt_of_lt_of_le (hi.counted o ho) (a6 o)

/-- A new object. -/
theorem inv_new {s : State} (hi : Inv s) (t i n : Nat) : ∃ s1, s.step t (.new i n) = some s1 ∧ Inv s1 := by
  obtain ⟨S, hc⟩ := hi.core
  have hfresh : s.alive s.fresh = false := by
    cases h : s.alive s.fresh with
    | false => rfl
    | true => exact absurd (hc.used _ h) (Nat.lt_irrefl _)
  have hrc : s.rc s.fresh = 0 := by
    cases h : s.rc s.fresh with
    | zero => rfl
    | succ m =>
      have := hc.live s.fresh (by omega)
      rw [hfresh] at this; cases this
  have hne : ∀ o, s.alive o = true → o ≠ s.fresh := fun o h e => by rw [e, hfresh] at h; cases h
  have hempty : ∀ f, s.cell (.field s.fresh f) = .null := by
    intro f
    cases h : s.cell (.field s.fresh f) with
    | null => rfl
    | strong o =>
      have := hc.place _ (by rw [h]; simp : s.cell (.field s.fresh f) ≠ .null)
      simp only [State.okLoc, hfresh, Bool.false_and] at this
      cases this
    | weak o =>
      have := hc.place _ (by rw [h]; simp : s.cell (.field s.fresh f) ≠ .null)
      simp only [State.okLoc, hfresh, Bool.false_and] at this
      cases this
  have hback : ∀ l, s.cell l ≠ .weak s.fresh := fun l h => hne _ (hc.weak l _ h) rfl
  let s0 : State := { s with alive := upd s.alive s.fresh true, fields := upd s.fields s.fresh n, back := upd s.back s.fresh [], fresh := s.fresh + 1 }
  have hc0 : Core s0 S := {
    nodup := hc.nodup
    cover := hc.cover
    count := hc.count
    live := fun o ho => by
      show upd s.alive s.fresh true o = true
      have := hc.live o ho
      rw [upd_other _ _ _ _ (hne o this)]; exact this
    used := fun o ho => by
      show o < s.fresh + 1
      by_cases h : o = s.fresh
      · omega
      · have : upd s.alive s.fresh true o = true := ho
        rw [upd_other _ _ _ _ h] at this
        have := hc.used o this
        omega
    weak := fun l o h => by
      show upd s.alive s.fresh true o = true
      have := hc.weak l o h
      rw [upd_other _ _ _ _ (hne o this)]; exact this
    back := fun o ho l => by
      show l ∈ upd s.back s.fresh [] o ↔ s.cell l = .weak o
      by_cases h : o = s.fresh
      · subst h
        rw [upd_same]
        simp only [List.not_mem_nil, false_iff]
        exact hback l
      · have : upd s.alive s.fresh true o = true := ho
        rw [upd_other _ _ _ _ h] at this
        rw [upd_other _ _ _ _ h]
        exact hc.back o this l
    backNodup := fun o ho => by
      show (upd s.back s.fresh [] o).Nodup
      by_cases h : o = s.fresh
      · subst h; rw [upd_same]; exact List.nodup_nil
      · have : upd s.alive s.fresh true o = true := ho
        rw [upd_other _ _ _ _ h] at this
        rw [upd_other _ _ _ _ h]
        exact hc.backNodup o this
    place := fun l hl => by
      have h1 := hc.place l hl
      cases l with
      | var => rfl
      | field p f =>
        simp only [State.okLoc, Bool.and_eq_true] at h1 ⊢
        have := hne p h1.1
        show upd s.alive s.fresh true p = true ∧ decide (f < upd s.fields s.fresh n p) = true
        rw [upd_other _ _ _ _ this, upd_other _ _ _ _ this]
        exact h1 }
  obtain ⟨s1, S1, e, c, a1, a2, a3, a4, a5, a6, a7, a8⟩ := core_assign hc0 t (.var t i) (some s.fresh) rfl
    (fun o h => by cases h; exact upd_same _ _ _)
  have hstep : s.step t (.new i n) = some s1 := e
  refine ⟨s1, hstep, ⟨S1, c⟩, cleared_assign (s := s) hi.cleared a4 a5 (fun o _ h => h) a8, ?_⟩
  intro o ho
  by_cases h : o = s.fresh
  · subst h; exact a7 s.fresh rfl
  · rw [a1] at ho
    have : upd s.alive s.fresh true o = true := ho
    rw [upd_other _ _ _ _ h] at this
    exact Nat.lt_of_lt_of_le (hi.counted o this) (a6 o)

theorem inv_weaken {s : State} (hi : Inv s) (t : Nat) (l : Loc) (hok : s.okLoc l = true) : ∃ s1, s.weaken t l = some s1 ∧ Inv s1 := by
  obtain ⟨S, hc⟩ := hi.core
  unfold State.weaken
  rw [if_pos hok]
  cases hl : s.cell l with
  | null => exact ⟨s, rfl, hi⟩
  | weak p => exact ⟨s, rfl, hi⟩
  | strong p =>
    have h1 := strong_alive hc hl
    have h2 := strong_rc hc hl
    simp only
    rw [if_neg (by rw [h1]; simp; omega)]
    by_cases h3 : s.rc p = 1
    · rw [if_pos h3]
      obtain ⟨b1, b2, b3, b4, b5, b6, b7⟩ := take_facts s t l
      refine ⟨_, rfl, ⟨S, core_take hc t l⟩, ?_, ?_⟩
      · exact cleared_assign (new := none) hi.cleared b5 (fun _ => b6 (by rw [hl]; simp)) (fun _ h => by cases h) b7
      · intro o ho
        rw [b1] at ho
        rw [b4]
        exact hi.counted o ho
    · rw [if_neg h3]
      refine ⟨_, rfl, ⟨S, core_weaken hc l p hl (by omega)⟩, ?_, ?_⟩
      · intro t' q k hm f hf
        have h := hi.cleared t' q k hm f hf
        show upd s.cell l (.weak p) (.field q f) = .null
        rw [upd_other _ _ _ _ (by rintro rfl; rw [hl] at h; cases h)]
        exact h
      · intro o ho
        show 0 < upd s.rc p (s.rc p - 1) o
        by_cases hop : o = p
        · subst hop; rw [upd_same]; omega
        · rw [upd_other _ _ _ _ hop]; exact hi.counted o ho

theorem inv_unweaken {s : State} (hi : Inv s) (l : Loc) (hok : s.okLoc l = true) : ∃ s1, s.unweaken l = some s1 ∧ Inv s1 := by
  obtain ⟨S, hc⟩ := hi.core
  unfold State.unweaken
  rw [if_pos hok]
  obtain ⟨s1, e, c, a1, a2, a3, a4, a5, a6, a7, a8⟩ := core_unweak hc l
  refine ⟨s1, e, ⟨S, c⟩, ?_, ?_⟩
  · intro t p k hm f hf
    rw [a1] at hm
    have h := hi.cleared t p k hm f hf
    by_cases hl : Loc.field p f = l
    · subst hl; exact a7 h
    · rw [a5 _ hl]; exact h
  · intro o ho
    rw [a2] at ho
    exact Nat.lt_of_lt_of_le (hi.counted o ho) (a8 o)

/-- A pending release goes on. -/
theorem inv_run {s : State} (hi : Inv s) (t : Nat) : ∃ s1, s.run t = some s1 ∧ Inv s1 := by
  obtain ⟨S, hc⟩ := hi.core
  unfold State.run
  cases hp : pick t s.tasks with
  | none => exact ⟨s, rfl, hi⟩
  | some x =>
    obtain ⟨k, rest⟩ := x
    have hperm := pick_perm t s.tasks k rest hp
    have hmem : ∀ y, y ∈ s.tasks ↔ y ∈ (t, k) :: rest := fun y => hperm.mem_iff
    have hpend : ∀ o, pending s.tasks o = pending rest o + one (k.obj = o) := fun o => by
      rw [pending_perm hperm, pending_cons]
    have hrc := task_rc hc ((hmem (t, k)).2 (by simp))
    have hal := hc.live _ hrc
    have hsub : ∀ y, y ∈ rest → y ∈ s.tasks := fun y hy => (hmem y).2 (by simp [hy])
    cases k with
    | release p =>
      simp only [Task.obj] at hrc hal hpend
      simp only
      rw [if_neg (by rw [hal]; simp; omega)]
      by_cases h1 : s.rc p > 1
      · rw [if_pos h1]
        refine ⟨_, rfl, ⟨S, core_drop hc p rest hpend⟩, ?_, ?_⟩
        · intro t' q j hm f hf
          exact hi.cleared t' q j (hsub _ hm) f hf
        · intro o ho
          show 0 < upd s.rc p (s.rc p - 1) o
          by_cases hop : o = p
          · subst hop; rw [upd_same]; omega
          · rw [upd_other _ _ _ _ hop]; exact hi.counted o ho
      · rw [if_neg h1]
        refine ⟨_, rfl, ⟨S, core_tasks hc _ (fun o => ?_)⟩, ?_, hi.counted⟩
        · rw [pending_cons, hpend]; rfl
        · intro t' q j hm f hf
          rcases List.mem_cons.1 hm with h | h
          · cases h; omega
          · exact hi.cleared t' q j (hsub _ h) f hf
    | clear p k =>
      simp only [Task.obj] at hrc hal hpend
      simp only
      rw [if_neg (by rw [hal]; simp)]
      by_cases hk : k < s.fields p
      · rw [if_pos hk]
        have hc0 : Core { s with tasks := (t, .clear p (k + 1)) :: rest } S := core_tasks hc _ (fun o => by rw [pending_cons, hpend]; rfl)
        obtain ⟨s1, S1, e, c, a1, a2, a3, a4, a5, a6, a7, a8⟩ := core_assign hc0 t (.field p k) none
          (by simp only [State.okLoc, Bool.and_eq_true, decide_eq_true_eq]; exact ⟨hal, hk⟩) (fun o h => by cases h)
        refine ⟨s1, e, ⟨S1, c⟩, ?_, ?_⟩
        · intro t' q j hm f hf
          by_cases hl : Loc.field q f = .field p k
          · rw [hl]; exact a5 rfl
          · rw [a4 _ hl]
            show s.cell (.field q f) = .null
            rcases a8 _ hm with hm | ⟨r, hr⟩
            · rcases List.mem_cons.1 hm with h | h
              · cases h
                have : f < k := by
                  rcases Nat.lt_or_ge f k with h | h
                  · exact h
                  · exact absurd (by rw [show f = k by omega]) hl
                exact hi.cleared t p k ((hmem _).2 (by simp)) f this
              · exact hi.cleared t' q j (hsub _ h) f hf
            · cases hr
        · intro o ho
          rw [a1] at ho
          exact Nat.lt_of_lt_of_le (hi.counted o ho) (a6 o)
      · rw [if_neg hk]
        unfold State.finish
        simp only
        rw [if_neg (by omega)]
        have hc1 := core_drop hc p rest hpend
        have hcl : ∀ f, s.cell (.field p f) = .null := by
          intro f
          rcases Nat.lt_or_ge f k with h | h
          · exact hi.cleared t p k ((hmem _).2 (by simp)) f h
          · cases hx : s.cell (.field p f) with
            | null => rfl
            | strong o =>
              have := hc.place (.field p f) (by rw [hx]; simp)
              simp only [State.okLoc, Bool.and_eq_true, decide_eq_true_eq] at this
              omega
            | weak o =>
              have := hc.place (.field p f) (by rw [hx]; simp)
              simp only [State.okLoc, Bool.and_eq_true, decide_eq_true_eq] at this
              omega
        by_cases hz : s.rc p - 1 = 0
        · rw [if_pos hz]
          rw [clearWeak_spec]
          · simp only
            have hc2 := core_free hc1 p hal (by show upd s.rc p (s.rc p - 1) p = 0; rw [upd_same]; exact hz) hcl
            rw [hz] at hc2
            refine ⟨_, rfl, ⟨S, hc2⟩, ?_, ?_⟩
            · intro t' q j hm f hf
              show (if _ then Cell.null else s.cell (.field q f)) = .null
              split
              · rfl
              · exact hi.cleared t' q j (hsub _ hm) f hf
            · intro o ho
              have ho' : upd s.alive p false o = true := ho
              by_cases hop : o = p
              · subst hop; rw [upd_same] at ho'; cases ho'
              · rw [upd_other _ _ _ _ hop] at ho'
                show 0 < upd s.rc p 0 o
                rw [upd_other _ _ _ _ hop]
                exact hi.counted o ho'
          · intro l hl
            refine (okLoc_congr (s := s) rfl rfl l).trans ?_
            apply hc.place
            have : s.cell l = .weak p := (hc.back p hal l).1 hl
            rw [this]; simp
        · rw [if_neg hz]
          refine ⟨_, rfl, ⟨S, hc1⟩, ?_, ?_⟩
          · intro t' q j hm f hf
            exact hi.cleared t' q j (hsub _ hm) f hf
          · intro o ho
            show 0 < upd s.rc p (s.rc p - 1) o
            by_cases hop : o = p
            · subst hop; rw [upd_same]; omega
            · rw [upd_other _ _ _ _ hop]; exact hi.counted o ho

theorem inv_reg {s : State} (hi : Inv s) (r : Nat → Option (Loc × Nat)) : Inv { s with reg := r } := by
  obtain ⟨S, hc⟩ := hi.core
  refine ⟨⟨S, ?_⟩, hi.cleared, hi.counted⟩
  exact { hc with place := fun x hx => (okLoc_congr (s := s) rfl rfl x).trans (hc.place x hx) }

/-- Every disciplined step is defined and keeps the invariant. -/
theorem inv_step {s : State} (hi : Inv s) (t : Nat) (a : Act) (hd : Disciplined s t a) : ∃ s1, s.step t a = some s1 ∧ Inv s1 := by
  obtain ⟨S, hc⟩ := hi.core
  cases a with
  | new i n => exact inv_new hi t i n
  | load src =>
    have hok := may_ok hc hd
    simp only [State.step]
    rw [if_pos hok]
    cases hl : s.cell src with
    | null => exact ⟨_, rfl, inv_reg hi _⟩
    | strong o => exact ⟨_, rfl, inv_reg hi _⟩
    | weak o => exact ⟨_, rfl, inv_reg hi _⟩
  | store dst =>
    obtain ⟨h1, h2⟩ := hd
    simp only [State.step]
    cases hr : s.reg t with
    | none => exact inv_assign hi t dst none (may_ok hc h1) (fun o h => by cases h) (fun o h => by cases h)
    | some x =>
      obtain ⟨src, o⟩ := x
      obtain ⟨h3, h4⟩ := h2 src o hr
      refine inv_assign hi t dst (some o) (may_ok hc h1) (fun o' h => ?_) (fun _ _ => h4)
      cases h
      rcases h3 with h3 | h3
      · exact strong_alive hc h3
      · exact hc.weak src o h3
  | undef dst => exact inv_assign hi t dst none (may_ok hc hd) (fun o h => by cases h) (fun o h => by cases h)
  | weaken l => exact inv_weaken hi t l (may_ok hc hd)
  | unweaken l => exact inv_unweaken hi l (may_ok hc hd)
  | run => exact inv_run hi t
  | self i =>
    simp only [State.step]
    cases hp : pick t s.tasks with
    | none => exact ⟨s, rfl, hi⟩
    | some x =>
      obtain ⟨k, rest⟩ := x
      cases k with
      | release p => exact ⟨s, rfl, hi⟩
      | clear p k =>
        cases k with
        | succ k => exact ⟨s, rfl, hi⟩
        | zero =>
          refine inv_assign hi t (.var t i) (some p) rfl (fun o h => ?_) (fun _ _ h => h)
          cases h
          have hm : (t, Task.clear p 0) ∈ s.tasks := (pick_perm t s.tasks _ _ hp).mem_iff.2 (by simp)
          exact hc.live _ (task_rc hc hm)

/-! ## A freed object stays freed -/

/-- The objects and their states are the same, but for objects that were freed. -/
def Later (s s1 : State) : Prop := s.fresh ≤ s1.fresh ∧ ∀ o, o < s.fresh → s.alive o = false → s1.alive o = false

theorem Later.refl (s : State) : Later s s := ⟨Nat.le_refl _, fun _ _ h => h⟩

theorem Later.same {s s1 : State} (h1 : s1.alive = s.alive) (h2 : s1.fresh = s.fresh) : Later s s1 :=
  ⟨by rw [h2]; exact Nat.le_refl _, fun o _ h => by rw [h1]; exact h⟩

theorem Later.trans {a b c : State} (h1 : Later a b) (h2 : Later b c) : Later a c :=
  ⟨Nat.le_trans h1.1 h2.1, fun o ho h => h2.2 o (Nat.lt_of_lt_of_le ho h1.1) (h1.2 o ho h)⟩

theorem unweak_same {s s1 : State} {l} (h : s.unweak l = some s1) : s1.alive = s.alive ∧ s1.fresh = s.fresh := by
  unfold State.unweak at h
  repeat' split at h
  all_goals first | cases h | skip
  all_goals exact ⟨rfl, rfl⟩

theorem assign_same {s s1 : State} {t l new} (h : s.assign t l new = some s1) : s1.alive = s.alive ∧ s1.fresh = s.fresh := by
  unfold State.assign at h
  split at h
  · cases hu : s.unweak l with
    | none => rw [hu] at h; cases h
    | some s2 =>
      obtain ⟨a1, a2⟩ := unweak_same hu
      have ht : (s2.take t l).alive = s2.alive ∧ (s2.take t l).fresh = s2.fresh := by
        unfold State.take; split <;> exact ⟨rfl, rfl⟩
      simp only [hu] at h
      cases new with
      | none => simp only [Option.some.injEq] at h; subst h; exact ⟨ht.1.trans a1, ht.2.trans a2⟩
      | some o =>
        simp only [State.put] at h
        split at h
        · cases h; exact ⟨ht.1.trans a1, ht.2.trans a2⟩
        · cases h
  · cases h

theorem clearWeak_same : ∀ (ls : List Loc) {s s1 : State}, s.clearWeak ls = some s1 → s1.alive = s.alive ∧ s1.fresh = s.fresh
  | [], s, s1, h => by cases h; exact ⟨rfl, rfl⟩
  | l :: ls, s, s1, h => by
    simp only [State.clearWeak] at h
    split at h
    · obtain ⟨a1, a2⟩ := clearWeak_same ls h
      exact ⟨a1, a2⟩
    · cases h

theorem run_later {s s1 : State} {t} (h : s.run t = some s1) : Later s s1 := by
  unfold State.run at h
  split at h
  · cases h; exact Later.refl _
  · split at h
    · cases h
    · split at h <;> (cases h; exact Later.same rfl rfl)
  · split at h
    · cases h
    · split at h
      · obtain ⟨a1, a2⟩ := assign_same h; exact Later.same a1 a2
      · simp only [State.finish] at h
        split at h
        · cases h
        · split at h
          · split at h
            · cases h
            · rename_i s2 hs
              obtain ⟨a1, a2⟩ := clearWeak_same _ hs
              cases h
              refine ⟨Nat.le_of_eq a2.symm, fun o _ ho => ?_⟩
              show upd s2.alive _ false o = false
              rw [a1]
              unfold upd
              split
              · rfl
              · exact ho
          · cases h; exact Later.same rfl rfl

theorem step_later {s s1 : State} {t a} (h : s.step t a = some s1) : Later s s1 := by
  cases a with
  | new i n =>
    obtain ⟨a1, a2⟩ := assign_same (show State.assign _ t (.var t i) (some s.fresh) = some s1 from h)
    refine ⟨by rw [a2]; exact Nat.le_succ _, fun o ho hd => ?_⟩
    rw [a1]
    show upd s.alive s.fresh true o = false
    rw [upd_other _ _ _ _ (by omega)]
    exact hd
  | load src =>
    simp only [State.step] at h
    split at h
    · split at h <;> (cases h; exact Later.same rfl rfl)
    · cases h
  | store dst =>
    simp only [State.step] at h
    split at h
    · obtain ⟨a1, a2⟩ := assign_same h; exact Later.same a1 a2
    · obtain ⟨a1, a2⟩ := assign_same h; exact Later.same a1 a2
  | undef dst => obtain ⟨a1, a2⟩ := assign_same (show s.assign t dst none = some s1 from h); exact Later.same a1 a2
  | weaken l =>
    simp only [State.step, State.weaken] at h
    split at h
    · split at h
      · split at h
        · cases h
        · split at h
          · cases h
            unfold State.take
            split <;> exact Later.same rfl rfl
          · cases h; exact Later.same rfl rfl
      · cases h; exact Later.refl _
    · cases h
  | unweaken l =>
    simp only [State.step, State.unweaken] at h
    split at h
    · obtain ⟨a1, a2⟩ := unweak_same h; exact Later.same a1 a2
    · cases h
  | run => exact run_later h
  | self i =>
    simp only [State.step] at h
    split at h
    · obtain ⟨a1, a2⟩ := assign_same h; exact Later.same a1 a2
    · cases h; exact Later.refl _

theorem steps_later : ∀ (as : List (Nat × Act)) {s s1 : State}, s.steps as = some s1 → Later s s1
  | [], s, s1, h => by cases h; exact Later.refl _
  | (t, a) :: as, s, s1, h => by
    simp only [State.steps] at h
    cases hs : s.step t a with
    | none => rw [hs] at h; cases h
    | some s2 =>
      simp only [hs] at h
      exact (step_later hs).trans (steps_later as h)

theorem steps_append : ∀ (as bs : List (Nat × Act)) (s : State), s.steps (as ++ bs) = (s.steps as).bind (fun s1 => s1.steps bs)
  | [], _, _ => rfl
  | (t, a) :: as, bs, s => by
    simp only [List.cons_append, State.steps]
    cases s.step t a with
    | none => rfl
    | some s1 => exact steps_append as bs s1

theorem inv_init : Inv State.init where
  core := ⟨[], {
    nodup := List.nodup_nil
    cover := fun l h => absurd rfl h
    count := fun o => rfl
    live := fun o h => absurd h (by simp [State.init])
    used := fun o h => by cases h
    weak := fun l o h => by cases h
    back := fun o h => by cases h
    backNodup := fun o h => by cases h
    place := fun l h => absurd rfl h }⟩
  cleared := fun t p k h => by cases h
  counted := fun o h => by cases h

theorem inv_steps (as : List (Nat × Act)) : ∀ s : State, Inv s → Obeys s as → ∃ s1, s.steps as = some s1 ∧ Inv s1 := by
  induction as with
  | nil => intro s hi _; exact ⟨s, rfl, hi⟩
  | cons x as ih =>
    intro s hi ho
    obtain ⟨t, a⟩ := x
    obtain ⟨h1, h2⟩ := ho
    obtain ⟨s1, e, hi1⟩ := inv_step hi t a h1
    simp only [State.steps, e]
    exact ih s1 hi1 (h2 s1 e)

/-! ## The property -/

/-- Thread 0 makes an object with one field and hands it over to threads 1 and 2.  Thread 1 puts a second object into the field, which has
a weak reference back; thread 2 drops its reference between the steps of thread 1, thread 0 does so between the critical sections of
thread 1's release; thread 1 destroys both objects and reads the parent from the destructor of the child. -/
def handOver : List (Nat × Act) :=
  [(0, .new 0 1), (0, .load (.var 0 0)), (0, .store (.var 1 0)), (0, .load (.var 0 0)), (0, .store (.var 2 0)),
   (1, .new 1 1), (2, .undef (.var 2 0)), (1, .load (.var 1 0)), (1, .store (.field 1 0)), (2, .run), (1, .weaken (.field 1 0)),
   (1, .load (.var 1 1)), (1, .store (.field 0 0)), (1, .undef (.var 1 1)), (0, .undef (.var 0 0)), (1, .run),
   (1, .undef (.var 1 0)), (0, .run), (1, .run), (1, .run), (1, .run), (1, .self 2), (1, .load (.field 1 0)), (1, .store (.var 1 3)),
   (1, .undef (.var 1 3)), (1, .run), (1, .undef (.var 1 2)), (1, .run)]

/-- It goes on to the end. -/
def handOverEnd : List (Nat × Act) := handOver ++ List.replicate 6 (1, .run)

theorem handOver_obeys : Obeys State.init handOver := obeysB_obeys (N := 6) _ _ (by decide +kernel)

theorem handOverEnd_obeys : Obeys State.init handOverEnd := obeysB_obeys (N := 6) _ _ (by decide +kernel)

/-- C57: whatever the schedule, threads that obey the rules never access freed memory and never free twice. -/
theorem conc_defined_partial (as : List (Nat × Act)) (h : Obeys State.init as) : ∃ s, State.init.steps as = some s := by
  obtain ⟨s, e, _⟩ := inv_steps as _ inv_init h
  exact ⟨s, e⟩

example : Obeys State.init handOver ∧ (State.init.steps handOver).map (fun s => (s.alive 0, s.alive 1, s.tasks)) =
    some (true, true, [(1, .clear 1 0), (1, .clear 0 1)]) := ⟨handOver_obeys, by decide +kernel⟩

/-- C57: at any point of any such schedule, every reference, strong or weak, points to an object that is not freed. -/
theorem conc_no_dangling_partial (as : List (Nat × Act)) (h : Obeys State.init as) (s : State) (e : State.init.steps as = some s)
    (l : Loc) (o : Nat) (hl : s.cell l = .strong o ∨ s.cell l = .weak o) : s.alive o = true := by
  obtain ⟨s', e', hi⟩ := inv_steps as _ inv_init h
  rw [e] at e'
  cases e'
  obtain ⟨S, hc⟩ := hi.core
  rcases hl with hl | hl
  · exact strong_alive hc hl
  · exact hc.weak l o hl

example : Obeys State.init (handOver.take 13) ∧ (State.init.steps (handOver.take 13)).map (fun s => (s.cell (.field 0 0), s.cell (.field 1 0))) =
    some (.strong 1, .weak 0) := ⟨obeysB_obeys (N := 6) _ _ (by decide +kernel), by decide +kernel⟩

/-- C57: when no release is pending, an object that no strong reference in a variable or in a field of an object that is not freed
points to has been freed. -/
theorem conc_no_leak_partial (as : List (Nat × Act)) (h : Obeys State.init as) (s : State) (e : State.init.steps as = some s)
    (hq : s.tasks = []) (o : Nat) (ho : s.alive o = true) : ∃ l, s.cell l = .strong o ∧ s.okLoc l = true := by
  obtain ⟨s', e', hi⟩ := inv_steps as _ inv_init h
  rw [e] at e'
  cases e'
  obtain ⟨S, hc⟩ := hi.core
  have h1 := hi.counted o ho
  rw [hc.count o, hq] at h1
  have h2 : 0 < holds s.cell S o := h1
  unfold holds at h2
  rw [List.countP_pos_iff] at h2
  obtain ⟨l, _, hl⟩ := h2
  simp only [decide_eq_true_eq] at hl
  exact ⟨l, hl, hc.place l (by rw [hl]; simp)⟩

example : Obeys State.init handOverEnd ∧ (State.init.steps handOverEnd).map (fun s => (s.tasks, s.alive 0, s.alive 1)) = some ([], false, false) :=
  ⟨handOverEnd_obeys, by decide +kernel⟩

example : Obeys State.init (handOver.take 16) ∧ (State.init.steps (handOver.take 16)).map (fun s => (s.alive 0, s.rc 0, s.alive 1, s.rc 1)) =
    some (true, 2, true, 1) := ⟨obeysB_obeys (N := 6) _ _ (by decide +kernel), by decide +kernel⟩

/-- C57: when no release is pending the count of an object is the number of strong references to it. -/
theorem conc_count_partial (as : List (Nat × Act)) (h : Obeys State.init as) (s : State) (e : State.init.steps as = some s)
    (hq : s.tasks = []) : ∃ S : List Loc, S.Nodup ∧ (∀ l, s.cell l ≠ .null → l ∈ S) ∧
      ∀ o, s.rc o = (S.filter (fun l => s.cell l = .strong o)).length := by
  obtain ⟨s', e', hi⟩ := inv_steps as _ inv_init h
  rw [e] at e'
  cases e'
  obtain ⟨S, hc⟩ := hi.core
  refine ⟨S, hc.nodup, hc.cover, fun o => ?_⟩
  rw [hc.count o, hq, ← List.countP_eq_length_filter]
  rfl

example : Obeys State.init (handOver.take 5) ∧ (State.init.steps (handOver.take 5)).map (fun s => (s.tasks, s.rc 0)) = some ([], 3) :=
  ⟨obeysB_obeys (N := 6) _ _ (by decide +kernel), by decide +kernel⟩

/-- C57: an object that was freed is not used again: no place refers to it and its number is not given to a new object. -/
theorem conc_freed_partial (as bs : List (Nat × Act)) (h : Obeys State.init (as ++ bs)) (s s1 : State) (e : State.init.steps as = some s)
    (e1 : s.steps bs = some s1) (o : Nat) (ho : o < s.fresh) (hf : s.alive o = false) :
    s1.alive o = false ∧ ∀ l, s1.cell l ≠ .strong o ∧ s1.cell l ≠ .weak o := by
  have hl := (steps_later bs e1).2 o ho hf
  have e2 : State.init.steps (as ++ bs) = some s1 := by rw [steps_append, e]; exact e1
  refine ⟨hl, fun l => ⟨fun hx => ?_, fun hx => ?_⟩⟩
  · have := conc_no_dangling_partial _ h s1 e2 l o (Or.inl hx)
    rw [hl] at this; cases this
  · have := conc_no_dangling_partial _ h s1 e2 l o (Or.inr hx)
    rw [hl] at this; cases this

example : Obeys State.init (handOverEnd ++ [(0, .new 0 3)]) ∧
    (State.init.steps (handOverEnd ++ [(0, .new 0 3)])).map (fun s => (s.alive 0, s.alive 1, s.alive 2)) = some (false, false, true) :=
  ⟨obeysB_obeys (N := 6) _ _ (by decide +kernel), by decide +kernel⟩

/-! ## Where it fails -/

/-- The start of the race: threads 1 and 2 hold object 0, whose field holds object 1. -/
def shared : State :=
  { State.init with
    cell := fun l => if l = .var 1 0 ∨ l = .var 2 0 then .strong 0 else if l = .field 0 0 then .strong 1 else .null
    rc := fun o => if o = 0 then 2 else if o = 1 then 1 else 0
    alive := fun o => decide (o < 2)
    fields := fun o => if o = 0 then 1 else 0
    fresh := 2 }

/-- C57 fails for a field that one thread reads while another sets it: the read is not under the lock.  Every step uses only places
the thread may use, and the object is used after it was freed. -/
theorem conc_shared_read_violated :
    ∃ as : List (Nat × Act), as = [(1, .load (.field 0 0)), (2, .undef (.field 0 0)), (2, .run), (2, .run), (1, .store (.var 1 1))] ∧
      May shared 1 (.field 0 0) ∧ May shared 2 (.field 0 0) ∧ shared.steps as = none :=
  ⟨_, rfl, ⟨⟨0, by decide⟩, by decide⟩, ⟨⟨0, by decide⟩, by decide⟩, by decide⟩

/-- One thread.  `P->{x}` and `P->{child}` are fields of the parent (object 0, variable 0), the child (object 1) has a weak field
`parent`; object 2 is some other object in variable 2.  `P` is set to `undef`; in `DESTROY` of the child, when `x` is done, the weak
field is read, `x` is set to object 2 and made weak.  Then object 2 is released. -/
def lateSet : List (Nat × Act) :=
  [(0, .new 0 2), (0, .new 1 1), (0, .load (.var 0 1)), (0, .store (.field 0 1)), (0, .load (.var 0 0)), (0, .store (.field 1 0)),
   (0, .weaken (.field 1 0)), (0, .undef (.var 0 1)), (0, .run), (0, .new 2 0),
   -- `P = undef`: second critical section, then `x`, then `child`
   (0, .undef (.var 0 0)), (0, .run), (0, .run), (0, .run),
   -- the child is released: `DESTROY` begins
   (0, .run), (0, .self 3), (0, .load (.field 1 0)), (0, .store (.var 0 4)),
   (0, .load (.var 0 2)), (0, .store (.field 0 0)), (0, .weaken (.field 0 0)),
   -- its variables are released
   (0, .undef (.var 0 4)), (0, .run), (0, .undef (.var 0 3)), (0, .run),
   -- the child's field (one release of the parent), the child, the parent
   (0, .run), (0, .run), (0, .run), (0, .run),
   -- object 2 is released
   (0, .undef (.var 0 2)), (0, .run), (0, .run)]

/-- C57 fails when a destructor sets a field of an object that is being destroyed and was found by a weak reference: after the object
is freed, its memory is written to. -/
theorem conc_late_set_violated : State.init.steps lateSet = none ∧ (State.init.steps (lateSet.take 29)).isSome = true := by
  decide +kernel

/-- ... and if the field is not made weak, object 2 is never freed although nothing but a freed object refers to it. -/
theorem conc_late_leak_violated :
    (State.init.steps ((lateSet.take 20 ++ lateSet.drop 21) ++ List.replicate 9 (0, .run))).map (fun s => (s.tasks, s.alive 0, s.alive 2, s.rc 2)) =
      some ([], false, true, 1) := by
  decide +kernel

/-- `DESTROY` of object 0 keeps the invocant in a variable, which is set to `undef` later. -/
def keptSelf : List (Nat × Act) :=
  [(0, .new 0 1), (0, .undef (.var 0 0)), (0, .run), (0, .self 1), (0, .run), (0, .run), (0, .undef (.var 0 1)), (0, .run)]

/-- Even under the rules `DESTROY` may be called twice for one object, the second time when its fields were set to `undef`: here after
3 and after 8 steps, and in between no release is pending and the object is in use. -/
theorem conc_destroy_once_violated : Obeys State.init keptSelf ∧
    ((State.init.steps (keptSelf.take 3)).map (·.tasks) = some [(0, .clear 0 0)]) ∧
    ((State.init.steps (keptSelf.take 6)).map (fun s => (s.tasks, s.alive 0, s.cell (.var 0 1))) = some ([], true, .strong 0)) ∧
    ((State.init.steps keptSelf).map (·.tasks) = some [(0, .clear 0 0)]) :=
  ⟨obeysB_obeys (N := 6) _ _ (by decide +kernel), by decide +kernel, by decide +kernel, by decide +kernel⟩

end Conc
end SPVM
