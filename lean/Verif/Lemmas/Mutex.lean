import Verif.Spec.Mutex

namespace SPVM.Mutex

structure Inv (s : St σ ρ) : Prop where
  code : ∀ (t : Nat) (th : Thread σ ρ), s.threads[t]? = some th → Disciplined (modeOf s.rw t) th.code
  excl : s.rw.writer ≠ none → s.rw.readers = []
  nodup : s.rw.readers.Nodup
  wlt : ∀ t, s.rw.writer = some t → t < s.threads.length
  rlt : ∀ t, t ∈ s.rw.readers → t < s.threads.length

theorem modeOf_w {rw : Rw} {t : Nat} : modeOf rw t = .w ↔ rw.writer = some t := by
  unfold modeOf
  constructor
  · intro h
    by_cases hw : rw.writer = some t
    · exact hw
    · rw [if_neg hw] at h
      split at h <;> cases h
  · intro h; rw [if_pos h]

theorem modeOf_r {rw : Rw} {t : Nat} (h : modeOf rw t = .r) : rw.writer ≠ some t ∧ t ∈ rw.readers := by
  unfold modeOf at h
  by_cases hw : rw.writer = some t
  · rw [if_pos hw] at h; cases h
  · rw [if_neg hw] at h
    by_cases hr : t ∈ rw.readers
    · exact ⟨hw, hr⟩
    · rw [if_neg hr] at h; cases h

theorem modeOf_none {rw : Rw} {t : Nat} (h : modeOf rw t = .none) : rw.writer ≠ some t ∧ t ∉ rw.readers := by
  unfold modeOf at h
  by_cases hw : rw.writer = some t
  · rw [if_pos hw] at h; cases h
  · rw [if_neg hw] at h
    by_cases hr : t ∈ rw.readers
    · rw [if_pos hr] at h; cases h
    · exact ⟨hw, hr⟩

theorem get_set {l : List α} {t : Nat} {x y : α} (h : l[t]? = some x) (u : Nat) :
    (l.set t y)[u]? = if u = t then some y else l[u]? := by
  have hlt : t < l.length := by
    rcases Nat.lt_or_ge t l.length with h' | h'
    · exact h'
    · rw [List.getElem?_eq_none h'] at h; cases h
  rw [List.getElem?_set]
  by_cases hu : u = t
  · subst hu; simp [hlt]
  · rw [if_neg (fun e => hu e.symm), if_neg hu]

/-- What a step does: nothing (ended or waiting), or one instruction of the thread. -/
structure Did (s s' : St σ ρ) (t : Nat) : Prop where
  len : s'.threads.length = s.threads.length
  other : ∀ u, u ≠ t → s'.threads[u]? = s.threads[u]? ∧ modeOf s'.rw u = modeOf s.rw u
  mem : modeOf s.rw t ≠ .w → s'.mem = s.mem

theorem Did.refl (s : St σ ρ) (t : Nat) : Did s s t := ⟨rfl, fun _ _ => ⟨rfl, rfl⟩, fun _ => rfl⟩

/-- Building the invariant after an instruction of thread `t` that changes the lock to `rw`. -/
theorem inv_next {s : St σ ρ} (hi : Inv s) {t : Nat} {th : Thread σ ρ} (ht : s.threads[t]? = some th) {mem : σ} {rw : Rw}
    {c : List (Instr σ ρ)} {r : ρ} (hc : Disciplined (modeOf rw t) c) (ho : ∀ u, u ≠ t → modeOf rw u = modeOf s.rw u)
    (he : rw.writer ≠ none → rw.readers = []) (hn : rw.readers.Nodup)
    (hw : ∀ u, rw.writer = some u → u < s.threads.length) (hr : ∀ u, u ∈ rw.readers → u < s.threads.length) :
    Inv { mem := mem, rw := rw, threads := s.threads.set t ⟨c, r⟩ : St σ ρ } where
  code := by
    intro u th' hu
    have hu' : (s.threads.set t ⟨c, r⟩)[u]? = some th' := hu
    rw [get_set ht] at hu'
    by_cases hut : u = t
    · rw [if_pos hut] at hu'
      cases hu'
      subst hut
      exact hc
    · rw [if_neg hut] at hu'
      show Disciplined (modeOf rw u) th'.code
      rw [ho u hut]
      exact hi.code u th' hu'
  excl := he
  nodup := hn
  wlt := by intro u hu; have := hw u hu; simpa using this
  rlt := by intro u hu; have := hr u hu; simpa using this

theorem did_next {s : St σ ρ} {t : Nat} {th : Thread σ ρ} (ht : s.threads[t]? = some th) {mem : σ} {rw : Rw} {th' : Thread σ ρ}
    (ho : ∀ u, u ≠ t → modeOf rw u = modeOf s.rw u) (hm : modeOf s.rw t ≠ .w → mem = s.mem) :
    Did s { mem := mem, rw := rw, threads := s.threads.set t th' : St σ ρ } t where
  len := by simp
  other := by
    intro u hu
    refine ⟨?_, ho u hu⟩
    show (s.threads.set t th')[u]? = _
    rw [get_set ht, if_neg hu]
  mem := hm

/-- Where a step that is not a wait leads. -/
def Moves (s s' : St σ ρ) (t : Nat) : Prop :=
  ∃ th th', s.threads[t]? = some th ∧ s'.threads[t]? = some th' ∧ ∃ i, th.code = i :: th'.code

theorem moves_next {s : St σ ρ} {t : Nat} {th : Thread σ ρ} (ht : s.threads[t]? = some th) {i : Instr σ ρ}
    {rest : List (Instr σ ρ)} (hc : th.code = i :: rest) {mem : σ} {rw : Rw} {r : ρ} :
    Moves s { mem := mem, rw := rw, threads := s.threads.set t ⟨rest, r⟩ : St σ ρ } t := by
  refine ⟨th, ⟨rest, r⟩, ht, ?_, i, hc⟩
  show (s.threads.set t _)[t]? = _
  rw [get_set ht, if_pos rfl]

theorem lock_other {rw : Rw} {t : Nat} (h0 : rw.writer = none) (h1 : rw.readers = []) :
    ∀ u, u ≠ t → modeOf { rw with writer := some t } u = modeOf rw u := by
  intro u hu
  unfold modeOf
  simp [h0, h1, Ne.symm hu]

theorem unlock_other {rw : Rw} {t : Nat} (h0 : rw.writer = some t) (h1 : rw.readers = []) :
    ∀ u, u ≠ t → modeOf { rw with writer := none } u = modeOf rw u := by
  intro u hu
  unfold modeOf
  simp [h0, h1, Ne.symm hu]

theorem rlock_other {rw : Rw} {t : Nat} : ∀ u, u ≠ t → modeOf { rw with readers := t :: rw.readers } u = modeOf rw u := by
  intro u hu
  unfold modeOf
  simp [hu]

theorem runlock_other {rw : Rw} {t : Nat} :
    ∀ u, u ≠ t → modeOf { rw with readers := rw.readers.erase t } u = modeOf rw u := by
  intro u hu
  unfold modeOf
  simp [List.mem_erase_of_ne hu]

theorem step_inv {s : St σ ρ} (hi : Inv s) (t : Nat) :
    ∃ s', step s t = .ok s' ∧ Inv s' ∧ Did s s' t ∧
      (Moves s s' t ∨ s' = s ∧ ∀ th i c, s.threads[t]? = some th → th.code = i :: c →
        modeOf s.rw t = .none ∧ (s.rw.writer ≠ none ∨ s.rw.readers ≠ [])) := by
  unfold step
  cases ht : s.threads[t]? with
  | none => exact ⟨s, rfl, hi, Did.refl s t, .inr ⟨rfl, by intro th i c h; cases h⟩⟩
  | some th =>
    have hd := hi.code t th ht
    have hlt : t < s.threads.length := by
      rcases Nat.lt_or_ge t s.threads.length with h' | h'
      · exact h'
      · rw [List.getElem?_eq_none h'] at ht; cases ht
    cases hc : th.code with
    | nil =>
      refine ⟨s, by simp [hc], hi, Did.refl s t, .inr ⟨rfl, ?_⟩⟩
      intro th' i c h1 h2
      cases h1
      rw [hc] at h2; cases h2
    | cons i rest =>
      rw [hc] at hd
      have same : ∀ (mem : σ) (r : ρ), Disciplined (modeOf s.rw t) rest →
          (modeOf s.rw t ≠ .w → mem = s.mem) →
          Inv { s with mem := mem, threads := s.threads.set t ⟨rest, r⟩ } ∧
          Did s { s with mem := mem, threads := s.threads.set t ⟨rest, r⟩ } t ∧
          Moves s { s with mem := mem, threads := s.threads.set t ⟨rest, r⟩ } t := by
        intro mem r h1 h2
        exact ⟨inv_next hi ht h1 (fun _ _ => rfl) hi.excl hi.nodup hi.wlt hi.rlt, did_next ht (fun _ _ => rfl) h2,
          moves_next ht hc⟩
      cases i with
      | write f =>
        have hd' : modeOf s.rw t = .w ∧ Disciplined (modeOf s.rw t) rest := hd
        obtain ⟨a, b, c⟩ := same (f s.mem th.reg).1 (f s.mem th.reg).2 hd'.2 (fun h => absurd hd'.1 h)
        exact ⟨_, by simp [hc], a, b, .inl c⟩
      | read g =>
        have hd' : modeOf s.rw t ≠ .none ∧ Disciplined (modeOf s.rw t) rest := hd
        obtain ⟨a, b, c⟩ := same s.mem (g s.mem th.reg) hd'.2 (fun _ => rfl)
        exact ⟨_, by simp [hc], a, b, .inl c⟩
      | loc h =>
        have hd' : Disciplined (modeOf s.rw t) rest := hd
        obtain ⟨a, b, c⟩ := same s.mem (h th.reg) hd' (fun _ => rfl)
        exact ⟨_, by simp [hc], a, b, .inl c⟩
      | lock =>
        have hd' : modeOf s.rw t = .none ∧ Disciplined .w rest := hd
        obtain ⟨h1, h2⟩ := modeOf_none hd'.1
        by_cases hfree : s.rw.writer = none ∧ s.rw.readers = []
        · refine ⟨_, by simp only [hc, callOf, wrlock, if_neg h1, if_pos hfree]; rfl, ?_, ?_, .inl (moves_next ht hc)⟩
          · refine inv_next hi ht ?_ (lock_other hfree.1 hfree.2) (fun _ => hfree.2) hi.nodup ?_ hi.rlt
            · have : modeOf { s.rw with writer := some t } t = .w := modeOf_w.2 rfl
              rw [this]; exact hd'.2
            · intro u hu
              have : t = u := by simpa using hu
              omega
          · exact did_next ht (lock_other hfree.1 hfree.2) (fun _ => rfl)
        · refine ⟨s, by simp [hc, callOf, wrlock, if_neg h1, if_neg hfree], hi, Did.refl s t, .inr ⟨rfl, ?_⟩⟩
          intro _ _ _ _ _
          refine ⟨hd'.1, ?_⟩
          by_cases hw : s.rw.writer = none
          · exact .inr (fun e => hfree ⟨hw, e⟩)
          · exact .inl hw
      | readerLock =>
        have hd' : modeOf s.rw t = .none ∧ Disciplined .r rest := hd
        obtain ⟨h1, h2⟩ := modeOf_none hd'.1
        by_cases hfree : s.rw.writer = none
        · refine ⟨_, by simp only [hc, callOf, rdlock, if_neg h1, if_pos hfree]; rfl, ?_, ?_, .inl (moves_next ht hc)⟩
          · refine inv_next hi ht ?_ rlock_other (fun h => absurd hfree h) (List.nodup_cons.2 ⟨h2, hi.nodup⟩) hi.wlt ?_
            · have : modeOf { s.rw with readers := t :: s.rw.readers } t = .r := by simp [modeOf, hfree]
              rw [this]; exact hd'.2
            · intro u hu
              rcases List.mem_cons.1 hu with h | h
              · omega
              · exact hi.rlt u h
          · exact did_next ht rlock_other (fun _ => rfl)
        · refine ⟨s, by simp [hc, callOf, rdlock, if_neg h1, if_neg hfree], hi, Did.refl s t, .inr ⟨rfl, ?_⟩⟩
          intro _ _ _ _ _
          exact ⟨hd'.1, .inl hfree⟩
      | unlock =>
        have hd' : modeOf s.rw t = .w ∧ Disciplined .none rest := hd
        have hw := modeOf_w.1 hd'.1
        have hr : s.rw.readers = [] := hi.excl (by rw [hw]; exact Option.some_ne_none _)
        refine ⟨_, by simp only [hc, callOf, rwunlock, if_pos hw]; rfl, ?_, ?_, .inl (moves_next ht hc)⟩
        · refine inv_next hi ht ?_ (unlock_other hw hr) (fun h => absurd rfl h) hi.nodup ?_ hi.rlt
          · have : modeOf { s.rw with writer := none } t = .none := by simp [modeOf, hr]
            rw [this]; exact hd'.2
          · intro u hu; cases hu
        · exact did_next ht (unlock_other hw hr) (fun _ => rfl)
      | readerUnlock =>
        have hd' : modeOf s.rw t = .r ∧ Disciplined .none rest := hd
        obtain ⟨h1, h2⟩ := modeOf_r hd'.1
        refine ⟨_, by simp only [hc, callOf, rwunlock, if_neg h1, if_pos h2]; rfl, ?_, ?_, .inl (moves_next ht hc)⟩
        · refine inv_next hi ht ?_ runlock_other ?_ (hi.nodup.erase t) hi.wlt ?_
          · have h3 : t ∉ s.rw.readers.erase t := by
              intro h
              exact (List.Nodup.mem_erase_iff hi.nodup).1 h |>.1 rfl
            have : modeOf { s.rw with readers := s.rw.readers.erase t } t = .none := by
              simp only [modeOf, if_neg h1, if_neg h3]
            rw [this]; exact hd'.2
          · intro h
            have := hi.excl h
            rw [this] at h2; cases h2
          · intro u hu
            exact hi.rlt u (List.mem_of_mem_erase hu)
        · exact did_next ht runlock_other (fun _ => rfl)

theorem run_inv {s : St σ ρ} (hi : Inv s) : ∀ (sched : List Nat), ∃ s', run s sched = .ok s' ∧ Inv s' := by
  intro sched
  induction sched generalizing s with
  | nil => exact ⟨s, rfl, hi⟩
  | cons t ts ih =>
    obtain ⟨s1, h1, h2, _⟩ := step_inv hi t
    obtain ⟨s2, h3, h4⟩ := ih h2
    exact ⟨s2, by simp only [run, h1, Out.ok_bind]; exact h3, h4⟩

theorem inv_start {s : St σ ρ} (h0 : s.rw = {}) (hd : ∀ th ∈ s.threads, Disciplined .none th.code) : Inv s where
  code := by
    intro t th ht
    rw [h0]
    exact hd th (List.mem_of_getElem? ht)
  excl := by intro _; rw [h0]
  nodup := by rw [h0]; exact List.nodup_nil
  wlt := by intro t h; rw [h0] at h; cases h
  rlt := by intro t h; rw [h0] at h; cases h

theorem inv_reached {s₀ s : St σ ρ} (h : Reached s₀ s) : Inv s := by
  obtain ⟨h0, hd, sched, hr⟩ := h
  obtain ⟨s', h1, h2⟩ := run_inv (inv_start h0 hd) sched
  rw [hr] at h1
  cases h1
  exact h2

theorem run_append (s : St σ ρ) (a b : List Nat) : run s (a ++ b) = (run s a).bind (fun s' => run s' b) := by
  induction a generalizing s with
  | nil => rfl
  | cons t ts ih =>
    simp only [List.cons_append, run]
    cases step s t with
    | ok s1 => simp only [Out.ok_bind]; exact ih s1
    | die m => rfl
    | ub => rfl

/-! ### Progress -/

def codeSize (s : St σ ρ) : Nat := (s.threads.map fun th => th.code.length).sum

theorem sum_set {l : List α} (f : α → Nat) : ∀ {t : Nat} {x y : α}, l[t]? = some x →
    ((l.set t y).map f).sum + f x = (l.map f).sum + f y := by
  induction l with
  | nil => intro t x y h; simp at h
  | cons a as ih =>
    intro t x y h
    cases t with
    | zero =>
      have : a = x := by simpa using h
      subst this
      simp; omega
    | succ t =>
      have := ih (y := y) (show as[t]? = some x by simpa using h)
      simp only [List.set_cons_succ, List.map_cons, List.sum_cons]
      omega

theorem set_of_others {l l' : List α} {t : Nat} {y : α} (hlen : l'.length = l.length) (ho : ∀ u, u ≠ t → l'[u]? = l[u]?)
    (ht : l'[t]? = some y) : l' = l.set t y := by
  have hlt : t < l.length := by
    rcases Nat.lt_or_ge t l.length with h' | h'
    · exact h'
    · rw [List.getElem?_eq_none (by omega)] at ht; cases ht
  apply List.ext_getElem?
  intro u
  rw [List.getElem?_set]
  by_cases hu : t = u
  · subst hu; simp [hlt, ht]
  · rw [if_neg hu, ho u (fun e => hu e.symm)]

theorem codeSize_moves {s s' : St σ ρ} {t : Nat} (hd : Did s s' t) (hm : Moves s s' t) : codeSize s' + 1 = codeSize s := by
  obtain ⟨th, th', h1, h2, i, h3⟩ := hm
  have hset := set_of_others hd.len (fun u hu => (hd.other u hu).1) h2
  have := sum_set (l := s.threads) (fun th => th.code.length) (y := th') h1
  unfold codeSize
  rw [hset]
  simp only [h3, List.length_cons] at this
  omega

theorem can_move {s : St σ ρ} (hi : Inv s) (hne : ¬ Ended s) : ∃ t s', step s t = .ok s' ∧ Inv s' ∧ Did s s' t ∧ Moves s s' t := by
  have go : ∀ t th, s.threads[t]? = some th → th.code ≠ [] →
      (modeOf s.rw t ≠ .none ∨ (s.rw.writer = none ∧ s.rw.readers = [])) →
      ∃ t s', step s t = .ok s' ∧ Inv s' ∧ Did s s' t ∧ Moves s s' t := by
    intro t th ht hc hm
    obtain ⟨s', h1, h2, h3, h4⟩ := step_inv hi t
    rcases h4 with h4 | ⟨_, h4⟩
    · exact ⟨t, s', h1, h2, h3, h4⟩
    · exfalso
      cases hcc : th.code with
      | nil => exact hc hcc
      | cons i c =>
        obtain ⟨h5, h6⟩ := h4 th i c ht hcc
        rcases hm with hm | ⟨hm1, hm2⟩
        · exact hm h5
        · rcases h6 with h6 | h6
          · exact h6 hm1
          · exact h6 hm2
  have holder : ∀ t, t < s.threads.length → modeOf s.rw t ≠ .none →
      ∃ t s', step s t = .ok s' ∧ Inv s' ∧ Did s s' t ∧ Moves s s' t := by
    intro t ht hm
    have hg : s.threads[t]? = some s.threads[t] := List.getElem?_eq_getElem ht
    refine go t _ hg ?_ (.inl hm)
    intro hnil
    have := hi.code t _ hg
    rw [hnil] at this
    exact hm this
  cases hw : s.rw.writer with
  | some t => exact holder t (hi.wlt t hw) (by rw [modeOf_w.2 hw]; decide)
  | none =>
    cases hr : s.rw.readers with
    | cons t ts =>
      refine holder t (hi.rlt t (by rw [hr]; simp)) ?_
      simp [modeOf, hw, hr]
    | nil =>
      have : ∃ th ∈ s.threads, th.code ≠ [] := by
        apply Classical.byContradiction
        intro h
        apply hne
        intro th hth
        apply Classical.byContradiction
        intro hc
        exact h ⟨th, hth, hc⟩
      obtain ⟨th, hth, hc⟩ := this
      obtain ⟨t, ht⟩ := List.getElem?_of_mem hth
      exact go t th ht hc (.inr ⟨hw, hr⟩)

theorem can_end : ∀ (n : Nat) {s : St σ ρ}, Inv s → codeSize s ≤ n → ∃ sched s', run s sched = .ok s' ∧ Ended s' := by
  intro n
  induction n with
  | zero =>
    intro s hi hn
    by_cases he : Ended s
    · exact ⟨[], s, rfl, he⟩
    · obtain ⟨t, s', h1, h2, h3, h4⟩ := can_move hi he
      have := codeSize_moves h3 h4
      omega
  | succ n ih =>
    intro s hi hn
    by_cases he : Ended s
    · exact ⟨[], s, rfl, he⟩
    · obtain ⟨t, s', h1, h2, h3, h4⟩ := can_move hi he
      have := codeSize_moves h3 h4
      obtain ⟨sched, s'', h5, h6⟩ := ih h2 (by omega)
      exact ⟨t :: sched, s'', by simp only [run, h1, Out.ok_bind]; exact h5, h6⟩

/-! ### Conditions kept by sections -/

structure KInv (P : σ → Prop) (s : St σ ρ) : Prop where
  keep : ∀ (t : Nat) (th : Thread σ ρ), s.threads[t]? = some th → Keeps P (modeOf s.rw t) th.code s.mem th.reg
  free : s.rw.writer = none → P s.mem

theorem keeps_none {P : σ → Prop} : ∀ (c : List (Instr σ ρ)) (m m' : σ) (r : ρ), Disciplined .none c → Keeps P .none c m r →
    Keeps P .none c m' r := by
  intro c
  induction c with
  | nil => intros; trivial
  | cons i c ih =>
    intro m m' r hd hk
    cases i with
    | loc h => exact ih m m' (h r) hd hk
    | lock => exact hk
    | readerLock => exact hk
    | unlock => exact absurd hd.1 Mode.noConfusion
    | readerUnlock => exact absurd hd.1 Mode.noConfusion
    | write f => exact absurd hd.1 Mode.noConfusion
    | read g => exact absurd rfl hd.1

/-- The condition after an instruction of thread `t`. -/
theorem kinv_next {P : σ → Prop} {s : St σ ρ} (hi : Inv s) (hk : KInv P s) {t : Nat} {th : Thread σ ρ}
    (ht : s.threads[t]? = some th) {mem : σ} {rw : Rw} {c : List (Instr σ ρ)} {r : ρ}
    (ho : ∀ u, u ≠ t → modeOf rw u = modeOf s.rw u) (hc : Keeps P (modeOf rw t) c mem r)
    (hmem : mem = s.mem ∨ modeOf s.rw t = .w) (hf : rw.writer = none → P mem) :
    KInv P { mem := mem, rw := rw, threads := s.threads.set t ⟨c, r⟩ : St σ ρ } where
  keep := by
    intro u th' hu
    have hu' : (s.threads.set t ⟨c, r⟩)[u]? = some th' := hu
    rw [get_set ht] at hu'
    by_cases hut : u = t
    · rw [if_pos hut] at hu'
      cases hu'
      subst hut
      exact hc
    · rw [if_neg hut] at hu'
      show Keeps P (modeOf rw u) th'.code mem th'.reg
      rw [ho u hut]
      rcases hmem with hmem | hmem
      · rw [hmem]; exact hk.keep u th' hu'
      · have hw := modeOf_w.1 hmem
        have hnone : modeOf s.rw u = .none := by
          unfold modeOf
          rw [hw, hi.excl (by rw [hw]; exact Option.some_ne_none _), if_neg (fun e => hut (Option.some.inj e).symm)]
          simp
        have h1 := hi.code u th' hu'
        have h2 := hk.keep u th' hu'
        rw [hnone] at h1 h2 ⊢
        exact keeps_none _ _ _ _ h1 h2
  free := hf

theorem kinv_step {P : σ → Prop} {s s' : St σ ρ} (hi : Inv s) (hk : KInv P s) {t : Nat} (hs : step s t = .ok s') :
    KInv P s' := by
  unfold step at hs
  cases ht : s.threads[t]? with
  | none => rw [ht] at hs; cases hs; exact hk
  | some th =>
    rw [ht] at hs
    have hd := hi.code t th ht
    have hkt := hk.keep t th ht
    cases hc : th.code with
    | nil => simp only [hc] at hs; cases hs; exact hk
    | cons i rest =>
      rw [hc] at hd hkt
      simp only [hc] at hs
      cases i with
      | write f =>
        have hw : modeOf s.rw t = .w := hd.1
        cases hs
        refine kinv_next hi hk ht (fun _ _ => rfl) hkt (.inr hw) ?_
        intro h
        have h' : s.rw.writer = none := h
        rw [modeOf_w.1 hw] at h'; cases h'
      | read g => cases hs; exact kinv_next hi hk ht (fun _ _ => rfl) hkt (.inl rfl) hk.free
      | loc h => cases hs; exact kinv_next hi hk ht (fun _ _ => rfl) hkt (.inl rfl) hk.free
      | lock =>
        have hd' : modeOf s.rw t = .none := hd.1
        obtain ⟨h1, _⟩ := modeOf_none hd'
        by_cases hfree : s.rw.writer = none ∧ s.rw.readers = []
        · simp only [callOf, wrlock, if_neg h1, if_pos hfree] at hs
          cases hs
          refine kinv_next hi hk ht (lock_other hfree.1 hfree.2) ?_ (.inl rfl) (fun h => by cases h)
          have : modeOf { s.rw with writer := some t } t = .w := modeOf_w.2 rfl
          rw [this]
          exact hkt s.mem (hk.free hfree.1)
        · simp only [callOf, wrlock, if_neg h1, if_neg hfree] at hs
          cases hs; exact hk
      | readerLock =>
        have hd' : modeOf s.rw t = .none := hd.1
        obtain ⟨h1, _⟩ := modeOf_none hd'
        by_cases hfree : s.rw.writer = none
        · simp only [callOf, rdlock, if_neg h1, if_pos hfree] at hs
          cases hs
          refine kinv_next hi hk ht rlock_other ?_ (.inl rfl) (fun _ => hk.free hfree)
          have : modeOf { s.rw with readers := t :: s.rw.readers } t = .r := by simp [modeOf, hfree]
          rw [this]
          exact hkt s.mem (hk.free hfree)
        · simp only [callOf, rdlock, if_neg h1, if_neg hfree] at hs
          cases hs; exact hk
      | unlock =>
        have hw := modeOf_w.1 hd.1
        have hr : s.rw.readers = [] := hi.excl (by rw [hw]; exact Option.some_ne_none _)
        simp only [callOf, rwunlock, if_pos hw] at hs
        cases hs
        refine kinv_next hi hk ht (unlock_other hw hr) ?_ (.inl rfl) (fun _ => hkt.1)
        have : modeOf { s.rw with writer := none } t = .none := by simp [modeOf, hr]
        rw [this]
        exact hkt.2 s.mem hkt.1
      | readerUnlock =>
        obtain ⟨h1, h2⟩ := modeOf_r hd.1
        have hwn : s.rw.writer = none := by
          cases hw : s.rw.writer with
          | none => rfl
          | some u =>
            have := hi.excl (by rw [hw]; exact Option.some_ne_none _)
            rw [this] at h2; cases h2
        simp only [callOf, rwunlock, if_neg h1, if_pos h2] at hs
        cases hs
        refine kinv_next hi hk ht runlock_other ?_ (.inl rfl) hk.free
        have h3 : t ∉ s.rw.readers.erase t := by
          intro h
          exact (List.Nodup.mem_erase_iff hi.nodup).1 h |>.1 rfl
        have : modeOf { s.rw with readers := s.rw.readers.erase t } t = .none := by
          simp only [modeOf, if_neg h1, if_neg h3]
        rw [this]
        exact hkt s.mem (hk.free hwn)

theorem kinv_run {P : σ → Prop} : ∀ (sched : List Nat) {s s' : St σ ρ}, Inv s → KInv P s → run s sched = .ok s' → KInv P s' := by
  intro sched
  induction sched with
  | nil => intro s s' _ hk hr; cases hr; exact hk
  | cons t ts ih =>
    intro s s' hi hk hr
    obtain ⟨s1, h1, h2, _⟩ := step_inv hi t
    simp only [run, h1, Out.ok_bind] at hr
    exact ih h2 (kinv_step hi hk h1) hr

/-! ### Adding threads -/

inductive Phase (mem : Int) (m : Mode) (th : Thread Int Int) : Int → Prop where
  | idle (ds : List Int) : th.code = adder ds → m = .none → Phase mem m th (total ds)
  | locked (d : Int) (ds : List Int) :
      th.code = .read (fun x _ => x) :: .write (fun _ r => (r + d, r)) :: .unlock :: adder ds → m = .w →
      Phase mem m th (d + total ds)
  | loaded (d : Int) (ds : List Int) : th.code = .write (fun _ r => (r + d, r)) :: .unlock :: adder ds → m = .w →
      th.reg = mem → Phase mem m th (d + total ds)
  | stored (ds : List Int) : th.code = .unlock :: adder ds → m = .w → Phase mem m th (total ds)

structure AInv (c : Int) (s : St Int Int) (pend : List Int) : Prop where
  nor : s.rw.readers = []
  len : pend.length = s.threads.length
  phase : ∀ (t : Nat) (th : Thread Int Int), s.threads[t]? = some th →
    ∃ p, pend[t]? = some p ∧ Phase s.mem (modeOf s.rw t) th p
  sum : s.mem + total pend = c

theorem total_set : ∀ {l : List Int} {t : Nat} {x y : Int}, l[t]? = some x → total (l.set t y) = total l - x + y := by
  intro l
  induction l with
  | nil => intro t x y h; simp at h
  | cons a as ih =>
    intro t x y h
    cases t with
    | zero =>
      have : a = x := by simpa using h
      subst this
      simp [total]; omega
    | succ t =>
      have := ih (y := y) (show as[t]? = some x by simpa using h)
      simp only [List.set_cons_succ, total, this]
      omega

/-- The invariant after an instruction of thread `t` that leaves it in a phase with `p'` to add. -/
theorem ainv_next {c : Int} {s : St Int Int} {pend : List Int} (ha : AInv c s pend) {t : Nat} {th th' : Thread Int Int} {p p' : Int}
    (ht : s.threads[t]? = some th) (hp : pend[t]? = some p) {mem : Int} {rw : Rw} (hr : rw.readers = [])
    (ho : ∀ u, u ≠ t → modeOf rw u = modeOf s.rw u) (hph : Phase mem (modeOf rw t) th' p')
    (hmem : mem = s.mem ∨ modeOf s.rw t = .w) (hsum : mem + p' = s.mem + p) :
    AInv c { mem := mem, rw := rw, threads := s.threads.set t th' } (pend.set t p') where
  nor := hr
  len := by simp [ha.len]
  phase := by
    intro u thu hu
    have hu' : (s.threads.set t th')[u]? = some thu := hu
    rw [get_set ht] at hu'
    rw [get_set hp]
    by_cases hut : u = t
    · rw [if_pos hut] at hu' ⊢
      cases hu'
      subst hut
      exact ⟨p', rfl, hph⟩
    · rw [if_neg hut] at hu' ⊢
      obtain ⟨q, hq, hphu⟩ := ha.phase u thu hu'
      refine ⟨q, hq, ?_⟩
      show Phase mem (modeOf rw u) thu q
      rw [ho u hut]
      rcases hmem with hmem | hmem
      · rw [hmem]; exact hphu
      · have hw := modeOf_w.1 hmem
        have hnw : modeOf s.rw u ≠ .w := by
          intro h
          have := modeOf_w.1 h
          rw [hw] at this
          exact hut (Option.some.inj this).symm
        cases hphu with
        | idle ds h1 h2 => exact .idle ds h1 h2
        | locked d ds h1 h2 => exact absurd h2 hnw
        | loaded d ds h1 h2 _ => exact absurd h2 hnw
        | stored ds h1 h2 => exact absurd h2 hnw
  sum := by
    show mem + total (pend.set t p') = c
    rw [total_set hp]
    have := ha.sum
    omega

theorem ainv_step {c : Int} {s s' : St Int Int} {pend : List Int} (ha : AInv c s pend) {t : Nat} (hs : step s t = .ok s') :
    ∃ pend', AInv c s' pend' := by
  unfold step at hs
  cases ht : s.threads[t]? with
  | none => rw [ht] at hs; cases hs; exact ⟨pend, ha⟩
  | some th =>
    rw [ht] at hs
    obtain ⟨p, hp, hph⟩ := ha.phase t th ht
    cases hph with
    | idle ds h1 h2 =>
      cases ds with
      | nil => simp only [h1, adder] at hs; cases hs; exact ⟨pend, ha⟩
      | cons d ds =>
        obtain ⟨hw, _⟩ := modeOf_none h2
        simp only [h1, adder, callOf, wrlock, if_neg hw] at hs
        by_cases hfree : s.rw.writer = none ∧ s.rw.readers = []
        · rw [if_pos hfree] at hs
          cases hs
          refine ⟨_, ainv_next ha ht hp (p' := d + total ds) ha.nor (lock_other hfree.1 hfree.2) ?_ (.inl rfl) rfl⟩
          exact .locked d ds rfl (modeOf_w.2 rfl)
        · rw [if_neg hfree] at hs
          cases hs
          exact ⟨pend, ha⟩
    | locked d ds h1 h2 =>
      simp only [h1] at hs
      cases hs
      exact ⟨_, ainv_next ha ht hp (p' := d + total ds) ha.nor (fun _ _ => rfl) (.loaded d ds rfl h2 rfl) (.inl rfl) rfl⟩
    | loaded d ds h1 h2 h3 =>
      simp only [h1] at hs
      cases hs
      refine ⟨_, ainv_next ha ht hp (p' := total ds) ha.nor (fun _ _ => rfl) (.stored ds rfl h2) (.inr h2) ?_⟩
      rw [h3]; omega
    | stored ds h1 h2 =>
      have hw := modeOf_w.1 h2
      simp only [h1, callOf, rwunlock, if_pos hw] at hs
      cases hs
      refine ⟨_, ainv_next ha ht hp (p' := total ds) ha.nor (unlock_other hw ha.nor) (.idle ds rfl ?_) (.inl rfl) rfl⟩
      simp [modeOf, ha.nor]

theorem ainv_run {c : Int} : ∀ (sched : List Nat) {s s' : St Int Int} {pend : List Int}, AInv c s pend → run s sched = .ok s' →
    ∃ pend', AInv c s' pend' := by
  intro sched
  induction sched with
  | nil => intro s s' pend ha hr; cases hr; exact ⟨pend, ha⟩
  | cons t ts ih =>
    intro s s' pend ha hr
    simp only [run] at hr
    cases hs : step s t with
    | ok s1 =>
      rw [hs, Out.ok_bind] at hr
      obtain ⟨p1, h1⟩ := ainv_step ha hs
      exact ih h1 hr
    | die m => rw [hs] at hr; cases hr
    | ub => rw [hs] at hr; cases hr

theorem total_zero : ∀ (l : List Int), (∀ x ∈ l, x = 0) → total l = 0 := by
  intro l
  induction l with
  | nil => intro _; rfl
  | cons a as ih =>
    intro h
    simp only [total, h a (by simp), ih (fun x hx => h x (List.mem_cons_of_mem _ hx))]
    omega

theorem adder_nil {ds : List Int} (h : adder ds = []) : ds = [] := by
  cases ds with
  | nil => rfl
  | cons d ds => simp [adder] at h

theorem adder_disciplined (ds : List Int) : Disciplined .none (adder ds) := by
  induction ds with
  | nil => rfl
  | cons d ds ih => exact ⟨rfl, Mode.noConfusion, rfl, rfl, ih⟩

end SPVM.Mutex
