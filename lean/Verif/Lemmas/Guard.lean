import Verif.Spec.Guard

namespace SPVM.Guard

theorem bind_ok {x : Out α} {f : α → Out β} {b : β} (h : (x >>= f) = .ok b) : ∃ a, x = .ok a ∧ f a = .ok b := by
  cases x with
  | ok a => exact ⟨a, rfl, h⟩
  | die e => cases h
  | ub => cases h

/-- As `EachOnce`, with guards that are pending before and after. -/
def Step (p p' : List Nat) (s s' : Sh) : Prop :=
  s.next ≤ s'.next ∧ ∃ l, s'.log = s.log ++ l ∧
    ∀ k, l.count (.reg k) = made s.next s'.next k ∧ l.count (.run k) + p'.count k = p.count k + made s.next s'.next k

theorem made_self (a k : Nat) : made a a k = 0 := by unfold made; rw [if_neg (by omega)]

theorem made_add {a b c : Nat} (h1 : a ≤ b) (h2 : b ≤ c) (k : Nat) : made a b k + made b c k = made a c k := by
  unfold made
  by_cases x : a ≤ k ∧ k < b
  · rw [if_pos x, if_neg (by omega), if_pos (by omega)]
  · rw [if_neg x]
    by_cases y : b ≤ k ∧ k < c
    · rw [if_pos y, if_pos (by omega)]
    · rw [if_neg y, if_neg (by omega)]

theorem Step.trans {p q r : List Nat} {s t u : Sh} (h1 : Step p q s t) (h2 : Step q r t u) : Step p r s u := by
  obtain ⟨n1, l1, e1, c1⟩ := h1
  obtain ⟨n2, l2, e2, c2⟩ := h2
  refine ⟨by omega, l1 ++ l2, by rw [e2, e1, List.append_assoc], fun k => ?_⟩
  have := made_add n1 n2 k
  have := c1 k
  have := c2 k
  rw [List.count_append, List.count_append]
  omega

theorem Step.frame {p q : List Nat} {s t : Sh} (h : Step p q s t) (x : List Nat) : Step (x ++ p) (x ++ q) s t := by
  obtain ⟨n, l, e, c⟩ := h
  refine ⟨n, l, e, fun k => ?_⟩
  have := c k
  rw [List.count_append, List.count_append]
  omega

theorem Step.refl (p : List Nat) (s : Sh) : Step p p s s :=
  ⟨Nat.le_refl _, [], by simp, fun k => by simp [made_self]⟩

/-- A change of `$@` only. -/
theorem Step.exc {p q : List Nat} {s t : Sh} (h : Step p q s t) (e e' : Option Except.Msg) :
    Step p q { s with exc := e } { t with exc := e' } := h

/-- An event that is not about guards. -/
theorem Step.log (p : List Nat) (s : Sh) {e : Ev} (h1 : ∀ k, e ≠ .reg k) (h2 : ∀ k, e ≠ .run k) :
    Step p p s { s with log := s.log ++ [e] } := by
  refine ⟨Nat.le_refl _, [e], rfl, fun k => ?_⟩
  show List.count _ [e] = made s.next s.next k ∧ List.count _ [e] + _ = _ + made s.next s.next k
  rw [made_self, List.count_eq_zero.2 (by simp; exact fun c => h1 k c.symm), List.count_eq_zero.2 (by simp; exact fun c => h2 k c.symm)]
  omega

theorem eachOnce_iff {s s' : Sh} : EachOnce s s' ↔ Step [] [] s s' := by
  unfold EachOnce Step
  simp

/-- What is relied on of a guard that waits. -/
def Fine (g : Guard) : Prop := ∀ s s', g.run s = .ok s' → Step [g.k] [] s s'
def Quiet (g : Guard) : Prop := ∀ s s', g.run s = .ok s' → s'.exc = s.exc

def ids (gs : List Guard) : List Nat := gs.map (·.k)

theorem leave_step : ∀ (gs : List Guard) {s s' : Sh}, (∀ g ∈ gs, Fine g) → leave gs s = .ok s' → Step (ids gs) [] s s'
  | [], s, s', _, h => by cases h; exact Step.refl _ _
  | g :: gs, s, s', hg, h => by
    obtain ⟨t, h1, h2⟩ := bind_ok h
    have a := hg g List.mem_cons_self s t h1
    have b := leave_step gs (fun g' h' => hg g' (List.mem_cons_of_mem _ h')) h2
    have a' : Step (ids (g :: gs)) (ids gs) s t := by
      obtain ⟨n, l, e, c⟩ := a
      refine ⟨n, l, e, fun k => ?_⟩
      have := c k
      have hc : (ids (g :: gs)).count k = [g.k].count k + (ids gs).count k := by
        rw [show ids (g :: gs) = [g.k] ++ ids gs from rfl, List.count_append]
      rw [hc]
      rw [List.count_nil] at this
      omega
    exact a'.trans b

theorem leave_exc : ∀ (gs : List Guard) {s s' : Sh}, (∀ g ∈ gs, Quiet g) → leave gs s = .ok s' → s'.exc = s.exc
  | [], s, s', _, h => by cases h; rfl
  | g :: gs, s, s', hg, h => by
    obtain ⟨t, h1, h2⟩ := bind_ok h
    rw [leave_exc gs (fun g' h' => hg g' (List.mem_cons_of_mem _ h')) h2, hg g List.mem_cons_self s t h1]

theorem leaveScope_ok {top : Nat} {f f' : Fr} (h : leaveScope top f = .ok f') :
    ∃ s, leave (f.mortal.drop top) f.sh = .ok s ∧ f' = { f with sh := s, mortal := f.mortal.take top } := by
  obtain ⟨s, h1, h2⟩ := bind_ok h
  cases h2
  exact ⟨s, h1, rfl⟩

/-- Leaving a scope whose mortal stack has grown from `old`. -/
theorem leaveScope_step {old more : List Guard} {f f' : Fr} (hm : f.mortal = old ++ more) (hg : ∀ g ∈ f.mortal, Fine g)
    (h : leaveScope old.length f = .ok f') :
    f'.mortal = old ∧ f'.evalErr = f.evalErr ∧ Step (ids f.mortal) (ids old) f.sh f'.sh := by
  obtain ⟨s, h1, rfl⟩ := leaveScope_ok h
  rw [hm, List.drop_left] at h1
  refine ⟨by simp only [hm, List.take_left], rfl, ?_⟩
  have := (leave_step more (fun g h' => hg g (by rw [hm]; exact List.mem_append_right _ h')) h1).frame (ids old)
  rw [List.append_nil] at this
  rw [hm]
  unfold ids at *
  rw [List.map_append]
  exact this

theorem onExc_step {depth : Nat} {m line err} {s : Sh} {r : Flow × Sh} (h : onExc depth m line err s = .ok r) (p : List Nat) :
    Step p p s r.2 := by
  unfold onExc at h
  split at h
  · cases h; exact Step.refl _ _
  · obtain ⟨e, _, h2⟩ := bind_ok h
    cases h2
    exact (Step.refl p s).exc s.exc e

theorem callAt_step {depth : Nat} {run : Sh → Out (Int × Sh)} {s : Sh} {r : Int × Sh} {p q : List Nat} (hd : depth + 1 ≤ 1000)
    (hr : ∀ r, run s = .ok r → Step p q s r.2) (h : callAt depth run s = .ok r) : Step p q s r.2 := by
  unfold callAt at h
  rw [if_neg (by omega)] at h
  exact hr r h

theorem warnOn_step {err : Int} {s s' : Sh} (h : warnOn err s = .ok s') (p : List Nat) : Step p p s s' := by
  unfold warnOn at h
  split at h
  · cases h; exact Step.refl _ _
  · split at h
    · cases h
    · cases h; exact Step.log p s (fun _ c => by cases c) (fun _ c => by cases c)

theorem fine_runGuard {depth k : Nat} {cb : Sh → Out (Int × Sh)} (hd : depth + 2 ≤ 1000)
    (hcb : ∀ s r, cb s = .ok r → Step [] [] s r.2) : Fine ⟨k, runGuard depth k cb⟩ := by
  intro s s' h
  obtain ⟨r, h1, h2⟩ := bind_ok h
  obtain ⟨t, h3, h4⟩ := bind_ok h2
  cases h4
  have a : Step [k] [] { s with exc := none } r.2 := by
    refine callAt_step (by omega) ?_ h1
    intro r hr
    obtain ⟨x, hx, hr⟩ := bind_ok hr
    obtain ⟨y, hy, hr⟩ := bind_ok hr
    cases hr
    refine Step.trans ?_ (onExc_step hy [])
    refine callAt_step (by omega) ?_ hx
    intro z hz
    have b := hcb _ z hz
    refine Step.trans ?_ b
    refine ⟨Nat.le_refl _, [.run k], rfl, fun j => ?_⟩
    show List.count _ [Ev.run k] = made s.next s.next j ∧ List.count _ [Ev.run k] + _ = List.count j [k] + made s.next s.next j
    rw [made_self]
    by_cases hj : j = k
    · subst hj; simp
    · have : Ev.run k ≠ Ev.run j := fun c => hj (by cases c; rfl)
      have h2 : k ≠ j := fun c => hj c.symm
      simp [List.count_cons, this, h2]
  exact (a.trans (warnOn_step h3 [])).exc s.exc s.exc

theorem asMethod_step {body : Fr → Out (Flow × Fr)} {s : Sh} {r : Int × Sh}
    (hb : ∀ r, body ⟨s, 0, []⟩ = .ok r → (∀ g ∈ r.2.mortal, Fine g) ∧ Step [] (ids r.2.mortal) s r.2.sh)
    (h : asMethod body s = .ok r) : Step [] [] s r.2 := by
  obtain ⟨x, h1, h2⟩ := bind_ok h
  obtain ⟨f, h3, h4⟩ := bind_ok h2
  cases h4
  obtain ⟨hf, hs⟩ := hb x h1
  exact hs.trans (leaveScope_step (old := []) (more := x.2.mortal) rfl hf h3).2.2

/-- The invariant of execution. -/
theorem exec_step : ∀ (c : Code) (m : Except.Meth) (depth : Nat) (f : Fr) (r : Flow × Fr), depth + reach c ≤ 1000 → (∀ g ∈ f.mortal, Fine g) →
    exec m depth c f = .ok r →
    (∃ more, r.2.mortal = f.mortal ++ more) ∧ (∀ g ∈ r.2.mortal, Fine g) ∧ Step (ids f.mortal) (ids r.2.mortal) f.sh r.2.sh := by
  intro c
  induction c with
  | skip => intro m d f r _ hf h; cases h; exact ⟨⟨[], by simp⟩, hf, Step.refl _ _⟩
  | ret => intro m d f r _ hf h; cases h; exact ⟨⟨[], by simp⟩, hf, Step.refl _ _⟩
  | emit n => intro m d f r _ hf h; cases h; exact ⟨⟨[], by simp⟩, hf, Step.log _ _ (fun _ c => by cases c) (fun _ c => by cases c)⟩
  | look => intro m d f r _ hf h; cases h; exact ⟨⟨[], by simp⟩, hf, Step.log _ _ (fun _ c => by cases c) (fun _ c => by cases c)⟩
  | die id msg line =>
    intro m d f r _ hf h
    obtain ⟨x, h1, h2⟩ := bind_ok h
    cases h2
    exact ⟨⟨[], by simp⟩, hf, (onExc_step h1 _).exc f.sh.exc x.2.exc⟩
  | seq a b iha ihb =>
    intro m d f r hd hf h
    unfold reach at hd
    obtain ⟨x, h1, h2⟩ := bind_ok h
    obtain ⟨⟨ma, ea⟩, fa, sa⟩ := iha m d f x (by omega) hf h1
    split at h2
    · obtain ⟨⟨mb, eb⟩, fb, sb⟩ := ihb m d x.2 r (by omega) fa h2
      exact ⟨⟨ma ++ mb, by rw [eb, ea, List.append_assoc]⟩, fb, sa.trans sb⟩
    · cases h2
      exact ⟨⟨ma, ea⟩, fa, sa⟩
  | defer m' cb ih =>
    intro m d f r hd hf h
    unfold reach at hd
    cases h
    have hg : Fine ⟨f.sh.next, runGuard d f.sh.next (asMethod (exec m' (d + 2) cb))⟩ := by
      refine fine_runGuard (by omega) ?_
      intro s r hr
      refine asMethod_step ?_ hr
      intro r hr
      have := ih m' (d + 2) ⟨s, 0, []⟩ r (by omega) (fun g hg => by cases hg) hr
      exact ⟨this.2.1, this.2.2⟩
    refine ⟨⟨_, rfl⟩, ?_, ?_⟩
    · intro g h'
      rcases List.mem_append.1 h' with h' | h'
      · exact hf g h'
      · rw [List.mem_singleton.1 h']; exact hg
    · refine ⟨Nat.le_succ _, [.reg f.sh.next], rfl, fun k => ?_⟩
      show List.count _ [Ev.reg f.sh.next] = made f.sh.next (f.sh.next + 1) k ∧
        List.count _ [Ev.reg f.sh.next] + (ids (f.mortal ++ [_])).count k = (ids f.mortal).count k + made f.sh.next (f.sh.next + 1) k
      unfold ids
      rw [List.map_append, List.count_append]
      unfold made
      by_cases hk : k = f.sh.next
      · subst hk; simp
      · have : Ev.reg f.sh.next ≠ Ev.reg k := fun c => hk (by cases c; rfl)
        have h2 : f.sh.next ≠ k := fun c => hk c.symm
        rw [if_neg (by omega)]
        simp [List.count_cons, this, h2]
  | block b ih =>
    intro m d f r hd hf h
    obtain ⟨x, h1, h2⟩ := bind_ok h
    obtain ⟨⟨mb, eb⟩, fb, sb⟩ := ih m d f x hd hf h1
    split at h2
    · obtain ⟨f', h3, h4⟩ := bind_ok h2
      cases h4
      obtain ⟨e1, _, e3⟩ := leaveScope_step eb fb h3
      exact ⟨⟨[], by simp [e1]⟩, by simp only [e1]; exact hf, by simp only [e1]; exact sb.trans e3⟩
    · cases h2
      exact ⟨⟨mb, eb⟩, fb, sb⟩
  | evalB b ih =>
    intro m d f r hd hf h
    obtain ⟨x, h1, h2⟩ := bind_ok h
    obtain ⟨⟨mb, eb⟩, fb, sb⟩ := ih m d { f with sh := { f.sh with exc := none }, evalErr := 0 } x hd hf h1
    split at h2
    · cases h2
      exact ⟨⟨mb, eb⟩, fb, sb⟩
    · obtain ⟨f', h3, h4⟩ := bind_ok h2
      cases h4
      obtain ⟨e1, _, e3⟩ := leaveScope_step eb fb h3
      exact ⟨⟨[], by simp [e1]⟩, by simp only [e1]; exact hf, by simp only [e1]; exact sb.trans e3⟩
    · rename_i id _
      obtain ⟨f', h3, h4⟩ := bind_ok h2
      cases h4
      obtain ⟨e1, _, e3⟩ := leaveScope_step (f := { x.2 with evalErr := id }) eb fb h3
      exact ⟨⟨[], by simp [e1]⟩, by simp only [e1]; exact hf, by simp only [e1]; exact sb.trans e3⟩
  | call m' b line ih =>
    intro m d f r hd hf h
    unfold reach at hd
    obtain ⟨x, h1, h2⟩ := bind_ok h
    obtain ⟨y, h3, h4⟩ := bind_ok h2
    cases h4
    refine ⟨⟨[], by simp⟩, hf, ?_⟩
    have a : Step [] [] f.sh x.2 := by
      refine callAt_step (by omega) ?_ h1
      intro r hr
      refine asMethod_step ?_ hr
      intro r hr
      have := ih m' (d + 1) ⟨f.sh, 0, []⟩ r (by omega) (fun g hg => by cases hg) hr
      exact ⟨this.2.1, this.2.2⟩
    have := (a.trans (onExc_step h3 [])).frame (ids f.mortal)
    rw [List.append_nil] at this
    exact this

/-! ### Without guards -/

theorem quiet_runGuard (depth k : Nat) (cb : Sh → Out (Int × Sh)) : Quiet ⟨k, runGuard depth k cb⟩ := by
  intro s s' h
  obtain ⟨r, _, h2⟩ := bind_ok h
  obtain ⟨t, _, h4⟩ := bind_ok h2
  cases h4
  rfl

/-- The same for everything but the guards and what they do. -/
def Like (f g : Fr) : Prop := g.sh.exc = f.sh.exc ∧ g.evalErr = f.evalErr ∧ g.mortal = []

theorem onExc_like {depth m line err} {s t : Sh} {r : Flow × Sh} (he : t.exc = s.exc) (h : onExc depth m line err s = .ok r) :
    ∃ t', onExc depth m line err t = .ok (r.1, t') ∧ t'.exc = r.2.exc := by
  unfold onExc at h ⊢
  split at h
  · cases h; rw [if_pos (by assumption)]; exact ⟨t, rfl, he⟩
  · obtain ⟨e, h1, h2⟩ := bind_ok h
    cases h2
    rw [if_neg (by assumption), he, h1]
    exact ⟨_, rfl, rfl⟩

theorem leaveScope_like {top : Nat} {f f' g : Fr} (hq : ∀ g ∈ f.mortal, Quiet g) (hl : Like f g) (h : leaveScope top f = .ok f') :
    ∃ g', leaveScope 0 g = .ok g' ∧ Like f' g' ∧ ∀ g ∈ f'.mortal, Quiet g := by
  obtain ⟨s, h1, rfl⟩ := leaveScope_ok h
  obtain ⟨l1, l2, l3⟩ := hl
  refine ⟨g, ?_, ⟨?_, l2, l3⟩, fun x hx => hq x (List.mem_of_mem_take hx)⟩
  · cases g
    simp only at l3
    subst l3
    rfl
  · rw [l1]
    exact (leave_exc _ (fun x hx => hq x (List.mem_of_mem_drop hx)) h1).symm

theorem asMethod_like {body body' : Fr → Out (Flow × Fr)} {s t : Sh} {r : Int × Sh}
    (hb : ∀ x, body ⟨s, 0, []⟩ = .ok x → (∀ g ∈ x.2.mortal, Quiet g) ∧ ∃ y, body' ⟨t, 0, []⟩ = .ok (x.1, y) ∧ Like x.2 y)
    (h : asMethod body s = .ok r) : ∃ t', asMethod body' t = .ok (r.1, t') ∧ t'.exc = r.2.exc := by
  obtain ⟨x, h1, h2⟩ := bind_ok h
  obtain ⟨f, h3, h4⟩ := bind_ok h2
  cases h4
  obtain ⟨hq, y, hy, hl⟩ := hb x h1
  obtain ⟨g', hg, hl', _⟩ := leaveScope_like hq hl h3
  refine ⟨g'.sh, ?_, hl'.1⟩
  unfold asMethod
  rw [hy, Out.ok_bind]
  simp only [hg, Out.ok_bind]

theorem exec_like : ∀ (c : Code) (m : Except.Meth) (depth : Nat) (f g : Fr) (r : Flow × Fr), (∀ x ∈ f.mortal, Quiet x) → Like f g →
    exec m depth c f = .ok r →
    (∀ x ∈ r.2.mortal, Quiet x) ∧ ∃ g', exec m depth (unguarded c) g = .ok (r.1, g') ∧ Like r.2 g' := by
  intro c
  induction c with
  | skip => intro m d f g r hq hl h; cases h; exact ⟨hq, g, rfl, hl⟩
  | ret => intro m d f g r hq hl h; cases h; exact ⟨hq, g, rfl, hl⟩
  | emit n => intro m d f g r hq hl h; cases h; exact ⟨hq, _, rfl, hl.1, hl.2⟩
  | look => intro m d f g r hq hl h; cases h; exact ⟨hq, _, rfl, hl.1, hl.2⟩
  | die id msg line =>
    intro m d f g r hq hl h
    obtain ⟨x, h1, h2⟩ := bind_ok h
    cases h2
    obtain ⟨t, ht, he⟩ := onExc_like (s := { f.sh with exc := msg }) (t := { g.sh with exc := msg }) rfl h1
    refine ⟨hq, { g with sh := t }, ?_, he, hl.2⟩
    show exec m d (.die id msg line) g = _
    unfold exec
    rw [ht]; rfl
  | seq a b iha ihb =>
    intro m d f g r hq hl h
    obtain ⟨x, h1, h2⟩ := bind_ok h
    obtain ⟨qa, ga, ea, la⟩ := iha m d f g x hq hl h1
    show _ ∧ ∃ g', exec m d (.seq (unguarded a) (unguarded b)) g = _ ∧ _
    unfold exec
    rw [ea, Out.ok_bind]
    split at h2
    · rename_i hn
      simp only [hn, if_true]
      exact ihb m d x.2 ga r qa la h2
    · rename_i hn
      cases h2
      simp only [hn, if_false]
      exact ⟨qa, ga, rfl, la⟩
  | defer m' cb ih =>
    intro m d f g r hq hl h
    cases h
    refine ⟨?_, g, rfl, hl⟩
    intro x hx
    rcases List.mem_append.1 hx with hx | hx
    · exact hq x hx
    · rw [List.mem_singleton.1 hx]; exact quiet_runGuard _ _ _
  | block b ih =>
    intro m d f g r hq hl h
    obtain ⟨x, h1, h2⟩ := bind_ok h
    obtain ⟨qb, gb, eb, lb⟩ := ih m d f g x hq hl h1
    show _ ∧ ∃ g', exec m d (.block (unguarded b)) g = _ ∧ _
    unfold exec
    rw [eb, Out.ok_bind]
    split at h2
    · rename_i hn
      obtain ⟨f', h3, h4⟩ := bind_ok h2
      cases h4
      obtain ⟨g', e', l', q'⟩ := leaveScope_like qb lb h3
      simp only [hn, if_true]
      rw [hl.2.2, List.length_nil, e', Out.ok_bind]
      exact ⟨q', g', rfl, l'⟩
    · rename_i hn
      cases h2
      simp only [hn, if_false]
      exact ⟨qb, gb, rfl, lb⟩
  | evalB b ih =>
    intro m d f g r hq hl h
    obtain ⟨x, h1, h2⟩ := bind_ok h
    obtain ⟨qb, gb, eb, lb⟩ := ih m d { f with sh := { f.sh with exc := none }, evalErr := 0 }
      { g with sh := { g.sh with exc := none }, evalErr := 0 } x hq ⟨rfl, rfl, hl.2.2⟩ h1
    show _ ∧ ∃ g', exec m d (.evalB (unguarded b)) g = _ ∧ _
    unfold exec
    rw [eb, Out.ok_bind]
    split at h2
    · rename_i hn
      cases h2
      simp only [hn]
      exact ⟨qb, gb, rfl, lb⟩
    · rename_i hn
      obtain ⟨f', h3, h4⟩ := bind_ok h2
      cases h4
      obtain ⟨g', e', l', q'⟩ := leaveScope_like qb lb h3
      simp only [hn]
      rw [hl.2.2, List.length_nil, e', Out.ok_bind]
      exact ⟨q', g', rfl, l'⟩
    · rename_i id hn
      obtain ⟨f', h3, h4⟩ := bind_ok h2
      cases h4
      obtain ⟨g', e', l', q'⟩ := leaveScope_like (f := { x.2 with evalErr := id }) (g := { gb with evalErr := id }) qb
        ⟨lb.1, rfl, lb.2.2⟩ h3
      simp only [hn]
      rw [hl.2.2, List.length_nil, e', Out.ok_bind]
      exact ⟨q', g', rfl, l'⟩
  | call m' b line ih =>
    intro m d f g r hq hl h
    obtain ⟨x, h1, h2⟩ := bind_ok h
    obtain ⟨y, h3, h4⟩ := bind_ok h2
    cases h4
    have : ∃ t, callAt d (asMethod (exec m' (d + 1) (unguarded b))) g.sh = .ok (x.1, t) ∧ t.exc = x.2.exc := by
      unfold callAt at h1 ⊢
      split at h1
      · cases h1
        rw [if_pos (by assumption)]
        exact ⟨_, rfl, rfl⟩
      · rw [if_neg (by assumption)]
        refine asMethod_like ?_ h1
        intro z hz
        exact ih m' (d + 1) ⟨f.sh, 0, []⟩ ⟨g.sh, 0, []⟩ z (fun g hg => by cases hg) ⟨hl.1, rfl, rfl⟩ hz
    obtain ⟨t, ht, he⟩ := this
    obtain ⟨t', ht', he'⟩ := onExc_like he h3
    refine ⟨hq, { g with sh := t' }, ?_, he', hl.2⟩
    show exec m d (.call m' (unguarded b) line) g = _
    unfold exec
    rw [ht, Out.ok_bind]
    simp only [ht', Out.ok_bind]

end SPVM.Guard
