import Verif.Model.Call
/-!
# C37: call depth, INIT blocks, arguments
-/
set_option linter.unusedSimpArgs false
namespace SPVM
namespace Call
variable {σ : Type}

/-! ### What every call does -/

/-- Is this the start of the INIT code of class `c`? -/
def isInitStart (P : Nat → Method σ) (c : Nat) : Event → Bool
  | .start m _ => (P m).isInit && (P m).cls == c
  | _ => false

/-- What every call and every piece of code keeps: `lo` is the depth of the running code. -/
structure Ext (P : Nat → Method σ) (lo : Int) (st st' : St σ) : Prop where
  depth : st'.depth = st.depth
  grows : ∀ c, st.initialized c = true → st'.initialized c = true
  trace : ∃ new, st'.trace = new ++ st.trace ∧ (∀ m d, Event.start m d ∈ new → lo < d ∧ d ≤ 1000) ∧
    ∀ c, (new.filter (isInitStart P c)).length = if st'.initialized c = true ∧ st.initialized c = false then 1 else 0

theorem Ext.refl (P : Nat → Method σ) (lo : Int) (st : St σ) : Ext P lo st st :=
  ⟨rfl, fun _ h => h, [], rfl, by simp, by intro c; cases st.initialized c <;> simp⟩

theorem Ext.trans {P : Nat → Method σ} {lo : Int} {a b c : St σ} (h1 : Ext P lo a b) (h2 : Ext P lo b c) : Ext P lo a c := by
  obtain ⟨n1, e1, s1, f1⟩ := h1.trace
  obtain ⟨n2, e2, s2, f2⟩ := h2.trace
  refine ⟨h2.depth.trans h1.depth, fun x h => h2.grows x (h1.grows x h), n2 ++ n1, by rw [e2, e1, List.append_assoc], ?_, ?_⟩
  · intro m d h
    rcases List.mem_append.1 h with h | h
    · exact s2 m d h
    · exact s1 m d h
  · intro x
    rw [List.filter_append, List.length_append, f1, f2]
    have g1 := h1.grows x
    have g2 := h2.grows x
    cases ha : a.initialized x <;> cases hb : b.initialized x <;> cases hc : c.initialized x <;> simp_all

theorem runBody_ext {P : Nat → Method σ} {callM : Nat → St σ → Out (Bool × St σ)} {d : Int}
    (hc : ∀ m st, st.depth = d → ∃ r, callM m st = .ok r ∧ Ext P d st r.2) (b : Body σ) (st : St σ) (hd : st.depth = d) :
    ∃ r, runBody callM b st = .ok r ∧ Ext P d st r.2 := by
  induction b generalizing st with
  | ret => exact ⟨_, rfl, .refl ..⟩
  | throw => exact ⟨_, rfl, .refl ..⟩
  | act f k ih =>
    obtain ⟨r, e, x⟩ := ih st.user { st with user := f st.user } hd
    exact ⟨r, e, ⟨x.depth, x.grows, x.trace⟩⟩
  | call m k ih =>
    obtain ⟨r1, e1, x1⟩ := hc m st hd
    obtain ⟨r2, e2, x2⟩ := ih r1.1 r1.2 (x1.depth.trans hd)
    exact ⟨r2, by simp only [runBody, e1, Out.ok_bind, e2], x1.trans x2⟩
  | note m k ih =>
    obtain ⟨r, e, x⟩ := ih { st with trace := .user m :: st.trace } hd
    refine ⟨r, e, .trans (b := { st with trace := .user m :: st.trace }) ⟨rfl, fun _ h => h, [.user m], rfl, by simp, ?_⟩ x⟩
    intro c; cases h : st.initialized c <;> simp [isInitStart]

theorem execute_ext {P : Nat → Method σ} {callM : Nat → St σ → Out (Bool × St σ)} {d : Int}
    (hc : ∀ m st, st.depth = d → ∃ r, callM m st = .ok r ∧ Ext P d st r.2) (b : Body σ) (m : Nat) (st : St σ) (hd : st.depth = d) :
    ∃ r, execute callM m b st = .ok r ∧ Ext P d { st with trace := .start m st.depth :: st.trace } r.2 := by
  obtain ⟨r, e, x⟩ := runBody_ext (P := P) hc b { st with trace := .start m st.depth :: st.trace } hd
  refine ⟨finish m r, by simp only [execute, e, Out.ok_bind], ?_⟩
  unfold finish
  split
  · exact x
  · refine x.trans ⟨rfl, fun _ h => h, [.done m], rfl, by simp, ?_⟩
    intro c; cases h : r.2.initialized c <;> simp [isInitStart, h]

theorem callMethod_ext {P : Nat → Method σ} (n m : Nat) (st : St σ) (hn : 1001 ≤ st.depth + n) (hn1 : 1 ≤ n) :
    ∃ r, callMethod P n m st = .ok r ∧ Ext P st.depth st r.2 := by
  induction n generalizing m st with
  | zero => omega
  | succ n ih =>
    unfold callMethod guarded
    by_cases h1 : st.depth + 1 > 1000
    · simp only [if_pos h1, Out.ok_bind]
      refine ⟨_, rfl, ?_⟩
      have := Ext.refl P st.depth st
      exact ⟨by simp, this.grows, this.trace⟩
    · simp only [if_neg h1]
      by_cases h2 : (P m).argsOk st.user = true
      · simp only [h2, not_true_eq_false, if_false]
        have hc : ∀ m (st' : St σ), st'.depth = st.depth + 1 → ∃ r, callMethod P n m st' = .ok r ∧ Ext P (st.depth + 1) st' r.2 := by
          intro m st' hd
          obtain ⟨r, e, x⟩ := ih m st' (by omega) (by omega)
          exact ⟨r, e, hd ▸ x⟩
        have weak : ∀ (a b : St σ), Ext P (st.depth + 1) a b → Ext P st.depth a b := by
          rintro a b ⟨x1, x2, new, x3, x4, x5⟩
          exact ⟨x1, x2, new, x3, fun m d h => ⟨by have := (x4 m d h).1; omega, (x4 m d h).2⟩, x5⟩
        unfold enter
        by_cases h3 : (P m).isInit = true
        · rw [if_pos h3]
          by_cases h4 : st.initialized (P m).cls = true
          · simp only [h4, if_true, Out.ok_bind]
            refine ⟨_, rfl, ?_⟩
            have := Ext.refl P st.depth st
            exact ⟨by simp, this.grows, this.trace⟩
          · simp only [h4, if_false]
            obtain ⟨r, e, x⟩ := execute_ext (P := P) hc (P m).body m
              { st with depth := st.depth + 1, initialized := fun c => if c = (P m).cls then true else st.initialized c } rfl
            rw [if_neg (by simp)]
            simp only [e, Out.ok_bind]
            refine ⟨_, rfl, ?_⟩
            obtain ⟨y1, y2, new, y3, y4, y5⟩ := weak _ _ x
            simp only at y1 y2 y3 y4 y5
            refine ⟨by simp only [y1]; omega, ?_, new ++ [.start m (st.depth + 1)], ?_, ?_, ?_⟩
            · intro c hc'
              exact y2 c (by split <;> simp [hc'])
            · simp only [y3, List.append_assoc, List.singleton_append]
            · intro m' d' hm
              rcases List.mem_append.1 hm with hm | hm
              · exact y4 m' d' hm
              · simp only [List.mem_singleton, Event.start.injEq] at hm; omega
            · intro c
              rw [List.filter_append, List.length_append, y5 c]
              by_cases hcc : c = (P m).cls
              · subst hcc
                have := y2 (P m).cls (by simp)
                simp [isInitStart, h3, this, h4]
              · have hne : ((P m).cls == c) = false := by simpa using fun h => hcc h.symm
                simp only [if_neg hcc]
                simp [isInitStart, h3, hne]
        · rw [if_neg h3]
          obtain ⟨r, e, x⟩ := execute_ext (P := P) hc (P m).body m { st with depth := st.depth + 1 } rfl
          simp only [e, Out.ok_bind]
          refine ⟨_, rfl, ?_⟩
          obtain ⟨y1, y2, new, y3, y4, y5⟩ := weak _ _ x
          simp only at y1 y2 y3 y4 y5
          refine ⟨by simp only [y1]; omega, y2, new ++ [.start m (st.depth + 1)], ?_, ?_, ?_⟩
          · simp only [y3, List.append_assoc, List.singleton_append]
          · intro m' d' hm
            rcases List.mem_append.1 hm with hm | hm
            · exact y4 m' d' hm
            · simp only [List.mem_singleton, Event.start.injEq] at hm; omega
          · intro c
            rw [List.filter_append, List.length_append, y5 c]
            simp [isInitStart, h3]
      · have h2' : (P m).argsOk st.user = false := by simpa using h2
        simp only [h2', not_false_eq_true, if_true, Out.ok_bind, Bool.false_eq_true]
        refine ⟨_, rfl, ?_⟩
        have := Ext.refl P st.depth st
        exact ⟨by simp, this.grows, this.trace⟩

/-- **C37.** Every call ends, whatever the methods do and however they call each other: a program whose own code ends cannot
recurse forever, the depth limit turns unbounded recursion into an exception. -/
theorem c37_calls_end (P : Nat → Method σ) (m : Nat) (st : St σ) (h0 : 0 ≤ st.depth) :
    ∃ threw st', callMethod P 1001 m st = .ok (threw, st') := by
  obtain ⟨r, e, _⟩ := callMethod_ext (P := P) 1001 m st (by omega) (by omega)
  exact ⟨r.1, r.2, e⟩

/-- **C37.** The call depth is restored by every call, whether it returns or throws, at every depth; and no code ever runs at
a depth beyond 1000: everything started by the call runs at a depth between the caller's depth plus one and 1000. -/
theorem c37_depth_restored (P : Nat → Method σ) (m : Nat) {st : St σ} (h0 : 0 ≤ st.depth) {threw : Bool} {st' : St σ}
    (h : callMethod P 1001 m st = .ok (threw, st')) :
    st'.depth = st.depth ∧
    ∃ new, st'.trace = new ++ st.trace ∧ ∀ m' d, Event.start m' d ∈ new → st.depth < d ∧ d ≤ 1000 := by
  obtain ⟨r, e, x⟩ := callMethod_ext (P := P) 1001 m st (by omega) (by omega)
  rw [e] at h; cases h
  obtain ⟨new, e1, e2, _⟩ := x.trace
  exact ⟨x.depth, new, e1, e2⟩

/-- **C37.** A call at the depth limit throws and does nothing else. -/
theorem c37_too_deep (P : Nat → Method σ) (m : Nat) (st : St σ) (h : 1000 ≤ st.depth) :
    callMethod P 1001 m st = .ok (true, st) := by
  unfold callMethod guarded
  rw [if_pos (show st.depth + 1 > 1000 by omega)]
  simp only [Out.ok_bind]
  have : st.depth + 1 - 1 = st.depth := by omega
  simp only [this]

/-- **C37.** A call below the limit whose arguments pass the check does run the method (for a method that is not INIT). -/
theorem c37_runs (P : Nat → Method σ) (m : Nat) {st : St σ} (h0 : 0 ≤ st.depth) (h : st.depth < 1000)
    (ha : (P m).argsOk st.user = true) (hi : (P m).isInit = false) {threw : Bool} {st' : St σ}
    (hr : callMethod P 1001 m st = .ok (threw, st')) :
    ∃ new, st'.trace = new ++ Event.start m (st.depth + 1) :: st.trace := by
  unfold callMethod guarded enter at hr
  rw [if_neg (show ¬ st.depth + 1 > 1000 by omega)] at hr
  simp only [ha, not_true_eq_false, if_false, hi, Bool.false_eq_true] at hr
  obtain ⟨r, e, x⟩ := execute_ext (P := P) (d := st.depth + 1) (callM := callMethod P 1000)
    (fun m st1 hd => by obtain ⟨r, e, x⟩ := callMethod_ext (P := P) 1000 m st1 (by omega) (by omega); exact ⟨r, e, hd ▸ x⟩)
    (P m).body m { st with depth := st.depth + 1 } rfl
  rw [e] at hr
  simp only [Out.ok_bind] at hr
  cases hr
  obtain ⟨new, e1, _⟩ := x.trace
  exact ⟨new, e1⟩

/-- **C37.** A call whose arguments fail the check throws and does nothing else. -/
theorem c37_bad_args (P : Nat → Method σ) (m : Nat) (st : St σ) (ha : (P m).argsOk st.user = false) :
    callMethod P 1001 m st = .ok (true, st) := by
  unfold callMethod guarded
  simp only [ha, Bool.false_eq_true, not_false_eq_true, if_true, ite_self, Out.ok_bind]
  have : st.depth + 1 - 1 = st.depth := by omega
  simp only [this]

example : callMethod (fun _ => (⟨0, false, fun n => n == 0, .ret⟩ : Method Nat)) 1001 3 ⟨5, fun _ => false, 1, []⟩ =
    .ok (true, ⟨5, fun _ => false, 1, []⟩) := c37_bad_args _ 3 _ rfl

/-! ### A history of calls -/

/-- The calls that are made on a stack from outside, one after the other, whether they throw or not. -/
def history (P : Nat → Method σ) : List Nat → St σ → Out (St σ)
  | [], st => .ok st
  | m :: ms, st => do
    let r ← callMethod P 1001 m st
    history P ms r.2

theorem history_ext {P : Nat → Method σ} (ms : List Nat) (st : St σ) (h0 : 0 ≤ st.depth) :
    ∃ st', history P ms st = .ok st' ∧ Ext P st.depth st st' := by
  induction ms generalizing st with
  | nil => exact ⟨st, rfl, .refl ..⟩
  | cons m ms ih =>
    obtain ⟨r, e, x⟩ := callMethod_ext (P := P) 1001 m st (by omega) (by omega)
    obtain ⟨st2, e2, x2⟩ := ih r.2 (by rw [x.depth]; omega)
    rw [x.depth] at x2
    exact ⟨st2, by simp only [history, e, Out.ok_bind, e2], x.trans x2⟩

/-- **C37.** In every history of calls of every program - whatever the methods call, catch and throw, and even if they call
INIT methods themselves - the INIT code of each class is started at most once: exactly once if the class is marked as
initialized in the end, otherwise not at all. -/
theorem c37_init_once (P : Nat → Method σ) (ms : List Nat) (u : σ) :
    ∃ st, history P ms { depth := 0, initialized := fun _ => false, user := u, trace := [] } = .ok st ∧ st.depth = 0 ∧
      ∀ c, (st.trace.filter (isInitStart P c)).length = if st.initialized c then 1 else 0 := by
  obtain ⟨st, e, x⟩ := history_ext (P := P) ms { depth := 0, initialized := fun _ => false, user := u, trace := [] } (by simp)
  obtain ⟨new, e1, _, e2⟩ := x.trace
  refine ⟨st, e, x.depth, fun c => ?_⟩
  simp only [List.append_nil] at e1
  rw [e1, e2 c]
  simp

/-! ### The order of INIT blocks -/

/-- Code that calls no INIT method (and contains no ghost mark). -/
def NoInit (P : Nat → Method σ) : Body σ → Prop
  | .ret => True
  | .throw => True
  | .act _ k => ∀ u, NoInit P (k u)
  | .call m k => (P m).isInit = false ∧ ∀ e, NoInit P (k e)
  | .note _ _ => False

/-- A compiled program: INIT methods have the code the compiler builds from the INIT methods `deps m` of the parent and the
used classes and from the user's statements; two classes do not share an INIT method; INIT methods are called by INIT methods
only; a class does not depend on itself (`rank`: `use` cycles are excluded). -/
structure Compiled (P : Nat → Method σ) (deps : Nat → List Nat) (rank : Nat → Nat) : Prop where
  init : ∀ m, (P m).isInit = true → (P m).argsOk = (fun _ => true) ∧
    ∃ user, (P m).body = withInits (deps m) (.note m user) ∧ NoInit P user
  inj : ∀ m m', (P m).isInit = true → (P m').isInit = true → (P m).cls = (P m').cls → m = m'
  deps : ∀ m, (P m).isInit = true → ∀ d ∈ deps m, (P d).isInit = true ∧ rank d < rank m
  rest : ∀ m, (P m).isInit = false → NoInit P (P m).body

/-- The trace (latest event first) is in order: when the user's part of an INIT method starts, the INIT methods it depends on
have ended normally. -/
def InOrder (deps : Nat → List Nat) : List Event → Prop
  | [] => True
  | e :: t => (∀ m, e = .user m → ∀ d ∈ deps m, Event.done d ∈ t) ∧ InOrder deps t

theorem inOrder_append {deps : Nat → List Nat} {new t : List Event} (hn : ∀ m, Event.user m ∉ new) (h : InOrder deps t) :
    InOrder deps (new ++ t) := by
  induction new with
  | nil => exact h
  | cons e new ih =>
    exact ⟨fun m he => absurd (by simp [he]) (hn m), ih fun m hm => hn m (.tail _ hm)⟩

/-- What code without INIT calls does. -/
structure Quiet (st st' : St σ) : Prop where
  init : st'.initialized = st.initialized
  trace : ∃ new, st'.trace = new ++ st.trace ∧ ∀ m, Event.user m ∉ new

theorem Quiet.trans {a b c : St σ} (h1 : Quiet a b) (h2 : Quiet b c) : Quiet a c := by
  obtain ⟨n1, e1, s1⟩ := h1.trace
  obtain ⟨n2, e2, s2⟩ := h2.trace
  refine ⟨h2.init.trans h1.init, n2 ++ n1, by rw [e2, e1, List.append_assoc], ?_⟩
  intro m h
  rcases List.mem_append.1 h with h | h
  · exact s2 m h
  · exact s1 m h

theorem runBody_quiet {P : Nat → Method σ} {callM : Nat → St σ → Out (Bool × St σ)}
    (hc : ∀ m st r, (P m).isInit = false → callM m st = .ok r → Quiet st r.2) (b : Body σ) (hb : NoInit P b) (st : St σ)
    {r : Bool × St σ} (h : runBody callM b st = .ok r) : Quiet st r.2 := by
  induction b generalizing st with
  | ret => cases h; exact ⟨rfl, [], rfl, by simp⟩
  | throw => cases h; exact ⟨rfl, [], rfl, by simp⟩
  | act f k ih =>
    have := ih st.user (hb st.user) { st with user := f st.user } h
    exact ⟨this.init, this.trace⟩
  | call m k ih =>
    simp only [runBody] at h
    cases e1 : callM m st with
    | ok r1 =>
      rw [e1] at h
      exact (hc m st r1 hb.1 e1).trans (ih r1.1 (hb.2 r1.1) r1.2 h)
    | die x => rw [e1] at h; cases h
    | ub => rw [e1] at h; cases h
  | note m k ih => exact absurd hb id

theorem callMethod_quiet {P : Nat → Method σ} {deps : Nat → List Nat} {rank : Nat → Nat} (hP : Compiled P deps rank) (n : Nat)
    (m : Nat) (hm : (P m).isInit = false) (st : St σ) {r : Bool × St σ} (h : callMethod P n m st = .ok r) : Quiet st r.2 := by
  induction n generalizing m st r with
  | zero => cases h
  | succ n ih =>
    unfold callMethod guarded at h
    by_cases h1 : st.depth + 1 > 1000
    · rw [if_pos h1] at h; cases h; exact ⟨rfl, [], rfl, by simp⟩
    · rw [if_neg h1] at h
      by_cases h2 : (P m).argsOk st.user = true
      · simp only [h2, not_true_eq_false, if_false, enter, hm, Bool.false_eq_true, execute] at h
        cases e1 : runBody (callMethod P n) (P m).body { st with depth := st.depth + 1, trace := .start m (st.depth + 1) :: st.trace } with
        | ok r1 =>
          rw [e1] at h
          cases h
          have q := runBody_quiet (fun m st r hm h => ih m hm st h) _ (hP.rest m hm) _ e1
          obtain ⟨q1, new, q2, q3⟩ := q
          have : Quiet st r1.2 := by
            refine ⟨q1, new ++ [.start m (st.depth + 1)], by rw [q2, List.append_assoc]; rfl, ?_⟩
            intro x hx
            rcases List.mem_append.1 hx with hx | hx
            · exact q3 x hx
            · simp at hx
          unfold finish
          split
          · exact ⟨this.init, this.trace⟩
          · refine this.trans ⟨rfl, [.done m], rfl, by simp⟩
        | die x => rw [e1] at h; cases h
        | ub => rw [e1] at h; cases h
      · rw [if_pos (by simpa using h2)] at h
        cases h; exact ⟨rfl, [], rfl, by simp⟩

/-- Every marked class has finished its INIT method or is one of the running ones. -/
def Settled (P : Nat → Method σ) (S : List Nat) (st : St σ) : Prop :=
  ∀ m, (P m).isInit = true → st.initialized (P m).cls = true → Event.done m ∈ st.trace ∨ m ∈ S

/-- What a call of an INIT method does. -/
structure Good (P : Nat → Method σ) (deps : Nat → List Nat) (C : Nat → Prop) (S : List Nat) (st : St σ) (r : Bool × St σ) : Prop where
  order : InOrder deps r.2.trace
  ext : ∃ new, r.2.trace = new ++ st.trace ∧ ∀ m, Event.user m ∈ new → C m
  settled : r.1 = false → Settled P S r.2

theorem prologue {P : Nat → Method σ} {deps : Nat → List Nat} {callM : Nat → St σ → Out (Bool × St σ)} {C : Nat → Prop}
    {S : List Nat} (ds : List Nat) (user : Body σ)
    (hc : ∀ d ∈ ds, ∀ st r, InOrder deps st.trace → Settled P S st → callM d st = .ok r →
      Good P deps C S st r ∧ (r.1 = false → Event.done d ∈ r.2.trace))
    (st : St σ) (ho : InOrder deps st.trace) (hs : Settled P S st) {r : Bool × St σ}
    (h : runBody callM (withInits ds user) st = .ok r) :
    (r.1 = true ∧ InOrder deps r.2.trace ∧ ∃ new, r.2.trace = new ++ st.trace ∧ ∀ m, Event.user m ∈ new → C m) ∨
    ∃ st1, InOrder deps st1.trace ∧ Settled P S st1 ∧ (∀ d ∈ ds, Event.done d ∈ st1.trace) ∧
      (∃ new, st1.trace = new ++ st.trace ∧ ∀ m, Event.user m ∈ new → C m) ∧ runBody callM user st1 = .ok r := by
  induction ds generalizing st with
  | nil => exact .inr ⟨st, ho, hs, by simp, ⟨[], rfl, by simp⟩, h⟩
  | cons d ds ih =>
    simp only [withInits, List.foldr_cons, runBody] at h
    cases e1 : callM d st with
    | ok r1 =>
      rw [e1] at h
      simp only [Out.ok_bind] at h
      obtain ⟨g, hd⟩ := hc d (by simp) st r1 ho hs e1
      cases hr : r1.1 with
      | true =>
        rw [hr] at h
        simp only [if_true, runBody] at h
        cases h
        exact .inl ⟨rfl, g.order, g.ext⟩
      | false =>
        rw [hr] at h
        obtain ⟨n1, e2, c2⟩ := g.ext
        rcases ih (fun d' hd' => hc d' (.tail _ hd')) r1.2 g.order (g.settled hr) h with ⟨a1, a2, n2, e3, c3⟩ | ⟨st1, b1, b2, b3, ⟨n2, e3, c3⟩, b5⟩
        · refine .inl ⟨a1, a2, n2 ++ n1, by rw [e3, e2, List.append_assoc], ?_⟩
          intro m hm
          rcases List.mem_append.1 hm with hm | hm
          · exact c3 m hm
          · exact c2 m hm
        · refine .inr ⟨st1, b1, b2, ?_, ⟨n2 ++ n1, by rw [e3, e2, List.append_assoc], ?_⟩, b5⟩
          · intro x hx
            rcases List.mem_cons.1 hx with rfl | hx
            · rw [e3]; exact List.mem_append_right _ (hd hr)
            · exact b3 x hx
          · intro m hm
            rcases List.mem_append.1 hm with hm | hm
            · exact c3 m hm
            · exact c2 m hm
    | die x => rw [e1] at h; cases h
    | ub => rw [e1] at h; cases h

theorem callInit_good {P : Nat → Method σ} {deps : Nat → List Nat} {rank : Nat → Nat} (hP : Compiled P deps rank)
    {C : Nat → Prop} (hC : ∀ m, C m → ∀ d ∈ deps m, C d) (n : Nat)
    (m : Nat) (hm : (P m).isInit = true) (hCm : C m) (S : List Nat) (hS : ∀ s ∈ S, rank m < rank s) (st : St σ)
    (ho : InOrder deps st.trace) (hs : Settled P S st) {r : Bool × St σ} (h : callMethod P n m st = .ok r) :
    Good P deps C S st r ∧ (r.1 = false → Event.done m ∈ r.2.trace) := by
  induction n generalizing m S st r with
  | zero => cases h
  | succ n ih =>
    obtain ⟨ha, user, hb, hu⟩ := hP.init m hm
    unfold callMethod guarded at h
    by_cases h1 : st.depth + 1 > 1000
    · rw [if_pos h1] at h; cases h
      exact ⟨⟨ho, ⟨[], rfl, by simp⟩, by simp⟩, by simp⟩
    · rw [if_neg h1] at h
      simp only [ha, not_true_eq_false, if_false, enter, hm, if_true] at h
      by_cases h2 : st.initialized (P m).cls = true
      · rw [if_pos h2] at h
        cases h
        refine ⟨⟨ho, ⟨[], rfl, by simp⟩, fun _ => hs⟩, fun _ => ?_⟩
        rcases hs m hm h2 with h | h
        · exact h
        · have := hS m h; omega
      · rw [if_neg h2] at h
        simp only [execute] at h
        rw [hb] at h
        generalize hst0 : St.mk (st.depth + 1) (fun c => if c = (P m).cls then true else st.initialized c) st.user
            (.start m (st.depth + 1) :: st.trace) = st0 at h
        have t0 : st0.trace = .start m (st.depth + 1) :: st.trace := by rw [← hst0]
        have i0 : st0.initialized = fun c => if c = (P m).cls then true else st.initialized c := by rw [← hst0]
        cases e1 : runBody (callMethod P n) (withInits (deps m) (.note m user)) st0 with
        | ok r1 =>
          rw [e1] at h
          simp only [Out.ok_bind] at h
          have ho0 : InOrder deps st0.trace := by rw [t0]; exact ⟨by simp, ho⟩
          have hs0 : Settled P (m :: S) st0 := by
            intro m' hm' hi
            rw [i0] at hi
            simp only at hi
            by_cases hmm : m' = m
            · right; simp [hmm]
            · rw [if_neg (fun hc => hmm (hP.inj m' m hm' hm hc))] at hi
              rcases hs m' hm' hi with h | h
              · left; rw [t0]; exact .tail _ h
              · right; simp [h]
          have hc : ∀ d ∈ deps m, ∀ (st : St σ) (r : Bool × St σ), InOrder deps st.trace → Settled P (m :: S) st → callMethod P n d st = .ok r →
              Good P deps C (m :: S) st r ∧ (r.1 = false → Event.done d ∈ r.2.trace) := by
            intro d hd st r ho hs h
            have hdm := hP.deps m hm d hd
            refine ih d hdm.1 (hC m hCm d hd) (m :: S) ?_ st ho hs h
            intro s hs'
            rcases List.mem_cons.1 hs' with rfl | hs'
            · exact hdm.2
            · have := hS s hs'; omega
          have key : (r1.1 = true ∧ InOrder deps r1.2.trace ∧ ∃ new, r1.2.trace = new ++ st0.trace ∧ ∀ m, Event.user m ∈ new → C m) ∨
              (InOrder deps r1.2.trace ∧ Settled P (m :: S) r1.2 ∧ ∃ new, r1.2.trace = new ++ st0.trace ∧ ∀ m, Event.user m ∈ new → C m) := by
            rcases prologue (deps m) (.note m user) hc st0 ho0 hs0 e1 with h | ⟨st1, b1, b2, b3, ⟨n1, b4, b5⟩, b6⟩
            · exact .inl h
            · right
              simp only [runBody] at b6
              have q := runBody_quiet (fun m st r hm h => callMethod_quiet hP n m hm st h) user hu _ b6
              obtain ⟨q1, n2, q2, q3⟩ := q
              simp only at q1 q2
              refine ⟨?_, ?_, n2 ++ .user m :: n1, ?_, ?_⟩
              · rw [q2]
                refine inOrder_append q3 ⟨?_, b1⟩
                intro m' he d hd
                cases he
                exact b3 d hd
              · intro m' hm' hi
                rw [q1] at hi
                rcases b2 m' hm' hi with h | h
                · left; rw [q2]; exact List.mem_append_right _ (.tail _ h)
                · exact .inr h
              · rw [q2, b4]; simp
              · intro x hx
                rcases List.mem_append.1 hx with hx | hx
                · exact absurd hx (q3 x)
                · rcases List.mem_cons.1 hx with hx | hx
                  · cases hx; exact hCm
                  · exact b5 x hx
          cases h
          unfold finish
          cases hr : r1.1 with
          | true =>
            simp only [if_true]
            refine ⟨⟨?_, ?_, by simp [hr]⟩, by simp [hr]⟩
            · rcases key with ⟨_, k, _⟩ | ⟨k, _⟩ <;> exact k
            · have : ∃ new, r1.2.trace = new ++ st0.trace ∧ ∀ m, Event.user m ∈ new → C m := by
                rcases key with ⟨_, _, k⟩ | ⟨_, _, k⟩ <;> exact k
              obtain ⟨new, k1, k2⟩ := this
              refine ⟨new ++ [.start m (st.depth + 1)], by simp [k1, t0], ?_⟩
              intro x hx
              rcases List.mem_append.1 hx with hx | hx
              · exact k2 x hx
              · simp at hx
          | false =>
            rcases key with ⟨k, _⟩ | ⟨k1, k2, new, k3, k4⟩
            · rw [hr] at k; cases k
            · simp only [Bool.false_eq_true, if_false]
              refine ⟨⟨⟨by simp, k1⟩, ⟨.done m :: (new ++ [.start m (st.depth + 1)]), by simp [k3, t0], ?_⟩, fun _ => ?_⟩, by simp⟩
              · intro x hx
                simp only [List.mem_cons, List.mem_append, List.not_mem_nil, or_false] at hx
                rcases hx with hx | hx | hx
                · cases hx
                · exact k4 x hx
                · cases hx
              · intro m' hm' hi
                rcases k2 m' hm' hi with h | h
                · exact .inl (.tail _ h)
                · rcases List.mem_cons.1 h with rfl | h
                  · left; simp
                  · exact .inr h
        | die x => rw [e1] at h; cases h
        | ub => rw [e1] at h; cases h

theorem callInits_good {P : Nat → Method σ} {deps : Nat → List Nat} {rank : Nat → Nat} (hP : Compiled P deps rank)
    {C : Nat → Prop} (hC : ∀ m, C m → ∀ d ∈ deps m, C d) (n : Nat) (ms : List Nat) (hms : ∀ m ∈ ms, (P m).isInit = true ∧ C m)
    (st : St σ) (ho : InOrder deps st.trace) (hs : Settled P [] st) {r : Bool × St σ} (h : callInits P n ms st = .ok r) :
    Good P deps C [] st r ∧ (r.1 = false → ∀ m ∈ ms, Event.done m ∈ r.2.trace) := by
  induction ms generalizing st with
  | nil => cases h; exact ⟨⟨ho, ⟨[], rfl, by simp⟩, fun _ => hs⟩, by simp⟩
  | cons m ms ih =>
    simp only [callInits] at h
    cases e1 : callMethod P n m st with
    | ok r1 =>
      rw [e1] at h
      simp only [Out.ok_bind] at h
      obtain ⟨g, hd⟩ := callInit_good hP hC n m (hms m (by simp)).1 (hms m (by simp)).2 [] (by simp) st ho hs e1
      cases hr : r1.1 with
      | true =>
        rw [hr] at h
        simp only [if_true] at h
        cases h
        exact ⟨g, by simp [hr]⟩
      | false =>
        rw [hr] at h
        simp only [Bool.false_eq_true, if_false] at h
        obtain ⟨g2, hd2⟩ := ih (fun x hx => hms x (.tail _ hx)) r1.2 g.order (g.settled hr) h
        obtain ⟨n1, k1, k2⟩ := g.ext
        obtain ⟨n2, k3, k4⟩ := g2.ext
        refine ⟨⟨g2.order, ⟨n2 ++ n1, by rw [k3, k1, List.append_assoc], ?_⟩, g2.settled⟩, ?_⟩
        · intro x hx
          rcases List.mem_append.1 hx with hx | hx
          · exact k4 x hx
          · exact k2 x hx
        · intro hf x hx
          rcases List.mem_cons.1 hx with rfl | hx
          · rw [k3]; exact List.mem_append_right _ (hd hr)
          · exact hd2 hf x hx
    | die x => rw [e1] at h; cases h
    | ub => rw [e1] at h; cases h

/-- An INIT call that does not throw leaves the class marked. -/
theorem callMethod_marks {P : Nat → Method σ} (n m : Nat) (hm : (P m).isInit = true) (st : St σ) (hn : 1001 ≤ st.depth + n)
    {r : Bool × St σ} (h : callMethod P n m st = .ok r) (hr : r.1 = false) : r.2.initialized (P m).cls = true := by
  cases n with
  | zero => cases h
  | succ n =>
    unfold callMethod guarded at h
    by_cases h1 : st.depth + 1 > 1000
    · rw [if_pos h1] at h; cases h; cases hr
    · rw [if_neg h1] at h
      by_cases h2 : (P m).argsOk st.user = true
      · simp only [h2, not_true_eq_false, if_false, enter, hm, if_true] at h
        by_cases h3 : st.initialized (P m).cls = true
        · rw [if_pos h3] at h; cases h; exact h3
        · rw [if_neg h3] at h
          obtain ⟨r1, e, x⟩ := execute_ext (P := P) (d := st.depth + 1) (callM := callMethod P n)
            (fun m st1 hd => by obtain ⟨r, e, x⟩ := callMethod_ext (P := P) n m st1 (by omega) (by omega); exact ⟨r, e, hd ▸ x⟩)
            (P m).body m
            { st with depth := st.depth + 1, initialized := (fun c => if c = (P m).cls then true else st.initialized c) } rfl
          rw [e] at h
          cases h
          exact x.grows (P m).cls (by simp)
      · rw [if_pos (by simpa using h2)] at h
        cases h; cases hr

theorem callInits_ends (P : Nat → Method σ) (ms : List Nat) (hms : ∀ m ∈ ms, (P m).isInit = true) (st : St σ) (h0 : 0 ≤ st.depth) :
    ∃ r, callInits P 1001 ms st = .ok r ∧ Ext P st.depth st r.2 ∧ (r.1 = false → ∀ m ∈ ms, r.2.initialized (P m).cls = true) := by
  induction ms generalizing st with
  | nil => exact ⟨_, rfl, .refl .., by simp⟩
  | cons m ms ih =>
    obtain ⟨r, e, x⟩ := callMethod_ext (P := P) 1001 m st (by omega) (by omega)
    simp only [callInits, e, Out.ok_bind]
    cases hr : r.1 with
    | true => simp only [if_true]; exact ⟨r, rfl, x, by simp [hr]⟩
    | false =>
      obtain ⟨r2, e2, x2, k2⟩ := ih (fun x hx => hms x (.tail _ hx)) r.2 (by rw [x.depth]; omega)
      rw [x.depth] at x2
      simp only [Bool.false_eq_true, if_false]
      refine ⟨r2, e2, x.trans x2, fun hf y hy => ?_⟩
      rcases List.mem_cons.1 hy with rfl | hy
      · exact x2.grows _ (callMethod_marks 1001 y (hms y (by simp)) st (by omega) e hr)
      · exact k2 hf y hy

theorem inOrder_split {deps : Nat → List Nat} {later earlier : List Event} {m : Nat}
    (h : InOrder deps (later ++ .user m :: earlier)) : ∀ d ∈ deps m, Event.done d ∈ earlier := by
  induction later with
  | nil => exact h.1 m rfl
  | cons e later ih => exact ih h.2

/-- **C37.** Starting a program: calling the INIT methods `ms` of all classes always ends.  At every point where the user's
INIT statements of a class start to run, the INIT methods of its parent class and of the classes it uses have already ended
without an exception - also when the start-up is cut short by an exception.  If no exception comes out, the INIT method of
every class has run to its end, and exactly once. -/
theorem c37_init_order {P : Nat → Method σ} {deps : Nat → List Nat} {rank : Nat → Nat} (hP : Compiled P deps rank) (ms : List Nat)
    (hms : ∀ m ∈ ms, (P m).isInit = true) (u : σ) :
    ∃ threw st, callInits P 1001 ms { depth := 0, initialized := fun _ => false, user := u, trace := [] } = .ok (threw, st) ∧
      st.depth = 0 ∧
      (∀ later m earlier, st.trace = later ++ .user m :: earlier → ∀ d ∈ deps m, Event.done d ∈ earlier) ∧
      (threw = false → ∀ m ∈ ms, Event.done m ∈ st.trace ∧ (st.trace.filter (isInitStart P (P m).cls)).length = 1) := by
  obtain ⟨r, e, x, hi⟩ := callInits_ends P ms hms { depth := 0, initialized := fun _ => false, user := u, trace := [] } (by simp)
  obtain ⟨g, hd⟩ := callInits_good hP (C := fun _ => True) (fun _ _ _ _ => trivial) 1001 ms (fun m hm => ⟨hms m hm, trivial⟩) _
    (by exact trivial) (by intro m _ h; cases h) e
  refine ⟨r.1, r.2, e, x.depth, ?_, ?_⟩
  · intro later m earlier ht
    have := g.order
    rw [ht] at this
    exact inOrder_split this
  · intro hf m hm
    refine ⟨hd hf m hm, ?_⟩
    obtain ⟨new, e1, _, e2⟩ := x.trace
    simp only [List.append_nil] at e1
    rw [e1, e2]
    simp [hi hf m hm]

theorem callInits_append (P : Nat → Method σ) (n : Nat) (a b : List Nat) (st : St σ) :
    callInits P n (a ++ b) st = (do let r ← callInits P n a st; if r.1 then .ok r else callInits P n b r.2) := by
  induction a generalizing st with
  | nil => simp [callInits]
  | cons m a ih =>
    simp only [List.cons_append, callInits]
    cases e : callMethod P n m st with
    | ok r => cases hr : r.1 <;> simp [hr, ih]
    | die x => rfl
    | ub => rfl

/-- **C37.** The classes loaded by default (the list `pre`, which depends on nothing else) come first: when the user's INIT
statements of any other class start, the INIT methods of all of them have ended. -/
theorem c37_default_classes_first {P : Nat → Method σ} {deps : Nat → List Nat} {rank : Nat → Nat} (hP : Compiled P deps rank)
    (pre post : List Nat) (hms : ∀ m ∈ pre ++ post, (P m).isInit = true) (hpre : ∀ m ∈ pre, ∀ d ∈ deps m, d ∈ pre) (u : σ) :
    ∃ threw st, callInits P 1001 (pre ++ post) { depth := 0, initialized := fun _ => false, user := u, trace := [] } =
        .ok (threw, st) ∧
      ∀ later m earlier, st.trace = later ++ .user m :: earlier → m ∉ pre → ∀ p ∈ pre, Event.done p ∈ earlier := by
  obtain ⟨r, e, _⟩ := callInits_ends P (pre ++ post) hms { depth := 0, initialized := fun _ => false, user := u, trace := [] } (by simp)
  refine ⟨r.1, r.2, e, ?_⟩
  rw [callInits_append] at e
  obtain ⟨r1, e1, _⟩ := callInits_ends P pre (fun m hm => hms m (List.mem_append_left _ hm))
    { depth := 0, initialized := fun _ => false, user := u, trace := [] } (by simp)
  rw [e1] at e
  obtain ⟨g, hd⟩ := callInits_good hP (C := fun m => m ∈ pre) hpre 1001 pre
    (fun m hm => ⟨hms m (List.mem_append_left _ hm), hm⟩) _ (by exact trivial) (by intro m _ h; cases h) e1
  obtain ⟨n1, k1, k2⟩ := g.ext
  simp only [List.append_nil] at k1
  intro later m earlier ht hm p hp
  cases hr : r1.1 with
  | true =>
    simp only [Out.ok_bind, hr, if_true] at e
    cases e
    exact absurd (k2 m (by rw [← k1, ht]; simp)) hm
  | false =>
    simp only [Out.ok_bind, hr, Bool.false_eq_true, if_false] at e
    obtain ⟨g2, _⟩ := callInits_good hP (C := fun _ => True) (fun _ _ _ _ => trivial) 1001 post
      (fun m hm => ⟨hms m (List.mem_append_right _ hm), trivial⟩) _ g.order (g.settled hr) e
    obtain ⟨n2, k3, _⟩ := g2.ext
    have hdone := hd hr p hp
    rw [k3] at ht
    rcases List.append_eq_append_iff.1 ht with ⟨l, h1, h2⟩ | ⟨l, h1, h2⟩
    · exact absurd (k2 m (by rw [← k1, h2]; simp)) hm
    · cases l with
      | nil =>
        simp only [List.nil_append] at h2
        exact absurd (k2 m (by rw [← k1, ← h2]; simp)) hm
      | cons x l =>
        simp only [List.cons_append, List.cons.injEq] at h2
        rw [h2.2]
        exact List.mem_append_right _ hdone

/-! ### Examples -/

/-- Method 0 calls itself without end, method 1 calls method 0 and catches the exception, methods 2, 3, 4 are the INIT methods
of three classes: 4 depends on 3 and 2, 3 depends on 2. -/
def exProg : Nat → Method Nat
  | 0 => ⟨0, false, fun _ => true, .call 0 (fun e => if e then .throw else .ret)⟩
  | 1 => ⟨0, false, fun _ => true, .call 0 (fun _ => .act (· + 1) (fun _ => .ret))⟩
  | 2 => ⟨1, true, fun _ => true, withInits [] (.note 2 (.call 1 (fun _ => .ret)))⟩
  | 3 => ⟨2, true, fun _ => true, withInits [2] (.note 3 (.act (· * 2) (fun _ => .ret)))⟩
  | 4 => ⟨3, true, fun _ => true, withInits [3, 2] (.note 4 .ret)⟩
  | _ => ⟨9, false, fun _ => true, .ret⟩

def exDeps : Nat → List Nat
  | 3 => [2]
  | 4 => [3, 2]
  | _ => []

/-- The hypotheses of the theorems are met by this program. -/
theorem exProg_compiled : Compiled exProg exDeps id := by
  refine ⟨?_, ?_, ?_, ?_⟩
  · intro m hm
    match m with
    | 2 => exact ⟨rfl, _, rfl, rfl, fun _ => trivial⟩
    | 3 => exact ⟨rfl, _, rfl, fun _ => trivial⟩
    | 4 => exact ⟨rfl, _, rfl, trivial⟩
    | 0 => cases hm
    | 1 => cases hm
    | _ + 5 => cases hm
  · intro m m' hm hm'
    match m, m' with
    | 0, _ => cases hm
    | 1, _ => cases hm
    | _ + 5, _ => cases hm
    | _, 0 => cases hm'
    | _, 1 => cases hm'
    | _, _ + 5 => cases hm'
    | 2, 2 => exact fun _ => rfl
    | 3, 3 => exact fun _ => rfl
    | 4, 4 => exact fun _ => rfl
    | 2, 3 => intro h; cases h
    | 2, 4 => intro h; cases h
    | 3, 2 => intro h; cases h
    | 3, 4 => intro h; cases h
    | 4, 2 => intro h; cases h
    | 4, 3 => intro h; cases h
  · intro m hm
    match m with
    | 0 => cases hm
    | 1 => cases hm
    | 2 => intro d hd; cases hd
    | 3 => intro d hd; simp [exDeps] at hd; subst hd; exact ⟨rfl, by decide⟩
    | 4 => intro d hd; simp [exDeps] at hd; rcases hd with rfl | rfl <;> exact ⟨rfl, by decide⟩
    | _ + 5 => cases hm
  · intro m hm
    match m with
    | 0 => exact ⟨rfl, fun e => by cases e <;> exact trivial⟩
    | 1 => exact ⟨rfl, fun _ _ => trivial⟩
    | 2 => cases hm
    | 3 => cases hm
    | 4 => cases hm
    | _ + 5 => exact trivial

/-- What comes out of a run of the start-up code: did it throw, the state, the depth, and the trace without the 1000 nested
calls. -/
def summary (r : Out (Bool × St Nat)) : Out (Bool × Nat × Int × List Event) := do
  let r ← r
  .ok (r.1, r.2.user, r.2.depth, r.2.trace.filter fun | .user _ => true | .done m => 2 ≤ m | _ => false)

/-- Started in the order 4, 3, 2: the user parts run in the order 2, 3, 4, each once, and the runaway recursion inside the
first was caught. -/
example : summary (callInits exProg 1001 [4, 3, 2] { depth := 0, initialized := fun _ => false, user := 5, trace := [] }) =
    .ok (false, 12, 0, [.done 4, .user 4, .done 3, .user 3, .done 2, .user 2]) := by decide +kernel

/-- Two INIT methods that depend on each other (`use` cycle): 0 on 1 and 1 on 0. -/
def cycProg : Nat → Method Nat
  | 0 => ⟨0, true, fun _ => true, withInits [1] (.note 0 .ret)⟩
  | 1 => ⟨1, true, fun _ => true, withInits [0] (.note 1 .ret)⟩
  | _ => ⟨9, false, fun _ => true, .ret⟩

/-- **C37.** With a `use` cycle the order cannot hold: the class that is reached second runs its statements before those of the
class it uses.  (Each still runs once.) -/
theorem c37_use_cycle_violated :
    summary (callInits cycProg 1001 [0, 1] { depth := 0, initialized := fun _ => false, user := 0, trace := [] }) =
      .ok (false, 0, 0, [.user 0, .user 1]) := by decide +kernel

/-! ### Arguments -/

/-- **C37.** The run-time check of the arguments of an instance method passes exactly when every given argument of an object
type holds `undef` or an object that is assignable to the declared type. -/
theorem c37_args_checked (isa : ν → τ → Bool) (stack : List ν) (argsWidth : Nat) (hw : argsWidth ≤ stack.length)
    (args : List (Arg τ ν)) (hsort : args.Pairwise fun a b => a.stackIndex < b.stackIndex) :
    ∃ ok, checkArgs isa stack argsWidth args = .ok ok ∧
      (ok = true ↔ ∀ a ∈ args, a.isObject = true → a.stackIndex < argsWidth → ∀ v, stack[a.stackIndex]? = some v → isa v a.ty = true) := by
  induction args with
  | nil => exact ⟨true, rfl, by simp⟩
  | cons a as ih =>
    rw [List.pairwise_cons] at hsort
    obtain ⟨b, e, hb⟩ := ih hsort.2
    unfold checkArgs
    by_cases h1 : a.stackIndex < argsWidth
    · rw [if_neg (fun h => h h1)]
      cases ho : a.isObject with
      | true =>
        have hlt : a.stackIndex < stack.length := by omega
        have hg := List.getElem?_eq_getElem hlt
        have hsl : slot stack a.stackIndex = .ok stack[a.stackIndex] := by simp only [slot, hg]
        simp only [if_true, hsl, Out.ok_bind]
        cases hi : isa stack[a.stackIndex] a.ty with
        | true =>
          simp only [if_true]
          refine ⟨b, e, hb.trans ?_⟩
          simp only [List.mem_cons, forall_eq_or_imp]
          refine ⟨fun h => ⟨fun _ _ v hv => ?_, h⟩, fun h => h.2⟩
          rw [hg] at hv; cases hv; exact hi
        | false =>
          refine ⟨false, rfl, ⟨by simp, fun h => ?_⟩⟩
          have := h a (by simp) ho h1 _ hg
          rw [hi] at this; cases this
      | false =>
        simp only [Bool.false_eq_true, if_false]
        refine ⟨b, e, hb.trans ?_⟩
        simp only [List.mem_cons, forall_eq_or_imp]
        refine ⟨fun h => ⟨fun hx => ?_, h⟩, fun h => h.2⟩
        rw [ho] at hx; cases hx
    · rw [if_pos h1]
      refine ⟨true, rfl, ⟨fun _ => ?_, fun _ => rfl⟩⟩
      intro a' ha' _ hlt
      rcases List.mem_cons.1 ha' with rfl | ha'
      · exact absurd hlt h1
      · have := hsort.1 a' ha'; omega

/-- **C37.** The method finds on the stack what the caller passed and, for the arguments that were left out, their default
values; nothing else on the stack changes. -/
theorem c37_defaults (argsWidth : Nat) (args : List (Arg τ ν)) (stack : List ν)
    (hin : ∀ a ∈ args, a.stackIndex < stack.length) (hdist : args.Pairwise fun a b => a.stackIndex ≠ b.stackIndex) :
    ∃ stack', fillDefaults argsWidth args stack = .ok stack' ∧
      (∀ a ∈ args, argsWidth ≤ a.stackIndex → stack'[a.stackIndex]? = some a.default) ∧
      (∀ i, (∀ a ∈ args, argsWidth ≤ a.stackIndex → a.stackIndex ≠ i) → stack'[i]? = stack[i]?) := by
  induction args generalizing stack with
  | nil => exact ⟨stack, rfl, by simp, by simp⟩
  | cons a as ih =>
    rw [List.pairwise_cons] at hdist
    unfold fillDefaults
    by_cases h1 : a.stackIndex ≥ argsWidth
    · rw [if_pos h1, if_pos (hin a (by simp))]
      obtain ⟨s', e, h2, h3⟩ := ih (stack.set a.stackIndex a.default)
        (fun x hx => by rw [List.length_set]; exact hin x (.tail _ hx)) hdist.2
      refine ⟨s', e, ?_, ?_⟩
      · intro x hx hw
        rcases List.mem_cons.1 hx with rfl | hx
        · rw [h3 x.stackIndex (fun y hy _ => fun he => hdist.1 y hy he.symm)]
          simp [hin x (by simp)]
        · exact h2 x hx hw
      · intro i hi
        rw [h3 i (fun y hy hw => hi y (.tail _ hy) hw), List.getElem?_set_ne (hi a (by simp) h1)]
    · rw [if_neg h1]
      obtain ⟨s', e, h2, h3⟩ := ih stack (fun x hx => hin x (.tail _ hx)) hdist.2
      refine ⟨s', e, ?_, ?_⟩
      · intro x hx hw
        rcases List.mem_cons.1 hx with rfl | hx
        · exact absurd hw h1
        · exact h2 x hx hw
      · intro i hi
        exact h3 i (fun y hy hw => hi y (.tail _ hy) hw)

example : fillDefaults 2 [⟨(), false, 1, 7⟩, ⟨(), false, 2, 8⟩, ⟨(), false, 3, 9⟩] [1, 2, 3, 4, 5] = .ok [1, 2, 8, 9, 5] ∧
    checkArgs (fun v t => v ≤ t) [1, 2, 3] 2 [⟨5, true, 0, 0⟩, ⟨1, true, 1, 0⟩] = .ok false ∧
    checkArgs (fun v t => v ≤ t) [1, 2, 3] 1 [⟨5, true, 0, 0⟩, ⟨1, true, 1, 0⟩] = .ok true := by decide

end Call
end SPVM
