import Verif.Model.Vars
/-! # Local variables: the stack of declarations holds what is visible -/
namespace SPVM
namespace Vars

/-- One event. -/
def St.step (cv : String → Bool) (s : St) : Ev → Except Err St
  | .enter => .ok s.enter
  | .leave => s.leave
  | .decl d => s.declare cv d
  | .use n => s.refer cv n

/-- All events. -/
def St.steps (cv : String → Bool) : St → List Ev → Except Err St
  | s, [] => .ok s
  | s, e :: es =>
    match s.step cv e with
    | .error x => .error x
    | .ok s1 => s1.steps cv es

theorem steps_append (cv : String → Bool) (es fs : List Ev) : ∀ s : St,
    s.steps cv (es ++ fs) = match s.steps cv es with
      | .error x => .error x
      | .ok s1 => s1.steps cv fs := by
  induction es with
  | nil => intro s; rfl
  | cons e es ih =>
    intro s
    simp only [List.cons_append, St.steps]
    cases s.step cv e with
    | error x => rfl
    | ok s1 => exact ih s1

theorem check_steps (cv : String → Bool) (b : Body) : ∀ s : St, b.check cv s = s.steps cv b.events := by
  induction b with
  | done => intro s; rfl
  | decl d rest ih =>
    intro s
    simp only [Body.check, Body.events, St.steps, St.step]
    cases s.declare cv d with
    | error x => rfl
    | ok s1 => exact ih s1
  | use n rest ih =>
    intro s
    simp only [Body.check, Body.events, St.steps, St.step]
    cases s.refer cv n with
    | error x => rfl
    | ok s1 => exact ih s1
  | block ns inner rest ihi ihr =>
    intro s
    cases ns with
    | true =>
      simp only [Body.check, Body.events, if_true, steps_append]
      rw [ihi s]
      cases s.steps cv inner.events with
      | error x => rfl
      | ok s1 => exact ihr s1
    | false =>
      simp only [Body.check, Body.events, St.steps, St.step, steps_append, Bool.false_eq_true, if_false]
      rw [ihi s.enter]
      cases s.enter.steps cv inner.events with
      | error x => rfl
      | ok s1 =>
        show (match s1.leave with | .error e => _ | .ok s2 => _) = (match s1.leave with | .error e => _ | .ok s2 => _)
        cases s1.leave with
        | error x => rfl
        | ok s2 => exact ihr s2

/-! ## Depth -/

theorem depth_append (p q : List Ev) (i : Nat) (h : i ≤ p.length) : depth (p ++ q) i = depth p i := by
  unfold depth
  rw [List.take_append_of_le_length h]

theorem depth_snoc (p : List Ev) (e : Ev) : depth (p ++ [e]) (p.length + 1) = depth p p.length + e.depth := by
  unfold depth
  rw [List.take_of_length_le (by simp), List.take_length]
  simp

theorem depth_zero (p : List Ev) : depth p 0 = 0 := by simp [depth]

theorem visible_append (p q : List Ev) (i j : Nat) (h : j ≤ p.length) : Visible (p ++ q) i j ↔ Visible p i j := by
  unfold Visible
  constructor
  · rintro ⟨a, b⟩
    refine ⟨a, fun k h1 h2 => ?_⟩
    have := b k h1 h2
    rwa [depth_append p q i (by omega), depth_append p q k (by omega)] at this
  · rintro ⟨a, b⟩
    refine ⟨a, fun k h1 h2 => ?_⟩
    rw [depth_append p q i (by omega), depth_append p q k (by omega)]
    exact b k h1 h2

theorem declared_append (p q : List Ev) (i : Nat) (d : Decl) (h : i < p.length) : DeclaredAt (p ++ q) i d ↔ DeclaredAt p i d := by
  unfold DeclaredAt
  rw [List.getElem?_append_left h]

/-- Visible one event later. -/
theorem visible_snoc (p : List Ev) (e : Ev) (i : Nat) :
    Visible (p ++ [e]) i (p.length + 1) ↔
      (i < p.length ∧ Visible p i p.length ∧ depth p i ≤ depth p p.length + e.depth) ∨ (i = p.length ∧ 0 ≤ e.depth) := by
  constructor
  · rintro ⟨a, b⟩
    by_cases h : i = p.length
    · subst h
      right
      refine ⟨rfl, ?_⟩
      have := b (p.length + 1) (by omega) (by omega)
      rw [depth_snoc, depth_append p [e] p.length (by omega)] at this
      omega
    · left
      refine ⟨by omega, ⟨by omega, fun k h1 h2 => ?_⟩, ?_⟩
      · have := b k h1 (by omega)
        rwa [depth_append p [e] i (by omega), depth_append p [e] k (by omega)] at this
      · have := b (p.length + 1) (by omega) (by omega)
        rwa [depth_snoc, depth_append p [e] i (by omega)] at this
  · rintro (⟨h, ⟨a, b⟩, c⟩ | ⟨rfl, c⟩)
    · refine ⟨by omega, fun k h1 h2 => ?_⟩
      rw [depth_append p [e] i (by omega)]
      by_cases hk : k = p.length + 1
      · subst hk; rw [depth_snoc]; exact c
      · rw [depth_append p [e] k (by omega)]
        exact b k h1 (by omega)
    · refine ⟨by omega, fun k h1 h2 => ?_⟩
      have hk : k = p.length + 1 := by omega
      subst hk
      rw [depth_snoc, depth_append p [e] p.length (by omega)]
      omega

/-! ## The stack -/

theorem declIndex_append (p q : List Ev) (i : Nat) (h : i ≤ p.length) : declIndex (p ++ q) i = declIndex p i := by
  unfold declIndex
  rw [List.take_append_of_le_length h]

theorem varOps_append (p q : List Ev) (i : Nat) (h : i ≤ p.length) : varOps (p ++ q) i = varOps p i := by
  unfold varOps
  rw [List.take_append_of_le_length h]

/-- An entry of the stack, with its position and its depth. -/
structure Ent where
  pos : Nat
  depth : Int
  name : String

/-- The bases of the scopes. -/
def basesOf (G : List Ent) : Nat → List Nat
  | 0 => []
  | d + 1 => G.countP (fun g => g.depth < ((d + 1 : Nat) : Int)) :: basesOf G d

/-- The state of the checker behind the events `p`. -/
structure Inv (args : Nat) (p : List Ev) (s : St) (D : Nat) (G : List Ent) : Prop where
  depth : depth p p.length = D
  count : s.count = args + declIndex p p.length
  stack : s.stack = G.map (fun g => (g.name, args + declIndex p g.pos))
  bases : s.bases = basesOf G D
  mem : ∀ g, g ∈ G ↔ (∃ d, DeclaredAt p g.pos d ∧ d.name = g.name) ∧ Visible p g.pos p.length ∧ g.depth = Vars.depth p g.pos
  sorted : G.Pairwise (fun a b => b.pos < a.pos ∧ b.depth ≤ a.depth)

theorem basesOf_congr (G H : List Ent) (D : Nat)
    (h : ∀ d : Nat, d ≤ D → G.countP (fun g => g.depth < (d : Int)) = H.countP (fun g => g.depth < (d : Int))) :
    basesOf G D = basesOf H D := by
  induction D with
  | zero => rfl
  | succ D ih =>
    simp only [basesOf]
    rw [h (D + 1) (Nat.le_refl _), ih (fun d hd => h d (by omega))]

theorem drop_filter (G : List Ent) (c : Int) (h : G.Pairwise (fun a b => b.pos < a.pos ∧ b.depth ≤ a.depth)) :
    G.drop (G.length - G.countP (fun g => g.depth < c)) = G.filter (fun g => g.depth < c) := by
  induction G with
  | nil => rfl
  | cons a G ih =>
    have hp := List.pairwise_cons.1 h
    by_cases ha : a.depth < c
    · have hall : ∀ x ∈ a :: G, decide (x.depth < c) = true := by
        intro x hx
        rcases List.mem_cons.1 hx with rfl | hx
        · simpa using ha
        · have := (hp.1 x hx).2
          simp only [decide_eq_true_eq]; omega
      rw [List.countP_eq_length.2 hall, Nat.sub_self, List.drop_zero, List.filter_eq_self.2 hall]
    · rw [List.countP_cons_of_neg (by simpa using ha), List.filter_cons_of_neg (by simpa using ha)]
      have hle : G.countP (fun g => decide (g.depth < c)) ≤ G.length := List.countP_le_length
      rw [List.length_cons, show G.length + 1 - G.countP (fun g => decide (g.depth < c))
        = (G.length - G.countP (fun g => decide (g.depth < c))) + 1 by omega, List.drop_succ_cons]
      exact ih hp.2

theorem take_filter (G : List Ent) (c : Int) (h : G.Pairwise (fun a b => b.pos < a.pos ∧ b.depth ≤ a.depth)) :
    G.take (G.length - G.countP (fun g => g.depth < c)) = G.filter (fun g => !decide (g.depth < c)) := by
  induction G with
  | nil => rfl
  | cons a G ih =>
    have hp := List.pairwise_cons.1 h
    by_cases ha : a.depth < c
    · have hall : ∀ x ∈ a :: G, decide (x.depth < c) = true := by
        intro x hx
        rcases List.mem_cons.1 hx with rfl | hx
        · simpa using ha
        · have := (hp.1 x hx).2
          simp only [decide_eq_true_eq]; omega
      rw [List.countP_eq_length.2 hall, Nat.sub_self, List.take_zero]
      symm
      rw [List.filter_eq_nil_iff]
      intro x hx
      simp [hall x hx]
    · rw [List.countP_cons_of_neg (by simpa using ha), List.filter_cons_of_pos (by simpa using ha)]
      have hle : G.countP (fun g => decide (g.depth < c)) ≤ G.length := List.countP_le_length
      rw [List.length_cons, show G.length + 1 - G.countP (fun g => decide (g.depth < c))
        = (G.length - G.countP (fun g => decide (g.depth < c))) + 1 by omega, List.take_succ_cons]
      exact congrArg _ (ih hp.2)

theorem mem_pos {args p s D G} (hi : Inv args p s D G) {g : Ent} (hg : g ∈ G) : g.pos < p.length := ((hi.mem g).1 hg).2.1.1

theorem mem_depth {args p s D G} (hi : Inv args p s D G) {g : Ent} (hg : g ∈ G) : g.depth ≤ D := by
  obtain ⟨_, hv, hd⟩ := (hi.mem g).1 hg
  have := hv.2 p.length hv.1 (Nat.le_refl _)
  rw [hd, ← hi.depth]; exact this

theorem stack_ext {args p} (e : Ev) {s : St} {D G} (hi : Inv args p s D G) :
    s.stack = G.map (fun g => (g.name, args + declIndex (p ++ [e]) g.pos)) := by
  rw [hi.stack]
  apply List.map_congr_left
  intro g hg
  rw [declIndex_append p [e] g.pos (Nat.le_of_lt (mem_pos hi hg))]

/-- Which declarations are visible one event later. -/
theorem mem_ext {args p s D G} (hi : Inv args p s D G) (e : Ev) (g : Ent) :
    ((∃ d, DeclaredAt (p ++ [e]) g.pos d ∧ d.name = g.name) ∧ Visible (p ++ [e]) g.pos (p ++ [e]).length
      ∧ g.depth = Vars.depth (p ++ [e]) g.pos) ↔
    (g ∈ G ∧ g.depth ≤ D + e.depth) ∨ (g.pos = p.length ∧ g.depth = D ∧ ∃ d, e = .decl d ∧ d.name = g.name) := by
  rw [show (p ++ [e]).length = p.length + 1 by simp, visible_snoc]
  constructor
  · rintro ⟨⟨d, h1, h2⟩, (⟨hl, hv, hd⟩ | ⟨hl, hd⟩), h3⟩
    · left
      rw [depth_append p [e] g.pos (by omega)] at h3
      exact ⟨(hi.mem g).2 ⟨⟨d, (declared_append p [e] g.pos d hl).1 h1, h2⟩, hv, h3⟩, by rw [h3, ← hi.depth]; exact hd⟩
    · right
      rw [hl] at h3
      rw [depth_append p [e] p.length (Nat.le_refl _), hi.depth] at h3
      refine ⟨hl, h3, d, ?_, h2⟩
      unfold DeclaredAt at h1
      rw [hl] at h1
      simpa using h1
  · rintro (⟨hg, hd⟩ | ⟨hl, hd, d, rfl, hn⟩)
    · obtain ⟨⟨d, h1, h2⟩, hv, h3⟩ := (hi.mem g).1 hg
      have hlt := mem_pos hi hg
      refine ⟨⟨d, (declared_append p [e] g.pos d hlt).2 h1, h2⟩, Or.inl ⟨hlt, hv, ?_⟩, ?_⟩
      · rw [← h3, hi.depth]; exact hd
      · rw [depth_append p [e] g.pos (by omega)]; exact h3
    · refine ⟨⟨d, ?_, hn⟩, Or.inr ⟨hl, by simp [Ev.depth]⟩, ?_⟩
      · unfold DeclaredAt; rw [hl]; simp
      · rw [hl, depth_append p _ p.length (Nat.le_refl _), hi.depth]; exact hd

theorem declIndex_snoc (p : List Ev) (e : Ev) :
    declIndex (p ++ [e]) (p ++ [e]).length = declIndex p p.length + (match e with | .decl _ => 1 | _ => 0) := by
  unfold declIndex
  rw [List.take_length, List.take_length, List.countP_append]
  congr 1
  cases e <;> rfl

theorem depth_snoc' (p : List Ev) (e : Ev) : depth (p ++ [e]) (p ++ [e]).length = depth p p.length + e.depth := by
  rw [show (p ++ [e]).length = p.length + 1 by simp, depth_snoc]

/-- Entering a scope. -/
theorem inv_enter {args p s D G} (hi : Inv args p s D G) : Inv args (p ++ [.enter]) s.enter (D + 1) G where
  depth := by rw [depth_snoc', hi.depth]; simp [Ev.depth]
  count := by rw [declIndex_snoc]; exact hi.count
  stack := by show s.stack = _; exact stack_ext .enter hi
  bases := by
    show s.stack.length :: s.bases = G.countP (fun g => g.depth < ((D + 1 : Nat) : Int)) :: basesOf G D
    rw [hi.bases, hi.stack, List.length_map]
    congr 1
    symm
    rw [List.countP_eq_length]
    intro g hg
    have := mem_depth hi hg
    simp only [decide_eq_true_eq]; omega
  mem := fun g => by
    rw [mem_ext hi .enter g]
    constructor
    · intro hg
      exact Or.inl ⟨hg, by have := mem_depth hi hg; simp only [Ev.depth]; omega⟩
    · rintro (h | ⟨_, _, d, h, _⟩)
      · exact h.1
      · exact absurd h (by simp)
  sorted := hi.sorted

/-- Leaving a scope. -/
theorem inv_leave {args p s D G} (hi : Inv args p s D G) (s1 : St) (h : s.leave = .ok s1) :
    ∃ D', D = D' + 1 ∧ Inv args (p ++ [.leave]) s1 D' (G.filter (fun g => g.depth < (D : Int))) := by
  cases D with
  | zero =>
    have hb := hi.bases
    simp only [basesOf] at hb
    simp only [St.leave, hb] at h
    cases h
  | succ D =>
    have hb := hi.bases
    simp only [basesOf] at hb
    simp only [St.leave, hb] at h
    cases h
    refine ⟨D, rfl, ?_⟩
    exact {
      depth := by rw [depth_snoc', hi.depth]; simp only [Ev.depth]; omega
      count := by rw [declIndex_snoc]; exact hi.count
      stack := by
        show s.stack.drop _ = _
        rw [stack_ext .leave hi, List.length_map, ← List.map_drop, drop_filter G _ hi.sorted]
      bases := by
        show basesOf G D = _
        apply basesOf_congr
        intro d hd
        rw [List.countP_filter]
        apply List.countP_congr
        intro g _
        simp only [decide_eq_true_eq, Bool.and_eq_true]
        omega
      mem := fun g => by
        rw [mem_ext hi .leave g, List.mem_filter]
        simp only [decide_eq_true_eq, Ev.depth]
        constructor
        · rintro ⟨a, b⟩; exact Or.inl ⟨a, by omega⟩
        · rintro (⟨a, b⟩ | ⟨_, _, d, h, _⟩)
          · exact ⟨a, by omega⟩
          · exact absurd h (by simp)
      sorted := hi.sorted.filter _ }

/-- Using a variable. -/
theorem inv_use {args p s D G} (cv : String → Bool) (n : String) (hi : Inv args p s D G) (s1 : St) (h : s.refer cv n = .ok s1) :
    Inv args (p ++ [.use n]) s1 D G := by
  have key : s1.count = s.count ∧ s1.stack = s.stack ∧ s1.bases = s.bases := by
    unfold St.refer at h
    split at h
    · cases h; exact ⟨rfl, rfl, rfl⟩
    · split at h
      · cases h; exact ⟨rfl, rfl, rfl⟩
      · cases h
  exact {
    depth := by rw [depth_snoc', hi.depth]; simp [Ev.depth]
    count := by rw [declIndex_snoc, key.1]; exact hi.count
    stack := by rw [key.2.1]; exact stack_ext (.use n) hi
    bases := by rw [key.2.2]; exact hi.bases
    mem := fun g => by
      rw [mem_ext hi (.use n) g]
      simp only [Ev.depth]
      constructor
      · intro hg
        exact Or.inl ⟨hg, by have := mem_depth hi hg; omega⟩
      · rintro (h | ⟨_, _, d, h, _⟩)
        · exact h.1
        · exact absurd h (by simp)
    sorted := hi.sorted }

/-- The entry of a new declaration. -/
theorem inv_push {args p s D G} (d : Decl) (hi : Inv args p s D G) (dl : List Decl) (r : List Ref) :
    Inv args (p ++ [.decl d]) ⟨(d.name, s.count) :: s.stack, s.bases, s.count + 1, dl, r⟩ D (⟨p.length, D, d.name⟩ :: G) where
  depth := by rw [depth_snoc', hi.depth]; simp [Ev.depth]
  count := by rw [declIndex_snoc]; show s.count + 1 = _; rw [hi.count]; simp only; omega
  stack := by
    show (d.name, s.count) :: s.stack = _
    rw [List.map_cons, ← stack_ext (.decl d) hi, hi.count]
    congr 1
    rw [declIndex_append p _ p.length (Nat.le_refl _)]
  bases := by
    show s.bases = _
    rw [hi.bases]
    apply basesOf_congr
    intro d' hd
    rw [List.countP_cons_of_neg]
    simp only [decide_eq_true_eq]; omega
  mem := fun g => by
    rw [mem_ext hi (.decl d) g, List.mem_cons]
    simp only [Ev.depth]
    constructor
    · rintro (rfl | hg)
      · exact Or.inr ⟨rfl, rfl, d, rfl, rfl⟩
      · exact Or.inl ⟨hg, by have := mem_depth hi hg; omega⟩
    · rintro (h | ⟨h1, h2, d', h3, h4⟩)
      · exact Or.inr h.1
      · left
        cases g
        cases h3
        exact (Ent.mk.injEq ..).mpr ⟨h1, h2, h4.symm⟩
  sorted := by
    rw [List.pairwise_cons]
    exact ⟨fun g hg => ⟨mem_pos hi hg, mem_depth hi hg⟩, hi.sorted⟩

theorem redeclared_eq (n : String) (l : List (String × Nat)) : redeclared n l = (l.any (fun e => e.1 == n) && !isTmp n) := by
  induction l with
  | nil => rfl
  | cons e l ih =>
    simp only [redeclared, List.any_cons]
    by_cases h : e.1 = n
    · simp [h]
    · rw [if_neg h, ih, show (e.1 == n) = false from beq_eq_false_iff_ne.2 h, Bool.false_or]

/-- The search finds the visible declaration that comes last. -/
theorem search_means {args p s D G} (hi : Inv args p s D G) (n : String) :
    match search n s.stack with
    | some k => ∃ i, Means p n p.length i ∧ k = args + declIndex p i
    | none => ∀ i, ¬ Means p n p.length i := by
  rw [hi.stack]
  have key : ∀ H : List Ent, (∀ g ∈ H, g ∈ G) → (∀ g ∈ G, g.name = n → g ∈ H) →
      H.Pairwise (fun a b => b.pos < a.pos ∧ b.depth ≤ a.depth) →
      match search n (H.map (fun g => (g.name, args + declIndex p g.pos))) with
      | some k => ∃ i, Means p n p.length i ∧ k = args + declIndex p i
      | none => ∀ i, ¬ Means p n p.length i := by
    intro H
    induction H with
    | nil =>
      intro _ h2 _
      show ∀ i, ¬ Means p n p.length i
      rintro i ⟨⟨d, h3, h4⟩, hv, _⟩
      have := h2 ⟨i, depth p i, n⟩ ((hi.mem _).2 ⟨⟨d, h3, h4⟩, hv, rfl⟩) rfl
      cases this
    | cons a H ih =>
      intro h1 h2 h3
      rw [List.pairwise_cons] at h3
      simp only [List.map_cons, search]
      by_cases ha : a.name = n
      · rw [if_pos ha]
        obtain ⟨hd, hv, _⟩ := (hi.mem a).1 (h1 a (by simp))
        rw [ha] at hd
        refine ⟨a.pos, ⟨hd, hv, ?_⟩, rfl⟩
        intro i' d' h4 h5 h6
        have := h2 ⟨i', depth p i', n⟩ ((hi.mem _).2 ⟨⟨d', h4, h5⟩, h6, rfl⟩) rfl
        rcases List.mem_cons.1 this with h | h
        · rw [← h]; exact Nat.le_refl _
        · exact Nat.le_of_lt (h3.1 _ h).1
      · rw [if_neg ha]
        apply ih (fun g hg => h1 g (by simp [hg])) _ h3.2
        intro g hg hn
        rcases List.mem_cons.1 (h2 g hg hn) with rfl | h
        · exact absurd hn ha
        · exact h
  exact key G (fun g h => h) (fun g h _ => h) hi.sorted

theorem means_unique {p n j i i'} (h : Means p n j i) (h' : Means p n j i') : i = i' := by
  obtain ⟨⟨d, a, b⟩, c, e⟩ := h
  obtain ⟨⟨d', a', b'⟩, c', e'⟩ := h'
  have := e i' d' a' b' c'
  have := e' i d a b c
  omega

theorem means_append (p q : List Ev) (n : String) (i : Nat) : Means (p ++ q) n p.length i ↔ Means p n p.length i := by
  unfold Means
  constructor
  · rintro ⟨⟨d, a, b⟩, c, e⟩
    rw [visible_append p q i _ (Nat.le_refl _)] at c
    refine ⟨⟨d, (declared_append p q i d c.1).1 a, b⟩, c, ?_⟩
    intro i' d' h1 h2 h3
    exact e i' d' ((declared_append p q i' d' h3.1).2 h1) h2 ((visible_append p q i' _ (Nat.le_refl _)).2 h3)
  · rintro ⟨⟨d, a, b⟩, c, e⟩
    refine ⟨⟨d, (declared_append p q i d c.1).2 a, b⟩, (visible_append p q i _ (Nat.le_refl _)).2 c, ?_⟩
    intro i' d' h1 h2 h3
    rw [visible_append p q i' _ (Nat.le_refl _)] at h3
    exact e i' d' ((declared_append p q i' d' h3.1).1 h1) h2 h3

/-- The scan for a redeclaration finds what the scope holds already. -/
theorem redeclared_spec {args p s D G} (hi : Inv args p s D G) (d : Decl) (base : Nat) (rest : List Nat) (hb : s.bases = base :: rest) :
    redeclared d.name (s.stack.take (s.stack.length - base)).reverse = true ↔
      (Redeclares (p ++ [.decl d]) p.length ∧ isTmp d.name = false) := by
  rw [redeclared_eq, List.any_reverse]
  have hbs := hi.bases
  rw [hb] at hbs
  cases D with
  | zero => simp [basesOf] at hbs
  | succ D =>
    simp only [basesOf, List.cons.injEq] at hbs
    rw [hbs.1, hi.stack, List.length_map, ← List.map_take, take_filter G _ hi.sorted]
    simp only [Bool.and_eq_true, Bool.not_eq_true', List.any_eq_true, List.mem_map, List.mem_filter, beq_iff_eq]
    apply and_congr_left
    intro _
    have hself : DeclaredAt (p ++ [.decl d]) p.length d := by unfold DeclaredAt; simp
    constructor
    · rintro ⟨_, ⟨g, ⟨hg, hd⟩, rfl⟩, hn⟩
      obtain ⟨⟨d', h1, h2⟩, hv, h3⟩ := (hi.mem g).1 hg
      have hle := mem_depth hi hg
      refine ⟨d, g.pos, d', hself, (declared_append p _ g.pos d' hv.1).2 h1, by rw [h2]; exact hn,
        (visible_append p _ g.pos _ (Nat.le_refl _)).2 hv, ?_⟩
      rw [depth_append p _ g.pos (Nat.le_of_lt hv.1), depth_append p _ p.length (Nat.le_refl _), hi.depth, ← h3]
      simp only [decide_eq_false_iff_not] at hd
      omega
    · rintro ⟨d1, i, d', h1, h2, h3, hv, hd⟩
      have : d1 = d := by
        unfold DeclaredAt at h1 hself
        rw [hself] at h1
        cases h1; rfl
      subst this
      rw [visible_append p _ i _ (Nat.le_refl _)] at hv
      rw [depth_append p _ i (Nat.le_of_lt hv.1), depth_append p _ p.length (Nat.le_refl _), hi.depth] at hd
      rw [declared_append p _ i d' hv.1] at h2
      refine ⟨_, ⟨⟨i, depth p i, d1.name⟩, ⟨(hi.mem _).2 ⟨⟨d', h2, h3⟩, hv, rfl⟩, ?_⟩, rfl⟩, rfl⟩
      simp only [decide_eq_false_iff_not]
      omega

/-- One event keeps the invariant. -/
theorem inv_step {args p s D G} (cv : String → Bool) (e : Ev) (hi : Inv args p s D G) (s1 : St) (h : s.step cv e = .ok s1) :
    ∃ D' G', Inv args (p ++ [e]) s1 D' G' := by
  cases e with
  | enter => cases h; exact ⟨_, _, inv_enter hi⟩
  | leave =>
    obtain ⟨D', _, hi'⟩ := inv_leave hi s1 h
    exact ⟨_, _, hi'⟩
  | use n => exact ⟨_, _, inv_use cv n hi s1 h⟩
  | decl d =>
    simp only [St.step, St.declare] at h
    split at h
    · cases h
    · split at h
      · cases h
      · unfold St.refer at h
        simp only [search, if_true] at h
        cases h
        exact ⟨_, _, inv_push d hi _ _⟩

theorem inv_steps {args} (cv : String → Bool) (es : List Ev) : ∀ (p : List Ev) (s s1 : St) (D : Nat) (G : List Ent),
    Inv args p s D G → s.steps cv es = .ok s1 → ∃ D' G', Inv args (p ++ es) s1 D' G' := by
  induction es with
  | nil => intro p s s1 D G hi h; cases h; rw [List.append_nil]; exact ⟨_, _, hi⟩
  | cons e es ih =>
    intro p s s1 D G hi h
    simp only [St.steps] at h
    cases hs : s.step cv e with
    | error x => rw [hs] at h; cases h
    | ok s2 =>
      rw [hs] at h
      obtain ⟨D', G', hi'⟩ := inv_step cv e hi s2 hs
      obtain ⟨D2, G2, h2⟩ := ih (p ++ [e]) s2 s1 D' G' hi' h
      rw [List.append_assoc] at h2
      exact ⟨D2, G2, h2⟩

/-- The start of the check of a method. -/
def St.start (args : Nat) : St := ⟨[], [], args, [], []⟩

theorem inv_start (args : Nat) : Inv args [] (St.start args) 0 [] where
  depth := rfl
  count := by simp [declIndex, St.start]
  stack := rfl
  bases := rfl
  mem := fun g => by
    constructor
    · intro h; cases h
    · rintro ⟨_, h, _⟩
      exact absurd h.1 (by simp)
  sorted := List.Pairwise.nil

/-- The names that stand in two positions of the stack: what the search finds behind a declaration is the declaration. -/
theorem search_push (n : String) (k : Nat) (l : List (String × Nat)) : search n ((n, k) :: l) = some k := by
  simp [search]

/-! ## Errors -/

theorem redeclares_append (p q : List Ev) (j : Nat) (h : j < p.length) : Redeclares (p ++ q) j ↔ Redeclares p j := by
  unfold Redeclares
  constructor
  · rintro ⟨d, i, d', a, b, c, e, f⟩
    rw [visible_append p q i j (Nat.le_of_lt h)] at e
    have hi := e.1
    rw [declared_append p q j d h] at a
    rw [declared_append p q i d' (by omega)] at b
    rw [depth_append p q i (by omega), depth_append p q j (by omega)] at f
    exact ⟨d, i, d', a, b, c, e, f⟩
  · rintro ⟨d, i, d', a, b, c, e, f⟩
    have hi := e.1
    refine ⟨d, i, d', (declared_append p q j d h).2 a, (declared_append p q i d' (by omega)).2 b, c,
      (visible_append p q i j (Nat.le_of_lt h)).2 e, ?_⟩
    rw [depth_append p q i (by omega), depth_append p q j (by omega)]
    exact f

/-- An error is the error of one event. -/
theorem steps_error (cv : String → Bool) (x : Err) (es : List Ev) : ∀ s : St, s.steps cv es = .error x →
    ∃ p e q sp, es = p ++ e :: q ∧ s.steps cv p = .ok sp ∧ sp.step cv e = .error x := by
  induction es with
  | nil => intro s h; cases h
  | cons e es ih =>
    intro s h
    simp only [St.steps] at h
    cases hs : s.step cv e with
    | error y =>
      rw [hs] at h
      cases h
      exact ⟨[], e, es, s, rfl, rfl, hs⟩
    | ok s1 =>
      rw [hs] at h
      obtain ⟨p, e', q, sp, h1, h2, h3⟩ := ih s1 h
      refine ⟨e :: p, e', q, sp, by rw [h1]; rfl, ?_, h3⟩
      simp only [St.steps, hs]
      exact h2

/-- Success is success of every event. -/
theorem steps_ok (cv : String → Bool) (p : List Ev) (e : Ev) (q : List Ev) (s s1 : St) (h : s.steps cv (p ++ e :: q) = .ok s1) :
    ∃ sp sq, s.steps cv p = .ok sp ∧ sp.step cv e = .ok sq ∧ sq.steps cv q = .ok s1 := by
  rw [steps_append] at h
  cases hp : s.steps cv p with
  | error x => rw [hp] at h; cases h
  | ok sp =>
    rw [hp] at h
    simp only [St.steps] at h
    cases hs : sp.step cv e with
    | error x => rw [hs] at h; cases h
    | ok sq => rw [hs] at h; exact ⟨sp, sq, rfl, hs, h⟩

theorem refer_bases (cv : String → Bool) (s : St) (n : String) :
    match s.refer cv n with
    | .ok s1 => s1.bases = s.bases
    | .error x => x ≠ .ub := by
  unfold St.refer
  cases search n s.stack with
  | some i => rfl
  | none =>
    simp only
    cases cv n with
    | true => rfl
    | false => simp

/-- In a scope the walk never pops an empty stack, and comes back to the same scopes. -/
theorem check_bases (cv : String → Bool) (b : Body) : ∀ s : St, s.bases ≠ [] →
    match b.check cv s with
    | .ok s1 => s1.bases = s.bases
    | .error x => x ≠ .ub := by
  induction b with
  | done => intro s _; rfl
  | use n rest ih =>
    intro s hs
    simp only [Body.check]
    have := refer_bases cv s n
    cases hr : s.refer cv n with
    | error x => rw [hr] at this; exact this
    | ok s1 =>
      rw [hr] at this
      simp only at this ⊢
      have h2 := ih s1 (by rw [this]; exact hs)
      rw [this] at h2
      exact h2
  | decl d rest ih =>
    intro s hs
    simp only [Body.check]
    have : match s.declare cv d with
        | .ok s1 => s1.bases = s.bases
        | .error x => x ≠ .ub := by
      unfold St.declare
      cases hb : s.bases with
      | nil => exact absurd hb hs
      | cons base bs =>
        simp only
        split
        · rename_i s1 h1
          split at h1
          · cases h1
          · have := refer_bases cv { s with stack := (d.name, s.count) :: s.stack, count := s.count + 1, decls := s.decls ++ [d] } d.name
            simp only [hb] at this h1
            rw [h1] at this
            exact this
        · rename_i x h1
          split at h1
          · cases h1; simp
          · have := refer_bases cv { s with stack := (d.name, s.count) :: s.stack, count := s.count + 1, decls := s.decls ++ [d] } d.name
            simp only [hb] at this h1
            rw [h1] at this
            exact this
    cases hr : s.declare cv d with
    | error x => rw [hr] at this; exact this
    | ok s1 =>
      rw [hr] at this
      simp only at this ⊢
      have h2 := ih s1 (by rw [this]; exact hs)
      rw [this] at h2
      exact h2
  | block ns inner rest ihi ihr =>
    intro s hs
    simp only [Body.check]
    cases ns with
    | true =>
      simp only [if_true]
      have := ihi s hs
      cases hr : inner.check cv s with
      | error x => rw [hr] at this; exact this
      | ok s1 =>
        rw [hr] at this
        simp only at this ⊢
        have h2 := ihr s1 (by rw [this]; exact hs)
        rw [this] at h2
        exact h2
    | false =>
      simp only [Bool.false_eq_true, if_false]
      have := ihi s.enter (by simp [St.enter])
      cases hr : inner.check cv s.enter with
      | error x => rw [hr] at this; exact this
      | ok s1 =>
        rw [hr] at this
        simp only [St.enter] at this
        simp only [St.leave, this]
        exact ihr { s1 with stack := s1.stack.drop (s1.stack.length - s.stack.length), bases := s.bases } hs

/-! ## References and declarations so far -/

theorem step_decls (cv : String → Bool) (s s1 : St) (e : Ev) (h : s.step cv e = .ok s1) :
    s1.decls = s.decls ++ (match e with | .decl d => [d] | _ => []) ∧
    ∃ rs, s1.refs = rs ++ s.refs ∧ rs.length = (match e with | .decl _ => 1 | .use _ => 1 | _ => 0) := by
  have hr : ∀ (t t1 : St) (n : String), t.refer cv n = .ok t1 → t1.decls = t.decls ∧ ∃ r, t1.refs = [r] ++ t.refs := by
    intro t t1 n h
    unfold St.refer at h
    split at h
    · cases h; exact ⟨rfl, _, rfl⟩
    · split at h
      · cases h; exact ⟨rfl, _, rfl⟩
      · cases h
  cases e with
  | enter => cases h; exact ⟨by simp [St.enter], [], rfl, rfl⟩
  | leave =>
    simp only [St.step, St.leave] at h
    split at h
    · cases h
    · cases h; exact ⟨by simp, [], rfl, rfl⟩
  | use n =>
    obtain ⟨h1, r, h2⟩ := hr s s1 n h
    exact ⟨by simp [h1], [r], h2, rfl⟩
  | decl d =>
    simp only [St.step, St.declare] at h
    split at h
    · cases h
    · split at h
      · cases h
      · obtain ⟨h1, r, h2⟩ := hr _ s1 d.name h
        exact ⟨h1, [r], h2, rfl⟩

theorem steps_decls (cv : String → Bool) (es : List Ev) : ∀ (s s1 : St), s.steps cv es = .ok s1 →
    s1.decls = s.decls ++ declsOf es ∧ ∃ rs, s1.refs = rs ++ s.refs ∧ rs.length = varOps es es.length := by
  induction es with
  | nil => intro s s1 h; cases h; exact ⟨by simp [declsOf], [], rfl, rfl⟩
  | cons e es ih =>
    intro s s1 h
    simp only [St.steps] at h
    cases hs : s.step cv e with
    | error x => rw [hs] at h; cases h
    | ok s2 =>
      rw [hs] at h
      obtain ⟨a1, r1, a2, a3⟩ := step_decls cv s s2 e hs
      obtain ⟨b1, r2, b2, b3⟩ := ih s2 s1 h
      refine ⟨?_, r2 ++ r1, by rw [b2, a2, List.append_assoc], ?_⟩
      · rw [b1, a1, List.append_assoc]
        congr 1
        cases e <;> rfl
      · rw [List.length_append, a3, b3]
        unfold varOps
        rw [List.take_length, List.take_length]
        cases e <;> simp [List.countP_cons]

/-! ## Memory -/

theorem anyUsed_of_nonneg (slots : List Int) (h : ∀ x ∈ slots, 0 ≤ x) (i w : Nat) (hw : 0 < w) (hi : i + w ≤ slots.length) :
    anyUsed slots i w = true := by
  unfold anyUsed
  rw [List.any_eq_true]
  refine ⟨slots[i], ?_, by simpa using h _ (List.getElem_mem (by omega))⟩
  rw [List.mem_take_iff_getElem]
  exact ⟨0, by simp; omega, by simp⟩

theorem findFree_none (slots : List Int) (h : ∀ x ∈ slots, 0 ≤ x) (w : Nat) (hw : 0 < w) (is : List Nat) :
    findFree slots w is = none := by
  induction is with
  | nil => rfl
  | cons i is ih =>
    simp only [findFree]
    rw [if_neg, ih]
    rintro ⟨h1, h2⟩
    rw [anyUsed_of_nonneg slots h i w hw h1] at h2
    cases h2

theorem findFree_some (slots : List Int) (w : Nat) (is : List Nat) (i : Nat) (h : findFree slots w is = some i) :
    i + w ≤ slots.length := by
  induction is with
  | nil => cases h
  | cons j is ih =>
    simp only [findFree] at h
    split at h
    · rename_i hc; cases h; exact hc.1
    · exact ih h

/-- What one allocation does while nothing is ever given back. -/
theorem getIndex_spec (slots : List Int) (h : ∀ x ∈ slots, 0 ≤ x) (w id : Nat) :
    (getIndex slots w id).2.length = slots.length + w ∧ (getIndex slots w id).1 + w ≤ slots.length + w ∧
    (0 < w → (getIndex slots w id).1 = slots.length) ∧ ∀ x ∈ (getIndex slots w id).2, 0 ≤ x := by
  unfold getIndex
  by_cases hw : 0 < w
  · rw [findFree_none slots h w hw]
    refine ⟨by simp, by simp, fun _ => rfl, ?_⟩
    intro x hx
    rcases List.mem_append.1 hx with hx | hx
    · exact h x hx
    · rw [List.eq_of_mem_replicate hx]; omega
  · have : w = 0 := by omega
    subst this
    cases hf : findFree slots 0 (List.range slots.length) with
    | none => exact ⟨by simp, by simp, fun h => absurd h (by omega), by simpa using h⟩
    | some i =>
      have := findFree_some slots 0 _ i hf
      simp only [fill, List.replicate_zero, List.append_nil, Nat.add_zero, List.take_append_drop]
      exact ⟨trivial, this, fun h => absurd h (by omega), h⟩

/-- What the allocation of all variables does. -/
theorem allocVars_spec (ds : List Decl) : ∀ (id : Nat) (s : Slots), (∀ k, ∀ x ∈ s k, 0 ≤ x) →
    (allocVars ds id s).1.length = ds.length ∧
    (∀ k, (s k).length ≤ ((allocVars ds id s).2 k).length) ∧
    (∀ (a : Nat) (d : Decl) (i : Nat), ds[a]? = some d → (allocVars ds id s).1[a]? = some i → d.kind ≠ .void →
      i + d.width ≤ ((allocVars ds id s).2 d.kind).length ∧ (0 < d.width → (s d.kind).length ≤ i)) ∧
    (∀ (a b : Nat) (d d' : Decl) (i i' : Nat), a < b → ds[a]? = some d → ds[b]? = some d' →
      (allocVars ds id s).1[a]? = some i → (allocVars ds id s).1[b]? = some i' → d.kind = d'.kind → d.kind ≠ .void →
      0 < d.width → 0 < d'.width → i + d.width ≤ i') := by
  induction ds with
  | nil =>
    intro id s _
    exact ⟨rfl, fun k => Nat.le_refl _, by intro a d i h; simp at h, by intro a b d d' i i' _ h; simp at h⟩
  | cons d0 ds ih =>
    intro id s hs
    by_cases hv : d0.kind = .void
    · obtain ⟨i1, i2, i3, i4⟩ := ih (id + 1) s hs
      simp only [allocVars, hv, if_true]
      refine ⟨by simp [i1], i2, ?_, ?_⟩
      · intro a d i h1 h2 h3
        cases a with
        | zero => simp at h1; subst h1; exact absurd hv h3
        | succ a =>
          simp only [List.getElem?_cons_succ] at h1 h2
          exact i3 a d i h1 h2 h3
      · intro a b d d' i i' hab h1 h2 h3 h4 h5 h6 h7 h8
        cases b with
        | zero => omega
        | succ b =>
          cases a with
          | zero => simp at h1; subst h1; exact absurd hv h6
          | succ a =>
            simp only [List.getElem?_cons_succ] at h1 h2 h3 h4
            exact i4 a b d d' i i' (by omega) h1 h2 h3 h4 h5 h6 h7 h8
    · obtain ⟨g1, g2, g3, g4⟩ := getIndex_spec (s d0.kind) (hs d0.kind) d0.width id
      have hs' : ∀ k, ∀ x ∈ (fun k => if k = d0.kind then (getIndex (s d0.kind) d0.width id).2 else s k) k, 0 ≤ x := by
        intro k x hx
        simp only at hx
        split at hx
        · exact g4 x hx
        · exact hs k x hx
      obtain ⟨i1, i2, i3, i4⟩ := ih (id + 1) _ hs'
      simp only [allocVars, hv, if_false]
      refine ⟨by simp [i1], ?_, ?_, ?_⟩
      · intro k
        refine Nat.le_trans ?_ (i2 k)
        show _ ≤ (if k = d0.kind then _ else _ : List Int).length
        split
        · rename_i hk; rw [hk, g1]; omega
        · exact Nat.le_refl _
      · intro a d i h1 h2 h3
        cases a with
        | zero =>
          simp only [List.getElem?_cons_zero, Option.some.injEq] at h1 h2
          subst h1 h2
          have := i2 d0.kind
          simp only [if_true, g1] at this
          exact ⟨by omega, fun hw => by rw [g3 hw]; exact Nat.le_refl _⟩
        | succ a =>
          simp only [List.getElem?_cons_succ] at h1 h2
          obtain ⟨j1, j2⟩ := i3 a d i h1 h2 h3
          refine ⟨j1, fun hw => ?_⟩
          have := j2 hw
          split at this
          · rename_i hk; rw [hk]; omega
          · exact this
      · intro a b d d' i i' hab h1 h2 h3 h4 h5 h6 h7 h8
        cases b with
        | zero => omega
        | succ b =>
          simp only [List.getElem?_cons_succ] at h2 h4
          cases a with
          | zero =>
            simp only [List.getElem?_cons_zero, Option.some.injEq] at h1 h3
            subst h1 h3
            obtain ⟨j1, j2⟩ := i3 b d' i' h2 h4 (by rw [← h5]; exact h6)
            have := j2 h8
            simp only [← h5, if_true, g1] at this
            rw [g3 h7]
            exact this
          | succ a =>
            simp only [List.getElem?_cons_succ] at h1 h3
            exact i4 a b d d' i i' (by omega) h1 h2 h3 h4 h5 h6 h7 h8

end Vars
end SPVM
