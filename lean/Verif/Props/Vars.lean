import Verif.Lemmas.Vars
/-! # C56: local variables -/
namespace SPVM
namespace Vars

/-- The events of a method whose body is `body`. -/
def methodEvents (body : Body) : List Ev := (Body.block false body .done).events

theorem isTmp_iff (n : String) : isTmp n = true ↔ Internal n := by
  unfold isTmp Internal
  rw [beq_iff_eq]
  cases n.toList with
  | nil => simp
  | cons a l =>
    cases l with
    | nil => simp
    | cons b l => simp

theorem split_at (es : List Ev) (j : Nat) (e : Ev) (h : es[j]? = some e) : ∃ p q, es = p ++ e :: q ∧ p.length = j := by
  obtain ⟨hj, he⟩ := List.getElem?_eq_some_iff.1 h
  refine ⟨es.take j, es.drop (j + 1), ?_, by simp; omega⟩
  rw [← he, ← List.drop_eq_getElem_cons hj, List.take_append_drop]

/-- C56: a compile error has its reason: a name declared twice in one scope, or a name that means nothing; and the compiler
never takes a scope from an empty stack. -/
theorem vars_errors (cv : String → Bool) (args : Nat) (body : Body) (x : Err) (h : checkMethod cv args body = .error x) :
    ∃ j,
      (∃ d, DeclaredAt (methodEvents body) j d ∧ Redeclares (methodEvents body) j ∧ ¬ Internal d.name ∧ x = .redeclaration d.name) ∨
      (∃ n, (methodEvents body)[j]? = some (.use n) ∧ cv n = false ∧ (∀ i, ¬ Means (methodEvents body) n j i) ∧ x = .notFound n) := by
  have hub : x ≠ .ub := by
    unfold checkMethod at h
    simp only [Body.check, Bool.false_eq_true, if_false] at h
    have := check_bases cv body (St.enter ⟨[], [], args, [], []⟩) (by simp [St.enter])
    cases hr : body.check cv (St.enter ⟨[], [], args, [], []⟩) with
    | error y => rw [hr] at this h; cases h; exact this
    | ok s1 =>
      rw [hr] at this h
      simp only [St.enter] at this
      simp only [St.leave, this] at h
      cases h
  rw [checkMethod, check_steps] at h
  obtain ⟨p, e, q, sp, he, h1, h2⟩ := steps_error cv x _ _ h
  obtain ⟨D, G, hi⟩ := inv_steps cv p [] (St.start args) sp 0 [] (inv_start args) h1
  rw [List.nil_append] at hi
  refine ⟨p.length, ?_⟩
  unfold methodEvents
  rw [he]
  cases e with
  | enter => cases h2
  | leave =>
    simp only [St.step, St.leave] at h2
    split at h2
    · cases h2; exact absurd rfl hub
    · cases h2
  | use n =>
    right
    refine ⟨n, by simp, ?_⟩
    have hm := search_means hi n
    simp only [St.step, St.refer] at h2
    split at h2
    · cases h2
    · rename_i hn
      rw [hn] at hm
      split at h2
      · cases h2
      · rename_i hc
        cases h2
        refine ⟨by simpa using hc, fun i => ?_, rfl⟩
        rw [means_append]
        exact hm i
  | decl d =>
    left
    simp only [St.step, St.declare] at h2
    split at h2
    · cases h2; exact absurd rfl hub
    · rename_i base rest hb
      split at h2
      · rename_i hr
        cases h2
        rw [redeclared_spec hi d base rest hb] at hr
        refine ⟨d, by unfold DeclaredAt; simp, ?_, ?_, rfl⟩
        · rw [show p ++ Ev.decl d :: q = (p ++ [Ev.decl d]) ++ q by simp, redeclares_append _ _ _ (by simp)]
          exact hr.1
        · rw [← isTmp_iff]; simp [hr.2]
      · unfold St.refer at h2
        simp only [search, if_true] at h2
        cases h2

/-- What holds at one position of an accepted body. -/
theorem accepted_at (cv : String → Bool) (args : Nat) (body : Body) (s : St) (h : checkMethod cv args body = .ok s) (j : Nat) (e : Ev)
    (hj : (methodEvents body)[j]? = some e) :
    ∃ p q sp sq D G, methodEvents body = p ++ e :: q ∧ p.length = j ∧ Inv args p sp D G ∧ (St.start args).steps cv p = .ok sp ∧
      sp.step cv e = .ok sq ∧ sq.steps cv q = .ok s := by
  obtain ⟨p, q, he, hp⟩ := split_at _ j e hj
  rw [checkMethod, check_steps] at h
  rw [show (Body.block false body .done).events = p ++ e :: q from he] at h
  obtain ⟨sp, sq, h1, h2, h3⟩ := steps_ok cv p e q _ s h
  obtain ⟨D, G, hi⟩ := inv_steps cv p [] (St.start args) sp 0 [] (inv_start args) h1
  rw [List.nil_append] at hi
  exact ⟨p, q, sp, sq, D, G, he, hp, hi, h1, h2, h3⟩

/-- C56: a method is accepted exactly if no name (other than those the compiler makes) is declared twice in one scope, and every
name that is used means a visible variable or a class variable. -/
theorem vars_accepts (cv : String → Bool) (args : Nat) (body : Body) :
    (∃ s, checkMethod cv args body = .ok s) ↔
      ∀ j, (∀ d, DeclaredAt (methodEvents body) j d → ¬ Internal d.name → ¬ Redeclares (methodEvents body) j) ∧
        (∀ n, (methodEvents body)[j]? = some (.use n) → cv n = true ∨ ∃ i, Means (methodEvents body) n j i) := by
  constructor
  · rintro ⟨s, h⟩ j
    constructor
    · intro d hd hn hr
      obtain ⟨p, q, sp, sq, D, G, he, rfl, hi, _, h2, _⟩ := accepted_at cv args body s h j _ hd
      rw [he] at hr
      rw [show p ++ Ev.decl d :: q = (p ++ [Ev.decl d]) ++ q by simp, redeclares_append _ _ _ (by simp)] at hr
      simp only [St.step, St.declare] at h2
      split at h2
      · cases h2
      · rename_i base rest hb
        rw [if_pos ((redeclared_spec hi d base rest hb).2 ⟨hr, by rw [← isTmp_iff] at hn; simpa using hn⟩)] at h2
        cases h2
    · intro n hn
      obtain ⟨p, q, sp, sq, D, G, he, rfl, hi, _, h2, _⟩ := accepted_at cv args body s h j _ hn
      have hm := search_means hi n
      simp only [St.step, St.refer] at h2
      split at h2
      · rename_i k hk
        rw [hk] at hm
        obtain ⟨i, hm, _⟩ := hm
        right
        refine ⟨i, ?_⟩
        rw [he, means_append]
        exact hm
      · split at h2
        · rename_i hc; exact Or.inl hc
        · cases h2
  · intro h
    cases hc : checkMethod cv args body with
    | ok s => exact ⟨s, rfl⟩
    | error x =>
      obtain ⟨j, ⟨d, h1, h2, h3, _⟩ | ⟨n, h1, h2, h3, _⟩⟩ := vars_errors cv args body x hc
      · exact absurd h2 ((h j).1 d h1 h3)
      · rcases (h j).2 n h1 with h4 | ⟨i, h4⟩
        · rw [h2] at h4; cases h4
        · exact absurd h4 (h3 i)

theorem refs_at {l r : List Ref} {x : Ref} {n : Nat} (h : r.length = n) : (l ++ ([x] ++ r)).reverse[n]? = some x := by
  subst h
  simp

/-- C56: in an accepted method every used name means the last visible declaration of the name, or the class variable of the name
if there is no such declaration. -/
theorem vars_meaning (cv : String → Bool) (args : Nat) (body : Body) (s : St) (h : checkMethod cv args body = .ok s) (j : Nat)
    (n : String) (hj : (methodEvents body)[j]? = some (.use n)) :
    (∃ i, Means (methodEvents body) n j i ∧
      s.refs.reverse[varOps (methodEvents body) j]? = some (.loc (args + declIndex (methodEvents body) i))) ∨
    ((∀ i, ¬ Means (methodEvents body) n j i) ∧ cv n = true ∧ s.refs.reverse[varOps (methodEvents body) j]? = some .classVar) := by
  obtain ⟨p, q, sp, sq, D, G, he, rfl, hi, h1, h2, h3⟩ := accepted_at cv args body s h j _ hj
  obtain ⟨_, r1, a1, a2⟩ := steps_decls cv p _ sp h1
  obtain ⟨_, r2, b1, _⟩ := steps_decls cv q _ s h3
  rw [show (St.start args).refs = [] from rfl, List.append_nil] at a1
  have hlen : sp.refs.length = varOps (methodEvents body) p.length := by
    rw [a1, a2, he, varOps_append p _ p.length (Nat.le_refl _)]
  have hm := search_means hi n
  simp only [St.step, St.refer] at h2
  split at h2
  · rename_i k hk
    rw [hk] at hm
    obtain ⟨i, hm, rfl⟩ := hm
    cases h2
    left
    refine ⟨i, by rw [he, means_append]; exact hm, ?_⟩
    rw [b1, show declIndex (methodEvents body) i = declIndex p i by
      rw [he, declIndex_append p _ i (Nat.le_of_lt hm.2.1.1)]]
    exact refs_at hlen
  · rename_i hk
    rw [hk] at hm
    split at h2
    · rename_i hc
      cases h2
      right
      refine ⟨fun i => by rw [he, means_append]; exact hm i, hc, ?_⟩
      rw [b1]
      exact refs_at hlen
    · cases h2

/-- C56: a declaration declares a variable of its own, and the variables of a method are those declared in it. -/
theorem vars_declaration (cv : String → Bool) (args : Nat) (body : Body) (s : St) (h : checkMethod cv args body = .ok s) :
    s.decls = declsOf (methodEvents body) ∧
    ∀ j d, DeclaredAt (methodEvents body) j d →
      s.refs.reverse[varOps (methodEvents body) j]? = some (.loc (args + declIndex (methodEvents body) j)) := by
  constructor
  · rw [checkMethod, check_steps] at h
    exact (steps_decls cv _ _ s h).1
  · intro j d hd
    obtain ⟨p, q, sp, sq, D, G, he, rfl, hi, h1, h2, h3⟩ := accepted_at cv args body s h j _ hd
    obtain ⟨_, r1, a1, a2⟩ := steps_decls cv p _ sp h1
    obtain ⟨_, r2, b1, _⟩ := steps_decls cv q _ s h3
    rw [show (St.start args).refs = [] from rfl, List.append_nil] at a1
    have hlen : sp.refs.length = varOps (methodEvents body) p.length := by
      rw [a1, a2, he, varOps_append p _ p.length (Nat.le_refl _)]
    simp only [St.step, St.declare] at h2
    split at h2
    · cases h2
    · split at h2
      · cases h2
      · unfold St.refer at h2
        simp only [search, if_true] at h2
        cases h2
        rw [b1, he, declIndex_append p _ p.length (Nat.le_refl _), ← he, ← hi.count]
        exact refs_at hlen

/-! ## Memory -/

theorem area_end (f : Frame) (k : VarKind) : f.area k + f.width k * k.size ≤ f.total := by
  have h : f.numeric ≤ f.numericSize := by unfold Frame.numericSize; split <;> omega
  unfold Frame.numeric at h
  cases k <;> simp only [Frame.area, Frame.total, VarKind.size] <;> omega

theorem numericSize_mod (f : Frame) : f.numericSize % 8 = 0 := by unfold Frame.numericSize; split <;> omega

theorem area_aligned (f : Frame) (k : VarKind) (h : k ≠ .void) : f.area k % k.size = 0 := by
  have := numericSize_mod f
  cases k <;> simp only [Frame.area, VarKind.size] <;> first | omega | exact absurd rfl h

/-- Areas of different kinds have no byte in common. -/
theorem area_apart (f : Frame) (k k' : VarKind) (h : k ≠ k') :
    f.area k + f.width k * k.size ≤ f.area k' ∨ f.area k' + f.width k' * k'.size ≤ f.area k ∨ k = .void ∨ k' = .void := by
  have hn : f.numeric ≤ f.numericSize := by unfold Frame.numericSize; split <;> omega
  unfold Frame.numeric at hn
  cases k <;> cases k' <;> first
    | exact absurd rfl h
    | (right; right; left; rfl)
    | (right; right; right; rfl)
    | (left; simp only [Frame.area, VarKind.size]; omega)
    | (right; left; simp only [Frame.area, VarKind.size]; omega)

theorem mul_mono {a b w s : Nat} (h : a + w ≤ b) : a * s + w * s ≤ b * s := by
  rw [← Nat.add_mul]; exact Nat.mul_le_mul_right s h

/-- C56: every variable lies inside the call frame, at an address that is a multiple of its size. -/
theorem vars_in_frame (ds : List Decl) (id mortal a : Nat) (d : Decl) (i : Nat) (hd : ds[a]? = some d)
    (hi : (allocVars ds id (fun _ => [])).1[a]? = some i) (hv : d.kind ≠ .void) :
    (frameOf ds id mortal).addr d.kind i + d.width * d.kind.size ≤ (frameOf ds id mortal).total ∧
    (frameOf ds id mortal).addr d.kind i % d.kind.size = 0 := by
  obtain ⟨_, _, h3, _⟩ := allocVars_spec ds id (fun _ => []) (by simp)
  have h1 := (h3 a d i hd hi hv).1
  have h2 := area_end (frameOf ds id mortal) d.kind
  have h4 : i * d.kind.size + d.width * d.kind.size ≤ (frameOf ds id mortal).width d.kind * d.kind.size := mul_mono h1
  refine ⟨?_, ?_⟩
  · unfold Frame.addr
    omega
  · unfold Frame.addr
    rw [Nat.add_mul_mod_self_right]
    exact area_aligned _ _ hv

/-- C56: two variables never share a byte. -/
theorem vars_apart (ds : List Decl) (id mortal a b : Nat) (hab : a ≠ b) (d d' : Decl) (i i' : Nat) (hd : ds[a]? = some d)
    (hd' : ds[b]? = some d') (hi : (allocVars ds id (fun _ => [])).1[a]? = some i)
    (hi' : (allocVars ds id (fun _ => [])).1[b]? = some i') :
    Apart ((frameOf ds id mortal).addr d.kind i) (d.width * d.kind.size)
      ((frameOf ds id mortal).addr d'.kind i') (d'.width * d'.kind.size) := by
  obtain ⟨_, _, h3, h4⟩ := allocVars_spec ds id (fun _ => []) (by simp)
  by_cases hv : d.kind = .void
  · intro x hx; simp only [hv, VarKind.size, Nat.mul_zero] at hx; omega
  by_cases hv' : d'.kind = .void
  · intro x hx; simp only [hv', VarKind.size, Nat.mul_zero] at hx; omega
  by_cases hw : d.width = 0
  · intro x hx; simp only [hw, Nat.zero_mul] at hx; omega
  by_cases hw' : d'.width = 0
  · intro x hx; simp only [hw', Nat.zero_mul] at hx; omega
  have e1 := (h3 a d i hd hi hv).1
  have e2 := (h3 b d' i' hd' hi' hv').1
  by_cases hk : d.kind = d'.kind
  · have : i + d.width ≤ i' ∨ i' + d'.width ≤ i := by
      rcases Nat.lt_or_gt_of_ne hab with hlt | hgt
      · exact Or.inl (h4 a b d d' i i' hlt hd hd' hi hi' hk hv (by omega) (by omega))
      · exact Or.inr (h4 b a d' d i' i hgt hd' hd hi' hi hk.symm hv' (by omega) (by omega))
    intro x hx
    unfold Frame.addr at hx
    rw [← hk] at hx
    rcases this with h | h
    · have := @mul_mono _ _ _ d.kind.size h
      omega
    · have := @mul_mono _ _ _ d.kind.size h
      omega
  · have m1 : i * d.kind.size + d.width * d.kind.size ≤ (frameOf ds id mortal).width d.kind * d.kind.size := mul_mono e1
    have m2 : i' * d'.kind.size + d'.width * d'.kind.size ≤ (frameOf ds id mortal).width d'.kind * d'.kind.size := mul_mono e2
    intro x hx
    unfold Frame.addr at hx
    rcases area_apart (frameOf ds id mortal) d.kind d'.kind hk with h | h | h | h
    · omega
    · omega
    · exact hv h
    · exact hv' h

/-- C56: the list of the variables to be released (the mortal stack) lies in the frame, aligned, and has no byte in common with a
variable. -/
theorem vars_mortal_apart (ds : List Decl) (id mortal a : Nat) (d : Decl) (i : Nat) (hd : ds[a]? = some d)
    (hi : (allocVars ds id (fun _ => [])).1[a]? = some i) (hv : d.kind ≠ .void) :
    Apart ((frameOf ds id mortal).addr d.kind i) (d.width * d.kind.size) (frameOf ds id mortal).mortalArea (mortal * 4) ∧
    (frameOf ds id mortal).mortalArea + mortal * 4 ≤ (frameOf ds id mortal).total ∧ (frameOf ds id mortal).mortalArea % 4 = 0 := by
  obtain ⟨_, _, h3, _⟩ := allocVars_spec ds id (fun _ => []) (by simp)
  have e1 := (h3 a d i hd hi hv).1
  have m1 : i * d.kind.size + d.width * d.kind.size ≤ (frameOf ds id mortal).width d.kind * d.kind.size := mul_mono e1
  generalize hf : frameOf ds id mortal = f at m1 ⊢
  have hm : f.mortal = mortal := by rw [← hf]; rfl
  have hn : f.numeric ≤ f.numericSize := by unfold Frame.numericSize; split <;> omega
  unfold Frame.numeric at hn
  refine ⟨?_, ?_, ?_⟩
  · intro x hx
    unfold Frame.addr at hx
    generalize hk : d.kind = k at hx m1 hv
    generalize hp : i * k.size = pos at hx m1
    generalize hq : d.width * k.size = wid at hx m1
    cases k <;> simp only [Frame.area, Frame.mortalArea, VarKind.size] at hx m1 <;> first | omega | exact hv rfl
  · unfold Frame.mortalArea Frame.total
    omega
  · unfold Frame.mortalArea
    omega

/-- C56: the frame is allocated with room for all of this while the sizes fit in an `int`. -/
theorem vars_frame_partial (f : Frame) (n : Nat) (h : f.alloc = some n) : f.total < n ∧ n < 2 ^ 31 := by
  unfold Frame.alloc at h
  split at h
  · cases h; omega
  · cases h

/-- C56 fails for very large methods: the size of the frame is computed in `int` without a check. -/
theorem vars_frame_violated : ∃ f : Frame, f.alloc = none :=
  ⟨⟨fun k => if k = .long then 2 ^ 28 else 0, 1⟩, by decide⟩

/-- C56: the variable that holds the value of conditions is the first declared, and has place 0 among the `int` variables. -/
theorem vars_condition_flag (ds : List Decl) (id : Nat) (n : String) :
    (allocVars (⟨n, .int, 1⟩ :: ds) id (fun _ => [])).1[0]? = some 0 := by
  simp [allocVars, getIndex, findFree]

/-! ## A concrete method -/

/-- `my $x : int; { my $x : string; my $p : Point_2d; $x; } $x; $CLASS_VAR; { my $y : byte; $y }` -/
def sample : Body :=
  .decl ⟨"$.condition_flag", .int, 1⟩ <| .decl ⟨"$x", .int, 1⟩ <|
    .block false (.decl ⟨"$x", .object, 1⟩ <| .decl ⟨"$p", .double, 2⟩ <| .use "$x" .done) <|
    .use "$x" <| .use "$CLASS_VAR" <| .block true (.decl ⟨"$y", .byte, 1⟩ .done) <| .use "$y" .done

example : (match checkMethod (· == "$CLASS_VAR") 0 sample with | .ok s => some (s.refs.reverse, s.decls.length) | _ => none)
    = some ([.loc 0, .loc 1, .loc 2, .loc 3, .loc 2, .loc 1, .classVar, .loc 4, .loc 4], 5) := by decide +kernel

example : (allocVars (declsOf (methodEvents sample)) 0 (fun _ => [])).1 = [0, 1, 0, 0, 0] := by decide +kernel

example : (frameOf (declsOf (methodEvents sample)) 0 2).alloc = some 49 := by decide +kernel

/-- `$x` is not found behind its scope; a second `$x` in one scope is an error. -/
example : (match checkMethod (fun _ => false) 0 (.block false (.decl ⟨"$x", .int, 1⟩ .done) (.use "$x" .done)) with
    | .error e => some e | _ => none) = some (.notFound "$x") := by decide +kernel

example : (match checkMethod (fun _ => false) 0 (.decl ⟨"$x", .int, 1⟩ (.decl ⟨"$x", .int, 1⟩ .done)) with
    | .error e => some e | _ => none) = some (.redeclaration "$x") := by decide +kernel

end Vars
end SPVM
