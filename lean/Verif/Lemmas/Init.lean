import Verif.Model.Init
/-! # Lemmas about INIT methods -/
namespace SPVM.Init
open Spec.Init

variable {σ : Type}

/-! ## Visits -/

section visits
variable {next : Nat → List Nat}

theorem visits_fresh (h : Visits next seen cs o) : o.Nodup ∧ ∀ x ∈ o, x ∉ seen := by
  induction h with
  | nil => simp
  | skip _ _ ih => exact ih
  | @visit seen c o₁ cs o₂ hc _ _ ih1 ih2 =>
    refine ⟨?_, ?_⟩
    · rw [List.nodup_append, List.nodup_cons]
      refine ⟨ih1.1, ⟨fun h => ih2.2 _ h (by simp), ih2.1⟩, ?_⟩
      rintro a ha b hb rfl
      rcases List.mem_cons.1 hb with rfl | hb
      · exact ih1.2 _ ha (by simp)
      · exact ih2.2 _ hb (by simp [ha])
    · intro x hx hs
      rcases List.mem_append.1 hx with hx | hx
      · exact ih1.2 x hx (by simp [hs])
      · rcases List.mem_cons.1 hx with rfl | hx
        · exact hc hs
        · exact ih2.2 x hx (by simp [hs])

theorem visits_all (h : Visits next seen cs o) : ∀ c ∈ cs, c ∈ o ∨ c ∈ seen := by
  induction h with
  | nil => simp
  | skip hc _ ih =>
    intro x hx
    rcases List.mem_cons.1 hx with rfl | hx
    · exact .inr hc
    · exact ih x hx
  | @visit seen c o₁ cs o₂ hc _ _ _ ih2 =>
    intro x hx
    rcases List.mem_cons.1 hx with rfl | hx
    · exact .inl (by simp)
    · rcases ih2 x hx with h | h
      · exact .inl (by simp [h])
      · simp only [List.mem_append, List.mem_cons] at h ⊢
        rcases h with h | h | h
        · exact .inl (.inl h)
        · exact .inl (.inr (.inl h))
        · exact .inr h

theorem visits_reach (h : Visits next seen cs o) : ∀ x ∈ o, x ∈ cs ∨ ∃ c ∈ cs, Needs next c x := by
  induction h with
  | nil => simp
  | skip _ _ ih =>
    intro x hx
    rcases ih x hx with h | ⟨c, hc, h⟩
    · exact .inl (by simp [h])
    · exact .inr ⟨c, by simp [hc], h⟩
  | @visit seen c o₁ cs o₂ hc _ _ ih1 ih2 =>
    intro x hx
    rcases List.mem_append.1 hx with hx | hx
    · refine .inr ⟨c, by simp, ?_⟩
      rcases ih1 x hx with h | ⟨d, hd, h⟩
      · exact .direct h
      · exact .through hd h
    · rcases List.mem_cons.1 hx with rfl | hx
      · exact .inl (by simp)
      · rcases ih2 x hx with h | ⟨d, hd, h⟩
        · exact .inl (by simp [h])
        · exact .inr ⟨d, by simp [hd], h⟩

theorem visits_needs (h : Visits next seen cs o) : ∀ a x b, o = a ++ x :: b → ∀ d ∈ next x,
    d ∈ a ∨ d ∈ seen ∨ Needs next d x := by
  induction h with
  | nil => simp
  | skip _ _ ih => exact ih
  | @visit seen c o₁ cs o₂ hc h1 _ ih1 ih2 =>
    intro a x b e d hd
    rcases List.append_eq_append_iff.1 e with ⟨a', rfl, e'⟩ | ⟨c', e1, e2⟩
    · -- x is `c` or in `o₂`
      cases a' with
      | nil =>
        obtain ⟨rfl, rfl⟩ := List.cons.inj e'
        rcases visits_all h1 d hd with h | h
        · exact .inl (by simp [h])
        · rcases List.mem_cons.1 h with rfl | h
          · exact .inr (.inr (.direct hd))
          · exact .inr (.inl h)
      | cons y a' =>
        rw [List.cons_append] at e'
        obtain ⟨e0, e3⟩ := List.cons.inj e'
        subst e0
        rcases ih2 a' x b e3 d hd with h | h | h
        · exact .inl (by simp [h])
        · simp only [List.mem_append, List.mem_cons] at h
          rcases h with h | rfl | h
          · exact .inl (by simp [h])
          · exact .inl (by simp)
          · exact .inr (.inl h)
        · exact .inr (.inr h)
    · cases c' with
      | nil =>
        simp only [List.append_nil] at e1
        simp only [List.nil_append] at e2
        obtain ⟨rfl, rfl⟩ := List.cons.inj e2
        subst e1
        rcases visits_all h1 d hd with h | h
        · exact .inl h
        · rcases List.mem_cons.1 h with rfl | h
          · exact .inr (.inr (.direct hd))
          · exact .inr (.inl h)
      | cons y c' =>
        obtain ⟨rfl, e2⟩ := List.cons.inj e2
        rcases ih1 a x c' e1 d hd with h | h | h
        · exact .inl h
        · rcases List.mem_cons.1 h with rfl | h
          · refine .inr (.inr ?_)
            rcases visits_reach h1 x (by rw [e1]; simp) with h | ⟨z, hz, h⟩
            · exact .direct h
            · exact .through hz h
          · exact .inr (.inl h)
        · exact .inr (.inr h)

theorem visits_unique (h : Visits next seen cs o) : ∀ {o'}, Visits next seen cs o' → o = o' := by
  induction h with
  | nil => intro o' h; cases h; rfl
  | skip hc _ ih =>
    intro o' h
    cases h with
    | skip _ h => exact ih h
    | visit hn _ _ => exact absurd hc hn
  | visit hc _ _ ih1 ih2 =>
    intro o' h
    cases h with
    | skip hn _ => exact absurd hn hc
    | visit _ h1 h2 =>
      obtain rfl := ih1 h1
      rw [ih2 h2]

theorem visits_append (h : Visits next seen (cs ++ ds) o) :
    ∃ o₁ o₂, o = o₁ ++ o₂ ∧ Visits next seen cs o₁ ∧ ∀ x ∈ o₂, x ∉ cs := by
  generalize e : cs ++ ds = l at h
  induction h generalizing cs with
  | nil =>
    obtain ⟨rfl, rfl⟩ := List.append_eq_nil_iff.1 e
    exact ⟨[], [], rfl, .nil, by simp⟩
  | @skip seen c l o hc h ih =>
    cases cs with
    | nil => exact ⟨[], o, rfl, .nil, by simp⟩
    | cons a cs =>
      obtain ⟨rfl, rfl⟩ := List.cons.inj e
      obtain ⟨o₁, o₂, rfl, h1, h2⟩ := ih rfl
      refine ⟨o₁, o₂, rfl, .skip hc h1, ?_⟩
      intro x hx hm
      rcases List.mem_cons.1 hm with rfl | hm
      · exact (visits_fresh h).2 x (by simp [hx]) hc
      · exact h2 x hx hm
  | @visit seen c p₁ l p₂ hc h1 h2 ih1 ih2 =>
    cases cs with
    | nil => exact ⟨[], _, rfl, .nil, by simp⟩
    | cons a cs =>
      obtain ⟨rfl, rfl⟩ := List.cons.inj e
      obtain ⟨o₁, o₂, rfl, h3, h4⟩ := ih2 rfl
      refine ⟨p₁ ++ a :: o₁, o₂, by simp, .visit hc h1 h3, ?_⟩
      intro x hx hm
      rcases List.mem_cons.1 hm with rfl | hm
      · exact (visits_fresh h2).2 x (by simp [hx]) (by simp)
      · exact h4 x hx hm

end visits

/-! ## Counting what is not initialized -/

/-- How many of the first `n` classes are not in `seen`. -/
def unseen (n : Nat) (seen : List Nat) : Nat := ((List.range n).filter (· ∉ seen)).length

theorem unseen_mono {n : Nat} {a b : List Nat} (h : ∀ x ∈ a, x ∈ b) : unseen n b ≤ unseen n a := by
  unfold unseen
  rw [← List.countP_eq_length_filter, ← List.countP_eq_length_filter]
  exact List.countP_mono_left (by simpa using fun x _ hb ha => hb (h x ha))

theorem unseen_cons {n c : Nat} {seen : List Nat} (hc : c < n) (hs : c ∉ seen) :
    unseen n (c :: seen) + 1 = unseen n seen := by
  unfold unseen
  induction n with
  | zero => omega
  | succ n ih =>
    rw [List.range_succ, List.filter_append, List.filter_append, List.length_append, List.length_append]
    by_cases e : c = n
    · subst e
      have h1 : (List.filter (fun x => decide (x ∉ c :: seen)) [c]) = [] := by simp
      have h2 : (List.filter (fun x => decide (x ∉ seen)) [c]) = [c] := by simp [hs]
      rw [h1, h2]
      have : (List.filter (fun x => decide (x ∉ c :: seen)) (List.range c)) = List.filter (fun x => decide (x ∉ seen)) (List.range c) := by
        apply List.filter_congr
        intro x hx
        have := List.mem_range.1 hx
        have hne : x ≠ c := by omega
        simp [hne]
      rw [this]
      simp
    · have := ih (by omega)
      have h1 : (List.filter (fun x => decide (x ∉ c :: seen)) [n]) = List.filter (fun x => decide (x ∉ seen)) [n] := by
        apply List.filter_congr
        intro x hx
        obtain rfl := List.mem_singleton.1 hx
        have hne : x ≠ c := fun h => e h.symm
        simp [hne]
      rw [h1]
      omega

theorem unseen_le (n : Nat) (seen : List Nat) : unseen n seen ≤ n := by
  unfold unseen
  exact Nat.le_trans (List.length_filter_le _ _) (by simp)

/-! ## The statements of an INIT method -/

theorem insertUses_eq (P : List (Cls σ)) (uses : List Nat) (stmts : List (Stmt σ)) : insertUses P uses stmts =
    ((uses.filter fun u => (P[u]?.map (·.kind)) = some .class).map .callInit) ++ stmts := by
  unfold insertUses
  rw [List.foldl_reverse]
  induction uses with
  | nil => rfl
  | cons u uses ih =>
    rw [List.foldr_cons, ih]
    cases h : P[u]? with
    | none => simp [h]
    | some k =>
      by_cases hk : k.kind = .class
      · simp [h, hk]
      · simp [h, hk]

theorem initStatements_eq {P : List (Cls σ)} {c : Nat} {k : Cls σ} (h : P[c]? = some k) :
    initStatements P k = (deps P c).map .callInit ++ k.blocks.map .block := by
  unfold initStatements deps merged
  rw [insertUses_eq, h]
  cases hp : k.parent <;> simp [hp]

/-! ## Running -/

theorem runAll_append (P : List (Cls σ)) (a b : List Nat) (s : σ) : runAll P (a ++ b) s =
    match runAll P a s with
    | (.ok _, s') => runAll P b s'
    | (.die m, s') => (.die m, s')
    | (.ub, s') => (.ub, s') := by
  induction a generalizing s with
  | nil => rfl
  | cons c a ih =>
    rw [List.cons_append, runAll, runAll, Prog.bind_apply, Prog.bind_apply]
    rcases runClass P c s with ⟨(_ | _ | _), s'⟩
    · exact ih s'
    · rfl
    · rfl

/-- What a call has done: it ran the blocks of the classes `o` in this order. -/
structure Post (P : List (Cls σ)) (o : List Nat) (s : St σ) (r : Out Unit × St σ) : Prop where
  out : r.1 = (runAll P o s.env).1
  env : r.2.env = (runAll P o s.env).2
  keep : ∀ x, s.initialized x = true → r.2.initialized x = true
  upper : ∀ x, r.2.initialized x = true → x ∈ o ∨ s.initialized x = true
  done : r.1 = .ok () → ∀ x, r.2.initialized x = true ↔ x ∈ o ∨ s.initialized x = true
  ran : ∃ ran rest, o = ran ++ rest ∧ runAll P ran s.env = runAll P o s.env ∧ ∀ x ∈ ran, r.2.initialized x = true

theorem post_nil (P : List (Cls σ)) (s : St σ) : Post P [] s (.ok (), s) :=
  ⟨rfl, rfl, fun _ h => h, fun _ h => .inr h, fun _ x => by simp, ⟨[], [], rfl, rfl, by simp⟩⟩

theorem runAll_eta (P : List (Cls σ)) (o : List Nat) (s : σ) : runAll P o s = ((runAll P o s).1, (runAll P o s).2) := rfl

/-- A call that ends normally, followed by another one. -/
theorem Post.seq {P : List (Cls σ)} {o₁ o₂ : List Nat} {s : St σ} {r₁ r₂ : Out Unit × St σ} (h1 : Post P o₁ s r₁)
    (ok : r₁.1 = .ok ()) (h2 : Post P o₂ r₁.2 r₂) : Post P (o₁ ++ o₂) s r₂ := by
  have e : ∀ b, runAll P (o₁ ++ b) s.env = runAll P b r₁.2.env := by
    intro b
    rw [runAll_append, runAll_eta P o₁, ← h1.out, ok, h1.env]
  refine ⟨?_, ?_, fun x h => h2.keep x (h1.keep x h), ?_, ?_, ?_⟩
  · rw [e, h2.out]
  · rw [e, h2.env]
  · intro x h
    rw [List.mem_append]
    rcases h2.upper x h with h | h
    · exact .inl (.inr h)
    · rcases h1.upper x h with h | h
      · exact .inl (.inl h)
      · exact .inr h
  · intro ok2 x
    rw [h2.done ok2, h1.done ok, List.mem_append, or_left_comm, ← or_assoc]
  · obtain ⟨ran, rest, e2, er, hr⟩ := h2.ran
    refine ⟨o₁ ++ ran, rest, by simp [e2], by rw [e, e, er], ?_⟩
    intro x hx
    rcases List.mem_append.1 hx with hx | hx
    · exact h2.keep x ((h1.done ok x).2 (.inl hx))
    · exact hr x hx

/-- A call that does not end normally, whatever would have followed. -/
theorem Post.stop {P : List (Cls σ)} {o₁ : List Nat} (o₂ : List Nat) {s : St σ} {r₁ : Out Unit × St σ} (h1 : Post P o₁ s r₁)
    (bad : r₁.1 ≠ .ok ()) : Post P (o₁ ++ o₂) s r₁ := by
  have e : runAll P (o₁ ++ o₂) s.env = runAll P o₁ s.env := by
    rw [runAll_append]
    have := h1.out
    rcases h : runAll P o₁ s.env with ⟨(_ | _ | _), s'⟩
    · rw [h] at this
      exact absurd this bad
    · rfl
    · rfl
  refine ⟨by rw [e, h1.out], by rw [e, h1.env], h1.keep, ?_, fun ok => absurd ok bad, ?_⟩
  · intro x h
    rw [List.mem_append]
    rcases h1.upper x h with h | h
    · exact .inl (.inl h)
    · exact .inr h
  obtain ⟨ran, rest, e2, er, hr⟩ := h1.ran
  exact ⟨ran, rest ++ o₂, by simp [e2], by rw [e, er], hr⟩

theorem runStmts_calls (callee : Nat → Prog (St σ) Unit) (ds : List Nat) (ss : List (Stmt σ)) (s : St σ) :
    runStmts callee (ds.map .callInit ++ ss) s =
      match runStmts callee (ds.map .callInit) s with
      | (.ok _, s') => runStmts callee ss s'
      | (.die m, s') => (.die m, s')
      | (.ub, s') => (.ub, s') := by
  induction ds generalizing s with
  | nil => rfl
  | cons d ds ih =>
    rw [List.map_cons, List.cons_append, runStmts, runStmts, Prog.bind_apply, Prog.bind_apply]
    rcases callee d s with ⟨(_ | _ | _), s'⟩
    · exact ih s'
    · rfl
    · rfl

theorem runStmts_blocks (callee : Nat → Prog (St σ) Unit) (bs : List (Block σ)) (s : St σ) :
    runStmts callee (bs.map .block) s = onEnv (runBlocks bs) s := by
  induction bs generalizing s with
  | nil => rfl
  | cons b bs ih =>
    rw [List.map_cons, runStmts, Prog.bind_apply]
    unfold onEnv runBlocks
    rw [Prog.bind_apply]
    rcases b s.env with ⟨(_ | _ | _), s'⟩
    · simp only [Prog.ite_apply, ih]
      split <;> rfl
    · rfl
    · rfl

/-- All classes named in the program exist. -/
def Closed (P : List (Cls σ)) : Prop := ∀ c, ∀ d ∈ deps P c, d < P.length

/-- What a call of an `INIT` method does, if the depth of calls suffices. -/
def CallSpec (P : List (Cls σ)) (left : Nat) (callee : Nat → Prog (St σ) Unit) : Prop :=
  ∀ c < P.length, ∀ seen (s : St σ), (∀ x, s.initialized x = true ↔ x ∈ seen) → unseen P.length seen + 1 ≤ left →
    ∃ o, Visits (deps P) seen [c] o ∧ Post P o s (callee c s)

theorem visits_cons {next : Nat → List Nat} (h1 : Visits next seen [c] o₁) (h2 : Visits next (o₁ ++ seen) cs o₂) :
    Visits next seen (c :: cs) (o₁ ++ o₂) := by
  cases h1 with
  | skip hc h =>
    cases h
    exact .skip hc h2
  | visit hc h h' =>
    cases h'
    rw [List.append_assoc]
    exact .visit hc h (by simpa using h2)

theorem visits_exist {P : List (Cls σ)} (hP : Closed P) (n : Nat) : ∀ seen, unseen P.length seen ≤ n → ∀ ds : List Nat,
    (∀ d ∈ ds, d < P.length) → ∃ o, Visits (deps P) seen ds o := by
  induction n with
  | zero =>
    intro seen hu ds
    induction ds with
    | nil => exact fun _ => ⟨[], .nil⟩
    | cons d ds ih =>
      intro hd
      obtain ⟨o, h⟩ := ih (fun d h => hd d (List.mem_cons_of_mem _ h))
      by_cases hm : d ∈ seen
      · exact ⟨o, .skip hm h⟩
      · have := unseen_cons (hd d (List.mem_cons_self ..)) hm
        omega
  | succ n ihn =>
    intro seen hu ds
    induction ds generalizing seen with
    | nil => exact fun _ => ⟨[], .nil⟩
    | cons d ds ih =>
      intro hd
      have hds := fun d h => hd d (List.mem_cons_of_mem _ h)
      by_cases hm : d ∈ seen
      · obtain ⟨o, h⟩ := ih seen hu hds
        exact ⟨o, .skip hm h⟩
      · have := unseen_cons (hd d (List.mem_cons_self ..)) hm
        obtain ⟨o₁, h1⟩ := ihn (d :: seen) (by omega) (deps P d) (hP d)
        obtain ⟨o₂, h2⟩ := ih (o₁ ++ d :: seen)
          (Nat.le_trans (unseen_mono (a := seen) (by intro x hx; simp [hx])) hu) hds
        exact ⟨_, .visit hm h1 h2⟩

theorem calls_spec {P : List (Cls σ)} (hP : Closed P) {left : Nat} {callee : Nat → Prog (St σ) Unit}
    (hc : CallSpec P left callee) (ds : List Nat) (hd : ∀ d ∈ ds, d < P.length) (seen : List Nat) (s : St σ)
    (hs : ∀ x, s.initialized x = true ↔ x ∈ seen) (hu : unseen P.length seen + 1 ≤ left) :
    ∃ o, Visits (deps P) seen ds o ∧ Post P o s (runStmts callee (ds.map .callInit) s) := by
  induction ds generalizing seen s with
  | nil => exact ⟨[], .nil, post_nil P s⟩
  | cons d ds ih =>
    have hds := fun d h => hd d (List.mem_cons_of_mem _ h)
    obtain ⟨o₁, v1, p1⟩ := hc d (hd d (List.mem_cons_self ..)) seen s hs hu
    rw [List.map_cons, runStmts, Prog.bind_apply]
    have hm : unseen P.length (o₁ ++ seen) ≤ unseen P.length seen := unseen_mono (by intro x hx; simp [hx])
    rcases hr : callee d s with ⟨(_ | _ | _), s'⟩
    · rw [hr] at p1
      obtain ⟨o₂, v2, p2⟩ := ih hds (o₁ ++ seen) s' (fun x => by rw [p1.done rfl, hs, List.mem_append]) (by omega)
      exact ⟨_, visits_cons v1 v2, p1.seq rfl p2⟩
    · rw [hr] at p1
      obtain ⟨o₂, v2⟩ := visits_exist hP _ (o₁ ++ seen) (Nat.le_refl _) ds hds
      exact ⟨_, visits_cons v1 v2, p1.stop o₂ (by simp)⟩
    · rw [hr] at p1
      obtain ⟨o₂, v2⟩ := visits_exist hP _ (o₁ ++ seen) (Nat.le_refl _) ds hds
      exact ⟨_, visits_cons v1 v2, p1.stop o₂ (by simp)⟩

/-- Marking a class that runs anyway. -/
theorem Post.unmark {P : List (Cls σ)} {o : List Nat} {c : Nat} {s : St σ} {r : Out Unit × St σ}
    (h : Post P o (mark c s).2 r) (hc : c ∈ o) : Post P o s r := by
  refine ⟨h.out, h.env, fun x hx => h.keep x (by simp [mark, hx]), ?_, ?_, h.ran⟩
  · intro x hx
    have := h.upper x hx
    simp only [mark, Bool.or_eq_true, decide_eq_true_eq] at this
    rcases this with h | rfl | h
    · exact .inl h
    · exact .inl hc
    · exact .inr h
  intro ok x
  rw [h.done ok]
  simp only [mark, Bool.or_eq_true, decide_eq_true_eq]
  constructor
  · rintro (h | rfl | h)
    · exact .inl h
    · exact .inl hc
    · exact .inr h
  · rintro (h | h)
    · exact .inl h
    · exact .inr (.inr h)

theorem blocks_post {P : List (Cls σ)} {c : Nat} {k : Cls σ} (hk : P[c]? = some k) {s : St σ} (hi : s.initialized c = true) :
    Post P [c] s (onEnv (runBlocks k.blocks) s) := by
  have e : runAll P [c] s.env = runBlocks k.blocks s.env := by
    simp only [runAll, Prog.bind_apply, runClass, hk, Option.map_some, Option.getD_some]
    rcases runBlocks k.blocks s.env with ⟨(_ | _ | _), s'⟩ <;> rfl
  refine ⟨by rw [e]; rfl, by rw [e]; rfl, fun x h => h, fun x h => .inr h, ?_, ⟨[c], [], rfl, rfl, ?_⟩⟩
  · intro _ x
    show s.initialized x = true ↔ _
    rw [List.mem_singleton]
    constructor
    · exact .inr
    · rintro (rfl | h)
      · exact hi
      · exact h
  · intro x hx
    obtain rfl := List.mem_singleton.1 hx
    exact hi

theorem call_spec {P : List (Cls σ)} (hP : Closed P) (left : Nat) : CallSpec P left (callInit P left) := by
  induction left with
  | zero => intro c _ seen s _ hu; omega
  | succ left ih =>
    intro c hc seen s hs hu
    rw [callInit, Prog.get_bind_apply, Prog.ite_apply]
    by_cases hm : s.initialized c = true
    · rw [if_pos hm]
      exact ⟨[], .skip ((hs c).1 hm) .nil, post_nil P s⟩
    · rw [if_neg hm]
      have hn : c ∉ seen := fun h => hm ((hs c).2 h)
      have hu' := unseen_cons hc hn
      have hk : P[c]? = some P[c] := by simp [hc]
      show ∃ o, Visits (deps P) seen [c] o ∧ Post P o s
        ((match P[c]? with
          | some k => runStmts (callInit P left) (initStatements P k)
          | none => pure () : Prog (St σ) Unit) (mark c s).2)
      rw [hk]
      dsimp only
      obtain ⟨o, v, p⟩ := calls_spec hP ih (deps P c) (hP c) (c :: seen) (mark c s).2
        (fun x => by simp [mark, hs]) (by omega)
      refine ⟨o ++ [c], .visit hn v .nil, Post.unmark (c := c) ?_ (by simp)⟩
      rw [initStatements_eq hk, runStmts_calls]
      rcases hr : runStmts (callInit P left) ((deps P c).map .callInit) (mark c s).2 with ⟨(_ | _ | _), s'⟩
      · rw [hr] at p
        dsimp only
        rw [runStmts_blocks]
        exact p.seq rfl (blocks_post hk (p.keep c (by simp [mark])))
      · rw [hr] at p
        exact p.stop [c] (by simp)
      · rw [hr] at p
        exact p.stop [c] (by simp)

theorem closed_of {P : List (Cls σ)} (hP : ParentsExist P) : ∀ c, ∀ d ∈ deps P c, ∃ k, P[d]? = some k ∧ k.kind = .class := by
  intro c d hd
  unfold deps at hd
  split at hd
  · simp at hd
  · rename_i k hk
    rcases List.mem_append.1 hd with h | h
    · have := hP c k d hk (by simpa using h)
      simpa [Option.map_eq_some_iff] using this
    · have := (List.mem_filter.1 h).2
      simpa [Option.map_eq_some_iff] using this

theorem closed {P : List (Cls σ)} (hP : ParentsExist P) : Closed P := by
  intro c d hd
  obtain ⟨k, hk, _⟩ := closed_of hP c d hd
  exact (List.getElem?_eq_some_iff.1 hk).1

/-- The types with an `INIT` method. -/
def inits (P : List (Cls σ)) (l : List Nat) : List Nat := l.filter fun c => (P[c]?.map fun k => hasInit k) = some true

theorem initLoop_eq (P : List (Cls σ)) (l : List Nat) (s : St σ) :
    initLoop P l s = runStmts (callInit P 1000) ((inits P l).map .callInit) s := by
  induction l generalizing s with
  | nil => rfl
  | cons c l ih =>
    rw [initLoop]
    unfold inits at ih ⊢
    cases hk : P[c]? with
    | none => simp [hk, ih]
    | some k =>
      by_cases hi : hasInit k = true
      · simp only [hi, if_true, hk, Option.map_some, List.filter_cons, decide_true, List.map_cons, runStmts]
        rw [Prog.bind_apply, Prog.bind_apply]
        rcases callInit P 1000 c s with ⟨(_ | _ | _), s'⟩
        · exact ih s'
        · rfl
        · rfl
      · simp only [hi, hk, Option.map_some, List.filter_cons]
        simp [ih]

theorem inits_eq (P : List (Cls σ)) : inits P (List.range P.length) = initTypes P := by
  unfold inits initTypes
  apply List.filter_congr
  intro c _
  rw [decide_eq_decide]
  cases P[c]? <;> simp [hasInit]

theorem initAll_spec {P : List (Cls σ)} (hP : Closed P) (hn : P.length ≤ 999) (seen : List Nat) (s : St σ)
    (hs : ∀ x, s.initialized x = true ↔ x ∈ seen) :
    ∃ o, Visits (deps P) seen (initTypes P) o ∧ Post P o s (callInitMethods P s) := by
  rw [← inits_eq]
  have hu := unseen_le P.length seen
  obtain ⟨o, v, p⟩ := calls_spec hP (call_spec hP 1000) (inits P (List.range P.length))
    (fun d h => List.mem_range.1 (List.mem_filter.1 h).1) seen s hs (by omega)
  refine ⟨o, v, ?_⟩
  unfold callInitMethods
  rw [initLoop_eq]
  exact p

end SPVM.Init
